import Verif.Lemmas.ConvergedSweep
/-
Limits whose velocity solve changes nothing.
-/
namespace Simu
open Mat
variable {K : Type*} [Field K] [LinearOrder K] [IsStrictOrderedRing K]

theorem maxZero_projection : IsProjection (fun x : K => max x 0) := by
  intro z w
  rcases le_total z 0 with h | h
  · simp only [max_eq_right h, sub_zero]
    exact mul_nonpos_of_nonpos_of_nonneg h (le_max_right _ _)
  · simp only [max_eq_left h, sub_self, zero_mul, le_refl]

theorem maxZero_range : {y : K | ∃ w : K, max w 0 = y} = {m | 0 ≤ m} := by
  ext m
  constructor
  · rintro ⟨w, rfl⟩; exact le_max_right _ _
  · intro h; exact ⟨m, max_eq_left h⟩

omit [LinearOrder K] [IsStrictOrderedRing K] in
theorem ext_one {x y : MVec K 1} (h : x.at_ 0 = y.at_ 0) : x = y := by
  apply ext_at
  intro i
  fin_cases i
  exact h

theorem SPD_one {A : Mat K 1 1} (h : 0 < A.get 0 0) : SPD A.toM := by
  constructor
  · ext i j; fin_cases i; fin_cases j; rfl
  · intro x hx
    have h0 : x 0 ≠ 0 := by
      intro h0
      apply hx
      funext i; fin_cases i; exact h0
    have e : dotProduct x (A.toM.mulVec x) = A.get 0 0 * (x 0 * x 0) := by
      simp only [dotProduct, Matrix.mulVec, Finset.univ_unique, Fin.default_eq_zero, Finset.sum_singleton]
      simp only [toM, Matrix.of_apply]
      ring
    rw [e]
    exact mul_pos h (mul_self_pos.2 h0)

/-- One unknown that may not be negative. -/
theorem solveOne_fixed {A : Mat K 1 1} (h : 0 < A.get 0 0) (b : MVec K 1) {epsilon : K} (he : 0 ≤ epsilon) {fuel : Nat} (hfuel : 1 ≤ fuel)
    (x : MVec K 1) : solveInequalitiesVec A b maxZero x epsilon fuel = some x ↔ Best {m | 0 ≤ m} (x.at_ 0) (A.get 0 0 * x.at_ 0 - b.at_ 0) := by
  have hproj : (fun (x : MVec K 1) i => (maxZero x).at_ i) = fun x i => (fun (_ : Fin 1) (z : K) => max z 0) i (x.at_ i) := by
    funext x i; rw [maxZero_at]
  unfold solveInequalitiesVec
  rw [hproj, solveInequalities_fixed A (SPD_one h) b (fun _ z => max z 0) (fun _ => maxZero_projection) he hfuel x, maxZero_range]
  constructor
  · intro hb
    have := hb 0
    rwa [mul_at_one] at this
  · intro hb i
    fin_cases i
    rw [Fin.mk_zero, mul_at_one]
    exact hb

theorem solveOne_nonneg {A : Mat K 1 1} (b : MVec K 1) {epsilon : K} {fuel : Nat} {x y : MVec K 1}
    (h : solveInequalitiesVec A b maxZero x epsilon fuel = some y) : maxZero y = y := by
  obtain ⟨z, hz, -⟩ := gsLoop_result _ _ _ _ _ _ _ (by linarith : epsilon < 1 + epsilon) _ h
  have hproj : (fun (x : MVec K 1) i => (maxZero x).at_ i) = fun x i => (fun (_ : Fin 1) (z : K) => max z 0) i (x.at_ i) := by
    funext x i; rw [maxZero_at]
  rw [hproj] at hz
  have hz' := sweep_spec A b (fun _ z => max z 0) z
  dsimp only at hz'
  apply ext_at; intro i
  rw [maxZero_at, hz, hz'.1 i]
  exact max_eq_left (le_max_right _ _)

/-- A constraint between limits, as prepared with the bodies in the state `s0`. -/
structure LimitsSolver.PreparedAt (sqrt : K → K) (p : Proxies K) (f : CFun K 1) (s0 : SolveState K) (e : LimitsSolver K) : Prop where
  J : e.base.J = f.jacobian p s0
  func : e.func = e.nextFunc p f s0
  solver : e.func = .equality → ∃ k, KSolver.mk' sqrt 1 (effectiveMass p (f.jacobian p s0) e.base.damping) = .ok k ∧ e.data = .solver k
  mass : e.func = .lower ∨ e.func = .upper → e.data = .effectiveMass (effectiveMass p (f.jacobian p s0) e.base.damping)

omit [IsStrictOrderedRing K] in
theorem LimitsSolver.nextFunc_lower {e : LimitsSolver K} {p : Proxies K} {f : CFun K 1} {s : SolveState K} (h : e.nextFunc p f s = .lower) :
    ∃ l, e.L = some l := by
  unfold LimitsSolver.nextFunc at h
  cases hL : e.L with
  | some l => exact ⟨l, rfl⟩
  | none =>
    rw [hL] at h
    cases hU : e.U with
    | none => rw [hU] at h; cases h
    | some u => rw [hU] at h; dsimp only at h; split_ifs at h

omit [IsStrictOrderedRing K] in
theorem LimitsSolver.nextFunc_upper {e : LimitsSolver K} {p : Proxies K} {f : CFun K 1} {s : SolveState K} (h : e.nextFunc p f s = .upper) :
    ∃ u, e.U = some u := by
  unfold LimitsSolver.nextFunc at h
  cases hU : e.U with
  | some l => exact ⟨l, rfl⟩
  | none =>
    rw [hU] at h
    cases hL : e.L with
    | none => rw [hL] at h; cases h
    | some u => rw [hL] at h; dsimp only at h; split_ifs at h

/-- Velocity solve between limits: nothing changes exactly when the law holds. -/
theorem LimitsSolver.fixed_iff [Trig K] {c : CallCfg K} (hs : ∀ x, 0 ≤ x → c.sqrt x * c.sqrt x = x) (he : 0 ≤ c.epsilon) (hfuel : 1 ≤ c.fuel)
    {e : LimitsSolver K} {p : Proxies K} {f : CFun K 1} {s0 : SolveState K} (h : e.PreparedAt c.sqrt p f s0) (hf : ∀ l, f.clampLambda l c.dt = l)
    (hK : 0 < (effectiveMass p (f.jacobian p s0) e.base.damping).get 0 0) (s : SolveState K) :
    (e.solveVelocity c.epsilon c.fuel p f c.dt s = .ok (some (e, s)) ↔ Kind.Law c p s0 s (.limits f) e) ∧
    ∀ s', e.solveVelocity c.epsilon c.fuel p f c.dt s = .ok (some (e, s')) → s' = s := by
  obtain ⟨hJ, hfunc, hsolver, hmass⟩ := h
  set J := f.jacobian p s0 with hJd
  set KK := (J.mul p.inverseMass).mul J.transpose with hKK
  have hKget : (effectiveMass p J e.base.damping).get 0 0 = KK.get 0 0 + e.base.damping.at_ 0 := by
    rw [effectiveMass, get_add, get_diagonal, if_pos rfl]
  have hJv : (J.mul (p.velocity s)).at_ 0 = push J (p.velocity s).toV 0 := by rw [at_mul]; rfl
  have hcoef : ∀ C : MVec K 1, (((Mat.diagonal e.base.restitution).sdiv c.dt).mul C).at_ 0 = e.base.restitution.at_ 0 / c.dt * C.at_ 0 := by
    intro C
    rw [mul_at_one, get_sdiv, get_diagonal, if_pos rfl]
  simp only [Kind.Law, ← hJd]
  cases hfun : e.nextFunc p f s0 with
  | equality =>
    rw [hfun] at hfunc
    obtain ⟨k, hk, hdata⟩ := hsolver hfunc
    obtain ⟨k', hk', _, hx, _⟩ := KSolver.mk_spec hs (effectiveMass p J e.base.damping)
    have hkk : k' = k := by simpa using hk'.symm.trans hk
    subst hkk
    have hdet : (effectiveMass p J e.base.damping).toM.det ≠ 0 := by
      rw [Matrix.det_fin_one]
      exact hK.ne'
    set rhs : MVec K 1 := (((J.mul (p.velocity s)).add (f.bias p s)).add (((Mat.diagonal e.base.restitution).sdiv c.dt).mul
        (match e.L with | some l => (f.eval p s).sub l | none => f.eval p s))).add ((Mat.diagonal e.base.damping).mul e.base.lambda) with hrhs
    obtain ⟨x, hx1, hx2, -⟩ := hx hdet rhs.neg
    have hrhs' : e.rhs p f c.dt s = .ok rhs.neg := by
      simp only [LimitsSolver.rhs, hfunc, hJ, hrhs]
      cases e.L <;> rfl
    have hsv : e.solveVelocity c.epsilon c.fuel p f c.dt s =
        .ok (some ({ e with base := (e.base.updateLambda p f c.dt x s).1 }, (e.base.updateLambda p f c.dt x s).2)) := by
      simp only [LimitsSolver.solveVelocity, hrhs', Outcome.bind_ok, hfunc, hdata, hx1]
    have hval : rhs.at_ 0 = velocityError p f J (e.base.restitution.at_ 0) c.dt (match e.L with | some l => l.at_ 0 | none => 0) s +
        e.base.damping.at_ 0 * e.base.lambda.at_ 0 := by
      rw [hrhs, at_add, at_add, at_add, hJv, hcoef, diag_mul_at, velocityError]
      cases e.L with
      | none => simp only [sub_zero]
      | some l => simp only [at_sub]
    have hx0 : x.at_ 0 = 0 ↔ rhs.at_ 0 = 0 := by
      have h1 := congrArg (fun v => v.at_ 0) hx2
      simp only [mul_at_one, at_neg] at h1
      constructor
      · intro h0; rw [h0, mul_zero] at h1; linarith
      · intro h0; rw [h0, neg_zero] at h1; exact (mul_eq_zero.1 h1).resolve_left hK.ne'
    have fwd : ∀ s', e.solveVelocity c.epsilon c.fuel p f c.dt s = .ok (some (e, s')) → x.at_ 0 = 0 := by
      intro s' h
      rw [hsv, Outcome.ok.injEq, Option.some.injEq, Prod.mk.injEq] at h
      have h1 : f.clampLambda (e.base.lambda.add x) c.dt = e.base.lambda := congrArg (fun z : LimitsSolver K => z.base.lambda) h.1
      rw [hf] at h1
      have := congrArg (fun v => v.at_ 0) h1
      simp only [at_add] at this
      linarith
    have bwd : x.at_ 0 = 0 → e.solveVelocity c.epsilon c.fuel p f c.dt s = .ok (some (e, s)) := by
      intro h0
      rw [hsv, updateLambda_fixed]
      rw [hf]
      apply ext_one; rw [at_add, h0, add_zero]
    have hlaw := hx0
    rw [hval] at hlaw
    refine ⟨⟨fun h => hlaw.1 (fwd s h), fun h => bwd (hlaw.2 h)⟩, fun s' h => ?_⟩
    have := (bwd (fwd s' h)).symm.trans h
    simp only [Outcome.ok.injEq, Option.some.injEq, Prod.mk.injEq, true_and] at this
    exact this.symm
  | lower =>
    obtain ⟨l, hL⟩ := LimitsSolver.nextFunc_lower hfun
    rw [hfun] at hfunc
    have hdata := hmass (Or.inl hfunc)
    set rhs : MVec K 1 := ((((J.mul (p.velocity s)).sub (KK.mul e.base.lambda)).add (f.bias p s)).add
      (((Mat.diagonal e.base.restitution).sdiv c.dt).mul ((f.eval p s).sub l))).neg with hrhs
    have hrhs' : e.rhs p f c.dt s = .ok rhs := by
      simp only [LimitsSolver.rhs, hfunc, hJ, hrhs, hL, LimitsSolver.value, Outcome.bind_ok]
      rfl
    have hproj : (fun l : MVec K 1 => maxZero (f.clampLambda l c.dt)) = maxZero := by funext l; rw [hf]
    have hsv : e.solveVelocity c.epsilon c.fuel p f c.dt s =
        .ok ((solveInequalitiesVec (effectiveMass p J e.base.damping) rhs maxZero e.base.lambda c.epsilon c.fuel).map fun lambda =>
          ({ e with base := (e.base.updateLambda p f c.dt (lambda.sub e.base.lambda) s).1 },
            (e.base.updateLambda p f c.dt (lambda.sub e.base.lambda) s).2)) := by
      simp only [LimitsSolver.solveVelocity, hrhs', Outcome.bind_ok, hfunc, hdata, hproj]
    have hval : (effectiveMass p J e.base.damping).get 0 0 * e.base.lambda.at_ 0 - rhs.at_ 0 =
        velocityError p f J (e.base.restitution.at_ 0) c.dt (l.at_ 0) s + e.base.damping.at_ 0 * e.base.lambda.at_ 0 := by
      rw [hrhs, hKget, at_neg, at_add, at_add, at_sub, hJv, hcoef, at_sub, mul_at_one, velocityError]
      ring
    have hsol := solveOne_fixed hK rhs he hfuel e.base.lambda
    rw [hval] at hsol
    have fwd : ∀ s', e.solveVelocity c.epsilon c.fuel p f c.dt s = .ok (some (e, s')) →
        solveInequalitiesVec (effectiveMass p J e.base.damping) rhs maxZero e.base.lambda c.epsilon c.fuel = some e.base.lambda := by
      intro s' h
      rw [hsv, Outcome.ok.injEq] at h
      cases hl : solveInequalitiesVec (effectiveMass p J e.base.damping) rhs maxZero e.base.lambda c.epsilon c.fuel with
      | none => simp [hl] at h
      | some y =>
        rw [hl, Option.map_some, Option.some.injEq, Prod.mk.injEq] at h
        have h1 : f.clampLambda (e.base.lambda.add (y.sub e.base.lambda)) c.dt = e.base.lambda :=
          congrArg (fun z : LimitsSolver K => z.base.lambda) h.1
        rw [add_sub_vec, hf] at h1
        rw [h1]
    have bwd : solveInequalitiesVec (effectiveMass p J e.base.damping) rhs maxZero e.base.lambda c.epsilon c.fuel = some e.base.lambda →
        e.solveVelocity c.epsilon c.fuel p f c.dt s = .ok (some (e, s)) := by
      intro h
      rw [hsv, h, Option.map_some, updateLambda_fixed]
      rw [add_sub_vec, hf]
    refine ⟨⟨fun h => ⟨l, hL, hsol.1 (fwd s h)⟩, ?_⟩, fun s' h => ?_⟩
    · rintro ⟨l', hl', hb⟩
      rw [hL, Option.some.injEq] at hl'
      subst hl'
      exact bwd (hsol.2 hb)
    · have := (bwd (fwd s' h)).symm.trans h
      simp only [Outcome.ok.injEq, Option.some.injEq, Prod.mk.injEq, true_and] at this
      exact this.symm
  | upper =>
    obtain ⟨u, hU⟩ := LimitsSolver.nextFunc_upper hfun
    rw [hfun] at hfunc
    have hdata := hmass (Or.inr hfunc)
    set rhs : MVec K 1 := (((J.mul (p.velocity s)).sub (KK.mul e.base.lambda.neg)).add (f.bias p s)).add
      (((Mat.diagonal e.base.restitution).sdiv c.dt).mul ((f.eval p s).sub u)) with hrhs
    have hrhs' : e.rhs p f c.dt s = .ok rhs := by
      simp only [LimitsSolver.rhs, hfunc, hJ, hrhs, hU, LimitsSolver.value, Outcome.bind_ok]
      rfl
    have hproj : (fun l : MVec K 1 => maxZero (f.clampLambda l.neg c.dt).neg) = maxZero := by
      funext l; rw [hf]; congr 1; apply ext_at; intro r; rw [at_neg, at_neg, neg_neg]
    have hsv : e.solveVelocity c.epsilon c.fuel p f c.dt s =
        .ok ((solveInequalitiesVec (effectiveMass p J e.base.damping) rhs maxZero e.base.lambda c.epsilon c.fuel).map fun lambda =>
          ({ e with base := { e.base with lambda := lambda } },
            p.applyImpulse (SolverBase.impulse e.base.J (lambda.sub e.base.lambda).neg) s)) := by
      simp only [LimitsSolver.solveVelocity, hrhs', Outcome.bind_ok, hfunc, hdata, hproj]
    have hval : (effectiveMass p J e.base.damping).get 0 0 * e.base.lambda.at_ 0 - rhs.at_ 0 =
        -(velocityError p f J (e.base.restitution.at_ 0) c.dt (u.at_ 0) s + e.base.damping.at_ 0 * -e.base.lambda.at_ 0) := by
      rw [hrhs, hKget, at_add, at_add, at_sub, hJv, hcoef, at_sub, mul_at_one, at_neg, velocityError]
      ring
    have hsol := solveOne_fixed hK rhs he hfuel e.base.lambda
    rw [hval] at hsol
    have hflip : Best {m : K | 0 ≤ m} (e.base.lambda.at_ 0)
        (-(velocityError p f J (e.base.restitution.at_ 0) c.dt (u.at_ 0) s + e.base.damping.at_ 0 * -e.base.lambda.at_ 0)) ↔
        Best {m : K | m ≤ 0} (-e.base.lambda.at_ 0)
          (velocityError p f J (e.base.restitution.at_ 0) c.dt (u.at_ 0) s + e.base.damping.at_ 0 * -e.base.lambda.at_ 0) := by
      rw [best_nonneg, best_nonpos]
      constructor
      · rintro ⟨h1, h2, h3⟩; exact ⟨h1, by linarith, by linarith⟩
      · rintro ⟨h1, h2, h3⟩; exact ⟨h1, by linarith, by linarith⟩
    rw [hflip] at hsol
    have fwd : ∀ s', e.solveVelocity c.epsilon c.fuel p f c.dt s = .ok (some (e, s')) →
        solveInequalitiesVec (effectiveMass p J e.base.damping) rhs maxZero e.base.lambda c.epsilon c.fuel = some e.base.lambda := by
      intro s' h
      rw [hsv, Outcome.ok.injEq] at h
      cases hl : solveInequalitiesVec (effectiveMass p J e.base.damping) rhs maxZero e.base.lambda c.epsilon c.fuel with
      | none => simp [hl] at h
      | some y =>
        rw [hl, Option.map_some, Option.some.injEq, Prod.mk.injEq] at h
        have h1 : y = e.base.lambda := congrArg (fun z : LimitsSolver K => z.base.lambda) h.1
        rw [h1]
    have bwd : solveInequalitiesVec (effectiveMass p J e.base.damping) rhs maxZero e.base.lambda c.epsilon c.fuel = some e.base.lambda →
        e.solveVelocity c.epsilon c.fuel p f c.dt s = .ok (some (e, s)) := by
      intro h
      rw [hsv, h, Option.map_some, sub_self_vec, neg_zero_vec, applyImpulse_nothing]
    refine ⟨⟨fun h => ⟨u, hU, hsol.1 (fwd s h)⟩, ?_⟩, fun s' h => ?_⟩
    · rintro ⟨l', hl', hb⟩
      rw [hU, Option.some.injEq] at hl'
      subst hl'
      exact bwd (hsol.2 hb)
    · have := (bwd (fwd s' h)).symm.trans h
      simp only [Outcome.ok.injEq, Option.some.injEq, Prod.mk.injEq, true_and] at this
      exact this.symm
  | off =>
    rw [hfun] at hfunc
    have hsv : e.solveVelocity c.epsilon c.fuel p f c.dt s = .ok (some (e, s)) := by
      simp only [LimitsSolver.solveVelocity, LimitsSolver.rhs, hfunc, Outcome.bind_ok]
    rw [hsv]
    refine ⟨by simp, fun s' h => ?_⟩
    simp only [Outcome.ok.injEq, Option.some.injEq, Prod.mk.injEq, true_and] at h
    exact h.symm

end Simu
