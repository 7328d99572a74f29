import Verif.Lemmas.ContractIsland
import Verif.Spec.Project
/-
Right after a constraint was solved, its law holds.
-/
namespace Simu
open Mat Contact Island
variable {K : Type*} [Field K] [LinearOrder K] [IsStrictOrderedRing K]

section
variable {c : CallCfg K} {p : Proxies K} {s0 : SolveState K}

theorem EqualitySolver.solve_best {d : Nat} (hs : ∀ x, 0 ≤ x → c.sqrt x * c.sqrt x = x) (hm : ∀ i, 0 ≤ p.invMassVec.at_ i) {e e' : EqualitySolver K d} {f : CFun K d}
    (hind : p.i0 ≠ p.i1 ∨ FirstOnly (f.jacobian p s0)) (hJ : e.base.J = f.jacobian p s0)
    (hk : KSolver.mk' c.sqrt d (effectiveMass p (f.jacobian p s0) e.base.damping) = .ok e.solver) (hv : e.solver.isValid = true)
    (hd : ∀ r, 0 ≤ e.base.damping.at_ r) (hrow : f.RowWise c.dt)
    (hcase : (∀ l, f.clampLambda l c.dt = l) ∨ ∀ r r' : Fin d, r ≠ r' → (effectiveMass p (f.jacobian p s0) e.base.damping).get r r' = 0) {s s' : SolveState K}
    (hpl : f.eval p s' = f.eval p s ∧ f.bias p s' = f.bias p s) (h : e.solveVelocity p f c.dt s = .ok (e', s')) (r : Fin d) :
    Best (f.allowed c.dt r) (e'.base.lambda.at_ r) (rowError c p f e'.base.restitution s0 s' r + e'.base.damping.at_ r * e'.base.lambda.at_ r) := by
  rcases hcase with hfree | hdiag
  · rw [allowed_of_free hfree, best_univ]
    exact EqualitySolver.solve_law hs hfree hind hJ hk hv hpl h r
  obtain ⟨k, hk', hvalid, hx, -⟩ := KSolver.mk_spec hs (effectiveMass p (f.jacobian p s0) e.base.damping)
  have hke : k = e.solver := by simpa using hk'.symm.trans hk
  subst hke
  have hdet := hvalid.1 hv
  obtain ⟨x, hx1, hx2, -⟩ := hx hdet (e.base.computeRhs p s f c.dt true)
  obtain ⟨P, hP, hPr⟩ := hrow
  set M := effectiveMass p (f.jacobian p s0) e.base.damping with hM
  have hrhs : (e.base.computeRhs p s f c.dt true).at_ r =
      -(rowError c p f e.base.restitution s0 s r + e.base.damping.at_ r * e.base.lambda.at_ r) := by
    simp only [SolverBase.computeRhs, if_true, at_neg, at_add, diag_mul_at, at_sdiv, rowError, hJ]
    rw [at_mul]
    rfl
  have hMdiag : ∀ r (y : MVec K d), (M.mul y).at_ r = M.get r r * y.at_ r := by
    intro r y
    rw [at_mul, Finset.sum_eq_single r]
    · intro b _ hb; rw [hdiag r b hb.symm, zero_mul]
    · intro h; exact absurd (Finset.mem_univ r) h
  have hMne : M.get r r ≠ 0 := by
    intro h0
    have hz : M.mul (Mat.ofFn fun i => if i = r then (1 : K) else 0) = Mat.zero := by
      apply ext_at; intro i
      rw [hMdiag, at_ofFn, at_zero]
      split_ifs with hi
      · rw [hi, h0, zero_mul]
      · rw [mul_zero]
    obtain ⟨y, -, -, hy⟩ := hx hdet Mat.zero
    have h1 := hy _ hz
    have h2 := hy Mat.zero (by apply ext_at; intro i; rw [hMdiag, at_zero, mul_zero])
    have := congrArg (fun v => v.at_ r) (h1.trans h2.symm)
    simp only [at_ofFn, at_zero, if_true] at this
    exact one_ne_zero this
  have hMpos : 0 < M.get r r := lt_of_le_of_ne (effectiveMass_diag_nonneg p hm _ hd r) (Ne.symm hMne)
  have hsv : e.solveVelocity p f c.dt s = .ok ({ e with base := (e.base.updateLambda p f c.dt x s).1 }, (e.base.updateLambda p f c.dt x s).2) := by
    simp only [EqualitySolver.solveVelocity, hx1, Outcome.bind_ok]
  rw [hsv] at h
  obtain ⟨rfl, rfl⟩ := Prod.mk.inj (Outcome.ok.inj h)
  set l' := f.clampLambda (e.base.lambda.add x) c.dt with hl'
  have hst : (e.base.updateLambda p f c.dt x s).2 = p.applyImpulse (SolverBase.impulse (f.jacobian p s0) (l'.sub e.base.lambda)) s := by
    show p.applyImpulse (SolverBase.impulse e.base.J (l'.sub e.base.lambda)) s = _
    rw [hJ]
  have herr : rowError c p f e.base.restitution s0 (e.base.updateLambda p f c.dt x s).2 r + e.base.damping.at_ r * l'.at_ r =
      rowError c p f e.base.restitution s0 s r + e.base.damping.at_ r * e.base.lambda.at_ r + M.get r r * (l'.at_ r - e.base.lambda.at_ r) := by
    have h2 := hMdiag r (l'.sub e.base.lambda)
    rw [hM, effectiveMass, add_mul_at, diag_mul_at, ← effectiveMass, ← hM] at h2
    rw [rowError, rowError, hpl.1, hpl.2, hst, push_impulse p _ hind]
    rw [at_sub] at h2
    linear_combination h2
  show Best (f.allowed c.dt r) (l'.at_ r) (rowError c p f e.base.restitution s0 (e.base.updateLambda p f c.dt x s).2 r + e.base.damping.at_ r * l'.at_ r)
  rw [allowed_of_rowWise hPr, ← best_of_projection (hP r) hMpos, herr]
  have hxr : M.get r r * x.at_ r = -(rowError c p f e.base.restitution s0 s r + e.base.damping.at_ r * e.base.lambda.at_ r) := by
    rw [← hMdiag, hx2, hrhs]
  have harg : l'.at_ r + -(rowError c p f e.base.restitution s0 s r + e.base.damping.at_ r * e.base.lambda.at_ r + M.get r r * (l'.at_ r - e.base.lambda.at_ r)) / M.get r r =
      (e.base.lambda.add x).at_ r := by
    rw [at_add]
    field_simp
    linear_combination -hxr
  rw [harg, ← hPr]

/-- One row, solved for itself. -/
theorem solveOne_best {A : Mat K 1 1} (h : 0 < A.get 0 0) (b : MVec K 1) {epsilon : K} {fuel : Nat} {proj : MVec K 1 → MVec K 1} {P : K → K} (hP : IsProjection P)
    (hproj : ∀ x, (proj x).at_ 0 = P (x.at_ 0)) {x y : MVec K 1} (hy : solveInequalitiesVec A b proj x epsilon fuel = some y) :
    Best {m | ∃ w, P w = m} (y.at_ 0) (A.get 0 0 * y.at_ 0 - b.at_ 0) := by
  obtain ⟨z, hz, -⟩ := gsLoop_result _ _ _ _ _ _ _ (by linarith : epsilon < 1 + epsilon) _ hy
  rw [sweep_one] at hz
  have h0 : y.at_ 0 = P (b.at_ 0 / A.get 0 0) := by
    rw [hz]
    simp only [at_ofFn, at_neg, neg_neg, hproj]
    rfl
  rw [← best_of_projection hP h]
  have : y.at_ 0 + -(A.get 0 0 * y.at_ 0 - b.at_ 0) / A.get 0 0 = b.at_ 0 / A.get 0 0 := by field_simp; ring
  rw [this, h0]

theorem InequalitySolver.solve_best {e e' : InequalitySolver K 1} {f : CFun K 1} (hind : p.i0 ≠ p.i1 ∨ FirstOnly (f.jacobian p s0))
    (hJ : e.base.J = f.jacobian p s0) (hM : e.effectiveMass = Simu.effectiveMass p (f.jacobian p s0) e.base.damping) (hd : e.base.damping.at_ 0 = 0)
    (hrow : f.RowWise c.dt) (hK : 0 < (Simu.effectiveMass p (f.jacobian p s0) e.base.damping).get 0 0) {s s' : SolveState K}
    (hpl : f.eval p s' = f.eval p s ∧ f.bias p s' = f.bias p s) (h : e.solveVelocity c.epsilon c.fuel p f c.dt s = some (e', s')) :
    Best (f.allowed c.dt 0) (e'.base.lambda.at_ 0) (rowError c p f e'.base.restitution s0 s' 0) := by
  obtain ⟨P, hP, hPr⟩ := hrow
  obtain ⟨y, hy, h⟩ := Option.map_eq_some_iff.1 h
  obtain ⟨rfl, hs'⟩ := Prod.mk.inj h
  rw [hM] at hy
  have hb := solveOne_best hK _ (hP 0) (fun x => hPr x 0) hy
  have hy0 : (f.clampLambda y c.dt) = y := by
    apply ext_one
    obtain ⟨⟨w, hw⟩, hbest⟩ := hb
    rw [hPr, ← hw]
    have h1 := hP 0 (P 0 w) w
    nlinarith [mul_self_nonneg (P 0 w - P 0 (P 0 w)), hP 0 (P 0 w) w]
  have hlam : f.clampLambda (e.base.lambda.add (y.sub e.base.lambda)) c.dt = y := by rw [add_sub_vec, hy0]
  set J := f.jacobian p s0 with hJd
  have hst : s' = p.applyImpulse (SolverBase.impulse J (y.sub e.base.lambda)) s := by
    rw [← hs']
    show p.applyImpulse (SolverBase.impulse e.base.J ((f.clampLambda (e.base.lambda.add (y.sub e.base.lambda)) c.dt).sub e.base.lambda)) s = _
    rw [hlam, hJ]
  show Best (f.allowed c.dt 0) ((f.clampLambda (e.base.lambda.add (y.sub e.base.lambda)) c.dt).at_ 0)
    (rowError c p f e.base.restitution s0 s' 0)
  rw [hlam, allowed_of_rowWise hPr]
  have hval : (Simu.effectiveMass p J e.base.damping).get 0 0 * y.at_ 0 - ((e.base.computeRhs p s f c.dt false).add ((Simu.effectiveMass p J e.base.damping).mul e.base.lambda)).at_ 0 =
      rowError c p f e.base.restitution s0 s' 0 := by
    have hKget : (Simu.effectiveMass p J e.base.damping).get 0 0 = ((J.mul p.inverseMass).mul J.transpose).get 0 0 + e.base.damping.at_ 0 := by
      rw [Simu.effectiveMass, get_add, get_diagonal, if_pos rfl]
    have hrhs : (e.base.computeRhs p s f c.dt false).at_ 0 = -rowError c p f e.base.restitution s0 s 0 := by
      simp only [SolverBase.computeRhs, Bool.false_eq_true, if_false, at_neg, at_add, diag_mul_at, at_sdiv, rowError, hJ, hJd, at_zero, add_zero]
      rw [at_mul]
      rfl
    have hp1 := push_impulse p J hind (y.sub e.base.lambda) s 0
    rw [← hst, mul_at_one, at_sub] at hp1
    have herr : rowError c p f e.base.restitution s0 s' 0 =
        rowError c p f e.base.restitution s0 s 0 + (push J (p.velocity s').toV 0 - push J (p.velocity s).toV 0) := by
      have := rowError_diff (c := c) (R := e.base.restitution) (s0 := s0) hpl 0
      linear_combination this
    rw [at_add, mul_at_one, hKget, hd, hrhs, herr, hp1]
    ring
  rw [← hval]
  exact hb

variable [Trig K]

theorem LimitsSolver.solve_best (hs : ∀ x, 0 ≤ x → c.sqrt x * c.sqrt x = x) {e e' : LimitsSolver K} {f : CFun K 1} (h : e.PreparedAt c.sqrt p f s0)
    (hind : p.i0 ≠ p.i1 ∨ FirstOnly (f.jacobian p s0)) (hf : ∀ l, f.clampLambda l c.dt = l)
    (hK : 0 < (effectiveMass p (f.jacobian p s0) e.base.damping).get 0 0) {s s' : SolveState K}
    (hpl : f.eval p s' = f.eval p s ∧ f.bias p s' = f.bias p s) (hcall : e.solveVelocity c.epsilon c.fuel p f c.dt s = .ok (some (e', s'))) :
    Kind.Law c p s0 s' (.limits f) e' := by
  obtain ⟨hJ, hfunc, hsolver, hmass⟩ := h
  set J := f.jacobian p s0 with hJd
  set KK := (J.mul p.inverseMass).mul J.transpose with hKK
  have hKget : (effectiveMass p J e.base.damping).get 0 0 = KK.get 0 0 + e.base.damping.at_ 0 := by
    rw [effectiveMass, get_add, get_diagonal, if_pos rfl]
  have hJv : (J.mul (p.velocity s)).at_ 0 = push J (p.velocity s).toV 0 := by rw [at_mul]; rfl
  have hcoef : ∀ C : MVec K 1, (((Mat.diagonal e.base.restitution).sdiv c.dt).mul C).at_ 0 = e.base.restitution.at_ 0 / c.dt * C.at_ 0 := by
    intro C
    rw [mul_at_one, get_sdiv, get_diagonal, if_pos rfl]
  have hverr : ∀ (y : MVec K 1) limit, s' = p.applyImpulse (SolverBase.impulse J y) s → velocityError p f J (e.base.restitution.at_ 0) c.dt limit s' =
      push J (p.velocity s).toV 0 + (f.bias p s).at_ 0 + e.base.restitution.at_ 0 / c.dt * ((f.eval p s).at_ 0 - limit) + KK.get 0 0 * y.at_ 0 := by
    intro y limit hy
    rw [velocityError, hpl.1, hpl.2, hy, push_impulse p J hind, mul_at_one]
    ring
  cases hfun : e.nextFunc p f s0 with
  | equality =>
    rw [hfun] at hfunc
    obtain ⟨k, hk, hdata⟩ := hsolver hfunc
    obtain ⟨k', hk', _, hx, _⟩ := KSolver.mk_spec hs (effectiveMass p J e.base.damping)
    have hkk : k' = k := by simpa using hk'.symm.trans hk
    subst hkk
    have hdet : (effectiveMass p J e.base.damping).toM.det ≠ 0 := by
      rw [Matrix.det_fin_one]
      exact hK.ne'
    set rhs : MVec K 1 := (((J.mul (p.velocity s)).add (f.bias p s)).add (((Mat.diagonal e.base.restitution).sdiv c.dt).mul
        (match e.L with | some l => (f.eval p s).sub l | none => f.eval p s))).add ((Mat.diagonal e.base.damping).mul e.base.lambda) with hrhs
    obtain ⟨x, hx1, hx2, -⟩ := hx hdet rhs.neg
    have hrhs' : e.rhs p f c.dt s = .ok rhs.neg := by
      simp only [LimitsSolver.rhs, hfunc, hJ, hrhs]
      cases e.L <;> rfl
    have hsv : e.solveVelocity c.epsilon c.fuel p f c.dt s =
        .ok (some ({ e with base := (e.base.updateLambda p f c.dt x s).1 }, (e.base.updateLambda p f c.dt x s).2)) := by
      simp only [LimitsSolver.solveVelocity, hrhs', Outcome.bind_ok, hfunc, hdata, hx1]
    rw [hsv] at hcall
    obtain ⟨rfl, hs'⟩ := Prod.mk.inj (Option.some.inj (Outcome.ok.inj hcall))
    have hst : s' = p.applyImpulse (SolverBase.impulse J x) s := by
      rw [← hs', SolverBase.updateLambda_state, SolverBase.updateLambda_base, hf, hJ]
      congr 2
      apply ext_at; intro r; rw [at_sub, at_add]; ring
    have hx3 : (KK.get 0 0 + e.base.damping.at_ 0) * x.at_ 0 = -rhs.at_ 0 := by
      rw [← hKget, ← mul_at_one, hx2, at_neg]
    have hr0 : rhs.at_ 0 = push J (p.velocity s).toV 0 + (f.bias p s).at_ 0 + e.base.restitution.at_ 0 / c.dt *
        ((f.eval p s).at_ 0 - (match e.L with | some l => l.at_ 0 | none => 0)) + e.base.damping.at_ 0 * e.base.lambda.at_ 0 := by
      rw [hrhs]
      simp only [at_add, hJv, hcoef, diag_mul_at]
      cases e.L with
      | none => simp
      | some l => simp only [at_sub]
    have hnext : LimitsSolver.nextFunc { e with base := (e.base.updateLambda p f c.dt x s).1 } p f s0 = .equality := hfun
    simp only [Kind.Law]
    rw [hnext]
    show velocityError p f J (e.base.restitution.at_ 0) c.dt (match e.L with | some l => l.at_ 0 | none => 0) s' +
      e.base.damping.at_ 0 * (f.clampLambda (e.base.lambda.add x) c.dt).at_ 0 = 0
    rw [hverr x _ hst, hf, at_add]
    rw [hr0] at hx3
    linear_combination hx3
  | lower =>
    obtain ⟨l, hL⟩ := LimitsSolver.nextFunc_lower hfun
    rw [hfun] at hfunc
    have hdata := hmass (Or.inl hfunc)
    set rhs : MVec K 1 := ((((J.mul (p.velocity s)).sub (KK.mul e.base.lambda)).add (f.bias p s)).add
      (((Mat.diagonal e.base.restitution).sdiv c.dt).mul ((f.eval p s).sub l))).neg with hrhs
    have hrhs' : e.rhs p f c.dt s = .ok rhs := by
      simp only [LimitsSolver.rhs, hfunc, hJ, hrhs, hL, LimitsSolver.value, Outcome.bind_ok]
      rfl
    have hproj : (fun l : MVec K 1 => maxZero (f.clampLambda l c.dt)) = maxZero := by funext l; rw [hf]
    have hsv : e.solveVelocity c.epsilon c.fuel p f c.dt s =
        .ok ((solveInequalitiesVec (effectiveMass p J e.base.damping) rhs maxZero e.base.lambda c.epsilon c.fuel).map fun lambda =>
          ({ e with base := (e.base.updateLambda p f c.dt (lambda.sub e.base.lambda) s).1 },
            (e.base.updateLambda p f c.dt (lambda.sub e.base.lambda) s).2)) := by
      simp only [LimitsSolver.solveVelocity, hrhs', Outcome.bind_ok, hfunc, hdata, hproj]
    rw [hsv] at hcall
    obtain ⟨y, hy, hcall⟩ := Option.map_eq_some_iff.1 (Outcome.ok.inj hcall)
    obtain ⟨rfl, hs'⟩ := Prod.mk.inj hcall
    have hb := solveOne_best hK _ maxZero_projection (fun x => maxZero_at x 0) hy
    rw [maxZero_range] at hb
    have hst : s' = p.applyImpulse (SolverBase.impulse J (y.sub e.base.lambda)) s := by
      rw [← hs', SolverBase.updateLambda_state, SolverBase.updateLambda_base, hf, hJ, add_sub_vec]
    have hnext : LimitsSolver.nextFunc { e with base := (e.base.updateLambda p f c.dt (y.sub e.base.lambda) s).1 } p f s0 = .lower := hfun
    simp only [Kind.Law]
    rw [hnext]
    refine ⟨l, hL, ?_⟩
    show Best {m | 0 ≤ m} ((f.clampLambda (e.base.lambda.add (y.sub e.base.lambda)) c.dt).at_ 0) (velocityError p f J (e.base.restitution.at_ 0) c.dt (l.at_ 0) s' +
      e.base.damping.at_ 0 * (f.clampLambda (e.base.lambda.add (y.sub e.base.lambda)) c.dt).at_ 0)
    rw [hf, add_sub_vec, hverr _ _ hst]
    have hval : (effectiveMass p J e.base.damping).get 0 0 * y.at_ 0 - rhs.at_ 0 = push J (p.velocity s).toV 0 + (f.bias p s).at_ 0 +
        e.base.restitution.at_ 0 / c.dt * ((f.eval p s).at_ 0 - l.at_ 0) + KK.get 0 0 * (y.sub e.base.lambda).at_ 0 + e.base.damping.at_ 0 * y.at_ 0 := by
      rw [hrhs, hKget, at_neg, at_add, at_add, at_sub, hJv, hcoef, at_sub, mul_at_one, at_sub]
      ring
    rw [← hval]
    exact hb
  | upper =>
    obtain ⟨u, hU⟩ := LimitsSolver.nextFunc_upper hfun
    rw [hfun] at hfunc
    have hdata := hmass (Or.inr hfunc)
    set rhs : MVec K 1 := (((J.mul (p.velocity s)).sub (KK.mul e.base.lambda.neg)).add (f.bias p s)).add
      (((Mat.diagonal e.base.restitution).sdiv c.dt).mul ((f.eval p s).sub u)) with hrhs
    have hrhs' : e.rhs p f c.dt s = .ok rhs := by
      simp only [LimitsSolver.rhs, hfunc, hJ, hrhs, hU, LimitsSolver.value, Outcome.bind_ok]
      rfl
    have hproj : (fun l : MVec K 1 => maxZero (f.clampLambda l.neg c.dt).neg) = maxZero := by
      funext l; rw [hf]; congr 1; apply ext_at; intro r; rw [at_neg, at_neg, neg_neg]
    have hsv : e.solveVelocity c.epsilon c.fuel p f c.dt s =
        .ok ((solveInequalitiesVec (effectiveMass p J e.base.damping) rhs maxZero e.base.lambda c.epsilon c.fuel).map fun lambda =>
          ({ e with base := { e.base with lambda := lambda } },
            p.applyImpulse (SolverBase.impulse e.base.J (lambda.sub e.base.lambda).neg) s)) := by
      simp only [LimitsSolver.solveVelocity, hrhs', Outcome.bind_ok, hfunc, hdata, hproj]
    rw [hsv] at hcall
    obtain ⟨y, hy, hcall⟩ := Option.map_eq_some_iff.1 (Outcome.ok.inj hcall)
    obtain ⟨rfl, hs'⟩ := Prod.mk.inj hcall
    have hb := solveOne_best hK _ maxZero_projection (fun x => maxZero_at x 0) hy
    rw [maxZero_range, best_nonneg] at hb
    have hst : s' = p.applyImpulse (SolverBase.impulse J (y.sub e.base.lambda).neg) s := by rw [← hs', hJ]
    have hnext : LimitsSolver.nextFunc { e with base := { e.base with lambda := y } } p f s0 = .upper := hfun
    simp only [Kind.Law]
    rw [hnext]
    refine ⟨u, hU, ?_⟩
    show Best {m | m ≤ 0} (-y.at_ 0) (velocityError p f J (e.base.restitution.at_ 0) c.dt (u.at_ 0) s' + e.base.damping.at_ 0 * -y.at_ 0)
    rw [hverr _ _ hst, best_nonpos]
    have hval : (effectiveMass p J e.base.damping).get 0 0 * y.at_ 0 - rhs.at_ 0 = -(push J (p.velocity s).toV 0 + (f.bias p s).at_ 0 +
        e.base.restitution.at_ 0 / c.dt * ((f.eval p s).at_ 0 - u.at_ 0) + KK.get 0 0 * (y.sub e.base.lambda).neg.at_ 0 + e.base.damping.at_ 0 * -y.at_ 0) := by
      rw [hrhs, hKget, at_add, at_add, at_sub, hJv, hcoef, at_sub, mul_at_one, at_neg, at_neg, at_sub]
      ring
    rw [hval] at hb
    obtain ⟨b1, b2, b3⟩ := hb
    exact ⟨b1, by linarith, by linarith⟩
  | off =>
    rw [hfun] at hfunc
    have hsv : e.solveVelocity c.epsilon c.fuel p f c.dt s = .ok (some (e, s)) := by
      simp only [LimitsSolver.solveVelocity, LimitsSolver.rhs, hfunc, Outcome.bind_ok]
    rw [hsv] at hcall
    obtain ⟨rfl, -⟩ := Prod.mk.inj (Option.some.inj (Outcome.ok.inj hcall))
    simp only [Kind.Law]
    rw [hfun]
    trivial

theorem Contact.solve_best {e e' : Contact K} (h : e.PreparedAt p s0)
    (hi : p.i0 ≠ p.i1) (f : Frame K) (hf : f = e.manifold.frame ![(s0.pos p.i0).toWorldSpace, (s0.pos p.i1).toWorldSpace])
    (hn : f.nContacts = 1 ∨ f.nContacts = 2) (hs : Solvable f p) (hμ : e.friction = 0)
    {s s' : SolveState K} (hcall : e.solveVelocities p s = .ok (e', s')) : Kind.Law c p s0 s' (.contact) e' := by
  obtain ⟨hr, hbounce, hpush, -⟩ := h
  rw [← hf] at hr
  have hfr := hr.frame
  obtain ⟨hK, hdet⟩ := hs.positive hr
  obtain ⟨l, v', hsol, hcomp⟩ := solveNormal_complement hr hn hK hdet (e.frictionLoop p (p.velocity s)).2
  have hsv : e.solveVelocities p s = .ok ({ e with tangentLambda := (e.frictionLoop p (p.velocity s)).1, normalLambda := l },
      (s.setVel p.i0 ⟨v'.at_ 0, v'.at_ 1⟩ (v'.at_ 2)).setVel p.i1 ⟨v'.at_ 3, v'.at_ 4⟩ (v'.at_ 5)) := by
    unfold Contact.solveVelocities
    dsimp only
    rw [hsol]
    rfl
  rw [hsv] at hcall
  obtain ⟨rfl, rfl⟩ := Prod.mk.inj (Outcome.ok.inj hcall)
  simp only [Kind.Law, ← hf]
  intro i hc
  have hcm : i.val < e.manifold.nContacts := by rw [hf] at hc; exact hc
  constructor
  · rw [best_nonneg]
    have h1 := hcomp i hc
    set s' := (s.setVel p.i0 ⟨v'.at_ 0, v'.at_ 1⟩ (v'.at_ 2)).setVel p.i1 ⟨v'.at_ 3, v'.at_ 4⟩ (v'.at_ 5) with hs'
    have h2 : p.velocity s' = v' := velocity_setVel p hi s v'
    have h3 := hr.push_Jn s' i hc
    rw [h2] at h3
    rw [h3, hbounce i hcm, ← hf] at h1
    rw [sub_eq_add_neg]
    exact h1
  · have hb := (frictionLoop_bound e p (p.velocity s) i).1 (by rw [hfr]; exact hc) (by rw [hμ, zero_mul])
    rw [hμ, zero_mul] at hb ⊢
    have h0 : (e.frictionLoop p (p.velocity s)).1.at_ i = 0 := abs_nonpos_iff.1 hb
    rw [h0]
    refine ⟨by simp, fun m hm => ?_⟩
    have : m = 0 := abs_nonpos_iff.1 hm
    rw [this]; simp

/-- Right after a constraint was solved, its law holds. -/
theorem Kind.solve_law (hs : ∀ x, 0 ≤ x → c.sqrt x * c.sqrt x = x) (hm : ∀ i, 0 ≤ p.invMassVec.at_ i) (k : Kind K) {e e' : k.State}
    (hr : k.Regular c p s0 e) (hst : k.Started c p s0 e) (hpl : k.Plain p e) (ht : k.Tame p s0 e) {s s' : SolveState K} (hpos : s'.pos = s.pos)
    (h : k.act c .solveVelocities p e s = .ok (e', s')) : k.Law c p s0 s' e' := by
  cases k with
  | equality d f => exact EqualitySolver.solve_best hs hm ht hst.1 hst.2.1 hst.2.2 hr.1 hr.2.1 hr.2.2 (hpl _ _ hpos) h
  | mouse f =>
    exact EqualitySolver.solve_best hs hm ht hst.1 hst.2.1 hst.2.2 hr.1 ⟨fun _ x => x, fun r x y => by simp, fun l r => by rw [hr.2]⟩ (Or.inl hr.2) (hpl _ _ hpos) h
  | inequality d f =>
    obtain ⟨t1, rfl, t2⟩ := ht
    intro r
    rw [Subsingleton.elim r 0]
    exact InequalitySolver.solve_best t1 hst.1 hst.2 (t2 0) hr.1 (SPD.diag_pos hr.2 0) (hpl _ _ hpos) (returned_ok h)
  | limits f =>
    obtain ⟨o, ho, ha⟩ := bind_ok_iff.1 h
    obtain rfl := returned_ok ha
    exact LimitsSolver.solve_best hs hst ht hr.1 hr.2 (hpl.1 _ _ hpos) ho
  | contact => exact Contact.solve_best hst hr.2.1 _ rfl hr.2.2.1 hr.2.2.2.1 hpl h

theorem Kind.tame_act (k : Kind K) {e e' : k.State} {s s' : SolveState K} {ph : Phase} (hph : ph ≠ .solvePositions) (ht : k.Tame p s0 e)
    (h : k.act c ph p e s = .ok (e', s')) : k.Tame p s0 e' := by
  cases k with
  | equality d f => exact ht
  | mouse f => exact ht
  | inequality d f =>
    suffices (e' : InequalitySolver K d).base.damping = (e : InequalitySolver K d).base.damping by
      refine ⟨ht.1, ht.2.1, ?_⟩
      rw [this]; exact ht.2.2
    cases ph with
    | initSolve => cases Outcome.ok.inj h; rfl
    | warmstart => cases Outcome.ok.inj h; rfl
    | solveVelocities =>
      obtain ⟨x, -, hx⟩ := Option.map_eq_some_iff.1 (returned_ok h)
      cases hx; rfl
    | solvePositions => exact absurd rfl hph
  | limits f => exact ht
  | contact => trivial

/-! ### The rows of a constraint -/

/-- Number of rows. -/
def Kind.size : Kind K → Nat
  | .equality d _ => d
  | .mouse _ => 2
  | .inequality d _ => d
  | .limits _ => 1
  | .contact => 2

/-- The rows of the Jacobian. -/
def Kind.prow (p : Proxies K) (s0 : SolveState K) : (k : Kind K) → k.State → Fin k.size → Fin 6 → K
  | .equality _ f, _ => (f.jacobian p s0).get
  | .mouse f, _ => (f.jacobian p s0).get
  | .inequality _ f, _ => (f.jacobian p s0).get
  | .limits f, e => fun r i => if (e : LimitsSolver _).nextFunc p f s0 = .off then 0 else (f.jacobian p s0).get r i
  | .contact, e => fun r i =>
    let f := (e : Contact _).manifold.frame ![(s0.pos p.i0).toWorldSpace, (s0.pos p.i1).toWorldSpace]
    if r.val < f.nContacts then rowOf f p s0.pos f.normal r i else 0

/-- The multipliers. -/
def Kind.pmult : (k : Kind K) → k.State → Fin k.size → K
  | .equality _ _, e => (e : EqualitySolver _ _).base.lambda.at_
  | .mouse _, e => (e : EqualitySolver _ _).base.lambda.at_
  | .inequality _ _, e => (e : InequalitySolver _ _).base.lambda.at_
  | .limits _, e => fun r => Func.sign (e : LimitsSolver _).func * (e : LimitsSolver _).base.lambda.at_ r
  | .contact, e => (e : Contact _).normalLambda.at_

/-- The dampings. -/
def Kind.pdamp (p : Proxies K) (s0 : SolveState K) : (k : Kind K) → k.State → Fin k.size → K
  | .equality _ _, e => (e : EqualitySolver _ _).base.damping.at_
  | .mouse _, e => (e : EqualitySolver _ _).base.damping.at_
  | .inequality _ _, _ => fun _ => 0
  | .limits f, e => fun r => if (e : LimitsSolver _).nextFunc p f s0 = .off then 0 else (e : LimitsSolver _).base.damping.at_ r
  | .contact, _ => fun _ => 0

/-- The multipliers that are allowed. -/
def Kind.pset (c : CallCfg K) (p : Proxies K) (s0 : SolveState K) : (k : Kind K) → k.State → Fin k.size → Set K
  | .equality _ f, _ => f.allowed c.dt
  | .mouse f, _ => f.allowed c.dt
  | .inequality _ f, _ => f.allowed c.dt
  | .limits f, e => fun _ => match (e : LimitsSolver _).nextFunc p f s0 with
    | .equality => Set.univ
    | .lower => {m | 0 ≤ m}
    | .upper => {m | m ≤ 0}
    | .off => Set.univ
  | .contact, e => fun r =>
    let f := (e : Contact _).manifold.frame ![(s0.pos p.i0).toWorldSpace, (s0.pos p.i1).toWorldSpace]
    if r.val < f.nContacts then {m | 0 ≤ m} else Set.univ

/-- The limit in force. -/
def LimitsSolver.bound (e : LimitsSolver K) : Func → K
  | .upper => match e.U with | some u => u.at_ 0 | none => 0
  | _ => match e.L with | some l => l.at_ 0 | none => 0

omit [LinearOrder K] [IsStrictOrderedRing K] [Trig K] in
theorem LimitsSolver.bound_lower {e : LimitsSolver K} {l : MVec K 1} (h : e.L = some l) : e.bound .lower = l.at_ 0 := by simp [LimitsSolver.bound, h]

omit [LinearOrder K] [IsStrictOrderedRing K] [Trig K] in
theorem LimitsSolver.bound_upper {e : LimitsSolver K} {u : MVec K 1} (h : e.U = some u) : e.bound .upper = u.at_ 0 := by simp [LimitsSolver.bound, h]

/-- What is left to do. -/
def Kind.pres (c : CallCfg K) (p : Proxies K) (s0 s : SolveState K) : (k : Kind K) → k.State → Fin k.size → K
  | .equality _ f, e => fun r => rowError c p f (e : EqualitySolver _ _).base.restitution s0 s r +
      (e : EqualitySolver _ _).base.damping.at_ r * (e : EqualitySolver _ _).base.lambda.at_ r
  | .mouse f, e => fun r => rowError c p f (e : EqualitySolver _ _).base.restitution s0 s r +
      (e : EqualitySolver _ _).base.damping.at_ r * (e : EqualitySolver _ _).base.lambda.at_ r
  | .inequality _ f, e => fun r => rowError c p f (e : InequalitySolver _ _).base.restitution s0 s r
  | .limits f, e => fun _ => if (e : LimitsSolver _).nextFunc p f s0 = .off then 0 else
      velocityError p f (f.jacobian p s0) ((e : LimitsSolver _).base.restitution.at_ 0) c.dt ((e : LimitsSolver _).bound ((e : LimitsSolver _).nextFunc p f s0)) s +
      (e : LimitsSolver _).base.damping.at_ 0 * (Func.sign (e : LimitsSolver _).func * (e : LimitsSolver _).base.lambda.at_ 0)
  | .contact, e => fun r =>
    let f := (e : Contact _).manifold.frame ![(s0.pos p.i0).toWorldSpace, (s0.pos p.i1).toWorldSpace]
    if r.val < f.nContacts then f.separationSpeed p s0.pos s.vel r - requested (e : Contact _).restitution (f.separationSpeed p s0.pos s0.vel r) else 0

/-- A contact that does not rub. -/
def Kind.Smooth (p : Proxies K) (s0 : SolveState K) : (k : Kind K) → k.State → Prop
  | .contact, e => ∀ i : Fin 2, i.val < ((e : Contact _).manifold.frame ![(s0.pos p.i0).toWorldSpace, (s0.pos p.i1).toWorldSpace]).nContacts →
      (e : Contact _).tangentLambda.at_ i = 0
  | _, _ => True

theorem Kind.law_smooth (k : Kind K) {e : k.State} {s : SolveState K} (hpl : k.Plain p e) (hl : k.Law c p s0 s e) : k.Smooth p s0 e := by
  cases k with
  | contact =>
    intro i hi
    obtain ⟨-, h2⟩ := hl i hi
    have h3 : |(e : Contact K).tangentLambda.at_ i| ≤ (e : Contact K).friction * _ := h2.1
    rw [show (e : Contact K).friction = 0 from hpl, zero_mul] at h3
    exact abs_nonpos_iff.1 h3
  | _ => trivial

theorem Kind.law_rows (k : Kind K) {e : k.State} {s : SolveState K} (hst : k.Started c p s0 e) (hid : k.Idle e) (hl : k.Law c p s0 s e) (r : Fin k.size) :
    Best (k.pset c p s0 e r) (k.pmult e r) (k.pres c p s0 s e r) := by
  cases k with
  | equality d f => exact hl r
  | mouse f => exact hl r
  | inequality d f => exact hl r
  | limits f =>
    have hf := hst.func
    change Fin 1 at r
    obtain rfl : r = 0 := Subsingleton.elim _ _
    simp only [Kind.Law] at hl
    simp only [Kind.pset, Kind.pmult, Kind.pres]
    rw [hf]
    cases hn : (e : LimitsSolver K).nextFunc p f s0 with
    | equality =>
      simp only [hn] at hl ⊢
      rw [best_univ, if_neg (by decide)]
      simp only [Func.sign, one_mul]
      exact hl
    | lower =>
      simp only [hn] at hl ⊢
      obtain ⟨l, h1, h2⟩ := hl
      rw [if_neg (by decide), LimitsSolver.bound_lower h1]
      simp only [Func.sign, one_mul]
      exact h2
    | upper =>
      simp only [hn] at hl ⊢
      obtain ⟨l, h1, h2⟩ := hl
      rw [if_neg (by decide), LimitsSolver.bound_upper h1]
      simp only [Func.sign, neg_one_mul]
      exact h2
    | off =>
      simp only [if_true]
      rw [best_univ]
  | contact =>
    change Fin 2 at r
    simp only [Kind.Law] at hl
    simp only [Kind.pset, Kind.pmult, Kind.pres]
    split_ifs with h
    · exact (hl r h).1
    · rw [best_univ]

theorem Kind.pres_diff (k : Kind K) {e e' : k.State} (hst : k.Started c p s0 e) (hst' : k.Started c p s0 e') (hsame : k.Same e' e) (hpl : k.Plain p e) {s s' : SolveState K}
    (hpos : s.pos = s'.pos) (r : Fin k.size) :
    k.pres c p s0 s e r - k.pres c p s0 s' e' r =
      ∑ i, k.prow p s0 e' r i * ((p.velocity s).toV i - (p.velocity s').toV i) + k.pdamp p s0 e' r * (k.pmult e r - k.pmult e' r) := by
  have eqn : ∀ {d : Nat} {f : CFun K d} {e e' : EqualitySolver K d} (r : Fin d), (f.eval p s = f.eval p s' ∧ f.bias p s = f.bias p s') →
      e.base.damping = e'.base.damping → e.base.restitution = e'.base.restitution →
      rowError c p f e.base.restitution s0 s r + e.base.damping.at_ r * e.base.lambda.at_ r -
        (rowError c p f e'.base.restitution s0 s' r + e'.base.damping.at_ r * e'.base.lambda.at_ r) =
      ∑ i, (f.jacobian p s0).get r i * ((p.velocity s).toV i - (p.velocity s').toV i) + e'.base.damping.at_ r * (e.base.lambda.at_ r - e'.base.lambda.at_ r) := by
    intro d f e e' r hf hD hR
    have h := rowError_diff (c := c) (R := e'.base.restitution) (s0 := s0) hf r
    simp only [mul_sub, Finset.sum_sub_distrib]
    rw [push, push] at h
    rw [hD, hR]
    linear_combination h
  cases k with
  | equality d f => exact eqn r (hpl s s' hpos) hsame.1 hsame.2
  | mouse f => exact eqn r (hpl s s' hpos) hsame.1 hsame.2
  | inequality d f =>
    have h1 := rowError_diff (c := c) (R := (e' : InequalitySolver K d).base.restitution) (s0 := s0) (hpl s s' hpos) r
    have h0 : (e : InequalitySolver K d).base.restitution = (e' : InequalitySolver K d).base.restitution := hsame
    have h2 : rowError c p f (e : InequalitySolver K d).base.restitution s0 s r - rowError c p f (e' : InequalitySolver K d).base.restitution s0 s' r =
        ∑ i, (f.jacobian p s0).get r i * ((p.velocity s).toV i - (p.velocity s').toV i) := by
      refine (congrArg (fun R => rowError c p f R s0 s r - rowError c p f (e' : InequalitySolver K d).base.restitution s0 s' r) h0).trans (h1.trans ?_)
      simp only [mul_sub, Finset.sum_sub_distrib]
      rfl
    exact h2.trans (by rw [← add_zero (∑ i, _)]; congr 1; exact (zero_mul _).symm)
  | limits f =>
    change Fin 1 at r
    obtain rfl : r = 0 := Subsingleton.elim _ _
    obtain ⟨hL, hU, hD, hR⟩ := hsame
    obtain ⟨hf, -⟩ := hpl
    have hev := hf s s' hpos
    have hnext : (e' : LimitsSolver K).nextFunc p f s0 = (e : LimitsSolver K).nextFunc p f s0 := by
      unfold LimitsSolver.nextFunc; rw [hL, hU]
    have hbound : ∀ g, (e' : LimitsSolver K).bound g = (e : LimitsSolver K).bound g := by
      intro g; unfold LimitsSolver.bound; rw [hL, hU]
    simp only [Kind.pmult, Kind.pres, Kind.prow, Kind.pdamp]
    rw [hst.func, hst'.func, hnext, hbound, hD, hR]
    split_ifs with h
    · simp
    · rw [velocityError, velocityError, hev.1, hev.2, push, push]
      simp only [mul_sub, Finset.sum_sub_distrib]
      ring
  | contact =>
    change Fin 2 at r
    obtain ⟨hma, hre, -⟩ := hsame
    simp only [Kind.pmult, Kind.pres, Kind.prow, Kind.pdamp]
    rw [hma, hre]
    split_ifs with h
    · set g := (e' : Contact K).manifold.frame ![(s0.pos p.i0).toWorldSpace, (s0.pos p.i1).toWorldSpace]
      have h1 : ∑ i, rowOf g p s0.pos g.normal r i * (p.velocity s).at_ i = g.separationSpeed p s0.pos s.vel r := push_row g p s0.pos g.normal r s
      have h2 : ∑ i, rowOf g p s0.pos g.normal r i * (p.velocity s').at_ i = g.separationSpeed p s0.pos s'.vel r := push_row g p s0.pos g.normal r s'
      simp only [mul_sub, Finset.sum_sub_distrib, toV]
      rw [h1, h2]; ring
    · simp

theorem Kind.given_rows (k : Kind K) {e : k.State} (hst : k.Started c p s0 e) (hid : k.Idle e) (hsm : k.Smooth p s0 e) (i : Fin 6) :
    k.given e i = ∑ r, k.prow p s0 e r i * k.pmult e r := by
  cases k with
  | equality d f => show pull (e : EqualitySolver K d).base.J _ i = _; rw [hst.1]; rfl
  | mouse f => show pull (e : EqualitySolver K 2).base.J _ i = _; rw [hst.1]; rfl
  | inequality d f => show pull (e : InequalitySolver K d).base.J _ i = _; rw [hst.1]; rfl
  | limits f =>
    show pull (e : LimitsSolver K).base.J _ i = ∑ r : Fin 1, _
    rw [hst.J, pull]
    simp only [Kind.prow, Kind.pmult]
    by_cases h : (e : LimitsSolver K).nextFunc p f s0 = .off
    · have := (hid (hst.func.trans h)).2
      simp [this, h, at_zero]
    · simp only [if_neg h]
  | contact =>
    obtain ⟨hr, -⟩ := hst
    have hsm : ∀ i : Fin 2, i.val < ((e : Contact K).manifold.frame ![(s0.pos p.i0).toWorldSpace, (s0.pos p.i1).toWorldSpace]).nContacts →
      (e : Contact K).tangentLambda.at_ i = 0 := hsm
    show totalImpulse (e : Contact K) i = ∑ r : Fin 2, _
    simp only [Kind.prow, Kind.pmult]
    set f := (e : Contact K).manifold.frame ![(s0.pos p.i0).toWorldSpace, (s0.pos p.i1).toWorldSpace] with hfd
    have hti : totalImpulse (e : Contact K) i = ((e : Contact K).Jf 0).get 0 i * (e : Contact K).tangentLambda.at_ 0 +
      ((e : Contact K).Jf 1).get 0 i * (e : Contact K).tangentLambda.at_ 1 + pull (e : Contact K).Jn (e : Contact K).normalLambda.toV i := rfl
    rw [hti, hr.Jf, hr.Jf, pull]
    have : ∀ j : Fin 2, (if j.val < f.nContacts then rowOf f p s0.pos f.tangent j i else 0) * (e : Contact K).tangentLambda.at_ j = 0 := by
      intro j
      split_ifs with h
      · rw [hsm j h, mul_zero]
      · rw [zero_mul]
    rw [this, this, add_zero, zero_add]
    refine Finset.sum_congr rfl fun r _ => ?_
    rw [hr.Jn]
    rfl

theorem Kind.pdamp_nonneg (k : Kind K) {e : k.State} (hr : k.Regular c p s0 e) (hpl : k.Plain p e) (r : Fin k.size) : 0 ≤ k.pdamp p s0 e r := by
  cases k with
  | equality d f => exact hr.1 r
  | mouse f => exact hr.1 r
  | inequality d f => exact le_refl _
  | limits f =>
    change Fin 1 at r
    obtain rfl : r = 0 := Subsingleton.elim _ _
    simp only [Kind.pdamp]
    split_ifs
    · exact le_refl _
    · exact hpl.2
  | contact => exact le_refl _

theorem Kind.rows_same (k : Kind K) {e e' : k.State} (h : k.Same e e') : k.prow p s0 e' = k.prow p s0 e ∧ k.pset c p s0 e' = k.pset c p s0 e := by
  cases k with
  | equality d f => exact ⟨rfl, rfl⟩
  | mouse f => exact ⟨rfl, rfl⟩
  | inequality d f => exact ⟨rfl, rfl⟩
  | limits f =>
    have hnext : (e' : LimitsSolver K).nextFunc p f s0 = (e : LimitsSolver K).nextFunc p f s0 := by
      unfold LimitsSolver.nextFunc; rw [h.1, h.2.1]
    simp only [Kind.prow, Kind.pset]
    rw [hnext]
    exact ⟨rfl, rfl⟩
  | contact =>
    simp only [Kind.prow, Kind.pset]
    rw [h.1]
    exact ⟨rfl, rfl⟩

end

end Simu
