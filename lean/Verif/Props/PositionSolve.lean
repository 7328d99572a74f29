import Verif.Props.Limits
/-
C54: joint position correction. One call displaces the bodies by a multiple (weighted by inverse masses) of the gradients of the
constraint function, by exactly the amount that makes the linearised value what the constraint asks for.
-/
namespace Simu
open Mat
variable {K : Type*} [Field K] [LinearOrder K] [IsStrictOrderedRing K] {d : Nat}

/-- From `s` to `s'` the bodies `i0` and `i1` have been displaced by `q`; nothing else has changed. -/
def Displaced [Trig K] (p : Proxies K) (s s' : SolveState K) (q : Six K) : Prop :=
  s'.vel = s.vel ∧ s'.pos p.i0 = (s.pos p.i0).advance ⟨q 0, q 1⟩ (q 2) ∧
    s'.pos p.i1 = (s.pos p.i1).advance ⟨q 3, q 4⟩ (q 5) ∧ ∀ i, i ≠ p.i0 → i ≠ p.i1 → s'.pos i = s.pos i

/-- The displacement `q` is along the gradients `J`, each body moving in proportion to its inverse mass and inertia. -/
def AlongGradients (p : Proxies K) (J : Mat K d 6) (q : Six K) : Prop :=
  ∃ l : Fin d → K, ∀ c, q c = p.invMassVec.at_ c * ∑ r, J.get r c * l r

omit [LinearOrder K] [IsStrictOrderedRing K] in
theorem positionCorrection_displaced [Trig K] (p : Proxies K) (hi : p.i0 ≠ p.i1) (J : Mat K d 6) (x : MVec K d) (s : SolveState K) :
    Displaced p s (p.applyPositionCorrection (J.transpose.mul x) s) (fun c => p.invMassVec.at_ c * pull J x.toV c) := by
  have hat : ∀ c, (J.transpose.mul x).at_ c = pull J x.toV c := fun c => congrFun (toV_impulse J x) c
  have hsm : ∀ m a b : K, m • (⟨a, b⟩ : Vec2 K) = ⟨m * a, m * b⟩ := fun m a b => by ext <;> simp [mul_comm]
  refine ⟨rfl, ?_, ?_, ?_⟩
  · simp only [Proxies.applyPositionCorrection, SolveState.advancePos, Function.update_apply, hi, if_true, if_false, hat]
    simp only [(invMassVec_at p).1, (invMassVec_at p).2.1, (invMassVec_at p).2.2.1, hsm]
  · simp only [Proxies.applyPositionCorrection, SolveState.advancePos, Function.update_apply, hi.symm, if_true, if_false, hat]
    simp only [(invMassVec_at p).2.2.2.1, (invMassVec_at p).2.2.2.2.1, (invMassVec_at p).2.2.2.2.2, hsm]
  · intro i h0 h1
    simp only [Proxies.applyPositionCorrection, SolveState.advancePos, Function.update_apply, h0, h1, if_false]

/-- C54: correcting the positions of an equality constraint is a Newton step: the bodies are displaced along the gradients such
that the linearised constraint function vanishes, whenever the gradients are independent for the movable bodies. The call is
refused otherwise. -/
theorem C54_equality [Trig K] {sqrt : K → K} (hs : ∀ x, 0 ≤ x → sqrt x * sqrt x = x) (e : EqualitySolver K d) (p : Proxies K)
    (hi : p.i0 ≠ p.i1) (f : CFun K d) (hf : ∀ l, f.clampPositionLambda l = l) (s : SolveState K) :
    ((((f.jacobian p s).mul p.inverseMass).mul (f.jacobian p s).transpose).toM.det ≠ 0 →
      ∃ e' s' q, e.solvePosition sqrt p f s = .ok (e', s') ∧ Displaced p s s' q ∧ AlongGradients p (f.jacobian p s) q ∧
        ∀ r, (f.eval p s).at_ r + push (f.jacobian p s) q r = 0) ∧
    ((((f.jacobian p s).mul p.inverseMass).mul (f.jacobian p s).transpose).toM.det = 0 → e.solvePosition sqrt p f s = .throw) := by
  obtain ⟨k, hk, _, hx, hx0⟩ := KSolver.mk_spec hs (((f.jacobian p s).mul p.inverseMass).mul (f.jacobian p s).transpose)
  constructor
  · intro hdet
    obtain ⟨x, hx1, hx2, _⟩ := hx hdet (f.eval p s).neg
    refine ⟨⟨(e.base.computeEffectiveMass p s f false).1, k⟩, p.applyPositionCorrection ((f.jacobian p s).transpose.mul x) s,
      _, ?_, positionCorrection_displaced p hi (f.jacobian p s) x s, ⟨x.toV, fun c => rfl⟩, ?_⟩
    · simp only [EqualitySolver.solvePosition, SolverBase.computeEffectiveMass, Bool.false_eq_true, if_false, hk, Outcome.bind_ok,
        hx1, hf]
    · intro r
      rw [← effectiveMass_mul, hx2, at_neg, add_neg_cancel]
  · intro hdet
    simp only [EqualitySolver.solvePosition, SolverBase.computeEffectiveMass, Bool.false_eq_true, if_false, hk, Outcome.bind_ok,
      hx0 hdet]
    rfl

omit [IsStrictOrderedRing K] [LinearOrder K] in
theorem det_one (A : Mat K 1 1) : A.toM.det = A.get 0 0 := by rw [Matrix.det_fin_one]; rfl

omit [IsStrictOrderedRing K] in
/-- Linearised change of a one-row constraint by the multiplier `x`. -/
theorem push_one (p : Proxies K) (J : Mat K 1 6) (x : MVec K 1) :
    push J (fun c => p.invMassVec.at_ c * pull J x.toV c) 0 = ((J.mul p.inverseMass).mul J.transpose).get 0 0 * x.at_ 0 := by
  rw [← effectiveMass_mul, mul_at_one]

/-- C54: correcting the position of an inequality constraint of one row changes the linearised value to the nearest allowed one
(positions with a non-negative value are not displaced). Nothing happens if no body can be moved along the gradient. Missing: several rows, for which it is false. -/
theorem C54_inequality_partial [Trig K] {sqrt : K → K} (hs : ∀ x, 0 ≤ x → sqrt x * sqrt x = x) (e : InequalitySolver K 1) (p : Proxies K)
    (hi : p.i0 ≠ p.i1) (f : CFun K 1) (s : SolveState K) (k : K)
    (hk : k = (((f.jacobian p s).mul p.inverseMass).mul (f.jacobian p s).transpose).get 0 0) :
    (0 < k → ∃ e' s' q, e.solvePosition sqrt p (inequalityFun f) s = .ok (e', s') ∧ Displaced p s s' q ∧
      AlongGradients p (f.jacobian p s) q ∧ (f.eval p s).at_ 0 + push (f.jacobian p s) q 0 = max ((f.eval p s).at_ 0) 0) ∧
    (k = 0 → ∃ e', e.solvePosition sqrt p (inequalityFun f) s = .ok (e', s)) := by
  obtain ⟨solver, hmk, hv, hx, _⟩ := KSolver.mk_spec hs (((f.jacobian p s).mul p.inverseMass).mul (f.jacobian p s).transpose)
  have hJ : (inequalityFun f).jacobian = f.jacobian := rfl
  have hE : (inequalityFun f).eval = f.eval := rfl
  have hP : (inequalityFun f).clampPositionLambda = maxZero := rfl
  rw [det_one, ← hk] at hv hx
  constructor
  · intro hpos
    obtain ⟨x, hx1, hx2, _⟩ := hx hpos.ne' (f.eval p s).neg
    have hx3 : k * x.at_ 0 = -(f.eval p s).at_ 0 := by rw [hk, ← mul_at_one, hx2, at_neg]
    refine ⟨{ e with effectiveMass := ((f.jacobian p s).mul p.inverseMass).mul (f.jacobian p s).transpose },
      p.applyPositionCorrection ((f.jacobian p s).transpose.mul (maxZero x)) s, _, ?_,
      positionCorrection_displaced p hi (f.jacobian p s) (maxZero x) s, ⟨(maxZero x).toV, fun c => rfl⟩, ?_⟩
    · simp only [InequalitySolver.solvePosition, hJ, hE, hP, hmk, Outcome.bind_ok, hv.2 hpos.ne', if_true, hx1]
    · rw [push_one, ← hk, maxZero_at]
      rcases le_total (x.at_ 0) 0 with h | h
      · rw [max_eq_right h, mul_zero, add_zero, max_eq_left]
        have := mul_nonpos_of_nonneg_of_nonpos hpos.le h
        linarith
      · rw [max_eq_left h, max_eq_right, hx3, add_neg_cancel]
        have := mul_nonneg hpos.le h
        linarith
  · intro h0
    refine ⟨{ e with effectiveMass := ((f.jacobian p s).mul p.inverseMass).mul (f.jacobian p s).transpose }, ?_⟩
    have : solver.isValid = false := by rw [← Bool.not_eq_true, hv]; simp [h0]
    simp only [InequalitySolver.solvePosition, hJ, hE, hP, hmk, Outcome.bind_ok, this, Bool.false_eq_true, if_false]

/-- The value nearest to `c` that respects a lower and an upper limit. -/
def nearestAllowed (lo hi : Option K) (c : K) : K :=
  match lo, hi with
  | none, none => c
  | some l, none => max l c
  | none, some u => min u c
  | some l, some u => max l (min u c)

/-- C54: correcting the position of a constraint with limits (at least one, in order) changes the linearised value to the nearest one
within the limits; in particular nothing moves while they are respected. -/
theorem C54_limits [Trig K] {sqrt : K → K} (hs : ∀ x, 0 ≤ x → sqrt x * sqrt x = x) (epsilon : K) (he : 0 ≤ epsilon) (fuel : Nat)
    (hfuel : 2 ≤ fuel) (e : LimitsSolver K) (p : Proxies K) (hi : p.i0 ≠ p.i1) (f : CFun K 1) (hf : ∀ l, f.clampPositionLambda l = l)
    (s : SolveState K) (hK : 0 < (((f.jacobian p s).mul p.inverseMass).mul (f.jacobian p s).transpose).get 0 0)
    (lo up : Option K) (hlo : lo = e.L.map (fun l => l.at_ 0)) (hup : up = e.U.map (fun u => u.at_ 0))
    (hsome : lo.isSome ∨ up.isSome) (hord : ∀ l u, lo = some l → up = some u → l ≤ u) :
    ∃ e' s' q, e.solvePosition sqrt epsilon fuel p f s = .ok (some (e', s')) ∧ e'.L = e.L ∧ e'.U = e.U ∧ Displaced p s s' q ∧
      AlongGradients p (f.jacobian p s) q ∧
      (f.eval p s).at_ 0 + push (f.jacobian p s) q 0 = nearestAllowed lo up ((f.eval p s).at_ 0) := by
  obtain ⟨solver, hmk, hv, hx, _⟩ := KSolver.mk_spec hs (((f.jacobian p s).mul p.inverseMass).mul (f.jacobian p s).transpose)
  rw [det_one] at hx
  set C := (f.eval p s).at_ 0 with hC
  set J := f.jacobian p s with hJ
  set M := (J.mul p.inverseMass).mul J.transpose with hM
  set e1 : LimitsSolver K := { e with base := { e.base with J := J } } with he1
  -- the three ways out
  have out : ∀ x : MVec K 1, C + M.get 0 0 * x.at_ 0 = nearestAllowed lo up C →
      e.solvePosition sqrt epsilon fuel p f s = .ok (some (e1, p.applyPositionCorrection (J.transpose.mul x) s)) →
      ∃ e' s' q, e.solvePosition sqrt epsilon fuel p f s = .ok (some (e', s')) ∧ e'.L = e.L ∧ e'.U = e.U ∧ Displaced p s s' q ∧
        AlongGradients p J q ∧ C + push J q 0 = nearestAllowed lo up C := by
    intro x h1 h2
    exact ⟨e1, _, _, h2, rfl, rfl, positionCorrection_displaced p hi J x s, ⟨x.toV, fun c => rfl⟩, by rw [push_one]; exact h1⟩
  have equality : ∀ l, e.L = some l → e.nextFunc p f s = .equality → nearestAllowed lo up C = l.at_ 0 →
      ∃ e' s' q, e.solvePosition sqrt epsilon fuel p f s = .ok (some (e', s')) ∧ e'.L = e.L ∧ e'.U = e.U ∧ Displaced p s s' q ∧
        AlongGradients p J q ∧ C + push J q 0 = nearestAllowed lo up C := by
    intro l hl hn hnear
    obtain ⟨x, hx1, hx2, _⟩ := hx hK.ne' ((f.eval p s).sub l).neg
    have hx3 : M.get 0 0 * x.at_ 0 = -(C - l.at_ 0) := by rw [← mul_at_one, hx2, at_neg, at_sub, ← hC]
    refine out x (by rw [hx3, hnear]; ring) ?_
    have hn' : LimitsSolver.nextFunc e1 p f s = .equality := hn
    simp only [LimitsSolver.solvePosition, SolverBase.computeEffectiveMass, Bool.false_eq_true, if_false, ← hJ, ← hM, ← he1, hn']
    simp only [hl, LimitsSolver.value, Outcome.bind_ok, hmk, hx1, hf]
  have lower : ∀ l, e.L = some l → e.nextFunc p f s = .lower → C ≤ l.at_ 0 → nearestAllowed lo up C = l.at_ 0 →
      ∃ e' s' q, e.solvePosition sqrt epsilon fuel p f s = .ok (some (e', s')) ∧ e'.L = e.L ∧ e'.U = e.U ∧ Displaced p s s' q ∧
        AlongGradients p J q ∧ C + push J q 0 = nearestAllowed lo up C := by
    intro l hl hn hle hnear
    obtain ⟨x, hx1, hx2⟩ := solveInequalities_one M ((f.eval p s).sub l).neg (fun l => maxZero (f.clampPositionLambda l)) Mat.zero
      epsilon he fuel hfuel
    have hx3 : x.at_ 0 = -(C - l.at_ 0) / M.get 0 0 := by
      rw [hx2, maxZero_at, hf, at_ofFn, at_neg, at_sub]
      exact max_eq_left (div_nonneg (by linarith) hK.le)
    refine out x (by rw [hx3, hnear, mul_div_cancel₀ _ hK.ne']; ring) ?_
    have hn' : LimitsSolver.nextFunc e1 p f s = .lower := hn
    simp only [LimitsSolver.solvePosition, SolverBase.computeEffectiveMass, Bool.false_eq_true, if_false, ← hJ, ← hM, ← he1, hn']
    simp only [hl, LimitsSolver.value, Outcome.bind_ok, hx1, Option.map_some]
  have upper : ∀ u, e.U = some u → e.nextFunc p f s = .upper → u.at_ 0 ≤ C → nearestAllowed lo up C = u.at_ 0 →
      ∃ e' s' q, e.solvePosition sqrt epsilon fuel p f s = .ok (some (e', s')) ∧ e'.L = e.L ∧ e'.U = e.U ∧ Displaced p s s' q ∧
        AlongGradients p J q ∧ C + push J q 0 = nearestAllowed lo up C := by
    intro u hu hn hle hnear
    obtain ⟨x, hx1, hx2⟩ := solveInequalities_one M ((f.eval p s).sub u) (fun l => maxZero (f.clampPositionLambda l.neg).neg) Mat.zero
      epsilon he fuel hfuel
    have hx3 : x.at_ 0 = (C - u.at_ 0) / M.get 0 0 := by
      rw [hx2, maxZero_at, at_neg, hf, at_neg, at_ofFn, neg_neg, at_sub]
      exact max_eq_left (div_nonneg (by linarith) hK.le)
    refine out x.neg (by rw [at_neg, hx3, hnear, mul_neg, mul_div_cancel₀ _ hK.ne']; ring) ?_
    have hn' : LimitsSolver.nextFunc e1 p f s = .upper := hn
    simp only [LimitsSolver.solvePosition, SolverBase.computeEffectiveMass, Bool.false_eq_true, if_false, ← hJ, ← hM, ← he1, hn']
    simp only [hu, LimitsSolver.value, Outcome.bind_ok, hx1, Option.map_some]
  have off : e.nextFunc p f s = .off → nearestAllowed lo up C = C →
      ∃ e' s' q, e.solvePosition sqrt epsilon fuel p f s = .ok (some (e', s')) ∧ e'.L = e.L ∧ e'.U = e.U ∧ Displaced p s s' q ∧
        AlongGradients p J q ∧ C + push J q 0 = nearestAllowed lo up C := by
    intro hn hnear
    refine out Mat.zero (by rw [at_zero, mul_zero, add_zero, hnear]) ?_
    have hn' : LimitsSolver.nextFunc e1 p f s = .off := hn
    simp only [LimitsSolver.solvePosition, SolverBase.computeEffectiveMass, Bool.false_eq_true, if_false, ← hJ, ← hM, ← he1, hn']
  rcases Option.eq_none_or_eq_some e.L with hL | ⟨l, hL⟩
  · rcases Option.eq_none_or_eq_some e.U with hU | ⟨u, hU⟩
    · simp [hlo, hup, hL, hU] at hsome
    · have hnear : nearestAllowed lo up C = min (u.at_ 0) C := by rw [hlo, hup, hL, hU]; rfl
      have hn : e.nextFunc p f s = if -C + u.at_ 0 ≤ 0 then .upper else .off := by simp only [LimitsSolver.nextFunc, hL, hU, ← hC]
      by_cases h : -C + u.at_ 0 ≤ 0
      · rw [if_pos h] at hn
        exact upper u hU hn (by linarith) (by rw [hnear]; exact min_eq_left (by linarith))
      · rw [if_neg h] at hn
        exact off hn (by rw [hnear]; exact min_eq_right (by linarith))
  · rcases Option.eq_none_or_eq_some e.U with hU | ⟨u, hU⟩
    · have hnear : nearestAllowed lo up C = max (l.at_ 0) C := by rw [hlo, hup, hL, hU]; rfl
      have hn : e.nextFunc p f s = if C - l.at_ 0 ≤ 0 then .lower else .off := by simp only [LimitsSolver.nextFunc, hL, hU, ← hC]
      by_cases h : C - l.at_ 0 ≤ 0
      · rw [if_pos h] at hn
        exact lower l hL hn (by linarith) (by rw [hnear]; exact max_eq_left (by linarith))
      · rw [if_neg h] at hn
        exact off hn (by rw [hnear]; exact max_eq_right (by linarith))
    · have hnear : nearestAllowed lo up C = max (l.at_ 0) (min (u.at_ 0) C) := by rw [hlo, hup, hL, hU]; rfl
      have hlu : l.at_ 0 ≤ u.at_ 0 := hord _ _ (by rw [hlo, hL]; rfl) (by rw [hup, hU]; rfl)
      have hn : e.nextFunc p f s = if l.at_ 0 = u.at_ 0 then .equality else if C - l.at_ 0 ≤ 0 then .lower
          else if -C + u.at_ 0 ≤ 0 then .upper else .off := by
        simp only [LimitsSolver.nextFunc, hL, hU, ← hC]
      by_cases h0 : l.at_ 0 = u.at_ 0
      · rw [if_pos h0] at hn
        exact equality l hL hn (by rw [hnear, h0]; exact max_eq_left (min_le_left _ _))
      rw [if_neg h0] at hn
      by_cases h : C - l.at_ 0 ≤ 0
      · rw [if_pos h] at hn
        exact lower l hL hn (by linarith) (by rw [hnear]; exact max_eq_left ((min_le_right _ _).trans (by linarith)))
      rw [if_neg h] at hn
      by_cases h' : -C + u.at_ 0 ≤ 0
      · rw [if_pos h'] at hn
        exact upper u hU hn (by linarith) (by rw [hnear, min_eq_left (by linarith)]; exact max_eq_right hlu)
      · rw [if_neg h'] at hn
        exact off hn (by rw [hnear, min_eq_right (by linarith)]; exact max_eq_right (by linarith))

/-! ### Cases -/

theorem sample_position_mass : 0 < ((((distanceFun ⟨0, 1⟩ ⟨0, 1⟩).jacobian sampleBodies.proxies sampleState).mul
    sampleBodies.proxies.inverseMass).mul ((distanceFun ⟨0, 1⟩ ⟨0, 1⟩).jacobian sampleBodies.proxies sampleState).transpose).get 0 0 := by
  have := sample_effectiveMass Mat.zero rfl
  simp only [effectiveMass, get_add, get_diagonal, at_zero, if_true, add_zero] at this
  exact this

theorem sample_distance : ((distanceFun ⟨0, 1⟩ ⟨0, 1⟩).eval sampleBodies.proxies sampleState).at_ 0 = 1 := by
  have e0 : sampleBodies.proxies.i0 = 0 := rfl
  have e1 : sampleBodies.proxies.i1 = 1 := rfl
  simp [distanceFun, at_ofFn, sample_world, e0, e1, Vec2.normSquared, Vec2.dot]

/-- Case for `C54_equality`: the squared distance of two points, which is 1, is corrected towards 0. -/
example : ∃ e' s' q, (sampleSolver 1).solvePosition Real.sqrt sampleBodies.proxies (distanceFun ⟨0, 1⟩ ⟨0, 1⟩) sampleState = .ok (e', s') ∧
    Displaced sampleBodies.proxies sampleState s' q ∧
    push ((distanceFun ⟨0, 1⟩ ⟨0, 1⟩).jacobian sampleBodies.proxies sampleState) q 0 = -1 := by
  obtain ⟨e', s', q, h1, h2, _, h3⟩ := (C54_equality sqrt_lawful (sampleSolver 1) sampleBodies.proxies (by decide)
    (distanceFun ⟨0, 1⟩ ⟨0, 1⟩) (fun _ => rfl) sampleState).1 (by rw [det_one]; exact sample_position_mass.ne')
  have := h3 0
  rw [sample_distance] at this
  exact ⟨e', s', q, h1, h2, by linarith⟩

/-- Case for `C54_inequality_partial`: the squared distance of two points is 1, which is allowed. -/
example (e : InequalitySolver ℝ 1) : ∃ e' s' q, e.solvePosition Real.sqrt sampleBodies.proxies
      (inequalityFun (distanceFun ⟨0, 1⟩ ⟨0, 1⟩)) sampleState = .ok (e', s') ∧ Displaced sampleBodies.proxies sampleState s' q ∧
    push ((distanceFun ⟨0, 1⟩ ⟨0, 1⟩).jacobian sampleBodies.proxies sampleState) q 0 = 0 := by
  obtain ⟨e', s', q, h1, h2, _, h3⟩ := (C54_inequality_partial sqrt_lawful e sampleBodies.proxies (by decide)
    (distanceFun ⟨0, 1⟩ ⟨0, 1⟩) sampleState _ rfl).1 sample_position_mass
  rw [sample_distance, max_eq_left zero_le_one] at h3
  exact ⟨e', s', q, h1, h2, by linarith⟩

/-- Case for `C54_limits`: points at distance 1 that should be 2 to 3 apart. -/
example : ∃ e e' s' q, distanceLimits (some 2) (some 3) = .ok e ∧ e.solvePosition Real.sqrt (1 / 1000) 2 sampleBodies.proxies
      (distanceFun ⟨0, 1⟩ ⟨0, 1⟩) sampleState = .ok (some (e', s')) ∧ Displaced sampleBodies.proxies sampleState s' q ∧
    1 + push ((distanceFun ⟨0, 1⟩ ⟨0, 1⟩).jacobian sampleBodies.proxies sampleState) q 0 = 2 * 2 := by
  obtain ⟨e, h1, hU, hL⟩ : ∃ e : LimitsSolver ℝ, distanceLimits (some 2) (some 3) = .ok e ∧ e.U = some (Mat.ofFn ![3 * 3]) ∧
      e.L = some (Mat.ofFn ![2 * 2]) :=
    ⟨_, (C48_distance_limits_partial _ _).trans (if_pos (by norm_num)), rfl, rfl⟩
  obtain ⟨e', s', q, h2, _, _, h3, _, h4⟩ := C54_limits sqrt_lawful (1 / 1000) (by norm_num) 2 le_rfl e sampleBodies.proxies (by decide)
    (distanceFun ⟨0, 1⟩ ⟨0, 1⟩) (fun _ => rfl) sampleState sample_position_mass (some (2 * 2)) (some (3 * 3))
    (by rw [hL]; simp [at_ofFn]) (by rw [hU]; simp [at_ofFn]) (by simp) (by intro l u hl hu; cases hl; cases hu; norm_num)
  rw [sample_distance] at h4
  refine ⟨e, e', s', q, h1, h2, h3, ?_⟩
  rw [h4]
  norm_num [nearestAllowed]

/-- C54 is false for systems of two inequalities. This one holds, its values being 0 and 1, and yet its position correction displaces a body: the point (1, 0) of the second body, which
is immovable, must be neither left of nor below the point (1, -1) of the first. The system is solved before the multipliers are clamped, so the inequality that holds with room to spare
acts through the other one (ConstraintSolver.hpp:243-269). -/
theorem C54_inequalities_disagreement : ∃ (e : InequalitySolver ℝ 2) (p : Proxies ℝ) (f : CFun ℝ 2) (s : SolveState ℝ), p.i0 ≠ p.i1 ∧ (∀ r, 0 ≤ (f.eval p s).at_ r) ∧
    ∃ e' s', e.solvePosition Real.sqrt p (inequalityFun f) s = .ok (e', s') ∧ (s'.pos p.i0).pos ≠ (s.pos p.i0).pos := by
  let p : Proxies ℝ := ⟨0, 1, ⟨1, 1, 0, 0⟩⟩
  let f : CFun ℝ 2 := hingeFun ⟨1, -1⟩ ⟨1, 0⟩
  let s : SolveState ℝ := ⟨fun _ => .make ⟨0, 0⟩ 0 ⟨0, 0⟩, fun _ => ⟨0, 0⟩⟩
  have app0 : ∀ i v, (s.pos i).toWorldSpace.app v = v := fun i v => by
    show (Position.make ⟨0, 0⟩ 0 ⟨0, 0⟩ : Position ℝ).toWorldSpace.app v = v
    rw [C27_placement]; ext <;> simp [rotateAbout, Trig.cos, Trig.sin]
  have hc : ∀ i, (s.pos i).centroid = ⟨0, 0⟩ := fun i => by
    show (Position.make ⟨0, 0⟩ 0 ⟨0, 0⟩ : Position ℝ).centroid = _
    rw [C27_centroid]; ext <;> simp [Position.make]
  have hE : f.eval p s = Mat.ofFn ![0, 1] := by
    show Vec2.toMVec _ = _
    rw [app0, app0]
    refine ext_at fun i => ?_
    fin_cases i <;> simp [Vec2.toMVec, at_ofFn]
  have hJ : ∀ r c, (f.jacobian p s).get r c = (![![-1, 0, -1, 1, 0, 0], ![0, -1, -1, 0, 1, 1]] : Fin 2 → Fin 6 → ℝ) r c := fun r c => by
    rw [hinge_get, app0, app0, hc]
    fin_cases r <;> fin_cases c <;> norm_num
  have hK : ∀ r c, (((f.jacobian p s).mul p.inverseMass).mul (f.jacobian p s).transpose).get r c = (![![2, 1], ![1, 2]] : Fin 2 → Fin 2 → ℝ) r c := fun r c => by
    simp only [Proxies.inverseMass, get_mul, get_transpose, get_diagonal, Fin.sum_univ_six, hJ, Proxies.invMassVec, at_ofFn]
    fin_cases r <;> fin_cases c <;> simp [p] <;> norm_num
  obtain ⟨solver, hmk, hv, hx, _⟩ := KSolver.mk_spec sqrt_lawful (((f.jacobian p s).mul p.inverseMass).mul (f.jacobian p s).transpose)
  have hdet : (((f.jacobian p s).mul p.inverseMass).mul (f.jacobian p s).transpose).toM.det ≠ 0 := by
    rw [Matrix.det_fin_two]
    simp only [toM, Matrix.of_apply, hK]
    norm_num
  obtain ⟨x, hx1, hx2, _⟩ := hx hdet (f.eval p s).neg
  have h0 := congrArg (fun v => at_ v 0) hx2
  have h1 := congrArg (fun v => at_ v 1) hx2
  simp only [at_mul, Fin.sum_univ_two, hK, hE, at_neg, at_ofFn] at h0 h1
  norm_num at h0 h1
  have x0 : x.at_ 0 = 1 / 3 := by linarith
  have x1 : x.at_ 1 = -2 / 3 := by linarith
  refine ⟨⟨.init, Mat.zero⟩, p, f, s, by decide, fun r => ?_, ⟨.init, ((f.jacobian p s).mul p.inverseMass).mul (f.jacobian p s).transpose⟩,
    p.applyPositionCorrection ((f.jacobian p s).transpose.mul (maxZero x)) s, ?_, ?_⟩
  · rw [hE, at_ofFn]; fin_cases r <;> norm_num
  · have hJ' : (inequalityFun f).jacobian = f.jacobian := rfl
    have hE' : (inequalityFun f).eval = f.eval := rfl
    have hP' : (inequalityFun f).clampPositionLambda = maxZero := rfl
    simp only [InequalitySolver.solvePosition, hJ', hE', hP', hmk, Outcome.bind_ok, hv.2 hdet, if_true, hx1]
  · obtain ⟨-, h, -⟩ := positionCorrection_displaced p (by decide) (f.jacobian p s) (maxZero x) s
    rw [h]
    intro he
    have := congrArg (fun t => Vec2.x (Translation.offset t)) he
    simp [Position.advance, Translation.mul, pull, Fin.sum_univ_two, hJ, toV, maxZero_at, x0, x1, (invMassVec_at p).1, p] at this

end Simu
