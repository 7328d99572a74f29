import Verif.Lemmas.Constraint
import Verif.Lemmas.Samples
import Mathlib.Tactic.Linarith
import Mathlib.Tactic.FieldSimp
import Mathlib.Algebra.BigOperators.Field
/-
C33: accumulated impulses respect the bounds of the constraint.
(Cases that meet the hypotheses of these theorems are in Props/Equality.lean, where solvability is established.)
-/
namespace Simu
open Mat
variable {K : Type*} [Field K] [LinearOrder K] [IsStrictOrderedRing K] {d : Nat}

/-! ### What the solvers do to the velocities -/

/-- Equality solvers: whatever the events, the velocities are the initial ones, plus the changes by others, plus
`M⁻¹ Jᵀ λ` for the Jacobian of `initSolve` and the final accumulated multiplier. -/
theorem EqualitySolver.runEvents_telescope (p : Proxies K) (f : CFun K d) (dt : K) (l : List (SolveEvent K))
    (e e' : EqualitySolver K d) (s s' : SolveState K) (V : Nat → Velocity K)
    (h : ∀ i, s.vel i = V i + kick p (pull e.base.J e.base.lambda.toV) i)
    (hr : EqualitySolver.runEvents p f dt l (e, s) = .ok (e', s')) :
    (∀ i, s'.vel i = (V i + others l i) + kick p (pull e'.base.J e'.base.lambda.toV) i) ∧
      e'.base.J = e.base.J ∧ s'.pos = s.pos ∧ e'.solver = e.solver ∧ e'.base.damping = e.base.damping ∧
      e'.base.restitution = e.base.restitution := by
  induction l generalizing e s V with
  | nil =>
    cases hr
    exact ⟨fun i => by rw [h, others, add_zero], rfl, rfl, rfl, rfl, rfl⟩
  | cons ev l ih =>
    cases ev with
    | warmstart =>
      simp only [EqualitySolver.runEvents, EqualitySolver.warmstart, SolverBase.warmstartDefault] at hr
      exact ih { e with base := (e.base.updateLambda p f dt e.base.previousLambda s).1 } (e.base.updateLambda p f dt e.base.previousLambda s).2 V
        (SolverBase.updateLambda_telescope e.base p f dt e.base.previousLambda s V h) hr
    | solve =>
      simp only [EqualitySolver.runEvents] at hr
      cases hx : e.solver.solve (e.base.computeRhs p s f dt true) with
      | ok x =>
        have hv : e.solveVelocity p f dt s =
            .ok ({ e with base := (e.base.updateLambda p f dt x s).1 }, (e.base.updateLambda p f dt x s).2) := by
          simp only [EqualitySolver.solveVelocity, hx, Outcome.bind_ok]
        rw [hv, Outcome.bind_ok] at hr
        exact ih { e with base := (e.base.updateLambda p f dt x s).1 } (e.base.updateLambda p f dt x s).2 V
          (SolverBase.updateLambda_telescope e.base p f dt x s V h) hr
      | throw => simp [EqualitySolver.solveVelocity, hx] at hr
      | ub => simp [EqualitySolver.solveVelocity, hx] at hr
    | other c =>
      have := ih _ _ (fun i => V i + c i) (fun i => by simp only [SolveState.change, h]; abel) hr
      refine ⟨fun i => ?_, this.2⟩
      rw [this.1 i, others]; abel

theorem InequalitySolver.runEvents_telescope (epsilon : K) (fuel : Nat) (p : Proxies K) (f : CFun K d) (dt : K)
    (l : List (SolveEvent K)) (e e' : InequalitySolver K d) (s s' : SolveState K) (V : Nat → Velocity K)
    (h : ∀ i, s.vel i = V i + kick p (pull e.base.J e.base.lambda.toV) i)
    (hr : InequalitySolver.runEvents epsilon fuel p f dt l (e, s) = some (e', s')) :
    (∀ i, s'.vel i = (V i + others l i) + kick p (pull e'.base.J e'.base.lambda.toV) i) ∧
      e'.base.J = e.base.J ∧ s'.pos = s.pos := by
  induction l generalizing e s V with
  | nil =>
    cases hr
    exact ⟨fun i => by rw [h, others, add_zero], rfl, rfl⟩
  | cons ev l ih =>
    cases ev with
    | warmstart =>
      simp only [InequalitySolver.runEvents, InequalitySolver.warmstart, SolverBase.warmstartDefault] at hr
      exact ih { e with base := (e.base.updateLambda p f dt e.base.previousLambda s).1 } (e.base.updateLambda p f dt e.base.previousLambda s).2 V
        (SolverBase.updateLambda_telescope e.base p f dt e.base.previousLambda s V h) hr
    | solve =>
      simp only [InequalitySolver.runEvents] at hr
      rw [Option.bind_eq_some_iff] at hr
      obtain ⟨es, hs, hr⟩ := hr
      simp only [InequalitySolver.solveVelocity, Option.map_eq_some_iff] at hs
      obtain ⟨x, _, rfl⟩ := hs
      exact ih { e with base := (e.base.updateLambda p f dt (x.sub e.base.lambda) s).1 } (e.base.updateLambda p f dt (x.sub e.base.lambda) s).2 V
        (SolverBase.updateLambda_telescope e.base p f dt (x.sub e.base.lambda) s V h) hr
    | other c =>
      have := ih _ _ (fun i => V i + c i) (fun i => by simp only [SolveState.change, h]; abel) hr
      refine ⟨fun i => ?_, this.2⟩
      rw [this.1 i, others]; abel

/-- What `initSolve` of an equality solver leaves behind. -/
theorem EqualitySolver.initSolve_ok (sqrt : K → K) (e e' : EqualitySolver K d) (p : Proxies K) (f : CFun K d)
    (s : SolveState K) (h : e.initSolve sqrt p f s = .ok e') :
    e'.base.J = f.jacobian p s ∧ e'.base.lambda = Mat.zero ∧ e'.base.previousLambda = e.base.lambda ∧
    e'.base.damping = e.base.damping ∧ e'.base.restitution = e.base.restitution ∧
    KSolver.mk' sqrt d ((((f.jacobian p s).mul p.inverseMass).mul (f.jacobian p s).transpose).add (Mat.diagonal e.base.damping)) =
      .ok e'.solver ∧ e'.solver.isValid = true := by
  simp only [EqualitySolver.initSolve, SolverBase.computeEffectiveMass, SolverBase.initBase, if_true] at h
  set M := ((((f.jacobian p s).mul p.inverseMass).mul (f.jacobian p s).transpose).add (Mat.diagonal e.base.damping))
  cases hk : KSolver.mk' sqrt d M with
  | ok k =>
    rw [hk, Outcome.bind_ok] at h
    cases hv : k.isValid with
    | true =>
      simp only [hv, Outcome.check, if_true, Outcome.bind_ok, Outcome.ok.injEq] at h
      subst h
      exact ⟨rfl, rfl, rfl, rfl, rfl, rfl, hv⟩
    | false => simp [hv, Outcome.check] at h
  | throw => rw [hk] at h; cases h
  | ub => rw [hk] at h; cases h

theorem pull_zero' (J : Mat K d 6) : pull J (Mat.zero : MVec K d).toV = fun _ => 0 := by
  have : (Mat.zero : MVec K d).toV = fun _ => 0 := rfl
  rw [this, pull_zero]

/-! ### C33 -/

/-- C33: an equality solver changes velocities by its accumulated multiplier, applied once: the warm start and the
iterations add up exactly, whatever other constraints do in between. -/
theorem C33_velocity_change_equality (sqrt : K → K) (e e' e'' : EqualitySolver K d) (p : Proxies K) (f : CFun K d)
    (dt : K) (s s' : SolveState K) (l : List (SolveEvent K)) (h : e.initSolve sqrt p f s = .ok e')
    (hr : EqualitySolver.runEvents p f dt l (e', s) = .ok (e'', s')) (i : Nat) :
    s'.vel i = (s.vel i + others l i) + kick p (pull (f.jacobian p s) e''.base.lambda.toV) i ∧ s'.pos = s.pos := by
  obtain ⟨hJ, hl, _⟩ := EqualitySolver.initSolve_ok sqrt e e' p f s h
  have h0 : ∀ i, s.vel i = s.vel i + kick p (pull e'.base.J e'.base.lambda.toV) i := by
    intro i; rw [hl, pull_zero', kick_zero, add_zero]
  obtain ⟨h1, h2, h3, _⟩ := EqualitySolver.runEvents_telescope p f dt l e' e'' s s' s.vel h0 hr
  rw [h1 i, h2, hJ]
  exact ⟨rfl, h3⟩

/-- C33: the same for an inequality solver. -/
theorem C33_velocity_change_inequality (epsilon : K) (fuel : Nat) (e e'' : InequalitySolver K d) (p : Proxies K)
    (f : CFun K d) (dt : K) (s s' : SolveState K) (l : List (SolveEvent K))
    (hr : InequalitySolver.runEvents epsilon fuel p f dt l (e.initSolve p f s, s) = some (e'', s')) (i : Nat) :
    s'.vel i = (s.vel i + others l i) + kick p (pull (f.jacobian p s) e''.base.lambda.toV) i ∧ s'.pos = s.pos := by
  have h0 : ∀ i, s.vel i = s.vel i + kick p (pull (e.initSolve p f s).base.J (e.initSolve p f s).base.lambda.toV) i := by
    intro i
    have : (e.initSolve p f s).base.lambda = Mat.zero := rfl
    rw [this, pull_zero', kick_zero, add_zero]
  obtain ⟨h1, h2, h3⟩ := InequalitySolver.runEvents_telescope epsilon fuel p f dt l _ e'' s s' s.vel h0 hr
  rw [h1 i, h2]
  exact ⟨rfl, h3⟩

/-- An invariant of the multipliers that the clamping establishes holds after any events. -/
theorem EqualitySolver.runEvents_clamped (p : Proxies K) (f : CFun K d) (dt : K) (Q : MVec K d → Prop)
    (hQ : ∀ l, Q (f.clampLambda l dt)) (l : List (SolveEvent K)) (e e' : EqualitySolver K d) (s s' : SolveState K)
    (h : Q e.base.lambda) (hr : EqualitySolver.runEvents p f dt l (e, s) = .ok (e', s')) : Q e'.base.lambda := by
  induction l generalizing e s with
  | nil => cases hr; exact h
  | cons ev l ih =>
    cases ev with
    | warmstart => exact ih _ _ (hQ _) hr
    | solve =>
      simp only [EqualitySolver.runEvents] at hr
      cases hx : e.solver.solve (e.base.computeRhs p s f dt true) with
      | ok x =>
        have hv : e.solveVelocity p f dt s =
            .ok ({ e with base := (e.base.updateLambda p f dt x s).1 }, (e.base.updateLambda p f dt x s).2) := by
          simp only [EqualitySolver.solveVelocity, hx, Outcome.bind_ok]
        rw [hv, Outcome.bind_ok] at hr
        exact ih _ _ (hQ _) hr
      | throw => simp [EqualitySolver.solveVelocity, hx] at hr
      | ub => simp [EqualitySolver.solveVelocity, hx] at hr
    | other c => exact ih _ _ h hr

theorem InequalitySolver.runEvents_clamped (epsilon : K) (fuel : Nat) (p : Proxies K) (f : CFun K d) (dt : K)
    (Q : MVec K d → Prop) (hQ : ∀ l, Q (f.clampLambda l dt)) (l : List (SolveEvent K)) (e e' : InequalitySolver K d)
    (s s' : SolveState K) (h : Q e.base.lambda)
    (hr : InequalitySolver.runEvents epsilon fuel p f dt l (e, s) = some (e', s')) : Q e'.base.lambda := by
  induction l generalizing e s with
  | nil => cases hr; exact h
  | cons ev l ih =>
    cases ev with
    | warmstart => exact ih _ _ (hQ _) hr
    | solve =>
      simp only [InequalitySolver.runEvents] at hr
      rw [Option.bind_eq_some_iff] at hr
      obtain ⟨es, hs, hr⟩ := hr
      simp only [InequalitySolver.solveVelocity, Option.map_eq_some_iff] at hs
      obtain ⟨x, _, rfl⟩ := hs
      exact ih _ _ (hQ _) hr
    | other c => exact ih _ _ h hr

/-- C33: the accumulated multipliers of an inequality constraint are never negative, whatever was accumulated in
previous steps, warm start included. -/
theorem C33_inequality_nonneg (epsilon : K) (fuel : Nat) (e e' : InequalitySolver K d) (p : Proxies K) (g : CFun K d)
    (dt : K) (s s' : SolveState K) (l : List (SolveEvent K))
    (hr : InequalitySolver.runEvents epsilon fuel p (inequalityFun g) dt l (e.initSolve p (inequalityFun g) s, s) =
      some (e', s')) (i : Fin d) : 0 ≤ e'.base.lambda.at_ i := by
  refine InequalitySolver.runEvents_clamped epsilon fuel p (inequalityFun g) dt (fun v => ∀ i, 0 ≤ v.at_ i) ?_ l _ e' s s'
    ?_ hr i
  · intro l i
    simp only [inequalityFun, maxZero_at]
    exact le_max_right _ _
  · intro i; exact le_refl (0 : K)

/-- Loops that rewrite each component of a vector. -/
theorem forFin_setAt (g : Fin d → K → K) (v : MVec K d) (j : Fin d) :
    (forFin d (fun i l => l.setAt i (g i (l.at_ i))) v).at_ j = g j (v.at_ j) := by
  have key : ∀ (l : List (Fin d)), l.Nodup → ∀ v : MVec K d,
      (l.foldl (fun v i => v.setAt i (g i (v.at_ i))) v).at_ j = if j ∈ l then g j (v.at_ j) else v.at_ j := by
    intro l
    induction l with
    | nil => intro _ v; simp
    | cons a l ih =>
      intro hn v
      rw [List.nodup_cons] at hn
      rw [List.foldl_cons, ih hn.2, at_setAt]
      by_cases hj : j = a
      · subst hj; simp [hn.1]
      · simp [hj]
  have := key _ (List.nodup_finRange d) v
  rw [forFin, this, if_pos (List.mem_finRange j)]

/-- Motors obtained from the public interface. -/
inductive Motor.Reachable (sqrt : K → K) : Motor K d → Prop
  | make (v f : K) : Reachable sqrt (Motor.make v f)
  | setThrottle {m} (t : K) : Reachable sqrt m → Reachable sqrt (m.setThrottle t)
  | setDirection {m} (v : MVec K d) : Reachable sqrt m → Reachable sqrt (m.setDirection sqrt v)

/-- Throttle within [0, 1], non-negative maxima and components of the direction at most 1 in magnitude. -/
theorem Motor.Reachable.inv {sqrt : K → K} (hs : ∀ x, 0 ≤ x → sqrt x * sqrt x = x) {m : Motor K d}
    (h : m.Reachable sqrt) : 0 ≤ m.throttle ∧ m.throttle ≤ 1 ∧ 0 ≤ m.maxForce ∧ 0 ≤ m.maxVelocity ∧
      (∑ i, m.direction.at_ i * m.direction.at_ i = 0 ∨ ∑ i, m.direction.at_ i * m.direction.at_ i = 1) := by
  induction h with
  | make v f =>
    exact ⟨zero_le_one, le_refl _, abs_nonneg _, abs_nonneg _, Or.inl (by simp [Motor.make, at_zero])⟩
  | setThrottle t h ih =>
    refine ⟨?_, ?_, ih.2.2⟩
    · simp only [Motor.setThrottle, Algo.clamp]; split_ifs <;> linarith
    · simp only [Motor.setThrottle, Algo.clamp]; split_ifs <;> linarith
  | setDirection v h ih =>
    simp only [Motor.setDirection]
    have hnn : 0 ≤ ∑ i, v.at_ i * v.at_ i := Finset.sum_nonneg fun i _ => mul_self_nonneg _
    split_ifs with h0
    · rw [dot_eq] at h0
      exact ⟨ih.1, ih.2.1, ih.2.2.1, ih.2.2.2.1, Or.inl h0⟩
    · refine ⟨ih.1, ih.2.1, ih.2.2.1, ih.2.2.2.1, Or.inr ?_⟩
      rw [dot_eq] at h0
      have hq := hs _ hnn
      simp only [at_sdiv, mnorm, dot_eq]
      set q := sqrt (∑ i, v.at_ i * v.at_ i)
      have : ∀ i : Fin d, v.at_ i / q * (v.at_ i / q) = v.at_ i * v.at_ i / (q * q) := fun i => div_mul_div_comm _ _ _ _
      simp only [this]
      rw [← Finset.sum_div, hq, div_self h0]

/-- C33: each accumulated multiplier of a motor stays in the direction asked for and within
`maxForce * throttle * dt * |direction_i|`, at most `maxForce * throttle * dt` (and `maxForce * dt`), whatever
was accumulated in previous steps, warm start included. -/
theorem C33_motor (sqrt : K → K) (hs : ∀ x, 0 ≤ x → sqrt x * sqrt x = x) (m : Motor K d) (hm : m.Reachable sqrt)
    (J : Mat K d 6) (e e' e'' : EqualitySolver K d) (p : Proxies K) (dt : K) (hdt : 0 ≤ dt) (s s' : SolveState K)
    (l : List (SolveEvent K)) (h : e.initSolve sqrt p (m.toFun J) s = .ok e')
    (hr : EqualitySolver.runEvents p (m.toFun J) dt l (e', s) = .ok (e'', s')) (i : Fin d) :
    |e''.base.lambda.at_ i| ≤ |m.direction.at_ i| * m.throttle * m.maxForce * dt ∧
    0 ≤ e''.base.lambda.at_ i * m.direction.at_ i ∧
    |e''.base.lambda.at_ i| ≤ m.throttle * m.maxForce * dt ∧ |e''.base.lambda.at_ i| ≤ m.maxForce * dt := by
  obtain ⟨ht0, ht1, hf, hv, hdir⟩ := hm.inv hs
  have hd1 : |m.direction.at_ i| ≤ 1 := by
    have h1 : m.direction.at_ i * m.direction.at_ i ≤ ∑ i, m.direction.at_ i * m.direction.at_ i :=
      Finset.single_le_sum (f := fun i => m.direction.at_ i * m.direction.at_ i) (fun j _ => mul_self_nonneg _)
        (Finset.mem_univ i)
    have h2 : m.direction.at_ i * m.direction.at_ i ≤ 1 := by rcases hdir with hd | hd <;> linarith
    rw [← abs_mul_abs_self] at h2
    by_contra hc
    push Not at hc
    nlinarith [abs_nonneg (m.direction.at_ i)]
  have hc : 0 ≤ m.throttle * m.maxForce * dt := mul_nonneg (mul_nonneg ht0 hf) hdt
  obtain ⟨_, hl, _⟩ := EqualitySolver.initSolve_ok sqrt e e' p _ s h
  have key : |e''.base.lambda.at_ i| ≤ |m.direction.at_ i| * m.throttle * m.maxForce * dt ∧
      0 ≤ e''.base.lambda.at_ i * m.direction.at_ i := by
    refine EqualitySolver.runEvents_clamped p (m.toFun J) dt
      (fun v => ∀ i, |v.at_ i| ≤ |m.direction.at_ i| * m.throttle * m.maxForce * dt ∧ 0 ≤ v.at_ i * m.direction.at_ i)
      ?_ l e' e'' s s' ?_ hr i
    · intro l i
      simp only [Motor.toFun, Motor.clampLambda]
      rw [forFin_setAt (fun i x => if (((m.direction.smul m.throttle).smul m.maxForce).smul dt).at_ i < 0 then
        Algo.clamp x ((((m.direction.smul m.throttle).smul m.maxForce).smul dt).at_ i) 0
        else Algo.clamp x 0 ((((m.direction.smul m.throttle).smul m.maxForce).smul dt).at_ i))]
      simp only [at_smul]
      have hb : |m.direction.at_ i| * m.throttle * m.maxForce * dt = |m.direction.at_ i * m.throttle * m.maxForce * dt| := by
        rw [abs_mul, abs_mul, abs_mul, abs_of_nonneg ht0, abs_of_nonneg hf, abs_of_nonneg hdt]
      rw [hb]
      set B := m.direction.at_ i * m.throttle * m.maxForce * dt with hB
      have hBd : B = m.direction.at_ i * (m.throttle * m.maxForce * dt) := by rw [hB]; ring
      split_ifs with hneg
      · have hdn : m.direction.at_ i ≤ 0 := by
          by_contra hc'; push Not at hc'
          have := mul_nonneg hc'.le hc
          linarith [hBd ▸ this]
        have hx : B ≤ Algo.clamp (l.at_ i) B 0 ∧ Algo.clamp (l.at_ i) B 0 ≤ 0 := by
          simp only [Algo.clamp]; constructor <;> split_ifs <;> linarith
        refine ⟨?_, mul_nonneg_of_nonpos_of_nonpos hx.2 hdn⟩
        rw [abs_of_nonpos hx.2, abs_of_neg hneg]; linarith
      · push Not at hneg
        have hx : 0 ≤ Algo.clamp (l.at_ i) 0 B ∧ Algo.clamp (l.at_ i) 0 B ≤ B := by
          simp only [Algo.clamp]; constructor <;> split_ifs <;> linarith
        refine ⟨by rw [abs_of_nonneg hx.1, abs_of_nonneg hneg]; exact hx.2, ?_⟩
        rcases le_or_gt 0 (m.direction.at_ i) with hdp | hdn
        · exact mul_nonneg hx.1 hdp
        · have : B ≤ 0 := by rw [hBd]; exact mul_nonpos_of_nonpos_of_nonneg hdn.le hc
          have hz : Algo.clamp (l.at_ i) 0 B = 0 := le_antisymm (by linarith [hx.2]) hx.1
          rw [hz, zero_mul]
    · intro i
      rw [hl, at_zero]
      refine ⟨by rw [abs_zero]; positivity, by rw [zero_mul]⟩
  have h3 : |m.direction.at_ i| * m.throttle * m.maxForce * dt ≤ m.throttle * m.maxForce * dt := by
    have := mul_le_mul_of_nonneg_right hd1 hc
    linarith [show |m.direction.at_ i| * (m.throttle * m.maxForce * dt) = |m.direction.at_ i| * m.throttle * m.maxForce * dt by ring]
  have h4 : m.throttle * m.maxForce * dt ≤ m.maxForce * dt := by
    have := mul_le_mul_of_nonneg_right ht1 (mul_nonneg hf hdt)
    linarith [show m.throttle * (m.maxForce * dt) = m.throttle * m.maxForce * dt by ring]
  exact ⟨key.1, key.2, key.1.trans h3, key.1.trans (h3.trans h4)⟩

/-- C33: over any history of calls, in any states, the multiplier of a `LimitsSolver` at its lower or upper limit is
non-negative (the impulse pushes away from the limit), for functions whose clamping keeps non-negative values so
(the clamping of equality functions does nothing). -/
theorem C33_limits_nonneg [Trig K] (sqrt : K → K) (epsilon : K) (he : 0 ≤ epsilon) (fuel : Nat) (f : CFun K 1)
    (hf : ∀ l dt, 0 ≤ l.at_ 0 → 0 ≤ (f.clampLambda l dt).at_ 0) (e : LimitsSolver K)
    (h : e.Reachable sqrt epsilon fuel f) (hfun : e.func = .lower ∨ e.func = .upper) : 0 ≤ e.base.lambda.at_ 0 := by
  have gs : ∀ (A : Mat K 1 1) (b x0 x : MVec K 1) (g : MVec K 1 → MVec K 1),
      solveInequalitiesVec A b (fun l => maxZero (g l)) x0 epsilon fuel = some x → 0 ≤ x.at_ 0 := by
    intro A b x0 x g hx
    obtain ⟨y, rfl, _⟩ := gsLoop_result _ _ _ _ _ _ _ (by linarith) _ hx
    simp only [sweep, forFin_succ, forFin_zero, sweepRow, at_setAt]
    simp only [maxZero_at]
    simp
  have key : (e.func = .lower ∨ e.func = .upper → 0 ≤ e.base.lambda.at_ 0) ∧
      (e.canWarmstart = true → e.func = .lower ∨ e.func = .upper → 0 ≤ e.base.previousLambda.at_ 0) := by
    clear hfun
    induction h with
    | make => exact ⟨fun _ => le_refl (0 : K), fun h => by simp [LimitsSolver.make] at h⟩
    | setLower l _ ih => exact ih
    | setUpper u _ ih => exact ih
    | @initSolve e e' p s _ h ih =>
      simp only [LimitsSolver.initSolve, SolverBase.initBase, SolverBase.computeEffectiveMass] at h
      have fin : ∀ fn data, (⟨⟨Mat.zero, e.base.lambda, f.jacobian p s, e.base.restitution, e.base.damping⟩, fn, e.L, e.U,
          data, decide (fn = e.func) && decide (fn ≠ Func.off)⟩ : LimitsSolver K) = e' →
          (e'.func = .lower ∨ e'.func = .upper → 0 ≤ e'.base.lambda.at_ 0) ∧
          (e'.canWarmstart = true → e'.func = .lower ∨ e'.func = .upper → 0 ≤ e'.base.previousLambda.at_ 0) := by
        rintro fn data rfl
        refine ⟨fun _ => le_refl (0 : K), fun hw hfun => ?_⟩
        simp only [Bool.and_eq_true, decide_eq_true_eq] at hw
        simp only at hfun
        exact ih.1 (by rw [← hw.1]; exact hfun)
      split at h
      · generalize hk : KSolver.mk' sqrt 1 _ = o at h
        cases o with
        | ok k => rw [Outcome.bind_ok] at h; exact fin _ _ (Outcome.ok.inj h)
        | throw => cases h
        | ub => cases h
      · exact fin _ _ (Outcome.ok.inj h)
      · exact fin _ _ (Outcome.ok.inj h)
      · exact fin _ _ (Outcome.ok.inj h)
    | @warmstart e p dt s _ ih =>
      simp only [LimitsSolver.warmstart]
      split_ifs with h1 h2
      · exact ⟨fun h => ih.2 h1 h, fun h h' => ih.2 h1 h'⟩
      · refine ⟨fun h => ?_, fun h h' => ih.2 h1 h'⟩
        have hp := ih.2 h1 h
        have hl := ih.1 h
        simp only [SolverBase.warmstartDefault, SolverBase.updateLambda_base]
        apply hf
        rw [at_eq_get, get_add, ← at_eq_get, ← at_eq_get]
        exact add_nonneg hl hp
      · exact ih
    | @solveVelocity e e' s' p dt s _ h ih =>
      simp only [LimitsSolver.solveVelocity] at h
      cases hrhs : e.rhs p f dt s with
      | throw => rw [hrhs] at h; cases h
      | ub => rw [hrhs] at h; cases h
      | ok err =>
        rw [hrhs, Outcome.bind_ok] at h
        split at h
        · rename_i solver hfe hd
          cases hx : solver.solve err with
          | throw => rw [hx] at h; cases h
          | ub => rw [hx] at h; cases h
          | ok x =>
            rw [hx, Outcome.bind_ok] at h
            simp only [Outcome.ok.injEq, Option.some.injEq, Prod.mk.injEq] at h
            obtain ⟨rfl, _⟩ := h
            refine ⟨fun h => ?_, fun _ h => ?_⟩ <;> simp [hfe] at h
        · rename_i M hfe hd
          simp only [Outcome.ok.injEq, Option.map_eq_some_iff, Prod.mk.injEq] at h
          obtain ⟨x, hx, rfl, _⟩ := h
          refine ⟨fun _ => ?_, fun hw h => ih.2 hw h⟩
          simp only [SolverBase.updateLambda_base]
          apply hf
          rw [at_eq_get, get_add, get_sub, ← at_eq_get, ← at_eq_get, add_sub_cancel]
          exact gs _ _ _ _ _ hx
        · rename_i M hfe hd
          simp only [Outcome.ok.injEq, Option.map_eq_some_iff, Prod.mk.injEq] at h
          obtain ⟨x, hx, rfl, _⟩ := h
          exact ⟨fun _ => gs _ _ _ _ _ hx, fun hw h => ih.2 hw h⟩
        · simp only [Outcome.ok.injEq, Option.some.injEq, Prod.mk.injEq] at h
          obtain ⟨rfl, _⟩ := h
          exact ih
        · cases h
    | @solvePosition e e' s' p s _ h ih =>
      have hb : e'.base.lambda = e.base.lambda ∧ e'.base.previousLambda = e.base.previousLambda ∧ e'.func = e.func ∧
          e'.canWarmstart = e.canWarmstart := by
        simp only [LimitsSolver.solvePosition, SolverBase.computeEffectiveMass] at h
        split at h
        · generalize hv : LimitsSolver.value e.L = o at h
          cases o with
          | throw => cases h
          | ub => cases h
          | ok l =>
            rw [Outcome.bind_ok] at h
            generalize hk : KSolver.mk' sqrt 1 _ = o at h
            cases o with
            | throw => cases h
            | ub => cases h
            | ok k =>
              rw [Outcome.bind_ok] at h
              generalize hx : k.solve _ = o at h
              cases o with
              | throw => cases h
              | ub => cases h
              | ok x => cases h; exact ⟨rfl, rfl, rfl, rfl⟩
        · generalize hv : LimitsSolver.value e.L = o at h
          cases o with
          | throw => cases h
          | ub => cases h
          | ok l =>
            simp only [Outcome.bind_ok, Outcome.ok.injEq, Option.map_eq_some_iff, Prod.mk.injEq] at h
            obtain ⟨x, _, rfl, _⟩ := h
            exact ⟨rfl, rfl, rfl, rfl⟩
        · generalize hv : LimitsSolver.value e.U = o at h
          cases o with
          | throw => cases h
          | ub => cases h
          | ok l =>
            simp only [Outcome.bind_ok, Outcome.ok.injEq, Option.map_eq_some_iff, Prod.mk.injEq] at h
            obtain ⟨x, _, rfl, _⟩ := h
            exact ⟨rfl, rfl, rfl, rfl⟩
        · cases h; exact ⟨rfl, rfl, rfl, rfl⟩
      obtain ⟨h1, h2, h3, h4⟩ := hb
      rw [h1, h2, h3, h4]
      exact ih
  exact key.1 hfun

end Simu
