import Verif.Spec.Constraint
import Verif.Props.Solver
import Verif.Lemmas.Vec2
import Mathlib.Tactic.Ring
import Mathlib.Tactic.LinearCombination
import Mathlib.Tactic.Abel
import Mathlib.Algebra.BigOperators.Fin
import Mathlib.LinearAlgebra.Matrix.Determinant.Basic
import Mathlib.LinearAlgebra.Matrix.Block
import Mathlib.LinearAlgebra.Matrix.NonsingularInverse
/-
Lemmas about proxies, impulses and constraint solvers.
-/
namespace Simu
open Mat
variable {K : Type*} [Field K]

@[simp] theorem Velocity.add_linear (a b : Velocity K) : (a + b).linear = a.linear + b.linear := rfl
@[simp] theorem Velocity.add_angular (a b : Velocity K) : (a + b).angular = a.angular + b.angular := rfl
@[simp] theorem Velocity.zero_linear : (0 : Velocity K).linear = 0 := rfl
@[simp] theorem Velocity.zero_angular : (0 : Velocity K).angular = 0 := rfl

instance : AddCommMonoid (Velocity K) where
  add_assoc a b c := by ext <;> simp <;> ring
  zero_add a := by ext <;> simp
  add_zero a := by ext <;> simp
  add_comm a b := by ext <;> simp <;> ring
  nsmul := nsmulRec

theorem Proxies.applyImpulse_vel (p : Proxies K) (P : MVec K 6) (s : SolveState K) (i : Nat) :
    (p.applyImpulse P s).vel i = s.vel i + kick p P.toV i := by
  simp only [Proxies.applyImpulse, SolveState.incrementVel, SolveState.setVel, kick, toV, Function.update_apply]
  by_cases h1 : i = p.i1 <;> by_cases h0 : i = p.i0
  · have h : p.i1 = p.i0 := by rw [← h1, h0]
    simp only [h1, h, if_true]
    ext <;> simp <;> ring
  · have h : p.i1 ≠ p.i0 := by rw [← h1]; exact h0
    simp only [h1, h, if_true, if_false]
    ext <;> simp <;> ring
  · have h : p.i0 ≠ p.i1 := by rw [← h0]; exact h1
    simp only [h0, h, if_true, if_false]
    ext <;> simp <;> ring
  · simp only [h0, h1, if_false]
    ext <;> simp

theorem Proxies.applyImpulse_pos (p : Proxies K) (P : MVec K 6) (s : SolveState K) :
    (p.applyImpulse P s).pos = s.pos := rfl

theorem kick_add (p : Proxies K) (P Q : Six K) (i : Nat) : kick p (fun c => P c + Q c) i = kick p P i + kick p Q i := by
  unfold kick
  by_cases h0 : i = p.i0 <;> by_cases h1 : i = p.i1 <;> simp only [h0, h1, if_true, if_false] <;>
    (try split_ifs) <;> ext <;> simp <;> ring

theorem kick_zero (p : Proxies K) (i : Nat) : kick p (fun _ => 0) i = 0 := by
  unfold kick
  split_ifs <;> ext <;> simp

section
variable {d : Nat}

theorem toV_impulse (J : Mat K d 6) (l : MVec K d) : (SolverBase.impulse J l).toV = pull J l.toV := by
  funext c
  simp only [SolverBase.impulse, toV, at_mul, pull, get_transpose]

theorem pull_sub (J : Mat K d 6) (a b : Fin d → K) (c : Fin 6) :
    pull J (fun r => a r - b r) c = pull J a c - pull J b c := by
  simp only [pull, mul_sub, Finset.sum_sub_distrib]

theorem pull_add (J : Mat K d 6) (a b : Fin d → K) (c : Fin 6) :
    pull J (fun r => a r + b r) c = pull J a c + pull J b c := by
  simp only [pull, mul_add, Finset.sum_add_distrib]

theorem pull_zero (J : Mat K d 6) : pull J (fun _ => 0) = fun _ => 0 := by
  funext c; simp [pull]

theorem pull_neg (J : Mat K d 6) (a : Fin d → K) (c : Fin 6) : pull J (fun r => -a r) c = -pull J a c := by
  simp [pull]

/-- `J M⁻¹ Jᵀ x`. -/
theorem effectiveMass_mul (p : Proxies K) (J : Mat K d 6) (x : MVec K d) (r : Fin d) :
    (((J.mul p.inverseMass).mul J.transpose).mul x).at_ r = push J (fun c => p.invMassVec.at_ c * pull J x.toV c) r := by
  have h : ∀ r c, (J.mul p.inverseMass).get r c = J.get r c * p.invMassVec.at_ c := by
    intro r c
    rw [get_mul]
    simp only [Proxies.inverseMass, get_diagonal, mul_ite, mul_zero, Finset.sum_ite_eq', Finset.mem_univ, if_true]
  simp only [at_mul, get_mul, h, push, pull, get_transpose, toV, Finset.mul_sum, Finset.sum_mul]
  rw [Finset.sum_comm]
  refine Finset.sum_congr rfl fun c _ => Finset.sum_congr rfl fun k _ => ?_
  ring

theorem velocity_toV (p : Proxies K) (s : SolveState K) (c : Fin 6) : (p.velocity s).at_ c =
    ![(s.vel p.i0).linear.x, (s.vel p.i0).linear.y, (s.vel p.i0).angular,
      (s.vel p.i1).linear.x, (s.vel p.i1).linear.y, (s.vel p.i1).angular] c := rfl

/-- The constrained velocity after an impulse along the Jacobian. -/
theorem push_applyImpulse (p : Proxies K) (J : Mat K d 6) (h : p.i0 ≠ p.i1 ∨ FirstOnly J) (P : MVec K 6)
    (hP : FirstOnly J → P.at_ 3 = 0 ∧ P.at_ 4 = 0 ∧ P.at_ 5 = 0) (s : SolveState K) (r : Fin d) :
    push J (p.velocity (p.applyImpulse P s)).toV r =
      push J (p.velocity s).toV r + push J (fun c => p.invMassVec.at_ c * P.at_ c) r := by
  simp only [push, toV, velocity_toV, Proxies.applyImpulse_vel, Proxies.invMassVec, at_ofFn, Fin.sum_univ_six]
  rcases h with h | h
  · simp [kick, h, h.symm, toV]
    ring
  · obtain ⟨h3, h4, h5⟩ := h r
    obtain ⟨e3, e4, e5⟩ := hP h
    by_cases hi : p.i0 = p.i1
    · simp [kick, hi, toV, h3, h4, h5, e3, e4, e5]
      ring
    · simp [kick, hi, toV, h3, h4, h5]
      ring

theorem pull_firstOnly {J : Mat K d 6} (h : FirstOnly J) (l : Fin d → K) :
    pull J l 3 = 0 ∧ pull J l 4 = 0 ∧ pull J l 5 = 0 := by
  simp [pull, fun r => (h r).1, fun r => (h r).2.1, fun r => (h r).2.2]

/-- The constrained velocity after `λ` is applied along the Jacobian. -/
theorem push_impulse (p : Proxies K) (J : Mat K d 6) (h : p.i0 ≠ p.i1 ∨ FirstOnly J) (l : MVec K d) (s : SolveState K)
    (r : Fin d) : push J (p.velocity (p.applyImpulse (SolverBase.impulse J l) s)).toV r =
      push J (p.velocity s).toV r + (((J.mul p.inverseMass).mul J.transpose).mul l).at_ r := by
  rw [push_applyImpulse p J h, effectiveMass_mul]
  · congr 2
    funext c
    have := congrFun (toV_impulse J l) c
    simp only [toV] at this ⊢
    rw [this]
  · intro hJ
    have := toV_impulse J l
    have h' := pull_firstOnly hJ l.toV
    simp only [funext_iff, toV] at this
    rw [this, this, this]
    exact h'

variable [LinearOrder K]

namespace SolverBase

theorem updateLambda_base (b : SolverBase K d) (p : Proxies K) (f : CFun K d) (dt : K) (dl : MVec K d) (s : SolveState K) :
    (b.updateLambda p f dt dl s).1 = { b with lambda := f.clampLambda (b.lambda.add dl) dt } := rfl

theorem updateLambda_pos (b : SolverBase K d) (p : Proxies K) (f : CFun K d) (dt : K) (dl : MVec K d) (s : SolveState K) :
    (b.updateLambda p f dt dl s).2.pos = s.pos := rfl

theorem updateLambda_state (b : SolverBase K d) (p : Proxies K) (f : CFun K d) (dt : K) (dl : MVec K d) (s : SolveState K) :
    (b.updateLambda p f dt dl s).2 = p.applyImpulse (impulse b.J ((b.updateLambda p f dt dl s).1.lambda.sub b.lambda)) s :=
  rfl

/-- If the constraint has contributed `Jᵀ λ` so far, it has after an update. -/
theorem updateLambda_telescope (b : SolverBase K d) (p : Proxies K) (f : CFun K d) (dt : K) (dl : MVec K d)
    (s : SolveState K) (V : Nat → Velocity K) (h : ∀ i, s.vel i = V i + kick p (pull b.J b.lambda.toV) i) (i : Nat) :
    (b.updateLambda p f dt dl s).2.vel i = V i + kick p (pull b.J (b.updateLambda p f dt dl s).1.lambda.toV) i := by
  rw [updateLambda_state, Proxies.applyImpulse_vel, h, add_assoc, ← kick_add]
  congr 2
  funext c
  rw [congrFun (toV_impulse _ _) c]
  set l' := (b.updateLambda p f dt dl s).1.lambda
  have : (l'.sub b.lambda).toV = fun r => l'.toV r - b.lambda.toV r := by
    funext r; simp only [toV, at_eq_get, get_sub]
  rw [this, pull_sub]
  ring

end SolverBase

theorem maxZero_at (v : MVec K d) (i : Fin d) : (maxZero v).at_ i = max (v.at_ i) 0 := by
  simp only [maxZero, at_ofFn, max_def']
  split_ifs with h1 h2 h2
  · exact absurd h2 (not_le.2 h1)
  · rfl
  · rfl
  · exact absurd h2 (by rw [not_le]; rw [not_le] at h2; exact absurd h2 h1)

end

section Solver
variable [LinearOrder K] [IsStrictOrderedRing K]

/-- Solving with the solver of an invertible matrix; a singular one is reported. -/
theorem KSolver.mk_spec {sqrt : K → K} (hs : ∀ x, 0 ≤ x → sqrt x * sqrt x = x) {d : Nat} (A : Mat K d d) :
    ∃ s, KSolver.mk' sqrt d A = .ok s ∧ (s.isValid = true ↔ A.toM.det ≠ 0) ∧
      (A.toM.det ≠ 0 → ∀ b, ∃ x, s.solve b = .ok x ∧ A.mul x = b ∧ ∀ y, A.mul y = b → y = x) ∧
      (A.toM.det = 0 → ∀ b, s.solve b = .throw) := by
  have gen : ∃ s, SolverN.mk' sqrt A = .ok s ∧ (s.isValid = true ↔ A.toM.det ≠ 0) ∧
      (A.toM.det ≠ 0 → ∀ b, ∃ x, s.solve b = .ok x ∧ A.mul x = b ∧ ∀ y, A.mul y = b → y = x) ∧
      (A.toM.det = 0 → ∀ b, s.solve b = .throw) := by
    rcases solverN_mk hs A with ⟨R, hmk, hdet⟩ | ⟨QT, R, hmk, hA, hQ, hu, hd⟩
    · exact ⟨_, hmk, by simp [hdet], fun h => absurd hdet h, fun _ b => rfl⟩
    · have hRdet : R.toM.det ≠ 0 := by
        rw [Matrix.det_of_isUpperTriangular (M := R.toM) (fun i j hij => hu i j hij)]
        exact Finset.prod_ne_zero_iff.2 fun i _ => hd i
      have hQ' : QT.toM.transpose * QT.toM = 1 := mul_eq_one_comm.1 hQ
      have hdet : A.toM.det ≠ 0 := by
        rw [hA, Matrix.det_mul]
        refine mul_ne_zero ?_ hRdet
        intro h0
        have := congrArg Matrix.det hQ
        rw [Matrix.det_mul, h0, mul_zero, Matrix.det_one] at this
        exact zero_ne_one this
      refine ⟨_, hmk, by simp [hdet], fun _ => ?_, fun h => absurd h hdet⟩
      intro b
      refine ⟨(forDown d (backStep R) (QT.mul b, Mat.zero)).2, by simp only [SolverN.solve, Outcome.check, if_true, Outcome.bind_ok], ?_⟩
      have hback := back_substitution R (QT.mul b) hu hd
      set x := (forDown d (backStep R) (QT.mul b, Mat.zero)).2
      clear_value x
      have hAx : A.mul x = b := by
        apply toV_inj
        have h1 : R.toM.mulVec x.toV = QT.toM.mulVec b.toV := by
          rw [← toV_mul QT b]
          funext i
          exact hback i
        rw [toV_mul, hA, ← Matrix.mulVec_mulVec, h1, Matrix.mulVec_mulVec, hQ', Matrix.one_mulVec]
      refine ⟨hAx, ?_⟩
      intro y hy
      apply toV_inj
      have h2 : A.toM.mulVec y.toV = A.toM.mulVec x.toV := by
        rw [← toV_mul, ← toV_mul, hy, hAx]
      have := congrArg (A.toM⁻¹.mulVec) h2
      rwa [Matrix.mulVec_mulVec, Matrix.mulVec_mulVec,
        Matrix.nonsing_inv_mul _ (isUnit_iff_ne_zero.2 hdet), Matrix.one_mulVec, Matrix.one_mulVec] at this
  by_cases hd2 : d = 2
  · subst hd2
    refine ⟨⟨(Solver2.mk' A).isValid, (Solver2.mk' A).solve⟩, rfl, ?_⟩
    obtain ⟨h1, _, h3, h4⟩ := C10_solver2 A
    exact ⟨h1, h3, h4⟩
  · obtain ⟨s, h1, h2, h3, h4⟩ := gen
    refine ⟨⟨s.isValid, s.solve⟩, ?_, h2, h3, h4⟩
    have : KSolver.mk' sqrt d A = (SolverN.mk' sqrt A).bind fun s => .ok ⟨s.isValid, s.solve⟩ := by
      unfold KSolver.mk'
      split
      · exact absurd rfl hd2
      · rfl
    rw [this, h1]; rfl

end Solver
end Simu
