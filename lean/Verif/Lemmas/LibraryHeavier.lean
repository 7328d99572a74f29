import Verif.Spec.LibraryHeavier
import Verif.Lemmas.LibraryMoved
import Verif.Lemmas.GaussSeidel
import Mathlib.Tactic.FieldSimp
/-
The constraints of the library do the same to bodies that are all heavier by the same factor.
-/
namespace Simu
open Island Mat

section
variable {K : Type*} [Field K] {κ : K}

theorem Mat.mul_smulVec {m n : Nat} (A : Mat K m n) (x : MVec K n) (s : K) : A.mul (x.smul s) = (A.mul x).smul s := by
  apply ext_get; intro r c
  rw [get_mul, get_smul, get_mul, Finset.sum_mul]
  exact Finset.sum_congr rfl fun i _ => by rw [get_smul]; ring

theorem Mat.sdiv_mul_smul {m n : Nat} (h : κ ≠ 0) (A : Mat K m n) (x : MVec K n) : (A.sdiv κ).mul (x.smul κ) = A.mul x := by
  apply ext_get; intro r c
  rw [get_mul, get_mul]
  exact Finset.sum_congr rfl fun i _ => by rw [get_sdiv, get_smul]; field_simp

theorem Mat.smul_add {m n : Nat} (A B : Mat K m n) (s : K) : (A.add B).smul s = (A.smul s).add (B.smul s) := by
  apply ext_get; intro r c; simp only [get_smul, get_add]; ring

theorem Mat.smul_sub {m n : Nat} (A B : Mat K m n) (s : K) : (A.sub B).smul s = (A.smul s).sub (B.smul s) := by
  apply ext_get; intro r c; simp only [get_smul, get_sub]; ring

theorem Mat.smul_neg {m n : Nat} (A : Mat K m n) (s : K) : A.neg.smul s = (A.smul s).neg := by
  apply ext_get; intro r c; simp only [get_smul, get_neg]; ring

theorem Mat.smul_zero {m n : Nat} (s : K) : (Mat.zero : Mat K m n).smul s = Mat.zero := by
  apply ext_get; intro r c; simp [get_smul]

theorem Mat.sdiv_add {m n : Nat} (A B : Mat K m n) (s : K) : (A.add B).sdiv s = (A.sdiv s).add (B.sdiv s) := by
  apply ext_get; intro r c; simp only [get_sdiv, get_add]; ring

theorem Mat.sdiv_diagonal {n : Nat} (v : MVec K n) (s : K) : Mat.diagonal (v.sdiv s) = (Mat.diagonal v).sdiv s := by
  apply ext_get; intro r c
  simp only [get_diagonal, get_sdiv, at_eq_get]
  split <;> simp

theorem Mat.smul_setAt {n : Nat} (v : MVec K n) (i : Fin n) (x s : K) : (v.setAt i x).smul s = (v.smul s).setAt i (x * s) := by
  apply ext_at; intro j
  rw [at_smul]
  by_cases h : j = i
  · subst h; rw [at_setAt, at_setAt]; simp
  · rw [at_setAt, at_setAt]; simp [h, at_smul]

theorem Proxies.heavier_inverseMass (p : Proxies K) : (p.heavier κ).inverseMass = p.inverseMass.sdiv κ := by
  unfold Proxies.inverseMass
  rw [← sdiv_diagonal]
  congr 1
  apply ext_at; intro i
  rw [at_eq_get (v := Mat.sdiv _ _), get_sdiv, ← at_eq_get]
  fin_cases i <;> rfl

theorem Proxies.heavier_mass (p : Proxies K) {n : Nat} (J : Mat K n 6) : (J.mul (p.heavier κ).inverseMass).mul J.transpose = ((J.mul p.inverseMass).mul J.transpose).sdiv κ := by
  rw [heavier_inverseMass]
  apply ext_get; intro r c
  simp only [get_mul, get_sdiv, Finset.sum_mul, Finset.sum_div]
  exact Finset.sum_congr rfl fun i _ => Finset.sum_congr rfl fun j _ => by ring

theorem Proxies.heavier_applyImpulse (h : κ ≠ 0) (p : Proxies K) (P : MVec K 6) (s : SolveState K) : (p.heavier κ).applyImpulse (P.smul κ) s = p.applyImpulse P s := by
  have e : ∀ (m : K) (i j : Fin 6), (m / κ) • (⟨(P.smul κ).at_ i, (P.smul κ).at_ j⟩ : Vec2 K) = m • (⟨P.at_ i, P.at_ j⟩ : Vec2 K) := by
    intro m i j; ext <;> simp [at_smul] <;> field_simp
  have e' : ∀ (m : K) (i : Fin 6), m / κ * (P.smul κ).at_ i = m * P.at_ i := by
    intro m i; rw [at_smul]; field_simp
  unfold Proxies.applyImpulse Proxies.heavier InvMasses.heavier
  simp only [e, e']

theorem Proxies.heavier_correct [Trig K] (h : κ ≠ 0) (p : Proxies K) (P : MVec K 6) (s : SolveState K) : (p.heavier κ).applyPositionCorrection (P.smul κ) s = p.applyPositionCorrection P s := by
  have e : ∀ (m : K) (i j : Fin 6), (m / κ) • (⟨(P.smul κ).at_ i, (P.smul κ).at_ j⟩ : Vec2 K) = m • (⟨P.at_ i, P.at_ j⟩ : Vec2 K) := by
    intro m i j; ext <;> simp [at_smul] <;> field_simp
  have e' : ∀ (m : K) (i : Fin 6), m / κ * (P.smul κ).at_ i = m * P.at_ i := by
    intro m i; rw [at_smul]; field_simp
  unfold Proxies.applyPositionCorrection Proxies.heavier InvMasses.heavier
  simp only [e, e']

theorem elementWiseMul_heavier (h : κ ≠ 0) (p : Proxies K) (P : MVec K 6) : elementWiseMul (p.heavier κ).invMassVec (P.smul κ) = elementWiseMul p.invMassVec P := by
  apply ext_at; intro i
  unfold elementWiseMul
  rw [at_ofFn, at_ofFn, at_smul]
  have : (p.heavier κ).invMassVec.at_ i = p.invMassVec.at_ i / κ := by fin_cases i <;> rfl
  rw [this]; field_simp

end

section
variable {K : Type*} [Field K] [LinearOrder K] [IsStrictOrderedRing K] {κ : K}

theorem Algo.clamp_scale (h : 0 < κ) (a b c : K) : Algo.clamp (a * κ) (b * κ) (c * κ) = Algo.clamp a b c * κ := by
  unfold Algo.clamp
  dsimp only
  simp only [mul_lt_mul_iff_left₀ h]
  split_ifs <;> simp_all

theorem maxZero_smul (h : 0 < κ) {n : Nat} (v : MVec K n) : maxZero (v.smul κ) = (maxZero v).smul κ := by
  apply ext_at; intro i
  unfold maxZero
  rw [at_smul, at_ofFn, at_ofFn, at_smul]
  by_cases hv : v.at_ i < 0
  · rw [if_pos hv, if_pos (by nlinarith), zero_mul]
  · rw [if_neg hv, if_neg (by push Not at hv ⊢; positivity)]

theorem KSolver.mk_heavier {sqrt : K → K} (hs : ∀ x, 0 ≤ x → sqrt x * sqrt x = x) (h : κ ≠ 0) {n : Nat} (A : Mat K n n) :
    KSolver.mk' sqrt n (A.sdiv κ) = (KSolver.mk' sqrt n A).bind fun s => .ok (s.heavier κ) := by
  obtain ⟨s, h1, h2, h3, h4⟩ := KSolver.mk_spec hs A
  obtain ⟨s', h1', h2', h3', h4'⟩ := KSolver.mk_spec hs (A.sdiv κ)
  rw [h1, h1']
  have hM : (A.sdiv κ).toM = κ⁻¹ • A.toM := by
    ext i j
    show (A.sdiv κ).get i j = κ⁻¹ * A.get i j
    rw [get_sdiv, div_eq_inv_mul]
  have hdet : (A.sdiv κ).toM.det = 0 ↔ A.toM.det = 0 := by
    rw [hM, Matrix.det_smul]; simp [h]
  have hmul : ∀ x : MVec K n, (A.sdiv κ).mul (x.smul κ) = A.mul x := sdiv_mul_smul h A
  show Outcome.ok s' = Outcome.ok (s.heavier κ)
  congr 1
  cases s' with
  | mk v' f' =>
    unfold KSolver.heavier
    congr 1
    · rw [Bool.eq_iff_iff, h2, h2', ne_eq, ne_eq, hdet]
    · funext b
      by_cases hd : A.toM.det = 0
      · rw [h4 hd b]; exact h4' (hdet.2 hd) b
      · obtain ⟨x, k1, k2, k3⟩ := h3 hd b
        obtain ⟨x', k1', k2', k3'⟩ := h3' (fun k => hd (hdet.1 k)) b
        rw [k1]
        refine k1'.trans (congrArg Outcome.ok ?_)
        exact (k3' (x.smul κ) (by rw [hmul, k2])).symm

theorem LcpSolver.mk_heavier (h : κ ≠ 0) (A : Mat K 2 2) : LcpSolver.mk' (A.sdiv κ) = (LcpSolver.mk' A).heavier κ := by
  have hdet : ∀ a b c d : K, a / κ * (d / κ) - b / κ * (c / κ) = (a * d - b * c) / κ ^ 2 := by intro a b c d; field_simp
  unfold LcpSolver.mk' Solver2.mk' LcpSolver.heavier
  simp only [get_sdiv, hdet, LcpSolver.mk.injEq, Solver2.mk.injEq, true_and]
  have hk : κ ^ 2 ≠ 0 := pow_ne_zero _ h
  refine ⟨⟨?_, ?_⟩, ?_, ?_⟩
  · by_cases hd : A.get 0 0 * A.get 1 1 - A.get 0 1 * A.get 1 0 = 0
    · simp [hd]
    · simp [hd, hk, h]; ring
  · simp [h]
  · rw [one_div_div, div_mul_eq_mul_div, one_mul]
  · rw [one_div_div, div_mul_eq_mul_div, one_mul]

theorem LcpSolver.solve_heavier (h : 0 < κ) (s : LcpSolver K) (b : MVec K 2) : (s.heavier κ).solve b = (s.solve b).bind fun x => .ok (x.smul κ) := by
  have h0 : κ ≠ 0 := h.ne'
  unfold LcpSolver.solve Solver2.solve
  cases hv : s.solver.isValid with
  | false => rw [show (s.heavier κ).solver.isValid = s.solver.isValid from rfl, hv]; rfl
  | true =>
    rw [show (s.heavier κ).solver.isValid = s.solver.isValid from rfl, hv]
    show Outcome.bind (.ok _) _ = Outcome.bind (Outcome.bind (.ok _) _) _
    simp only [Outcome.bind_ok]
    have ex : Mat.smul (s.heavier κ).solver.invDet (Mat.ofFn ![b.at_ 0 * (s.heavier κ).solver.A.get 1 1 - (s.heavier κ).solver.A.get 0 1 * b.at_ 1,
        (s.heavier κ).solver.A.get 0 0 * b.at_ 1 - b.at_ 0 * (s.heavier κ).solver.A.get 1 0]) =
        Mat.smul κ (Mat.smul s.solver.invDet (Mat.ofFn ![b.at_ 0 * s.solver.A.get 1 1 - s.solver.A.get 0 1 * b.at_ 1, s.solver.A.get 0 0 * b.at_ 1 - b.at_ 0 * s.solver.A.get 1 0])) := by
      apply ext_at; intro i
      simp only [at_smul, at_ofFn, LcpSolver.heavier, get_sdiv]
      fin_cases i <;> simp <;> field_simp
    rw [ex]
    generalize Mat.smul s.solver.invDet (Mat.ofFn ![b.at_ 0 * s.solver.A.get 1 1 - s.solver.A.get 0 1 * b.at_ 1, s.solver.A.get 0 0 * b.at_ 1 - b.at_ 0 * s.solver.A.get 1 0] : MVec K 2) = x
    have pos : ∀ a : K, 0 ≤ a * κ ↔ 0 ≤ a := fun a => ⟨fun k => nonneg_of_mul_nonneg_left k h, fun k => mul_nonneg k h.le⟩
    have e1 : (Mat.ofFn ![b.at_ 0 * (s.heavier κ).invA11, 0] : MVec K 2) = (Mat.ofFn ![b.at_ 0 * s.invA11, 0] : MVec K 2).smul κ := by
      apply ext_at; intro i; rw [at_smul]; fin_cases i <;> simp [LcpSolver.heavier]; ring
    have e2 : (Mat.ofFn ![0, b.at_ 1 * (s.heavier κ).invA22] : MVec K 2) = (Mat.ofFn ![0, b.at_ 1 * s.invA22] : MVec K 2).smul κ := by
      apply ext_at; intro i; rw [at_smul]; fin_cases i <;> simp [LcpSolver.heavier]; ring
    have e3 : ∀ (y : K) (r c : Fin 2), y * κ * (s.heavier κ).solver.A.get r c = y * s.solver.A.get r c := by
      intro y r c; simp only [LcpSolver.heavier, get_sdiv]; field_simp
    rw [e1, e2]
    simp only [at_smul, pos, e3]
    by_cases c1 : 0 ≤ x.at_ 0 ∧ 0 ≤ x.at_ 1
    · rw [if_pos c1, if_pos c1]; rfl
    · rw [if_neg c1, if_neg c1]
      split
      · rfl
      · split
        · rfl
        · show Outcome.ok _ = Outcome.ok _
          rw [Mat.smul_zero]

/-- The result of an inequality of one dimension does not depend on when the loop stops. -/
theorem inequality_one {A : Mat K 1 1} {b : MVec K 1} {proj : MVec K 1 → MVec K 1} {x0 x : MVec K 1} {epsilon : K} {fuel : Nat}
    (h : solveInequalitiesVec A b proj x0 epsilon fuel = some x) : x = Mat.ofFn fun _ => (proj (Mat.ofFn fun _ => b.at_ 0 / A.get 0 0)).at_ 0 := by
  unfold solveInequalitiesVec solveInequalities at h
  obtain ⟨y, rfl, -⟩ := gsLoop_result _ _ _ _ _ _ _ (by linarith) _ h
  apply ext_at; intro i
  have hi : i = 0 := Subsingleton.elim _ _
  subst hi
  rw [at_ofFn]
  unfold sweep
  rw [forFin_succ, forFin_zero]
  unfold sweepRow
  dsimp only
  rw [at_setAt, if_pos rfl]
  congr 2
  apply ext_at; intro j
  have hj : j = 0 := Subsingleton.elim _ _
  subst hj
  rw [at_setAt, if_pos rfl, at_ofFn]
  unfold rowSolution
  simp [forTo, forFrom, at_neg]

end

section
variable {K : Type*} [Field K] {p : Proxies K} {s t : SolveState K}

/-- Both calls, if they succeed, end alike. -/
def EndsAlike {α β : Type*} (p : Proxies K) (R : α → β → Prop) (x : Outcome (α × SolveState K)) (y : Outcome (β × SolveState K)) : Prop :=
  ∀ a b, x = .ok a → y = .ok b → R a.1 b.1 ∧ SeesSame p a.2 b.2

theorem EndsAlike.ok {α β : Type*} {R : α → β → Prop} {a : α × SolveState K} {b : β × SolveState K} (h : R a.1 b.1) (h' : SeesSame p a.2 b.2) : EndsAlike p R (.ok a) (.ok b) := by
  intro a' b' ha hb
  cases Outcome.ok.inj ha
  cases Outcome.ok.inj hb
  exact ⟨h, h'⟩

theorem EndsAlike.bind {α β γ δ : Type*} {R : γ → δ → Prop} {g : α → β} (x : Outcome α) {f : α → Outcome (γ × SolveState K)} {f' : β → Outcome (δ × SolveState K)}
    (h : ∀ a, EndsAlike p R (f a) (f' (g a))) : EndsAlike p R (x.bind f) ((x.bind fun a => .ok (g a)).bind f') := by
  cases x with
  | ok a => exact h a
  | throw => intro a b ha; cases ha
  | ub => intro a b ha; cases ha

theorem EndsAlike.bindSame {α γ δ : Type*} {R : γ → δ → Prop} (x : Outcome α) {f : α → Outcome (γ × SolveState K)} {f' : α → Outcome (δ × SolveState K)}
    (h : ∀ a, EndsAlike p R (f a) (f' a)) : EndsAlike p R (x.bind f) (x.bind f') := by
  cases x with
  | ok a => exact h a
  | throw => intro a b ha; cases ha
  | ub => intro a b ha; cases ha

/-- The relation `R` between two results that exist. -/
theorem EndsAlike.returned {α β γ δ : Type*} {R : γ → δ → Prop} {Q : α → β → Prop} {x : Option α} {y : Option β} (hxy : ∀ a b, x = some a → y = some b → Q a b) {f : α → γ × SolveState K} {f' : β → δ × SolveState K}
    (h : ∀ a b, Q a b → R (f a).1 (f' b).1 ∧ SeesSame p (f a).2 (f' b).2) : EndsAlike p R (Simu.returned (x.map f)) (Simu.returned (y.map f')) := by
  cases x with
  | none => intro a b ha; cases ha
  | some a =>
    cases y with
    | none => intro a b _ hb; cases hb
    | some b => exact EndsAlike.ok (h a b (hxy a b rfl rfl)).1 (h a b (hxy a b rfl rfl)).2

theorem SeesSame.heavier_velocity (h : SeesSame p s t) (κ : K) : (p.heavier κ).velocity t = p.velocity s := by
  unfold Proxies.velocity Proxies.heavier; rw [h.vel0, h.vel1]

theorem SeesSame.heavier_applyImpulse {κ : K} (hκ : κ ≠ 0) (h : SeesSame p s t) (P : MVec K 6) : SeesSame p (p.applyImpulse P s) ((p.heavier κ).applyImpulse (P.smul κ) t) := by
  rw [Proxies.heavier_applyImpulse hκ]; exact h.applyImpulse P

theorem SeesSame.heavier_correct [Trig K] {κ : K} (hκ : κ ≠ 0) (h : SeesSame p s t) (P : MVec K 6) :
    SeesSame p (p.applyPositionCorrection P s) ((p.heavier κ).applyPositionCorrection (P.smul κ) t) := by
  rw [Proxies.heavier_correct hκ]; exact h.correct P

end

section
variable {K : Type*} [Field K] [LinearOrder K] [IsStrictOrderedRing K] {n : Nat} {p : Proxies K} {s t : SolveState K} {f f' : CFun K n} {κ : K}

omit [LinearOrder K] [IsStrictOrderedRing K] in
theorem SolverBase.heavier_init (b : SolverBase K n) : (b.heavier κ).initBase = b.initBase.heavier κ := by
  unfold SolverBase.heavier SolverBase.initBase
  rw [Mat.smul_zero]

theorem CFun.Heavier.mass (hf : f.Heavier κ f') (h : SeesSame p s t) (b : SolverBase K n) (damp : Bool) :
    (b.heavier κ).computeEffectiveMass (p.heavier κ) t f' damp = ((b.computeEffectiveMass p s f damp).1.heavier κ, (b.computeEffectiveMass p s f damp).2.sdiv κ) := by
  unfold SolverBase.computeEffectiveMass
  dsimp only
  rw [hf.jacobian p s t h, Proxies.heavier_mass]
  unfold SolverBase.heavier
  cases damp
  · rfl
  · dsimp only
    rw [sdiv_diagonal, if_pos rfl, if_pos rfl, Mat.sdiv_add]

theorem CFun.Heavier.rhs (hκ : κ ≠ 0) (hf : f.Heavier κ f') (h : SeesSame p s t) (b : SolverBase K n) (dt : K) (damp : Bool) :
    (b.heavier κ).computeRhs (p.heavier κ) t f' dt damp = b.computeRhs p s f dt damp := by
  unfold SolverBase.computeRhs
  rw [hf.bias p s t h, hf.eval p s t h, h.heavier_velocity]
  unfold SolverBase.heavier
  dsimp only
  rw [sdiv_diagonal, sdiv_mul_smul hκ]

theorem CFun.Heavier.updateLambda (hκ : κ ≠ 0) (hf : f.Heavier κ f') (h : SeesSame p s t) (b : SolverBase K n) (dt : K) (dl : MVec K n) :
    ((b.heavier κ).updateLambda (p.heavier κ) f' dt (dl.smul κ) t).1 = (b.updateLambda p f dt dl s).1.heavier κ ∧
    SeesSame p (b.updateLambda p f dt dl s).2 ((b.heavier κ).updateLambda (p.heavier κ) f' dt (dl.smul κ) t).2 := by
  unfold SolverBase.updateLambda SolverBase.heavier SolverBase.impulse
  dsimp only
  rw [← Mat.smul_add, hf.clampLambda, ← Mat.smul_sub, mul_smulVec]
  exact ⟨rfl, h.heavier_applyImpulse hκ _⟩

theorem EqualitySolver.heavy [Trig K] (hκ : κ ≠ 0) (hf : f.Heavier κ f') (h : SeesSame p s t) {sqrt : K → K} (hs : ∀ x, 0 ≤ x → sqrt x * sqrt x = x) (dt : K) (e : EqualitySolver K n) :
    (e.heavier κ).initSolve sqrt (p.heavier κ) f' t = ((e.initSolve sqrt p f s).bind fun e => .ok (e.heavier κ)) ∧
    EndsAlike p (fun a b => b = a.heavier κ) (.ok (e.warmstart p f dt s)) (.ok ((e.heavier κ).warmstart (p.heavier κ) f' dt t)) ∧
    EndsAlike p (fun a b => b = a.heavier κ) (e.solveVelocity p f dt s) ((e.heavier κ).solveVelocity (p.heavier κ) f' dt t) ∧
    EndsAlike p (fun a b => b = a.heavier κ) (e.solvePosition sqrt p f s) ((e.heavier κ).solvePosition sqrt (p.heavier κ) f' t) := by
  refine ⟨?_, ?_, ?_, ?_⟩
  · unfold EqualitySolver.initSolve
    rw [show (e.heavier κ).base.initBase = e.base.initBase.heavier κ from SolverBase.heavier_init _, hf.mass h]
    dsimp only
    rw [KSolver.mk_heavier hs hκ]
    cases KSolver.mk' sqrt n (e.base.initBase.computeEffectiveMass p s f true).2 with
    | throw => rfl
    | ub => rfl
    | ok k =>
      show (Outcome.check k.isValid).bind _ = ((Outcome.check k.isValid).bind _).bind _
      cases Outcome.check k.isValid <;> rfl
  · obtain ⟨h1, h2⟩ := hf.updateLambda hκ h e.base dt e.base.previousLambda
    refine EndsAlike.ok ?_ h2
    exact congrArg (fun b => (⟨b, e.solver.heavier κ⟩ : EqualitySolver K n)) h1
  · unfold EqualitySolver.solveVelocity
    rw [show (e.heavier κ).base = e.base.heavier κ from rfl, hf.rhs hκ h]
    refine EndsAlike.bind _ fun a => ?_
    obtain ⟨h1, h2⟩ := hf.updateLambda hκ h e.base dt a
    exact EndsAlike.ok (congrArg (fun b => (⟨b, e.solver.heavier κ⟩ : EqualitySolver K n)) h1) h2
  · unfold EqualitySolver.solvePosition
    rw [show (e.heavier κ).base = e.base.heavier κ from rfl, hf.mass h, hf.eval p s t h, hf.jacobian p s t h]
    dsimp only
    rw [KSolver.mk_heavier hs hκ]
    refine EndsAlike.bind _ fun a => EndsAlike.bind _ fun b => EndsAlike.ok rfl ?_
    dsimp only
    rw [hf.clampPositionLambda, mul_smulVec]
    exact h.heavier_correct hκ _

/-- The multiplier of an inequality of one dimension. -/
theorem inequality_heavier (hκ : κ ≠ 0) {M : Mat K 1 1} {b x0 x0' : MVec K 1} {proj proj' : MVec K 1 → MVec K 1} (hp : ∀ l, proj' (l.smul κ) = (proj l).smul κ) {epsilon : K} {fuel : Nat} {x y : MVec K 1}
    (hx : solveInequalitiesVec M b proj x0 epsilon fuel = some x) (hy : solveInequalitiesVec (M.sdiv κ) b proj' x0' epsilon fuel = some y) : y = x.smul κ := by
  rw [inequality_one hx, inequality_one hy]
  have : (Mat.ofFn fun _ => b.at_ 0 / (M.sdiv κ).get 0 0 : MVec K 1) = (Mat.ofFn fun _ => b.at_ 0 / M.get 0 0 : MVec K 1).smul κ := by
    apply ext_at; intro i
    rw [at_smul, at_ofFn, at_ofFn, get_sdiv, div_div_eq_mul_div, mul_div_right_comm]
  rw [this, hp]
  apply ext_at; intro i
  simp only [at_smul, at_ofFn]

theorem InequalitySolver.heavy [Trig K] {f f' : CFun K 1} (hκ : κ ≠ 0) (hf : f.Heavier κ f') (h : SeesSame p s t) {sqrt : K → K} (hs : ∀ x, 0 ≤ x → sqrt x * sqrt x = x) (epsilon : K) (fuel : Nat) (dt : K)
    (e : InequalitySolver K 1) :
    (e.heavier κ).initSolve (p.heavier κ) f' t = (e.initSolve p f s).heavier κ ∧
    EndsAlike p (fun a b => b = a.heavier κ) (.ok (e.warmstart p f dt s)) (.ok ((e.heavier κ).warmstart (p.heavier κ) f' dt t)) ∧
    EndsAlike p (fun a b => b = a.heavier κ) (returned (e.solveVelocity epsilon fuel p f dt s)) (returned ((e.heavier κ).solveVelocity epsilon fuel (p.heavier κ) f' dt t)) ∧
    EndsAlike p (fun a b => b = a.heavier κ) (e.solvePosition sqrt p f s) ((e.heavier κ).solvePosition sqrt (p.heavier κ) f' t) := by
  refine ⟨?_, ?_, ?_, ?_⟩
  · unfold InequalitySolver.initSolve
    rw [show (e.heavier κ).base.initBase = e.base.initBase.heavier κ from SolverBase.heavier_init _, hf.mass h]
    rfl
  · obtain ⟨h1, h2⟩ := hf.updateLambda hκ h e.base dt e.base.previousLambda
    refine EndsAlike.ok ?_ h2
    exact congrArg (fun b => (⟨b, e.effectiveMass.sdiv κ⟩ : InequalitySolver K 1)) h1
  · unfold InequalitySolver.solveVelocity
    rw [show (e.heavier κ).base = e.base.heavier κ from rfl, show (e.heavier κ).effectiveMass = e.effectiveMass.sdiv κ from rfl, hf.rhs hκ h,
      show (e.base.heavier κ).lambda = e.base.lambda.smul κ from rfl]
    dsimp only
    rw [sdiv_mul_smul hκ]
    refine EndsAlike.returned (Q := fun a b => b = a.smul κ) (fun a b ha hb => inequality_heavier hκ (fun l => hf.clampLambda l dt) ha hb) ?_
    rintro a b rfl
    dsimp only
    rw [← Mat.smul_sub]
    obtain ⟨h1, h2⟩ := hf.updateLambda hκ h e.base dt (a.sub e.base.lambda)
    exact ⟨congrArg (fun b => (⟨b, e.effectiveMass.sdiv κ⟩ : InequalitySolver K 1)) h1, h2⟩
  · unfold InequalitySolver.solvePosition
    dsimp only
    rw [hf.eval p s t h, hf.jacobian p s t h, Proxies.heavier_mass, KSolver.mk_heavier hs hκ]
    refine EndsAlike.bind _ fun a => ?_
    rw [show (a.heavier κ).isValid = a.isValid from rfl]
    split
    · refine EndsAlike.bind _ fun b => EndsAlike.ok rfl ?_
      dsimp only
      rw [hf.clampPositionLambda, mul_smulVec]
      exact h.heavier_correct hκ _
    · exact EndsAlike.ok rfl h

theorem LimitsSolver.heavy [Trig K] {f f' : CFun K 1} (hκ : 0 < κ) (hf : f.Heavier κ f') (h : SeesSame p s t) {sqrt : K → K} (hs : ∀ x, 0 ≤ x → sqrt x * sqrt x = x) (epsilon : K) (fuel : Nat) (dt : K)
    (e : LimitsSolver K) :
    (e.heavier κ).isActive (p.heavier κ) f' t = e.isActive p f s ∧
    (e.heavier κ).initSolve sqrt (p.heavier κ) f' t = ((e.initSolve sqrt p f s).bind fun e => .ok (e.heavier κ)) ∧
    EndsAlike p (fun a b => b = a.heavier κ) (.ok (e.warmstart p f dt s)) (.ok ((e.heavier κ).warmstart (p.heavier κ) f' dt t)) ∧
    EndsAlike p (fun a b => b = a.heavier κ) ((e.solveVelocity epsilon fuel p f dt s).bind returned) (((e.heavier κ).solveVelocity epsilon fuel (p.heavier κ) f' dt t).bind returned) ∧
    EndsAlike p (fun a b => b = a.heavier κ) ((e.solvePosition sqrt epsilon fuel p f s).bind returned) (((e.heavier κ).solvePosition sqrt epsilon fuel (p.heavier κ) f' t).bind returned) := by
  have h0 : κ ≠ 0 := hκ.ne'
  have hb : ∀ {α β γ : Type _} (x : Outcome α) (f : α → Outcome β) (g : β → Outcome γ), (x.bind f).bind g = x.bind fun a => (f a).bind g := by
    intro α β γ x f g; cases x <;> rfl
  have hn : ∀ e : LimitsSolver K, (e.heavier κ).nextFunc (p.heavier κ) f' t = e.nextFunc p f s := by
    intro e; unfold LimitsSolver.nextFunc; rw [hf.eval p s t h]; rfl
  have hr : (e.heavier κ).rhs (p.heavier κ) f' dt t = e.rhs p f dt s := by
    unfold LimitsSolver.rhs
    dsimp only
    rw [hf.eval p s t h, hf.bias p s t h, h.heavier_velocity, Proxies.heavier_mass]
    unfold LimitsSolver.heavier SolverBase.heavier
    dsimp only
    rw [sdiv_diagonal, sdiv_mul_smul h0, sdiv_mul_smul h0, ← Mat.smul_neg, sdiv_mul_smul h0]
  refine ⟨?_, ?_, ?_, ?_, ?_⟩
  · unfold LimitsSolver.isActive; rw [hn]
  · have flat : ∀ (e : LimitsSolver K) (p : Proxies K) (f : CFun K 1) (s : SolveState K), e.initSolve sqrt p f s =
        match e.nextFunc p f s with
        | .equality => (KSolver.mk' sqrt 1 (e.base.initBase.computeEffectiveMass p s f true).2).bind fun solver =>
          .ok ⟨(e.base.initBase.computeEffectiveMass p s f true).1, e.nextFunc p f s, e.L, e.U, .solver solver, decide (e.nextFunc p f s = e.func) && decide (e.nextFunc p f s ≠ Func.off)⟩
        | .lower => .ok ⟨(e.base.initBase.computeEffectiveMass p s f true).1, e.nextFunc p f s, e.L, e.U, .effectiveMass (e.base.initBase.computeEffectiveMass p s f true).2,
            decide (e.nextFunc p f s = e.func) && decide (e.nextFunc p f s ≠ Func.off)⟩
        | .upper => .ok ⟨(e.base.initBase.computeEffectiveMass p s f true).1, e.nextFunc p f s, e.L, e.U, .effectiveMass (e.base.initBase.computeEffectiveMass p s f true).2,
            decide (e.nextFunc p f s = e.func) && decide (e.nextFunc p f s ≠ Func.off)⟩
        | .off => .ok ⟨(e.base.initBase.computeEffectiveMass p s f true).1, e.nextFunc p f s, e.L, e.U, e.data, decide (e.nextFunc p f s = e.func) && decide (e.nextFunc p f s ≠ Func.off)⟩ := fun _ _ _ _ => rfl
    rw [flat, flat, hn, show (e.heavier κ).base.initBase = e.base.initBase.heavier κ from SolverBase.heavier_init _, hf.mass h]
    dsimp only
    rw [KSolver.mk_heavier hs h0]
    cases e.nextFunc p f s with
    | equality =>
      dsimp only
      rw [hb, hb]
      rfl
    | lower => rfl
    | upper => rfl
    | off => rfl
  · unfold LimitsSolver.warmstart
    rw [show (e.heavier κ).canWarmstart = e.canWarmstart from rfl, show (e.heavier κ).func = e.func from rfl, show (e.heavier κ).base = e.base.heavier κ from rfl]
    split
    · split
      · refine EndsAlike.ok rfl ?_
        dsimp only [SolverBase.heavier, SolverBase.impulse]
        rw [← Mat.smul_neg, mul_smulVec]
        exact h.heavier_applyImpulse h0 _
      · obtain ⟨h1, h2⟩ := hf.updateLambda h0 h e.base dt e.base.previousLambda
        exact EndsAlike.ok (congrArg (fun b => ({ e.heavier κ with base := b } : LimitsSolver K)) h1) h2
    · exact EndsAlike.ok rfl h
  · unfold LimitsSolver.solveVelocity
    rw [hr, hb, hb]
    refine EndsAlike.bindSame _ fun a => ?_
    rw [show (e.heavier κ).func = e.func from rfl, show (e.heavier κ).base = e.base.heavier κ from rfl, show (e.heavier κ).data = e.data.heavier κ from rfl]
    cases hfu : e.func <;> cases hd : e.data
    all_goals dsimp only [LimitsUnion.heavier]
    all_goals try (intro a b ha; cases ha; done)
    · refine EndsAlike.returned (Q := fun a b => b = a.smul κ) (fun a b ha hb => inequality_heavier h0 (fun l => by rw [hf.clampLambda, maxZero_smul hκ]) ha hb) ?_
      rintro b _ rfl
      dsimp only
      rw [show (e.base.heavier κ).lambda = e.base.lambda.smul κ from rfl, ← Mat.smul_sub]
      obtain ⟨h1, h2⟩ := hf.updateLambda h0 h e.base dt (b.sub e.base.lambda)
      exact ⟨by rw [h1]; unfold LimitsSolver.heavier; simp only [hd]; rfl, h2⟩
    · refine EndsAlike.returned (Q := fun a b => b = a.smul κ) (fun a b ha hb => inequality_heavier h0 (fun l => by rw [← Mat.smul_neg, hf.clampLambda, ← Mat.smul_neg, maxZero_smul hκ]) ha hb) ?_
      rintro b _ rfl
      dsimp only
      rw [show (e.base.heavier κ).lambda = e.base.lambda.smul κ from rfl, ← Mat.smul_sub, ← Mat.smul_neg]
      refine ⟨rfl, ?_⟩
      dsimp only [SolverBase.impulse, SolverBase.heavier]
      rw [mul_smulVec]
      exact h.heavier_applyImpulse h0 _
    · rw [hb, hb]
      refine EndsAlike.bind _ fun b => ?_
      obtain ⟨h1, h2⟩ := hf.updateLambda h0 h e.base dt b
      exact EndsAlike.ok (by dsimp only; rw [h1]; unfold LimitsSolver.heavier; simp only [hd, hfu]; rfl) h2
    · exact EndsAlike.ok rfl h
    · exact EndsAlike.ok rfl h
  · unfold LimitsSolver.solvePosition
    dsimp only
    rw [show (e.heavier κ).base = e.base.heavier κ from rfl, hf.mass h, hf.eval p s t h]
    dsimp only
    rw [show ({ e.heavier κ with base := (e.base.computeEffectiveMass p s f false).1.heavier κ } : LimitsSolver K) = ({ e with base := (e.base.computeEffectiveMass p s f false).1 } : LimitsSolver K).heavier κ from rfl,
      hn, KSolver.mk_heavier hs h0]
    generalize hfn : ({ e with base := (e.base.computeEffectiveMass p s f false).1 } : LimitsSolver K).nextFunc p f s = fn
    have hc : ∀ (J : Mat K 1 6) (x y : MVec K 1), y = x.smul κ → SeesSame p (p.applyPositionCorrection (J.transpose.mul x) s) ((p.heavier κ).applyPositionCorrection (J.transpose.mul y) t) := by
      rintro J x _ rfl
      rw [mul_smulVec]
      exact h.heavier_correct h0 _
    cases fn with
    | equality =>
      rw [hb, hb]
      refine EndsAlike.bindSame _ fun l => ?_
      rw [hb, hb]
      refine EndsAlike.bind _ fun k => ?_
      rw [hb, hb]
      exact EndsAlike.bind _ fun x => EndsAlike.ok rfl (hc _ _ _ (hf.clampPositionLambda x))
    | lower =>
      rw [hb, hb]
      refine EndsAlike.bindSame _ fun l => ?_
      refine EndsAlike.returned (Q := fun a b => b = a.smul κ) (fun a b ha hb => inequality_heavier h0 (fun l => by rw [hf.clampPositionLambda, maxZero_smul hκ]) ha hb) ?_
      rintro b _ rfl
      exact ⟨rfl, hc _ _ _ rfl⟩
    | upper =>
      rw [hb, hb]
      refine EndsAlike.bindSame _ fun l => ?_
      refine EndsAlike.returned (Q := fun a b => b = a.smul κ) (fun a b ha hb => inequality_heavier h0 (fun l => by rw [← Mat.smul_neg, hf.clampPositionLambda, ← Mat.smul_neg, maxZero_smul hκ]) ha hb) ?_
      rintro b _ rfl
      exact ⟨rfl, hc _ _ _ (Mat.smul_neg _ _).symm⟩
    | off => exact EndsAlike.ok rfl (hc _ _ _ (Mat.smul_zero κ).symm)

end

end Simu
