import Verif.Spec.JointOrder
import Verif.Lemmas.LibraryHeavier
import Verif.Lemmas.IslandTurned
/-
The calls of a constraint with its two bodies in the other order.
-/
namespace Simu
open Mat Island

section
variable {K : Type*} [Field K] {σ : K} {n : Nat}

theorem otherSide_twice (j : Fin 6) : otherSide (otherSide j) = j := by fin_cases j <;> rfl

theorem sum_otherSide (g : Fin 6 → K) : ∑ j, g (otherSide j) = ∑ j, g j := by
  simp only [Fin.sum_univ_six]
  show g 3 + g 4 + g 5 + g 0 + g 1 + g 2 = _
  ring

theorem Mat.get_swapSides (J : Mat K n 6) (r : Fin n) (c : Fin 6) : J.swapSides.get r c = J.get r (otherSide c) := by
  unfold Mat.swapSides
  have h1 : (r.val * 6 + c.val) / 6 = r.val := by omega
  have h2 : (r.val * 6 + c.val) % 6 = c.val := by omega
  show J.get ⟨(r.val * 6 + c.val) / 6, _⟩ (otherSide ⟨(r.val * 6 + c.val) % 6, _⟩) = _
  rw [show (⟨(r.val * 6 + c.val) / 6, by omega⟩ : Fin n) = r from Fin.ext h1, show (⟨(r.val * 6 + c.val) % 6, by omega⟩ : Fin 6) = c from Fin.ext h2]

theorem Mat.smul_smul' {m k : Nat} (A : Mat K m k) (h : σ * σ = 1) : (A.smul σ).smul σ = A := by
  apply ext_get; intro r c; simp only [get_smul]; rw [mul_assoc, h, mul_one]

theorem Mat.smul_one' {m k : Nat} (A : Mat K m k) : A.smul 1 = A := by
  apply ext_get; intro r c; simp only [get_smul, mul_one]

theorem Mat.swapSides_twice (J : Mat K n 6) : J.swapSides.swapSides = J := by
  apply ext_get; intro r c; rw [get_swapSides, get_swapSides, otherSide_twice]

theorem Proxies.swap_invMassVec (p : Proxies K) (i : Fin 6) : p.swap.invMassVec.at_ i = p.invMassVec.at_ (otherSide i) := by fin_cases i <;> rfl

theorem Proxies.swap_velocity (p : Proxies K) (s : SolveState K) (i : Fin 6) : (p.swap.velocity s).at_ i = (p.velocity s).at_ (otherSide i) := by fin_cases i <;> rfl

theorem swap_mass (h : σ * σ = 1) (p : Proxies K) (J : Mat K n 6) :
    (((J.swapSides.smul σ).mul p.swap.inverseMass).mul (J.swapSides.smul σ).transpose) = (J.mul p.inverseMass).mul J.transpose := by
  apply ext_get; intro r c
  simp only [get_mul, get_transpose, get_smul, get_swapSides, Proxies.inverseMass, get_diagonal, Proxies.swap_invMassVec]
  simp only [mul_ite, mul_zero, Finset.sum_ite_eq', Finset.mem_univ, if_true]
  rw [← sum_otherSide]
  refine Finset.sum_congr rfl fun j _ => ?_
  rw [otherSide_twice]
  calc J.get r j * σ * p.invMassVec.at_ j * (J.get c j * σ) = J.get r j * p.invMassVec.at_ j * J.get c j * (σ * σ) := by ring
    _ = _ := by rw [h, mul_one]

theorem swap_error (p : Proxies K) (J : Mat K n 6) (s : SolveState K) : (J.swapSides.smul σ).mul (p.swap.velocity s) = (J.mul (p.velocity s)).smul σ := by
  apply ext_at; intro r
  rw [at_smul, at_eq_get, at_eq_get, get_mul, get_mul, ← sum_otherSide, Finset.sum_mul]
  refine Finset.sum_congr rfl fun j _ => ?_
  rw [get_smul, get_swapSides, otherSide_twice, ← at_eq_get, ← at_eq_get, Proxies.swap_velocity, otherSide_twice]
  ring

theorem swap_impulse (h : σ * σ = 1) (J : Mat K n 6) (l : MVec K n) (i : Fin 6) : (((J.swapSides.smul σ).transpose).mul (l.smul σ)).at_ i = (J.transpose.mul l).at_ (otherSide i) := by
  rw [at_eq_get, at_eq_get, get_mul, get_mul]
  refine Finset.sum_congr rfl fun j _ => ?_
  rw [get_transpose, get_transpose, get_smul, get_smul, get_swapSides]
  calc J.get j (otherSide i) * σ * (l.get j 0 * σ) = J.get j (otherSide i) * l.get j 0 * (σ * σ) := by ring
    _ = _ := by rw [h, mul_one]

theorem Velocity.ext' {v w : Velocity K} (h : v.linear = w.linear) (h' : v.angular = w.angular) : v = w := by
  cases v; cases w; simp_all

theorem swap_applyImpulse (p : Proxies K) {P P' : MVec K 6} (hP : ∀ i, P'.at_ i = P.at_ (otherSide i)) (s : SolveState K) : p.swap.applyImpulse P' s = p.applyImpulse P s := by
  unfold Proxies.applyImpulse Proxies.swap InvMasses.swap SolveState.incrementVel SolveState.setVel
  dsimp only
  rw [hP 0, hP 1, hP 2, hP 3, hP 4, hP 5]
  show (⟨s.pos, Function.update (Function.update s.vel p.i1 _) p.i0 _⟩ : SolveState K) = _
  simp only [show otherSide 0 = 3 from rfl, show otherSide 1 = 4 from rfl, show otherSide 2 = 5 from rfl, show otherSide 3 = 0 from rfl, show otherSide 4 = 1 from rfl, show otherSide 5 = 2 from rfl]
  congr 1
  by_cases h : p.i0 = p.i1
  · rw [h]
    simp only [Function.update_self, Function.update_idem]
    congr 1
    refine Velocity.ext' ?_ ?_
    · dsimp only; ext <;> simp <;> ring
    · dsimp only; ring
  · rw [Function.update_of_ne h, Function.update_of_ne (Ne.symm h), Function.update_comm h]

theorem swap_correct [Trig K] (p : Proxies K) {P P' : MVec K 6} (hP : ∀ i, P'.at_ i = P.at_ (otherSide i)) (s : SolveState K) :
    p.swap.applyPositionCorrection P' s = p.applyPositionCorrection P s := by
  unfold Proxies.applyPositionCorrection Proxies.swap InvMasses.swap SolveState.advancePos
  dsimp only
  rw [hP 0, hP 1, hP 2, hP 3, hP 4, hP 5]
  simp only [show otherSide 0 = 3 from rfl, show otherSide 1 = 4 from rfl, show otherSide 2 = 5 from rfl, show otherSide 3 = 0 from rfl, show otherSide 4 = 1 from rfl, show otherSide 5 = 2 from rfl]
  congr 1
  by_cases h : p.i0 = p.i1
  · rw [h]
    simp only [Function.update_self, Function.update_idem]
    congr 1
    unfold Position.advance Translation.mul Rotation.mul
    dsimp only
    congr 1
    · congr 1
      ext <;> simp <;> ring
    · congr 1
      simp only [Rotation.ofAngle]
      ring
  · rw [Function.update_of_ne h, Function.update_of_ne (Ne.symm h), Function.update_comm h]

/-! ### The solvers of linear systems -/

theorem foldl_commutes {α β : Type*} (φ : α → α) (g : α → β → α) (hg : ∀ a b, g (φ a) b = φ (g a b)) (l : List β) (a : α) : l.foldl g (φ a) = φ (l.foldl g a) := by
  induction l generalizing a with
  | nil => rfl
  | cons b l ih => rw [List.foldl_cons, List.foldl_cons, hg, ih]

theorem backStep_smul (R : Mat K n n) (row : Fin n) (s : MVec K n × MVec K n) : backStep R row (s.1.smul σ, s.2.smul σ) = ((backStep R row s).1.smul σ, (backStep R row s).2.smul σ) := by
  unfold backStep
  dsimp only
  have h : forFrom n (row.val + 1) (fun col c => c.setAt row (c.at_ row - R.get row col * (s.2.smul σ).at_ col)) (s.1.smul σ) =
      (forFrom n (row.val + 1) (fun col c => c.setAt row (c.at_ row - R.get row col * s.2.at_ col)) s.1).smul σ := by
    unfold forFrom
    generalize (List.finRange n).filter (fun i => row.val + 1 ≤ i.val) = l
    generalize s.1 = c
    induction l generalizing c with
    | nil => rfl
    | cons j l ih =>
      rw [List.foldl_cons, List.foldl_cons, ← ih]
      congr 1
      dsimp only
      rw [Mat.smul_setAt, at_smul, at_smul]
      congr 1
      ring
  rw [h]
  refine Prod.ext rfl ?_
  dsimp only
  rw [Mat.smul_setAt, at_smul]
  congr 1
  ring

theorem SolverN.solve_smul (s : SolverN K n) (b : MVec K n) : s.solve (b.smul σ) = (s.solve b).bind fun x => .ok (x.smul σ) := by
  unfold SolverN.solve
  cases s.isValid with
  | false => rfl
  | true =>
    cases s.QT with
    | none => rfl
    | some QT =>
      show Outcome.ok _ = Outcome.ok _
      congr 1
      rw [Mat.mul_smulVec]
      unfold forDown
      have h := foldl_commutes (fun c : MVec K n × MVec K n => (c.1.smul σ, c.2.smul σ)) (fun s i => backStep _ i s) (fun a b => backStep_smul (σ := σ) s.R b a) (List.finRange n).reverse (QT.mul b, Mat.zero)
      rw [Mat.smul_zero] at h
      exact congrArg Prod.snd h

theorem Solver2.solve_smul (s : Solver2 K) (b : MVec K 2) : s.solve (b.smul σ) = (s.solve b).bind fun x => .ok (x.smul σ) := by
  unfold Solver2.solve
  cases s.isValid with
  | false => rfl
  | true =>
    show Outcome.ok _ = Outcome.ok _
    congr 1
    apply ext_at; intro i
    simp only [at_smul]
    fin_cases i <;> simp <;> ring

theorem KSolver.mk_odd [LinearOrder K] (h : σ * σ = 1) (sqrt : K → K) (A : Mat K n n) : ((KSolver.mk' sqrt n A).bind fun s => .ok (s.reverse σ)) = KSolver.mk' sqrt n A := by
  have hs : ∀ (v : Bool) (g : MVec K n → Outcome (MVec K n)), (∀ b, g (b.smul σ) = (g b).bind fun x => .ok (x.smul σ)) → (KSolver.reverse σ ⟨v, g⟩) = ⟨v, g⟩ := by
    intro v g hg
    unfold KSolver.reverse
    congr 1
    funext b
    dsimp only
    rw [hg]
    cases g b with
    | throw => rfl
    | ub => rfl
    | ok x => show Outcome.ok _ = _; rw [Mat.smul_smul' x h]
  have hN : ∀ A : Mat K n n, (((SolverN.mk' sqrt A).bind fun s => Outcome.ok (⟨s.isValid, s.solve⟩ : KSolver K n)).bind fun s => .ok (s.reverse σ)) = (SolverN.mk' sqrt A).bind fun s => .ok ⟨s.isValid, s.solve⟩ := by
    intro A
    cases SolverN.mk' sqrt A with
    | throw => rfl
    | ub => rfl
    | ok s => show Outcome.ok _ = Outcome.ok _; rw [hs _ _ s.solve_smul]
  match n, A, hs, hN with
  | 0, A, hs, hN => exact hN A
  | 1, A, hs, hN => exact hN A
  | 2, A, hs, hN => show Outcome.ok _ = Outcome.ok _; rw [hs _ _ (Solver2.mk' A).solve_smul]
  | n + 3, A, hs, hN => exact hN A

theorem KSolver.mk_fix [LinearOrder K] (h : σ * σ = 1) {sqrt : K → K} {A : Mat K n n} {S : KSolver K n} (hS : KSolver.mk' sqrt n A = .ok S) : S.reverse σ = S := by
  have := KSolver.mk_odd h sqrt A
  rw [hS] at this
  exact Outcome.ok.inj this

/-! ### The solvers of constraints -/

variable [LinearOrder K] {p : Proxies K} {s : SolveState K} {f : CFun K n}

theorem SolverBase.reverse_init (b : SolverBase K n) : (b.reverse σ).initBase = b.initBase.reverse σ := by
  unfold SolverBase.reverse SolverBase.initBase; rw [Mat.smul_zero]

theorem SolverBase.reverse_mass (h : σ * σ = 1) (b : SolverBase K n) (damp : Bool) :
    (b.reverse σ).computeEffectiveMass p.swap s (f.reverse σ) damp = ((b.computeEffectiveMass p s f damp).1.reverse σ, (b.computeEffectiveMass p s f damp).2) := by
  unfold SolverBase.computeEffectiveMass
  dsimp only
  rw [show (f.reverse σ).jacobian p.swap s = (f.jacobian p s).swapSides.smul σ from rfl, swap_mass h]
  rfl

theorem SolverBase.reverse_rhs (b : SolverBase K n) (dt : K) (damp : Bool) :
    (b.reverse σ).computeRhs p.swap s (f.reverse σ) dt damp = (b.computeRhs p s f dt damp).smul σ := by
  unfold SolverBase.computeRhs
  dsimp only
  rw [show (f.reverse σ).bias p.swap s = (f.bias p s).smul σ from rfl, show (f.reverse σ).eval p.swap s = (f.eval p s).smul σ from rfl]
  unfold SolverBase.reverse
  dsimp only
  rw [swap_error, Mat.mul_smulVec, Mat.mul_smulVec, Mat.smul_neg, Mat.smul_add, Mat.smul_add, Mat.smul_add]
  congr 2
  · congr 1
    apply ext_get; intro r c; simp only [get_sdiv, get_smul]; ring
  · cases damp
    · simp only [Bool.false_eq_true, if_false]; rw [Mat.smul_zero]
    · simp only [if_true]

theorem SolverBase.reverse_update (h : σ * σ = 1) (b : SolverBase K n) (dt : K) (dl : MVec K n) :
    (b.reverse σ).updateLambda p.swap (f.reverse σ) dt (dl.smul σ) s = ((b.updateLambda p f dt dl s).1.reverse σ, (b.updateLambda p f dt dl s).2) := by
  have hc : (f.reverse σ).clampLambda ((b.lambda.smul σ).add (dl.smul σ)) dt = (f.clampLambda (b.lambda.add dl) dt).smul σ := by
    unfold CFun.reverse
    dsimp only
    rw [← Mat.smul_add, Mat.smul_smul' _ h]
  unfold SolverBase.updateLambda SolverBase.reverse SolverBase.impulse
  dsimp only
  rw [hc, ← Mat.smul_sub]
  exact Prod.ext rfl (swap_applyImpulse p (swap_impulse h b.J _) s)

theorem SolverBase.reverse_warmstart (h : σ * σ = 1) (b : SolverBase K n) (dt : K) :
    (b.reverse σ).warmstartDefault p.swap (f.reverse σ) dt s = ((b.warmstartDefault p f dt s).1.reverse σ, (b.warmstartDefault p f dt s).2) :=
  b.reverse_update h dt b.previousLambda

theorem neg_one_twice : (-1 : K) * -1 = 1 := by ring

/-- An equality with its bodies in the other order: the same changes of positions and velocities. -/
theorem EqualitySolver.reversed [Trig K] (sqrt : K → K) (dt : K) (e : EqualitySolver K n) :
    (e.reverse.initSolve sqrt p.swap (f.reverse (-1)) s = (e.initSolve sqrt p f s).bind fun e => .ok e.reverse) ∧
    (e.reverse.warmstart p.swap (f.reverse (-1)) dt s = ((e.warmstart p f dt s).1.reverse, (e.warmstart p f dt s).2)) ∧
    (e.reverse.solveVelocity p.swap (f.reverse (-1)) dt s = (e.solveVelocity p f dt s).bind fun r => .ok (r.1.reverse, r.2)) ∧
    (e.reverse.solvePosition sqrt p.swap (f.reverse (-1)) s = (e.solvePosition sqrt p f s).bind fun r => .ok (r.1.reverse, r.2)) := by
  have h := neg_one_twice (K := K)
  refine ⟨?_, ?_, ?_, ?_⟩
  · unfold EqualitySolver.initSolve EqualitySolver.reverse
    dsimp only
    rw [SolverBase.reverse_init, SolverBase.reverse_mass h]
    dsimp only
    cases hS : KSolver.mk' sqrt n (e.base.initBase.computeEffectiveMass p s f true).2 with
    | throw => rfl
    | ub => rfl
    | ok S =>
      simp only [Outcome.bind_ok]
      cases hv : S.isValid with
      | false => rfl
      | true =>
        show Outcome.ok (EqualitySolver.mk _ S) = Outcome.ok (EqualitySolver.mk _ (S.reverse (-1)))
        rw [KSolver.mk_fix h hS]
  · unfold EqualitySolver.warmstart EqualitySolver.reverse
    dsimp only
    rw [SolverBase.reverse_warmstart h]
  · unfold EqualitySolver.solveVelocity EqualitySolver.reverse
    dsimp only
    rw [SolverBase.reverse_rhs]
    unfold KSolver.reverse
    dsimp only
    rw [Mat.smul_smul' _ h]
    cases e.solver.solve (e.base.computeRhs p s f dt true) with
    | throw => rfl
    | ub => rfl
    | ok dl =>
      simp only [Outcome.bind_ok]
      rw [SolverBase.reverse_update h]
  · unfold EqualitySolver.solvePosition EqualitySolver.reverse
    dsimp only
    rw [SolverBase.reverse_mass h]
    dsimp only
    cases hS : KSolver.mk' sqrt n (e.base.computeEffectiveMass p s f false).2 with
    | throw => rfl
    | ub => rfl
    | ok S =>
      simp only [Outcome.bind_ok]
      rw [show (f.reverse (-1)).eval p.swap s = (f.eval p s).smul (-1) from rfl, ← Mat.smul_neg]
      have hS' := KSolver.mk_fix h hS
      have hsol : S.solve ((f.eval p s).neg.smul (-1)) = (S.solve (f.eval p s).neg).bind fun x => .ok (x.smul (-1)) := by
        conv_lhs => rw [← hS']
        unfold KSolver.reverse
        dsimp only
        rw [Mat.smul_smul' _ h]
      rw [hsol]
      cases S.solve (f.eval p s).neg with
      | throw => rfl
      | ub => rfl
      | ok x =>
        simp only [Outcome.bind_ok]
        rw [hS']
        congr 2
        rw [show (f.reverse (-1)).jacobian p.swap s = (f.jacobian p s).swapSides.smul (-1) from rfl,
          show (f.reverse (-1)).clampPositionLambda (x.smul (-1)) = (f.clampPositionLambda ((x.smul (-1)).smul (-1))).smul (-1) from rfl, Mat.smul_smul' _ h]
        exact swap_correct p (swap_impulse h _ _) s

theorem SolverBase.reverse_one_lambda (b : SolverBase K n) : (b.reverse 1).lambda = b.lambda ∧ (b.reverse 1).previousLambda = b.previousLambda := ⟨Mat.smul_one' _, Mat.smul_one' _⟩

/-- `updateLambda` when values keep their sign. -/
theorem SolverBase.reverse_update_one (b : SolverBase K n) (dt : K) (dl : MVec K n) :
    (b.reverse 1).updateLambda p.swap (f.reverse 1) dt dl s = ((b.updateLambda p f dt dl s).1.reverse 1, (b.updateLambda p f dt dl s).2) := by
  have := b.reverse_update (p := p) (s := s) (f := f) (one_mul (1 : K)) dt dl
  rw [Mat.smul_one'] at this
  exact this

theorem swap_impulse_one (J : Mat K n 6) (l : MVec K n) (i : Fin 6) : (((J.swapSides.smul 1).transpose).mul l).at_ i = (J.transpose.mul l).at_ (otherSide i) := by
  have := swap_impulse (one_mul (1 : K)) J l i
  rwa [Mat.smul_one' l] at this

/-- An inequality with its bodies in the other order. -/
theorem InequalitySolver.reversed [Trig K] (sqrt : K → K) (epsilon : K) (fuel : Nat) (dt : K) (e : InequalitySolver K n) :
    (e.reverse.initSolve p.swap (f.reverse 1) s = (e.initSolve p f s).reverse) ∧
    (e.reverse.warmstart p.swap (f.reverse 1) dt s = ((e.warmstart p f dt s).1.reverse, (e.warmstart p f dt s).2)) ∧
    (e.reverse.solveVelocity epsilon fuel p.swap (f.reverse 1) dt s = (e.solveVelocity epsilon fuel p f dt s).map fun r => (r.1.reverse, r.2)) ∧
    (e.reverse.solvePosition sqrt p.swap (f.reverse 1) s = (e.solvePosition sqrt p f s).bind fun r => .ok (r.1.reverse, r.2)) := by
  have h := one_mul (1 : K)
  refine ⟨?_, ?_, ?_, ?_⟩
  · unfold InequalitySolver.initSolve InequalitySolver.reverse
    dsimp only
    rw [SolverBase.reverse_init, SolverBase.reverse_mass h]
  · unfold InequalitySolver.warmstart InequalitySolver.reverse
    dsimp only
    rw [SolverBase.reverse_warmstart h]
  · unfold InequalitySolver.solveVelocity InequalitySolver.reverse
    dsimp only
    rw [SolverBase.reverse_rhs, Mat.smul_one', e.base.reverse_one_lambda.1]
    have hc : (fun l => (f.reverse 1).clampLambda l dt) = fun l => f.clampLambda l dt := by
      funext l
      show (f.clampLambda (l.smul 1) dt).smul 1 = _
      rw [Mat.smul_one', Mat.smul_one']
    rw [hc]
    cases solveInequalitiesVec e.effectiveMass ((e.base.computeRhs p s f dt false).add (e.effectiveMass.mul e.base.lambda)) (fun l => f.clampLambda l dt) e.base.lambda epsilon fuel with
    | none => rfl
    | some x =>
      simp only [Option.map_some]
      rw [SolverBase.reverse_update_one]
  · unfold InequalitySolver.solvePosition InequalitySolver.reverse
    dsimp only
    rw [show (f.reverse 1).jacobian p.swap s = (f.jacobian p s).swapSides.smul 1 from rfl, swap_mass h,
      show (f.reverse 1).eval p.swap s = (f.eval p s).smul 1 from rfl, Mat.smul_one' (f.eval p s)]
    cases KSolver.mk' sqrt n (((f.jacobian p s).mul p.inverseMass).mul (f.jacobian p s).transpose) with
    | throw => rfl
    | ub => rfl
    | ok S =>
      simp only [Outcome.bind_ok]
      by_cases hv : S.isValid = true
      · rw [if_pos hv, if_pos hv]
        cases S.solve (f.eval p s).neg with
        | throw => rfl
        | ub => rfl
        | ok x =>
          simp only [Outcome.bind_ok]
          congr 2
          rw [show (f.reverse 1).clampPositionLambda x = (f.clampPositionLambda (x.smul 1)).smul 1 from rfl, Mat.smul_one' x]
          exact swap_correct p (swap_impulse h _ _) s
      · rw [if_neg hv, if_neg hv]; rfl

/-- A constraint with limits with its bodies in the other order. -/
theorem LimitsSolver.reversed [Trig K] {f : CFun K 1} (sqrt : K → K) (epsilon : K) (fuel : Nat) (dt : K) (e : LimitsSolver K) :
    (e.reverse.initSolve sqrt p.swap (f.reverse 1) s = (e.initSolve sqrt p f s).bind fun e => .ok e.reverse) ∧
    (e.reverse.warmstart p.swap (f.reverse 1) dt s = ((e.warmstart p f dt s).1.reverse, (e.warmstart p f dt s).2)) ∧
    (e.reverse.solveVelocity epsilon fuel p.swap (f.reverse 1) dt s = (e.solveVelocity epsilon fuel p f dt s).bind fun o => .ok (o.map fun r => (r.1.reverse, r.2))) ∧
    (e.reverse.solvePosition sqrt epsilon fuel p.swap (f.reverse 1) s = (e.solvePosition sqrt epsilon fuel p f s).bind fun o => .ok (o.map fun r => (r.1.reverse, r.2))) := by
  have h := one_mul (1 : K)
  have hev : (f.reverse 1).eval p.swap s = f.eval p s := Mat.smul_one' _
  have hbi : (f.reverse 1).bias p.swap s = f.bias p s := Mat.smul_one' _
  have hcl : ∀ l, (f.reverse 1).clampLambda l dt = f.clampLambda l dt := by
    intro l
    show (f.clampLambda (l.smul 1) dt).smul 1 = _
    rw [Mat.smul_one', Mat.smul_one']
  have hcp : ∀ l, (f.reverse 1).clampPositionLambda l = f.clampPositionLambda l := by
    intro l
    show (f.clampPositionLambda (l.smul 1)).smul 1 = _
    rw [Mat.smul_one', Mat.smul_one']
  have hnext : ∀ e : LimitsSolver K, e.reverse.nextFunc p.swap (f.reverse 1) s = e.nextFunc p f s := by
    intro e
    unfold LimitsSolver.nextFunc
    rw [hev]; rfl
  refine ⟨?_, ?_, ?_, ?_⟩
  · unfold LimitsSolver.initSolve
    dsimp only
    rw [show e.reverse.base = e.base.reverse 1 from rfl, SolverBase.reverse_init, SolverBase.reverse_mass h]
    have hn : LimitsSolver.nextFunc { e.reverse with base := e.base.initBase.reverse 1 } p.swap (f.reverse 1) s = LimitsSolver.nextFunc { e with base := e.base.initBase } p f s := by
      unfold LimitsSolver.nextFunc
      rw [hev]; rfl
    rw [hn]
    cases hF : LimitsSolver.nextFunc { e with base := e.base.initBase } p f s with
    | lower => rfl
    | upper => rfl
    | off => rfl
    | equality =>
      dsimp only
      cases KSolver.mk' sqrt 1 (e.base.initBase.computeEffectiveMass p s f true).2 with
      | throw => rfl
      | ub => rfl
      | ok S => rfl
  · unfold LimitsSolver.warmstart
    rw [show e.reverse.canWarmstart = e.canWarmstart from rfl, show e.reverse.func = e.func from rfl]
    by_cases hc : e.canWarmstart = true
    · rw [if_pos hc, if_pos hc]
      by_cases hu : e.func = Func.upper
      · rw [if_pos hu, if_pos hu]
        refine Prod.ext ?_ ?_
        · show LimitsSolver.mk _ _ _ _ _ _ = LimitsSolver.mk _ _ _ _ _ _
          rfl
        · dsimp only
          rw [show e.reverse.base.previousLambda = e.base.previousLambda from Mat.smul_one' _]
          exact swap_applyImpulse p (swap_impulse_one e.base.J _) s
      · rw [if_neg hu, if_neg hu]
        dsimp only
        rw [show e.reverse.base = e.base.reverse 1 from rfl, SolverBase.reverse_warmstart h]
        rfl
    · rw [if_neg hc, if_neg hc]
  · have hr : e.reverse.rhs p.swap (f.reverse 1) dt s = e.rhs p f dt s := by
      unfold LimitsSolver.rhs
      dsimp only
      rw [hev, hbi, show e.reverse.base.J = e.base.J.swapSides.smul 1 from rfl, swap_error, Mat.smul_one' (e.base.J.mul _), swap_mass h, show e.reverse.base.lambda = e.base.lambda from Mat.smul_one' _]
      rfl
    unfold LimitsSolver.solveVelocity
    rw [hr, show e.reverse.func = e.func from rfl, show e.reverse.data = e.data from rfl, show e.reverse.base = e.base.reverse 1 from rfl, e.base.reverse_one_lambda.1]
    simp only [hcl]
    cases e.rhs p f dt s with
    | throw => rfl
    | ub => rfl
    | ok err =>
      simp only [Outcome.bind_ok]
      cases hF : e.func with
      | off => rfl
      | equality =>
        cases hd : e.data with
        | effectiveMass M => rfl
        | solver S =>
          dsimp only
          cases S.solve err with
          | throw => rfl
          | ub => rfl
          | ok dl =>
            simp only [Outcome.bind_ok]
            rw [SolverBase.reverse_update_one]
            simp only [Option.map_some]
            congr 3
      | lower =>
        cases hd : e.data with
        | solver S => rfl
        | effectiveMass M =>
          dsimp only
          cases solveInequalitiesVec M err (fun l => maxZero (f.clampLambda l dt)) e.base.lambda epsilon fuel with
          | none => rfl
          | some x =>
            simp only [Option.map_some, Outcome.bind_ok]
            rw [SolverBase.reverse_update_one]
            rfl
      | upper =>
        cases hd : e.data with
        | solver S => rfl
        | effectiveMass M =>
          dsimp only
          cases solveInequalitiesVec M err (fun l => maxZero (f.clampLambda l.neg dt).neg) e.base.lambda epsilon fuel with
          | none => rfl
          | some x =>
            simp only [Option.map_some, Outcome.bind_ok]
            congr 3
            · unfold LimitsSolver.reverse SolverBase.reverse
              simp only [Mat.smul_one']
            · exact swap_applyImpulse p (swap_impulse_one e.base.J _) s
  · unfold LimitsSolver.solvePosition
    dsimp only
    rw [show e.reverse.base = e.base.reverse 1 from rfl, SolverBase.reverse_mass h, hev]
    have hn : LimitsSolver.nextFunc { e.reverse with base := (e.base.computeEffectiveMass p s f false).1.reverse 1 } p.swap (f.reverse 1) s =
        LimitsSolver.nextFunc { e with base := (e.base.computeEffectiveMass p s f false).1 } p f s := by
      unfold LimitsSolver.nextFunc
      rw [hev]; rfl
    dsimp only
    rw [hn]
    simp only [hcp]
    have hJ : ((e.base.computeEffectiveMass p s f false).1.reverse 1).J = (e.base.computeEffectiveMass p s f false).1.J.swapSides.smul 1 := rfl
    have hcor : ∀ x, p.swap.applyPositionCorrection (((e.base.computeEffectiveMass p s f false).1.reverse 1).J.transpose.mul x) s =
        p.applyPositionCorrection ((e.base.computeEffectiveMass p s f false).1.J.transpose.mul x) s := by
      intro x; rw [hJ]; exact swap_correct p (swap_impulse_one _ x) s
    simp only [hcor]
    cases hF : LimitsSolver.nextFunc { e with base := (e.base.computeEffectiveMass p s f false).1 } p f s with
    | off => rfl
    | equality =>
      dsimp only
      rw [show e.reverse.L = e.L from rfl]
      cases LimitsSolver.value e.L with
      | throw => rfl
      | ub => rfl
      | ok l =>
        simp only [Outcome.bind_ok]
        cases KSolver.mk' sqrt 1 (e.base.computeEffectiveMass p s f false).2 with
        | throw => rfl
        | ub => rfl
        | ok S =>
          simp only [Outcome.bind_ok]
          cases S.solve ((f.eval p s).sub l).neg with
          | throw => rfl
          | ub => rfl
          | ok x => rfl
    | lower =>
      dsimp only
      rw [show e.reverse.L = e.L from rfl]
      cases LimitsSolver.value e.L with
      | throw => rfl
      | ub => rfl
      | ok l =>
        simp only [Outcome.bind_ok]
        cases solveInequalitiesVec (e.base.computeEffectiveMass p s f false).2 ((f.eval p s).sub l).neg (fun l => maxZero (f.clampPositionLambda l)) Mat.zero epsilon fuel <;> rfl
    | upper =>
      dsimp only
      rw [show e.reverse.U = e.U from rfl]
      cases LimitsSolver.value e.U with
      | throw => rfl
      | ub => rfl
      | ok u =>
        simp only [Outcome.bind_ok]
        cases solveInequalitiesVec (e.base.computeEffectiveMass p s f false).2 ((f.eval p s).sub u) (fun l => maxZero (f.clampPositionLambda l.neg).neg) Mat.zero epsilon fuel <;> rfl

/-! ### Any constraint, and the network -/

variable [Trig K]

theorem Kind.act_reverse (c : CallCfg K) (k : Kind K) (hk : k.Joint) (ph : Phase) (p : Proxies K) (e : k.State) (s : SolveState K) :
    k.reverse.act c ph p.swap (k.reverseState e) s = (k.act c ph p e s).bind fun r => .ok (k.reverseState r.1, r.2) := by
  cases k with
  | mouse f => exact hk.elim
  | contact => exact hk.elim
  | equality d f =>
    obtain ⟨h1, h2, h3, h4⟩ := EqualitySolver.reversed (p := p) (s := s) (f := f) c.sqrt c.dt e
    cases ph with
    | initSolve =>
      show ((EqualitySolver.reverse e).initSolve c.sqrt p.swap (f.reverse (-1)) s).bind _ = ((EqualitySolver.initSolve c.sqrt e p f s).bind _).bind _
      rw [h1]
      cases EqualitySolver.initSolve c.sqrt e p f s <;> rfl
    | warmstart => show Outcome.ok _ = Outcome.ok _; exact congrArg Outcome.ok h2
    | solveVelocities => exact h3
    | solvePositions => exact h4
  | inequality d f =>
    obtain ⟨h1, h2, h3, h4⟩ := InequalitySolver.reversed (p := p) (s := s) (f := f) c.sqrt c.epsilon c.fuel c.dt e
    cases ph with
    | initSolve => show Outcome.ok _ = Outcome.ok _; exact congrArg Outcome.ok (Prod.ext h1 rfl)
    | warmstart => show Outcome.ok _ = Outcome.ok _; exact congrArg Outcome.ok h2
    | solveVelocities =>
      show returned ((InequalitySolver.reverse e).solveVelocity c.epsilon c.fuel p.swap (f.reverse 1) c.dt s) = (returned (InequalitySolver.solveVelocity c.epsilon c.fuel e p f c.dt s)).bind _
      rw [h3]
      cases InequalitySolver.solveVelocity c.epsilon c.fuel e p f c.dt s <;> rfl
    | solvePositions => exact h4
  | limits f =>
    obtain ⟨h1, h2, h3, h4⟩ := LimitsSolver.reversed (p := p) (s := s) (f := f) c.sqrt c.epsilon c.fuel c.dt e
    cases ph with
    | initSolve =>
      show ((LimitsSolver.reverse e).initSolve c.sqrt p.swap (f.reverse 1) s).bind _ = ((LimitsSolver.initSolve c.sqrt e p f s).bind _).bind _
      rw [h1]
      cases LimitsSolver.initSolve c.sqrt e p f s <;> rfl
    | warmstart => show Outcome.ok _ = Outcome.ok _; exact congrArg Outcome.ok h2
    | solveVelocities =>
      show ((LimitsSolver.reverse e).solveVelocity c.epsilon c.fuel p.swap (f.reverse 1) c.dt s).bind returned = ((LimitsSolver.solveVelocity c.epsilon c.fuel e p f c.dt s).bind returned).bind _
      rw [h3]
      cases LimitsSolver.solveVelocity c.epsilon c.fuel e p f c.dt s with
      | throw => rfl
      | ub => rfl
      | ok o => cases o <;> rfl
    | solvePositions =>
      show ((LimitsSolver.reverse e).solvePosition c.sqrt c.epsilon c.fuel p.swap (f.reverse 1) s).bind returned = ((LimitsSolver.solvePosition c.sqrt c.epsilon c.fuel e p f s).bind returned).bind _
      rw [h4]
      cases LimitsSolver.solvePosition c.sqrt c.epsilon c.fuel e p f s with
      | throw => rfl
      | ub => rfl
      | ok o => cases o <;> rfl

theorem Kind.isActive_reverse (k : Kind K) (hk : k.Joint) (m : InvMasses K) (e : k.State) (p q : Position K) (w w' : Nat → Velocity K) :
    k.reverse.isActive ⟨0, 1, m.swap⟩ (k.reverseState e) ⟨fun i => if i = 0 then q else p, w'⟩ =
      (k.reverseState (k.isActive ⟨0, 1, m⟩ e ⟨fun i => if i = 0 then p else q, w⟩).1, (k.isActive ⟨0, 1, m⟩ e ⟨fun i => if i = 0 then p else q, w⟩).2) := by
  cases k with
  | mouse f => exact hk.elim
  | contact => exact hk.elim
  | equality d f => rfl
  | inequality d f => rfl
  | limits f =>
    refine Prod.ext rfl ?_
    show LimitsSolver.isActive (LimitsSolver.reverse e) ⟨0, 1, m.swap⟩ (f.reverse 1) _ = LimitsSolver.isActive e ⟨0, 1, m⟩ f _
    unfold LimitsSolver.isActive LimitsSolver.nextFunc
    have : (f.reverse 1).eval ⟨0, 1, m.swap⟩ ⟨fun i => if i = 0 then q else p, w'⟩ = f.eval ⟨0, 1, m⟩ ⟨fun i => if i = 0 then p else q, w⟩ := by
      show (f.eval ⟨1, 0, m⟩ _).smul 1 = _
      rw [Mat.smul_one']
      exact hk _ _ _ _ rfl rfl rfl
    rw [this]
    rfl

theorem Kind.act_reverseIf (c : CallCfg K) (k : Kind K) (b : Bool) (hk : b = true → k.Joint) (ph : Phase) (B : Bodies K) (i : Nat × Nat) (e : k.State) (s : SolveState K) :
    (k.reverseIf b).act c ph ⟨(turnPair b i).1, (turnPair b i).2, (B.swapIf b).masses⟩ (k.reverseStateIf b e) s =
      (k.act c ph ⟨i.1, i.2, B.masses⟩ e s).bind fun r => .ok (k.reverseStateIf b r.1, r.2) := by
  cases b with
  | true => exact k.act_reverse c (hk rfl) ph ⟨i.1, i.2, B.masses⟩ e s
  | false =>
    show k.act c ph ⟨i.1, i.2, B.masses⟩ e s = _
    cases k.act c ph ⟨i.1, i.2, B.masses⟩ e s <;> rfl

theorem Kind.isActive_reverseIf (k : Kind K) (b : Bool) (hk : b = true → k.Joint) (B : Bodies K) (e : k.State) (pq : Position K × Position K) (w : Nat → Velocity K) :
    (k.reverseIf b).isActive ⟨0, 1, (B.swapIf b).masses⟩ (k.reverseStateIf b e) ⟨fun i => if i = 0 then (turnPair b pq).1 else (turnPair b pq).2, w⟩ =
      (k.reverseStateIf b (k.isActive ⟨0, 1, B.masses⟩ e ⟨fun i => if i = 0 then pq.1 else pq.2, w⟩).1, (k.isActive ⟨0, 1, B.masses⟩ e ⟨fun i => if i = 0 then pq.1 else pq.2, w⟩).2) := by
  cases b with
  | true => exact k.isActive_reverse (hk rfl) B.masses e pq.1 pq.2 w w
  | false => rfl

omit [Trig K] in
theorem Bodies.swap_structural (B : Bodies K) (h : B.i0 ≠ B.i1) (x : Nat) : B.swap.isBodyStructural x = B.isBodyStructural x := by
  unfold Bodies.isBodyStructural Bodies.swap InvMasses.swap
  dsimp only
  by_cases h0 : x = B.i0
  · rw [if_pos h0, if_neg (by rw [h0]; exact h), if_pos h0]
  · rw [if_neg h0, if_neg h0]

theorem Library.turned {L : Library K} {J : Nat → Bool} (h : L.CanReverse J) (c : CallCfg K) :
    (L.net c).Turned (amongJoints J) (fun s l => (L.kind l).reverseStateIf (amongJoints J l) (s l)) ((L.reverse J).net c) := by
  have hj : ∀ l, amongJoints J l = true → (L.kind l).Joint := by
    rintro (n | n) hl
    · exact h.joint n hl
    · cases hl
  have hu : ∀ (s : (l : Link) → (L.kind l).State) (l : Link) (x : (L.kind l).State),
      (fun l' => (L.kind l').reverseStateIf (amongJoints J l') (Function.update s l x l')) =
        Function.update (fun l' => (L.kind l').reverseStateIf (amongJoints J l') (s l')) l ((L.kind l).reverseStateIf (amongJoints J l) x) := by
    intro s l x
    funext l'
    by_cases hl : l' = l
    · subst hl; simp
    · simp [hl]
  refine ⟨fun l => ?_, rfl, rfl, ?_, rfl, rfl, fun l s pq => ?_, fun ph l i s ps vs => ?_⟩
  · show (((L.bodies l).swapIf (amongJoints J l)).i0, ((L.bodies l).swapIf (amongJoints J l)).i1) = _
    cases amongJoints J l <;> rfl
  · funext l b
    have : ((L.bodies l).swapIf (amongJoints J l)).isBodyStructural b = (L.bodies l).isBodyStructural b := by
      cases hl : amongJoints J l with
      | false => rfl
      | true =>
        cases l with
        | contact n => cases hl
        | joint n => exact Bodies.swap_structural _ (h.two n hl) b
    show (match ((L.bodies l).swapIf (amongJoints J l)).isBodyStructural b with | .ok r => r | _ => false) = _
    rw [this]; rfl
  · have hx : (turnPair (amongJoints J l) (pq.1.1, pq.2.1)) = ((turnPair (amongJoints J l) pq).1.1, (turnPair (amongJoints J l) pq).2.1) := by cases amongJoints J l <;> rfl
    have := (L.kind l).isActive_reverseIf (amongJoints J l) (hj l) (L.bodies l) (s l) (pq.1.1, pq.2.1) fun _ => ⟨0, 0⟩
    rw [hx] at this
    have h1 := congrArg Prod.fst this
    have h2 := congrArg Prod.snd this
    refine Prod.ext ?_ h2
    exact Eq.trans (congrArg (Function.update (fun l' => (L.kind l').reverseStateIf (amongJoints J l') (s l')) l) h1) (hu s l _).symm
  · have := (L.kind l).act_reverseIf c (amongJoints J l) (hj l) ph (L.bodies l) i (s l) ⟨fun i => (ps i).1, vs⟩
    show ((Kind.act c ((L.kind l).reverseIf (amongJoints J l)) ph ⟨_, _, ((L.bodies l).swapIf (amongJoints J l)).masses⟩ _ _).bind _) = (((L.kind l).act c ph ⟨i.1, i.2, (L.bodies l).masses⟩ (s l) ⟨fun i => (ps i).1, vs⟩).bind _).bind _
    rw [this]
    cases (L.kind l).act c ph ⟨i.1, i.2, (L.bodies l).masses⟩ (s l) ⟨fun i => (ps i).1, vs⟩ with
    | throw => rfl
    | ub => rfl
    | ok r =>
      have h1 := (hu s l r.1).symm
      show Outcome.ok (Function.update _ l _, _) = Outcome.ok (_, _)
      refine congrArg Outcome.ok (Prod.ext ?_ rfl)
      exact h1

end
end Simu
