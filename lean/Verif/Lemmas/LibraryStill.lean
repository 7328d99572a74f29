import Verif.Spec.LibraryStill
import Verif.Lemmas.Library
import Verif.Lemmas.GaussSeidel
import Verif.Lemmas.LibrarySound
import Verif.Lemmas.IslandStill
import Verif.Props.Library
/-
Lemmas on satisfied constraints.
-/
namespace Simu
open Island Mat

section
variable {K : Type*} [Field K]

theorem Mat.mul_zero_vec {m n : Nat} (A : Mat K m n) : A.mul (Mat.zero : MVec K n) = Mat.zero := by
  refine ext_at fun i => ?_
  rw [at_mul]
  simp [Mat.at_zero]

theorem Mat.neg_zero_vec {n : Nat} : (Mat.zero : MVec K n).neg = Mat.zero := ext_at fun i => by rw [at_neg]; simp [Mat.at_zero]
theorem Mat.sub_self_vec {n : Nat} (v : MVec K n) : v.sub v = Mat.zero := ext_at fun i => by rw [at_sub]; simp [Mat.at_zero]
theorem Mat.add_zero_vec {n : Nat} (v : MVec K n) : v.add Mat.zero = v := ext_at fun i => by rw [at_add]; simp [Mat.at_zero]
theorem Mat.sdiv_zero_vec {n : Nat} (k : K) : (Mat.zero : MVec K n).sdiv k = Mat.zero := ext_at fun i => by rw [at_sdiv]; simp [Mat.at_zero]
theorem Mat.smul_zero_vec {n : Nat} (k : K) : (Mat.zero : MVec K n).smul k = Mat.zero := ext_at fun i => by rw [at_smul]; simp [Mat.at_zero]

theorem Proxies.applyImpulse_zero (p : Proxies K) (s : SolveState K) : p.applyImpulse Mat.zero s = s := by
  have hv : (p.applyImpulse Mat.zero s).vel = s.vel := funext fun i => by
    rw [Proxies.applyImpulse_vel]
    have : (Mat.zero : MVec K 6).toV = fun _ => 0 := funext fun c => rfl
    rw [this, kick_zero, add_zero]
  have hp := Proxies.applyImpulse_pos p Mat.zero s
  cases h : p.applyImpulse Mat.zero s
  rw [h] at hv hp
  cases s
  simp only at hv hp
  rw [hv, hp]

variable [Trig K]

theorem Proxies.applyPositionCorrection_zero (p : Proxies K) {s : SolveState K} (h0 : (s.pos p.i0).orient.WF) (h1 : (s.pos p.i1).orient.WF) :
    p.applyPositionCorrection Mat.zero s = s := by
  have adv : ∀ (s : SolveState K) (i : Nat) (m I : K), (s.pos i).orient.WF → s.advancePos i (m • (⟨(Mat.zero : MVec K 6).at_ 0, (Mat.zero : MVec K 6).at_ 1⟩ : Vec2 K)) (I * (Mat.zero : MVec K 6).at_ 2) = s := by
    intro s i m I h
    unfold SolveState.advancePos
    rw [Position.advance_zero h (by ext <;> simp [Mat.at_zero]) (by simp [Mat.at_zero]), Function.update_eq_self]
  unfold Proxies.applyPositionCorrection
  dsimp only
  rw [adv s p.i0 _ _ h0]
  exact adv s p.i1 _ _ h1

end

section
variable {K : Type*} [Field K] [LinearOrder K] [IsStrictOrderedRing K]

theorem KSolver.solve_zero {sqrt : K → K} (hs : ∀ x, 0 ≤ x → sqrt x * sqrt x = x) {d : Nat} {A : Mat K d d} {s : KSolver K d} (h : KSolver.mk' sqrt d A = .ok s) {x : MVec K d}
    (hx : s.solve Mat.zero = .ok x) : x = Mat.zero := by
  obtain ⟨s', h1, -, h3, h4⟩ := KSolver.mk_spec hs A
  rw [h] at h1
  obtain rfl := Outcome.ok.inj h1
  by_cases hd : A.toM.det = 0
  · rw [h4 hd] at hx; cases hx
  · obtain ⟨y, e1, -, e3⟩ := h3 hd Mat.zero
    rw [hx] at e1
    obtain rfl := Outcome.ok.inj e1
    exact (e3 Mat.zero (Mat.mul_zero_vec A)).symm

theorem KSolver.solve_nonpos {sqrt : K → K} (hs : ∀ x, 0 ≤ x → sqrt x * sqrt x = x) {A : Mat K 1 1} (hA : 0 < A.get 0 0) {s : KSolver K 1} (h : KSolver.mk' sqrt 1 A = .ok s)
    {b x : MVec K 1} (hb : b.at_ 0 ≤ 0) (hx : s.solve b = .ok x) : x.at_ 0 ≤ 0 := by
  obtain ⟨s', h1, -, h3, h4⟩ := KSolver.mk_spec hs A
  rw [h] at h1
  obtain rfl := Outcome.ok.inj h1
  by_cases hd : A.toM.det = 0
  · rw [h4 hd] at hx; cases hx
  · obtain ⟨y, e1, e2, -⟩ := h3 hd b
    rw [hx] at e1
    obtain rfl := Outcome.ok.inj e1
    have := congrArg (fun v : MVec K 1 => v.at_ 0) e2
    simp only [at_mul, Fin.sum_univ_one] at this
    rw [← this] at hb
    by_contra hc
    exact absurd hb (not_le.2 (mul_pos hA (not_le.1 hc)))

/-- Starting from zero, with right hand sides that are not positive and a projection that only lets positive values pass. -/
theorem solveInequalitiesVec_zero {n : Nat} {A : Mat K n n} {b : MVec K n} {proj : MVec K n → MVec K n} {epsilon : K} {fuel : Nat} {x : MVec K n}
    (hp : ∀ r v, proj ((Mat.zero : MVec K n).setAt r (rowSolution A b.neg Mat.zero r)) = v → v.at_ r = 0)
    (h : solveInequalitiesVec A b proj Mat.zero epsilon fuel = some x) : x = Mat.zero := by
  have hsw : (sweep A b.neg (fun x i => (proj x).at_ i) Mat.zero).1 = Mat.zero := by
    unfold sweep
    refine (forFin_induct (n := n) (fun _ (s : MVec K n × K) => s.1 = Mat.zero) _ _ rfl ?_)
    intro row s hs
    unfold sweepRow
    dsimp only
    rw [hs, hp row _ rfl]
    refine ext_at fun i => ?_
    rw [at_setAt]
    split <;> simp [Mat.at_zero]
  unfold solveInequalitiesVec solveInequalities at h
  generalize 1 + epsilon = eps at h
  induction fuel generalizing eps with
  | zero => unfold gsLoop at h; split at h <;> simp_all
  | succ fuel ih =>
    unfold gsLoop at h
    split at h
    · rw [hsw] at h; exact ih _ h
    · exact (Option.some.inj h).symm

theorem rowSolution_zero {n : Nat} (A : Mat K n n) (b : MVec K n) (r : Fin n) : rowSolution A b.neg Mat.zero r = b.at_ r / A.get r r := by
  rw [rowSolution, forTo_sum, forFrom_sum, at_neg]
  simp [Mat.at_zero]

theorem SolverBase.updateLambda_zero {d : Nat} (b : SolverBase K d) (p : Proxies K) (f : CFun K d) (dt : K) {x : MVec K d} (s : SolveState K) (hl : b.lambda = Mat.zero)
    (hx : x = Mat.zero) (hc : f.clampLambda Mat.zero dt = Mat.zero) : b.updateLambda p f dt x s = (b, s) := by
  subst hx
  unfold SolverBase.updateLambda
  dsimp only
  rw [hl, Mat.add_zero_vec, hc, Mat.sub_self_vec]
  unfold SolverBase.impulse
  rw [Mat.mul_zero_vec, Proxies.applyImpulse_zero, ← hl]

theorem Proxies.velocity_zero {p : Proxies K} {s : SolveState K} (h0 : s.vel p.i0 = ⟨0, 0⟩) (h1 : s.vel p.i1 = ⟨0, 0⟩) : p.velocity s = Mat.zero := by
  refine ext_at fun i => ?_
  rw [velocity_toV, h0, h1]
  fin_cases i <;> rfl

theorem SolverBase.computeRhs_zero {d : Nat} {b : SolverBase K d} {p : Proxies K} {s : SolveState K} {f : CFun K d} {dt : K} {damp : Bool} (hb : ∀ p s, f.bias p s = Mat.zero)
    (hl : b.lambda = Mat.zero) (h0 : s.vel p.i0 = ⟨0, 0⟩) (h1 : s.vel p.i1 = ⟨0, 0⟩) (r : Fin d) :
    (b.computeRhs p s f dt damp).at_ r = -(b.restitution.at_ r * (f.eval p s).at_ r / dt) := by
  unfold SolverBase.computeRhs
  dsimp only
  have hd : (if damp = true then (diagonal b.damping).mul b.lambda else Mat.zero) = Mat.zero := by
    rw [hl, Mat.mul_zero_vec, ite_self]
  rw [hd, hb, Proxies.velocity_zero h0 h1, Mat.mul_zero_vec, Mat.add_zero_vec, Mat.add_zero_vec]
  rw [at_neg, at_add, at_sdiv, at_mul]
  simp only [Mat.at_zero, zero_add, get_diagonal, ite_mul, zero_mul, Finset.sum_ite_eq, Finset.mem_univ, if_true]

variable [Trig K]

/-- What `initSolve` makes of a satisfied constraint. -/
def Kind.Primed (m : InvMasses K) (p q : Position K) (k : Kind K) (e : k.State) : Prop := k.Satisfied m p q e ∧
  match k, e with
  | .equality _ _, e => (e : EqualitySolver _ _).base.previousLambda = Mat.zero ∧ ∀ x, (e : EqualitySolver _ _).solver.solve Mat.zero = .ok x → x = Mat.zero
  | .mouse _, e => (e : EqualitySolver _ _).base.previousLambda = Mat.zero ∧ ∀ x, (e : EqualitySolver _ _).solver.solve Mat.zero = .ok x → x = Mat.zero
  | .inequality _ _, e => (e : InequalitySolver _ _).base.previousLambda = Mat.zero ∧ ∀ r, 0 < (e : InequalitySolver _ _).effectiveMass.get r r
  | .limits f, e => (e : LimitsSolver _).base.previousLambda = Mat.zero ∧ (∀ i0 i1 s, s.pos i0 = p → s.pos i1 = q → (e : LimitsSolver _).nextFunc ⟨i0, i1, m⟩ f s = (e : LimitsSolver _).func) ∧
    ((e : LimitsSolver _).func = .equality → ∀ k, (e : LimitsSolver _).data = .solver k → ∀ x, k.solve Mat.zero = .ok x → x = Mat.zero)
  | .contact, e => (e : Contact _).previousTangentLambda = Mat.zero ∧ (e : Contact _).previousNormalLambda = Mat.zero ∧ (e : Contact _).bounce = Mat.zero ∧
    ((e : Contact _).frame.nContacts = 2 → ∀ k, (e : Contact _).normalSolver = .lcp k → ∃ A, k = LcpSolver.mk' A)

section
variable {c : CallCfg K} {m : InvMasses K} {p q : Position K} {i0 i1 : Nat} {s : SolveState K}

theorem EqualitySolver.initSolve_still {sqrt : K → K} (hs : ∀ x, 0 ≤ x → sqrt x * sqrt x = x) {d : Nat} {f : CFun K d} {e e' : EqualitySolver K d}
    (hl : e.base.lambda = Mat.zero) (h : EqualitySolver.initSolve sqrt e ⟨i0, i1, m⟩ f s = .ok e') :
    e'.base.lambda = Mat.zero ∧ e'.base.previousLambda = Mat.zero ∧ ∀ x, e'.solver.solve Mat.zero = .ok x → x = Mat.zero := by
  unfold EqualitySolver.initSolve at h
  dsimp only at h
  obtain ⟨k, hk, h⟩ := bind_ok_iff.1 h
  obtain ⟨-, -, h⟩ := bind_ok_iff.1 h
  cases Outcome.ok.inj h
  exact ⟨rfl, hl, fun x hx => KSolver.solve_zero hs hk hx⟩

theorem EqualitySolver.solveVelocity_still {d : Nat} {f : CFun K d} (hf : f.Undriven) (hv : f.HasValue m p q Mat.zero) {e e' : EqualitySolver K d} {dt : K} {s' : SolveState K}
    (hp : s.pos i0 = p) (hq : s.pos i1 = q) (h0 : s.vel i0 = ⟨0, 0⟩) (h1 : s.vel i1 = ⟨0, 0⟩) (hl : e.base.lambda = Mat.zero)
    (hsol : ∀ x, e.solver.solve Mat.zero = .ok x → x = Mat.zero) (h : e.solveVelocity ⟨i0, i1, m⟩ f dt s = .ok (e', s')) : e' = e ∧ s' = s := by
  unfold EqualitySolver.solveVelocity at h
  dsimp only at h
  have hr : e.base.computeRhs ⟨i0, i1, m⟩ s f dt true = Mat.zero := ext_at fun r => by
    rw [SolverBase.computeRhs_zero hf.bias hl h0 h1, hv i0 i1 s hp hq]; simp [Mat.at_zero]
  rw [hr] at h
  obtain ⟨x, hx, h⟩ := bind_ok_iff.1 h
  rw [SolverBase.updateLambda_zero _ _ _ _ _ hl (hsol x hx) (hf.clamp dt)] at h
  cases Outcome.ok.inj h
  exact ⟨rfl, rfl⟩

theorem EqualitySolver.solvePosition_still {sqrt : K → K} (hs : ∀ x, 0 ≤ x → sqrt x * sqrt x = x) {d : Nat} {f : CFun K d} (hf : f.Undriven) (hv : f.HasValue m p q Mat.zero)
    {e e' : EqualitySolver K d} {s' : SolveState K} (hp : s.pos i0 = p) (hq : s.pos i1 = q) (wp : p.orient.WF) (wq : q.orient.WF)
    (h : e.solvePosition sqrt ⟨i0, i1, m⟩ f s = .ok (e', s')) :
    s' = s ∧ e'.base.lambda = e.base.lambda ∧ e'.base.previousLambda = e.base.previousLambda ∧ ∀ x, e'.solver.solve Mat.zero = .ok x → x = Mat.zero := by
  unfold EqualitySolver.solvePosition at h
  dsimp only at h
  rw [hv i0 i1 s hp hq, Mat.neg_zero_vec] at h
  obtain ⟨k, hk, h⟩ := bind_ok_iff.1 h
  obtain ⟨x, hx, h⟩ := bind_ok_iff.1 h
  rw [KSolver.solve_zero hs hk hx, hf.clampPosition, Mat.mul_zero_vec, Proxies.applyPositionCorrection_zero _ (by rw [hp]; exact wp) (by rw [hq]; exact wq)] at h
  cases Outcome.ok.inj h
  exact ⟨rfl, rfl, rfl, fun x hx => KSolver.solve_zero hs hk hx⟩

theorem InequalitySolver.solveVelocity_still {epsilon : K} {fuel : Nat} {d : Nat} {f : CFun K d} (hf : f.Undriven) (ho : f.OneSided) {C : MVec K d} (hv : f.HasValue m p q C)
    (hC : ∀ r, 0 ≤ C.at_ r) {e e' : InequalitySolver K d} {dt : K} (hdt : 0 < dt) {s' : SolveState K} (hp : s.pos i0 = p) (hq : s.pos i1 = q) (h0 : s.vel i0 = ⟨0, 0⟩)
    (h1 : s.vel i1 = ⟨0, 0⟩) (hl : e.base.lambda = Mat.zero) (hr : ∀ r, 0 ≤ e.base.restitution.at_ r) (hM : ∀ r, 0 < e.effectiveMass.get r r)
    (h : e.solveVelocity epsilon fuel ⟨i0, i1, m⟩ f dt s = some (e', s')) : e' = e ∧ s' = s := by
  unfold InequalitySolver.solveVelocity at h
  dsimp only at h
  rw [hl, Mat.mul_zero_vec, Mat.add_zero_vec, Option.map_eq_some_iff] at h
  obtain ⟨x, hx, h⟩ := h
  have hz : x = Mat.zero := by
    refine solveInequalitiesVec_zero (fun r v hrv => ?_) hx
    rw [ho.clamp dt _ fun i => ?_] at hrv
    · rw [← hrv, Mat.at_zero]
    · rw [at_setAt]
      split
      · rw [rowSolution_zero, SolverBase.computeRhs_zero hf.bias hl h0 h1, hv i0 i1 s hp hq]
        refine div_nonpos_of_nonpos_of_nonneg (neg_nonpos.2 (div_nonneg (mul_nonneg (hr r) (hC r)) hdt.le)) (hM r).le
      · rw [Mat.at_zero]
  rw [hz, Mat.sub_self_vec, SolverBase.updateLambda_zero _ _ _ _ _ hl rfl (hf.clamp dt)] at h
  cases h
  exact ⟨rfl, rfl⟩

theorem InequalitySolver.solvePosition_still {sqrt : K → K} (hs : ∀ x, 0 ≤ x → sqrt x * sqrt x = x) {d : Nat} {f : CFun K d} (hf : f.Undriven) (ho : f.OneSided) (hm : f.Moves m p q)
    {C : MVec K d} (hv : f.HasValue m p q C) (hC : ∀ r, 0 ≤ C.at_ r) (hd : d = 1 ∨ C = Mat.zero)
    {e e' : InequalitySolver K d} {s' : SolveState K} (hp : s.pos i0 = p) (hq : s.pos i1 = q) (wp : p.orient.WF) (wq : q.orient.WF)
    (h : e.solvePosition sqrt ⟨i0, i1, m⟩ f s = .ok (e', s')) : s' = s ∧ e'.base = e.base ∧ ∀ r, 0 < e'.effectiveMass.get r r := by
  unfold InequalitySolver.solvePosition at h
  dsimp only at h
  rw [hv i0 i1 s hp hq] at h
  obtain ⟨k, hk, h⟩ := bind_ok_iff.1 h
  have hM := hm i0 i1 s hp hq
  split at h
  · obtain ⟨x, hx, h⟩ := bind_ok_iff.1 h
    have hz : f.clampPositionLambda x = Mat.zero := by
      rcases hd with rfl | rfl
      · refine ho.clampPosition x fun r => ?_
        rw [Subsingleton.elim r 0]
        exact KSolver.solve_nonpos hs (hM 0) hk (by rw [at_neg]; exact neg_nonpos.2 (hC 0)) hx
      · rw [Mat.neg_zero_vec] at hx
        rw [KSolver.solve_zero hs hk hx, hf.clampPosition]
    rw [hz, Mat.mul_zero_vec, Proxies.applyPositionCorrection_zero _ (by rw [hp]; exact wp) (by rw [hq]; exact wq)] at h
    cases Outcome.ok.inj h
    exact ⟨rfl, rfl, hM⟩
  · cases Outcome.ok.inj h
    exact ⟨rfl, rfl, hM⟩

omit [IsStrictOrderedRing K] [Trig K] in
theorem at_one_ext {u v : MVec K 1} (h : u.at_ 0 = v.at_ 0) : u = v := ext_at fun i => by rw [Subsingleton.elim i 0]; exact h

omit [IsStrictOrderedRing K] [Trig K] in
theorem LimitsSolver.nextFunc_congr (e : LimitsSolver K) {f : CFun K 1} {p p' : Proxies K} {s s' : SolveState K} (h : f.eval p s = f.eval p' s') : e.nextFunc p f s = e.nextFunc p' f s' := by
  unfold LimitsSolver.nextFunc
  rw [h]

omit [Trig K] in
/-- Where the value of the function is when a limit that is respected is active. -/
theorem LimitsSolver.tight (e : LimitsSolver K) {f : CFun K 1} {pr : Proxies K} {C : MVec K 1} (hC : f.eval pr s = C) (hL : ∀ l, e.L = some l → l.at_ 0 ≤ C.at_ 0)
    (hU : ∀ u, e.U = some u → C.at_ 0 ≤ u.at_ 0) (hLU : e.L ≠ none ∨ e.U ≠ none) :
    (e.nextFunc pr f s = .equality → e.L = some C) ∧ (e.nextFunc pr f s = .lower → e.L = some C) ∧ (e.nextFunc pr f s = .upper → e.U = some C) := by
  unfold LimitsSolver.nextFunc
  rw [hC]
  dsimp only
  cases h : e.L with
  | none =>
    cases h' : e.U with
    | none => rw [h, h'] at hLU; simp at hLU
    | some u =>
      have := hU u h'
      dsimp only
      refine ⟨fun g => ?_, fun g => ?_, fun g => ?_⟩
      · split at g <;> simp at g
      · split at g <;> simp at g
      · split at g
        · rename_i hle
          rw [at_one_ext (u := u) (v := C) (by linarith)]
        · simp at g
  | some l =>
    have hl := hL l h
    cases h' : e.U with
    | none =>
      dsimp only
      refine ⟨fun g => ?_, fun g => ?_, fun g => ?_⟩
      · split at g <;> simp at g
      · split at g
        · rw [at_one_ext (u := l) (v := C) (by linarith)]
        · simp at g
      · split at g <;> simp at g
    | some u =>
      have hu := hU u h'
      dsimp only
      refine ⟨fun g => ?_, fun g => ?_, fun g => ?_⟩
      · split_ifs at g with a b c
        rw [at_one_ext (u := l) (v := C) (by linarith)]
      · split_ifs at g with a b c
        rw [at_one_ext (u := l) (v := C) (by linarith)]
      · split_ifs at g with a b c
        rw [at_one_ext (u := u) (v := C) (by linarith)]

omit [Trig K] in
theorem maxZero_zero {d : Nat} : maxZero (Mat.zero : MVec K d) = Mat.zero := ext_at fun i => by rw [maxZero_at]; simp [Mat.at_zero]

omit [Trig K] in
theorem setAt_zero {d : Nat} (r : Fin d) : (Mat.zero : MVec K d).setAt r 0 = Mat.zero := ext_at fun i => by rw [at_setAt]; split <;> simp [Mat.at_zero]

omit [Trig K] in
theorem solveInequalitiesVec_zero_rhs {n : Nat} {A : Mat K n n} {proj : MVec K n → MVec K n} {epsilon : K} {fuel : Nat} {x : MVec K n} (hp : proj Mat.zero = Mat.zero)
    (h : solveInequalitiesVec A Mat.zero proj Mat.zero epsilon fuel = some x) : x = Mat.zero := by
  refine solveInequalitiesVec_zero (fun r v hv => ?_) h
  rw [rowSolution_zero, Mat.at_zero, zero_div, setAt_zero, hp] at hv
  rw [← hv, Mat.at_zero]

theorem LimitsSolver.initSolve_still {sqrt : K → K} (hs : ∀ x, 0 ≤ x → sqrt x * sqrt x = x) {f : CFun K 1} {C : MVec K 1} (hv : f.HasValue m p q C) {e e' : LimitsSolver K}
    (hp : s.pos i0 = p) (hq : s.pos i1 = q) (hl : e.base.lambda = Mat.zero) (h : e.initSolve sqrt ⟨i0, i1, m⟩ f s = .ok e') :
    e'.base.lambda = Mat.zero ∧ e'.base.previousLambda = Mat.zero ∧ e'.base.damping = e.base.damping ∧ e'.L = e.L ∧ e'.U = e.U ∧
    (∀ j0 j1 t, t.pos j0 = p → t.pos j1 = q → e'.nextFunc ⟨j0, j1, m⟩ f t = e'.func) ∧
    (e'.func = .equality → ∀ k, e'.data = .solver k → ∀ x, k.solve Mat.zero = .ok x → x = Mat.zero) := by
  have nf : ∀ (e'' : LimitsSolver K), e''.L = e.L → e''.U = e.U → ∀ j0 j1 t, t.pos j0 = p → t.pos j1 = q → e''.nextFunc ⟨j0, j1, m⟩ f t = e.nextFunc ⟨i0, i1, m⟩ f s := by
    intro e'' h1 h2 j0 j1 t a b
    unfold LimitsSolver.nextFunc
    rw [h1, h2, hv j0 j1 t a b, hv i0 i1 s hp hq]
  have nf0 : ({ e with base := e.base.initBase } : LimitsSolver K).nextFunc ⟨i0, i1, m⟩ f s = e.nextFunc ⟨i0, i1, m⟩ f s := rfl
  unfold LimitsSolver.initSolve at h
  dsimp only at h
  split at h
  · rename_i hf
    obtain ⟨k, hk, h⟩ := bind_ok_iff.1 h
    cases Outcome.ok.inj h
    refine ⟨rfl, hl, rfl, rfl, rfl, fun j0 j1 t a b => nf _ rfl rfl j0 j1 t a b, fun _ k' hk' x hx => ?_⟩
    cases hk'
    exact KSolver.solve_zero hs hk hx
  · rename_i hf
    cases Outcome.ok.inj h
    exact ⟨rfl, hl, rfl, rfl, rfl, fun j0 j1 t a b => nf _ rfl rfl j0 j1 t a b, fun _ k' hk' => by cases hk'⟩
  · rename_i hf
    cases Outcome.ok.inj h
    exact ⟨rfl, hl, rfl, rfl, rfl, fun j0 j1 t a b => nf _ rfl rfl j0 j1 t a b, fun _ k' hk' => by cases hk'⟩
  · rename_i hf
    cases Outcome.ok.inj h
    refine ⟨rfl, hl, rfl, rfl, rfl, fun j0 j1 t a b => nf _ rfl rfl j0 j1 t a b, fun he => ?_⟩
    have he : ({ e with base := e.base.initBase } : LimitsSolver K).nextFunc ⟨i0, i1, m⟩ f s = .equality := he
    have hf : ({ e with base := e.base.initBase } : LimitsSolver K).nextFunc ⟨i0, i1, m⟩ f s = .off := hf
    rw [he] at hf
    cases hf

/-- The limits that are active are met. -/
def LimitsSolver.Met (e : LimitsSolver K) (C : MVec K 1) : Prop :=
  (e.func = .equality → e.L = some C) ∧ (e.func = .lower → e.L = some C) ∧ (e.func = .upper → e.U = some C)

theorem LimitsSolver.rhs_still {f : CFun K 1} (hf : f.Undriven) {C : MVec K 1} (hv : f.HasValue m p q C) {e : LimitsSolver K} {dt : K} {x : MVec K 1} (hp : s.pos i0 = p)
    (hq : s.pos i1 = q) (h0 : s.vel i0 = ⟨0, 0⟩) (h1 : s.vel i1 = ⟨0, 0⟩) (hl : e.base.lambda = Mat.zero) (hm : e.Met C) (h : e.rhs ⟨i0, i1, m⟩ f dt s = .ok x) : x = Mat.zero := by
  have hvel : (⟨i0, i1, m⟩ : Proxies K).velocity s = Mat.zero := Proxies.velocity_zero h0 h1
  unfold LimitsSolver.rhs at h
  dsimp only at h
  rw [hvel, hf.bias, hv i0 i1 s hp hq, hl, Mat.mul_zero_vec, Mat.neg_zero_vec, Mat.mul_zero_vec, Mat.mul_zero_vec, Mat.sub_self_vec, Mat.add_zero_vec] at h
  split at h
  · rename_i g
    rw [hm.1 g] at h
    dsimp only at h
    rw [Mat.sub_self_vec, Mat.mul_zero_vec, Mat.add_zero_vec, Mat.add_zero_vec, Mat.neg_zero_vec] at h
    exact (Outcome.ok.inj h).symm
  · rename_i g
    rw [hm.2.1 g] at h
    simp only [LimitsSolver.value, Outcome.bind_ok] at h
    rw [Mat.sub_self_vec, Mat.mul_zero_vec, Mat.add_zero_vec, Mat.add_zero_vec, Mat.neg_zero_vec] at h
    exact (Outcome.ok.inj h).symm
  · rename_i g
    rw [hm.2.2 g] at h
    simp only [LimitsSolver.value, Outcome.bind_ok] at h
    rw [Mat.sub_self_vec, Mat.mul_zero_vec, Mat.add_zero_vec, Mat.add_zero_vec] at h
    exact (Outcome.ok.inj h).symm
  · exact (Outcome.ok.inj h).symm

theorem LimitsSolver.warmstart_still {f : CFun K 1} (hf : f.Undriven) {e : LimitsSolver K} {pr : Proxies K} {dt : K} (hl : e.base.lambda = Mat.zero) (hpl : e.base.previousLambda = Mat.zero) :
    e.warmstart pr f dt s = (e, s) := by
  obtain ⟨⟨l, pl, J, r, d⟩, fn, L, U, data, cw⟩ := e
  dsimp only at hl hpl
  subst hl hpl
  unfold LimitsSolver.warmstart
  split
  · split
    · dsimp only
      rw [Mat.neg_zero_vec, SolverBase.impulse, Mat.mul_zero_vec, Proxies.applyImpulse_zero]
    · simp only [SolverBase.warmstartDefault]
      rw [SolverBase.updateLambda_zero _ _ _ _ _ rfl rfl (hf.clamp dt)]
  · rfl

theorem LimitsSolver.solveVelocity_still {epsilon : K} {fuel : Nat} {f : CFun K 1} (hf : f.Undriven) {C : MVec K 1} (hv : f.HasValue m p q C) {e e' : LimitsSolver K} {dt : K}
    {s' : SolveState K} (hp : s.pos i0 = p)
    (hq : s.pos i1 = q) (h0 : s.vel i0 = ⟨0, 0⟩) (h1 : s.vel i1 = ⟨0, 0⟩) (hl : e.base.lambda = Mat.zero) (hm : e.Met C)
    (hd : e.func = .equality → ∀ k, e.data = .solver k → ∀ x, k.solve Mat.zero = .ok x → x = Mat.zero)
    (h : e.solveVelocity epsilon fuel ⟨i0, i1, m⟩ f dt s = .ok (some (e', s'))) : e' = e ∧ s' = s := by
  unfold LimitsSolver.solveVelocity at h
  obtain ⟨x, hx, h⟩ := bind_ok_iff.1 h
  obtain rfl := LimitsSolver.rhs_still hf hv hp hq h0 h1 hl hm hx
  split at h
  · rename_i k g1 g2
    obtain ⟨y, hy, h⟩ := bind_ok_iff.1 h
    rw [SolverBase.updateLambda_zero _ _ _ _ _ hl (hd g1 k g2 y hy) (hf.clamp dt)] at h
    cases Outcome.ok.inj h
    exact ⟨rfl, rfl⟩
  · rename_i M g1 g2
    have h := Outcome.ok.inj h
    rw [hl, Option.map_eq_some_iff] at h
    obtain ⟨y, hy, h⟩ := h
    obtain rfl := solveInequalitiesVec_zero_rhs (by rw [hf.clamp, maxZero_zero]) hy
    rw [Mat.sub_self_vec, SolverBase.updateLambda_zero _ _ _ _ _ hl rfl (hf.clamp dt)] at h
    cases h
    exact ⟨rfl, rfl⟩
  · rename_i M g1 g2
    have h := Outcome.ok.inj h
    rw [hl, Option.map_eq_some_iff] at h
    obtain ⟨y, hy, h⟩ := h
    obtain rfl := solveInequalitiesVec_zero_rhs (by rw [Mat.neg_zero_vec, hf.clamp, Mat.neg_zero_vec, maxZero_zero]) hy
    rw [Mat.sub_self_vec, Mat.neg_zero_vec, SolverBase.impulse, Mat.mul_zero_vec, Proxies.applyImpulse_zero, ← hl] at h
    cases h
    exact ⟨rfl, rfl⟩
  · cases Outcome.ok.inj h
    exact ⟨rfl, rfl⟩
  · cases h

theorem LimitsSolver.solvePosition_still {sqrt : K → K} (hs : ∀ x, 0 ≤ x → sqrt x * sqrt x = x) {epsilon : K} {fuel : Nat} {f : CFun K 1} (hf : f.Undriven) {C : MVec K 1}
    (hv : f.HasValue m p q C) {e e' : LimitsSolver K}
    {s' : SolveState K} (hp : s.pos i0 = p) (hq : s.pos i1 = q) (wp : p.orient.WF) (wq : q.orient.WF)
    (hL : ∀ l, e.L = some l → l.at_ 0 ≤ C.at_ 0) (hU : ∀ u, e.U = some u → C.at_ 0 ≤ u.at_ 0) (hLU : e.L ≠ none ∨ e.U ≠ none)
    (h : e.solvePosition sqrt epsilon fuel ⟨i0, i1, m⟩ f s = .ok (some (e', s'))) : s' = s ∧ e' = { e with base := { e.base with J := f.jacobian ⟨i0, i1, m⟩ s } } := by
  have hz : (⟨i0, i1, m⟩ : Proxies K).applyPositionCorrection Mat.zero s = s := Proxies.applyPositionCorrection_zero _ (by rw [hp]; exact wp) (by rw [hq]; exact wq)
  unfold LimitsSolver.solvePosition at h
  dsimp only [SolverBase.computeEffectiveMass] at h
  obtain ⟨t1, t2, t3⟩ := LimitsSolver.tight ({ e with base := { e.base with J := f.jacobian ⟨i0, i1, m⟩ s } } : LimitsSolver K) (hv i0 i1 s hp hq) hL hU hLU
  rw [hv i0 i1 s hp hq] at h
  split at h
  · rename_i g
    have hl : e.L = some C := t1 g
    rw [hl] at h
    simp only [LimitsSolver.value, Outcome.bind_ok] at h
    obtain ⟨k, hk, h⟩ := bind_ok_iff.1 h
    obtain ⟨x, hx, h⟩ := bind_ok_iff.1 h
    rw [Mat.sub_self_vec, Mat.neg_zero_vec] at hx
    rw [KSolver.solve_zero hs hk hx, hf.clampPosition, Mat.mul_zero_vec, hz] at h
    cases Outcome.ok.inj h
    exact ⟨rfl, by rw [hl]⟩
  · rename_i g
    have hl : e.L = some C := t2 g
    rw [hl] at h
    simp only [LimitsSolver.value, Outcome.bind_ok] at h
    have h := Outcome.ok.inj h
    rw [Mat.sub_self_vec, Mat.neg_zero_vec, Option.map_eq_some_iff] at h
    obtain ⟨x, hx, h⟩ := h
    rw [solveInequalitiesVec_zero_rhs (by rw [hf.clampPosition, maxZero_zero]) hx, Mat.mul_zero_vec, hz] at h
    cases h
    exact ⟨rfl, by rw [hl]⟩
  · rename_i g
    have hl : e.U = some C := t3 g
    rw [hl] at h
    simp only [LimitsSolver.value, Outcome.bind_ok] at h
    have h := Outcome.ok.inj h
    rw [Mat.sub_self_vec, Option.map_eq_some_iff] at h
    obtain ⟨x, hx, h⟩ := h
    rw [solveInequalitiesVec_zero_rhs (by rw [Mat.neg_zero_vec, hf.clampPosition, Mat.neg_zero_vec, maxZero_zero]) hx, Mat.neg_zero_vec, Mat.mul_zero_vec, hz] at h
    cases h
    exact ⟨rfl, by rw [hl]⟩
  · rw [Mat.mul_zero_vec, hz] at h
    cases Outcome.ok.inj h
    exact ⟨rfl, rfl⟩

omit [Trig K] in
theorem LcpSolver.solve_zero {A : Mat K 2 2} {x : MVec K 2} (h : (LcpSolver.mk' A).solve Mat.zero = .ok x) : x = Mat.zero := by
  unfold LcpSolver.solve at h
  obtain ⟨y, hy, h⟩ := bind_ok_iff.1 h
  have hy0 : y = Mat.zero := by
    unfold Solver2.solve at hy
    obtain ⟨-, -, hy⟩ := bind_ok_iff.1 hy
    have hy := Outcome.ok.inj hy
    rw [← hy]
    refine ext_at fun i => ?_
    rw [at_smul, at_ofFn]
    fin_cases i <;> simp [Mat.at_zero]
  subst hy0
  have hz : ∀ i : Fin 2, (Mat.zero : MVec K 2).at_ i = 0 := fun i => Mat.at_zero i
  simp only [hz, le_refl, and_self, if_true] at h
  exact (Outcome.ok.inj h).symm

omit [LinearOrder K] [IsStrictOrderedRing K] [Trig K] in
theorem SolveState.setVel_same {t : SolveState K} {i : Nat} {v : Vec2 K} {w : K} (h : t.vel i = ⟨v, w⟩) : t.setVel i v w = t := by
  unfold SolveState.setVel
  rw [← h, Function.update_eq_self]

omit [LinearOrder K] [IsStrictOrderedRing K] [Trig K] in
theorem smul_zero_right {a b : Nat} (A : Mat K a b) : A.smul 0 = Mat.zero := by
  refine ext_get fun i j => ?_
  rw [get_smul, get_zero]; simp

omit [LinearOrder K] [IsStrictOrderedRing K] [Trig K] in
theorem elementWiseMul_zero {n : Nat} (v : MVec K n) : elementWiseMul v Mat.zero = Mat.zero := by
  refine ext_at fun i => ?_
  simp [elementWiseMul, Mat.at_zero]

theorem Contact.initSolve_still {e : Contact K} (hl : e.normalLambda = Mat.zero) (ht : e.tangentLambda = Mat.zero) (hfr : e.frame.nContacts = e.manifold.nContacts) (h0 : s.vel i0 = ⟨0, 0⟩)
    (h1 : s.vel i1 = ⟨0, 0⟩) :
    let e' := e.initSolve ⟨i0, i1, m⟩ s
    e'.manifold = e.manifold ∧ e'.frame = e.frame ∧ e'.tangentLambda = Mat.zero ∧ e'.normalLambda = Mat.zero ∧ e'.previousTangentLambda = Mat.zero ∧ e'.previousNormalLambda = Mat.zero ∧
    e'.bounce = Mat.zero ∧ (e'.frame.nContacts = 2 → ∀ k, e'.normalSolver = .lcp k → ∃ A, k = LcpSolver.mk' A) := by
  intro e'
  obtain ⟨-, -, c3, c4, c5, c6, -⟩ := Contact.computeKs_eq (e.computeJacobians ⟨i0, i1, m⟩ s true) ⟨i0, i1, m⟩ true
  have hv : (⟨i0, i1, m⟩ : Proxies K).velocity s = Mat.zero := Proxies.velocity_zero h0 h1
  refine ⟨c4, c3, rfl, rfl, c5.trans ht, c6.trans hl, ?_, ?_⟩
  · show ((forFin 2 _ (((e.computeJacobians ⟨i0, i1, m⟩ s true).computeKs ⟨i0, i1, m⟩ true).Jn.mul ((⟨i0, i1, m⟩ : Proxies K).velocity s)))).smul _ = Mat.zero
    rw [hv, Mat.mul_zero_vec, forFin_two, setAt_zero, ite_self, ite_self, setAt_zero, ite_self, ite_self, Mat.smul_zero_vec]
  · intro h2 k hk
    have h2 : e.manifold.nContacts = 2 := by
      have c3 : e'.frame = e.frame := c3
      rw [← hfr, ← c3]; exact h2
    have hk : ((e.computeJacobians ⟨i0, i1, m⟩ s true).computeKs ⟨i0, i1, m⟩ true).normalSolver = .lcp k := hk
    have hm : (e.computeJacobians ⟨i0, i1, m⟩ s true).manifold.nContacts = 2 := h2
    unfold Contact.computeKs at hk
    simp only [if_true] at hk
    rw [if_neg (by rw [hm]; decide), if_pos hm] at hk
    exact ⟨_, (NormalSolver.lcp.inj hk).symm⟩

omit [Trig K] in
theorem Contact.warmstart_still {e : Contact K} {pr : Proxies K} (hl : e.normalLambda = Mat.zero) (ht : e.tangentLambda = Mat.zero) (hpl : e.previousNormalLambda = Mat.zero)
    (hpt : e.previousTangentLambda = Mat.zero) : e.warmstart pr s = (e, s) := by
  unfold Contact.warmstart
  dsimp only
  rw [hpl, hpt, Mat.at_zero, Mat.at_zero, smul_zero_right, smul_zero_right, Mat.mul_zero_vec, Mat.add_zero_vec, Mat.add_zero_vec, Proxies.applyImpulse_zero]
  obtain ⟨⟩ := e
  simp only at hl ht hpl hpt
  subst hl ht hpl hpt
  rfl

omit [Trig K] in
theorem Contact.solveVelocities_still {e e' : Contact K} {s' : SolveState K} (hl : e.normalLambda = Mat.zero) (ht : e.tangentLambda = Mat.zero) (hb : e.bounce = Mat.zero)
    (hk : e.frame.nContacts = 2 → ∀ k, e.normalSolver = .lcp k → ∃ A, k = LcpSolver.mk' A) (h0 : s.vel i0 = ⟨0, 0⟩) (h1 : s.vel i1 = ⟨0, 0⟩)
    (h : e.solveVelocities ⟨i0, i1, m⟩ s = .ok (e', s')) : e' = e ∧ s' = s := by
  have hv : (⟨i0, i1, m⟩ : Proxies K).velocity s = Mat.zero := Proxies.velocity_zero h0 h1
  have hf : e.frictionLoop ⟨i0, i1, m⟩ Mat.zero = (Mat.zero, Mat.zero) := by
    have one : ∀ c, e.frictionStep ⟨i0, i1, m⟩ c (Mat.zero, Mat.zero) = (Mat.zero, Mat.zero) := by
      intro c
      unfold Contact.frictionStep
      dsimp only
      simp only [hl, Mat.mul_zero_vec, Mat.at_zero, neg_zero, zero_mul, mul_zero, add_zero]
      have : Algo.clamp (0 : K) 0 0 = 0 := by simp [Algo.clamp]
      rw [this, sub_zero, smul_zero_right, elementWiseMul_zero, Mat.add_zero_vec, setAt_zero]
    unfold Contact.frictionLoop
    rw [ht, forFin_two, one, ite_self, one, ite_self]
  have hn : ∀ l v, e.solveNormal ⟨i0, i1, m⟩ Mat.zero = .ok (l, v) → l = Mat.zero ∧ v = Mat.zero := by
    intro l v h
    unfold Contact.solveNormal at h
    split at h
    · obtain ⟨k, -, h⟩ := bind_ok_iff.1 h
      dsimp only at h
      simp only [hl, hb, Mat.mul_zero_vec, Mat.at_zero, add_zero, neg_zero, zero_mul, setAt_zero, ite_self, sub_zero, smul_zero_right, elementWiseMul_zero, Mat.add_zero_vec] at h
      cases Outcome.ok.inj h
      exact ⟨rfl, rfl⟩
    · split at h
      · rename_i h2
        obtain ⟨k, hk', h⟩ := bind_ok_iff.1 h
        obtain ⟨A, rfl⟩ := hk h2 k (by
          revert hk'
          cases e.normalSolver <;> simp [NormalSolver.getLcp])
        dsimp only at h
        rw [hl, hb, Mat.mul_zero_vec, Mat.mul_zero_vec, Mat.add_zero_vec, Mat.sub_self_vec, Mat.neg_zero_vec] at h
        obtain ⟨y, hy, h⟩ := bind_ok_iff.1 h
        rw [LcpSolver.solve_zero hy, Mat.sub_self_vec, Mat.mul_zero_vec, elementWiseMul_zero, Mat.add_zero_vec] at h
        cases Outcome.ok.inj h
        exact ⟨rfl, rfl⟩
      · rw [hl] at h
        cases Outcome.ok.inj h
        exact ⟨rfl, rfl⟩
  unfold Contact.solveVelocities at h
  rw [hv, hf] at h
  obtain ⟨⟨l, v⟩, hlv, h⟩ := bind_ok_iff.1 h
  obtain ⟨rfl, rfl⟩ := hn l v hlv
  dsimp only at h
  have hz : ∀ i : Fin 6, (Mat.zero : MVec K 6).at_ i = 0 := fun i => Mat.at_zero i
  simp only [hz] at h
  rw [SolveState.setVel_same (t := s) (i := i0) (v := ⟨0, 0⟩) h0, SolveState.setVel_same (t := s) (i := i1) (v := ⟨0, 0⟩) h1] at h
  cases Outcome.ok.inj h
  refine ⟨?_, rfl⟩
  obtain ⟨⟩ := e
  simp only at hl ht
  subst hl ht
  rfl

theorem Contact.solvePositions_still {e e' : Contact K} {s' : SolveState K} (hp : s.pos i0 = p) (hq : s.pos i1 = q) (hmp : 0 < e.manifold.minPen)
    (hC : let f := e.manifold.frame ![p.toWorldSpace, q.toWorldSpace]
      ∀ c : Fin 2, c.val < f.nContacts → -3 * e.manifold.minPen < Vec2.dot f.normal (f.contacts 0 c - f.contacts 1 c))
    (h : e.solvePositions ⟨i0, i1, m⟩ s = .ok (e', s')) :
    s' = s ∧ e'.manifold = e.manifold ∧ e'.frame = e.manifold.frame ![p.toWorldSpace, q.toWorldSpace] ∧ e'.tangentLambda = e.tangentLambda ∧ e'.normalLambda = e.normalLambda ∧
    e'.previousTangentLambda = e.previousTangentLambda ∧ e'.previousNormalLambda = e.previousNormalLambda ∧ e'.bounce = e.bounce ∧
    (e'.frame.nContacts = 2 → ∀ k, e'.normalSolver = .lcp k → ∃ A, k = LcpSolver.mk' A) := by
  obtain ⟨e1, he1⟩ : ∃ e1 : Contact K, e1 = ({ e with frame := e.manifold.frame ![p.toWorldSpace, q.toWorldSpace] } : Contact K).computeJacobians ⟨i0, i1, m⟩ s false := ⟨_, rfl⟩
  obtain ⟨-, -, c3, c4, c5, c6, -, -, c9, c10⟩ := Contact.computeKs_eq e1 ⟨i0, i1, m⟩ false
  have f3 : e1.frame = e.manifold.frame ![p.toWorldSpace, q.toWorldSpace] := by rw [he1]; rfl
  have f4 : e1.manifold = e.manifold := by rw [he1]; rfl
  unfold Contact.solvePositions at h
  dsimp only at h
  rw [hp, hq, ← he1] at h
  rw [if_pos] at h
  · cases Outcome.ok.inj h
    refine ⟨rfl, c4.trans f4, c3.trans f3, c5.trans (by rw [he1]; rfl), c6.trans (by rw [he1]; rfl), c10.trans (by rw [he1]; rfl), c9.trans (by rw [he1]; rfl), ?_, ?_⟩
    · have : e1.bounce = e.bounce := by rw [he1]; rfl
      rw [← this]
      unfold Contact.computeKs
      simp only [Bool.false_eq_true, if_false]
      split_ifs <;> rfl
    · intro h2 k hk
      have hm : e1.manifold.nContacts = 2 := by rw [c3, f3] at h2; rw [f4]; exact h2
      unfold Contact.computeKs at hk
      simp only [Bool.false_eq_true, if_false] at hk
      rw [if_neg (by rw [hm]; decide), if_pos hm] at hk
      exact ⟨_, (NormalSolver.lcp.inj hk).symm⟩
  · intro c
    have hmp' : -3 * e.manifold.minPen < 0 := by linarith
    rw [c4, f4, forFin_two]
    simp only [Contact.relativePosition, c3, f3]
    have hC0 := hC 0
    have hC1 := hC 1
    have z : ∀ i : Fin 2, (Mat.zero : MVec K 2).at_ i = 0 := fun i => Mat.at_zero i
    fin_cases c
    · show _ < Mat.at_ _ 0
      split_ifs with g1 g2 g2
      · rw [at_setAt, if_neg (by decide), at_setAt, if_pos rfl]; exact hC0 g2
      · rw [at_setAt, if_neg (by decide), z]; exact hmp'
      · rw [at_setAt, if_pos rfl]; exact hC0 g2
      · rw [z]; exact hmp'
    · show _ < Mat.at_ _ 1
      split_ifs with g1 g2 g2
      · rw [at_setAt, if_pos rfl]; exact hC1 g1
      · rw [at_setAt, if_pos rfl]; exact hC1 g1
      · rw [at_setAt, if_neg (by decide), z]; exact hmp'
      · rw [z]; exact hmp'

theorem Kind.primed_satisfied {k : Kind K} {e : k.State} (h : k.Primed m p q e) : k.Satisfied m p q e := h.1

/-- `initSolve` on bodies at rest. -/
theorem Kind.init_still (hs : ∀ x, 0 ≤ x → c.sqrt x * c.sqrt x = x) {k : Kind K} {e e' : k.State} {s' : SolveState K} (hp : s.pos i0 = p) (hq : s.pos i1 = q)
    (h0 : s.vel i0 = ⟨0, 0⟩) (h1 : s.vel i1 = ⟨0, 0⟩) (hk : k.Satisfied m p q e) (h : k.act c .initSolve ⟨i0, i1, m⟩ e s = .ok (e', s')) : k.Primed m p q e' ∧ s' = s := by
  cases k with
  | equality d f =>
    obtain ⟨hf, hv, hl⟩ := hk
    obtain ⟨x, hx, h⟩ := bind_ok_iff.1 h
    cases Outcome.ok.inj h
    obtain ⟨a, b, g⟩ := EqualitySolver.initSolve_still hs hl hx
    exact ⟨⟨⟨hf, hv, a⟩, b, g⟩, rfl⟩
  | mouse f =>
    obtain ⟨hf, hv, hl⟩ := hk
    obtain ⟨x, hx, h⟩ := bind_ok_iff.1 h
    cases Outcome.ok.inj h
    obtain ⟨a, b, g⟩ := EqualitySolver.initSolve_still hs hl hx
    exact ⟨⟨⟨hf, hv, a⟩, b, g⟩, rfl⟩
  | inequality d f =>
    obtain ⟨hf, ho, hm, hC, hr, hd, hl⟩ := hk
    cases Outcome.ok.inj h
    refine ⟨⟨⟨hf, ho, hm, hC, hr, hd, rfl⟩, hl, fun r => ?_⟩, rfl⟩
    have hM := hm i0 i1 s hp hq r
    show 0 < Mat.get (Mat.add _ _) r r
    rw [get_add, get_diagonal, if_pos rfl]
    exact add_pos_of_pos_of_nonneg hM (hd r)
  | limits f =>
    obtain ⟨hf, hm, hd, hl, hLU, C, hC, hL, hU⟩ := hk
    obtain ⟨x, hx, h⟩ := bind_ok_iff.1 h
    cases Outcome.ok.inj h
    obtain ⟨a1, a2, a3, a4, a5, a6, a7⟩ := LimitsSolver.initSolve_still hs hC hp hq hl hx
    refine ⟨⟨⟨hf, hm, ?_, a1, ?_, C, hC, ?_, ?_⟩, a2, a6, a7⟩, rfl⟩
    · rw [a3]; exact hd
    · rw [a4, a5]; exact hLU
    · rw [a4]; exact hL
    · rw [a5]; exact hU
  | contact =>
    obtain ⟨hfr, hsol, htan, ht, hn, hmp, hC⟩ := hk
    cases Outcome.ok.inj h
    obtain ⟨a1, a2, a3, a4, a5, a6, a7, a8⟩ := Contact.initSolve_still (m := m) hn ht hfr h0 h1
    refine ⟨⟨⟨?_, ?_, ?_, a3, a4, ?_, ?_⟩, a5, a6, a7, a8⟩, rfl⟩
    · rw [a1, a2]; exact hfr
    · rw [a1]; exact hsol
    · rw [a1]; exact htan
    · rw [a1]; exact hmp
    · rw [a1]; exact hC

/-- The other calls on bodies at rest. -/
theorem Kind.calls_still (hs : ∀ x, 0 ≤ x → c.sqrt x * c.sqrt x = x) (hdt : 0 < c.dt) (wp : p.orient.WF) (wq : q.orient.WF) {k : Kind K} {e e' : k.State} {s' : SolveState K} {ph : Phase}
    (hph : ph ≠ .initSolve) (hp : s.pos i0 = p) (hq : s.pos i1 = q) (h0 : s.vel i0 = ⟨0, 0⟩) (h1 : s.vel i1 = ⟨0, 0⟩) (hk : k.Primed m p q e)
    (h : k.act c ph ⟨i0, i1, m⟩ e s = .ok (e', s')) : k.Primed m p q e' ∧ s' = s := by
  cases k with
  | equality d f =>
    obtain ⟨⟨hf, hv, hl⟩, hpl, hsol⟩ := hk
    cases ph with
    | initSolve => exact absurd rfl hph
    | warmstart =>
      have h := Outcome.ok.inj h
      simp only [EqualitySolver.warmstart, SolverBase.warmstartDefault] at h
      rw [SolverBase.updateLambda_zero _ _ _ _ _ hl hpl (hf.clamp c.dt)] at h
      cases h
      exact ⟨⟨⟨hf, hv, hl⟩, hpl, hsol⟩, rfl⟩
    | solveVelocities =>
      obtain ⟨rfl, rfl⟩ := EqualitySolver.solveVelocity_still hf hv hp hq h0 h1 hl hsol h
      exact ⟨⟨⟨hf, hv, hl⟩, hpl, hsol⟩, rfl⟩
    | solvePositions =>
      obtain ⟨a, b, g, i⟩ := EqualitySolver.solvePosition_still hs hf hv hp hq wp wq h
      exact ⟨⟨⟨hf, hv, b.trans hl⟩, g.trans hpl, i⟩, a⟩
  | mouse f =>
    obtain ⟨⟨hf, hv, hl⟩, hpl, hsol⟩ := hk
    cases ph with
    | initSolve => exact absurd rfl hph
    | warmstart =>
      have h := Outcome.ok.inj h
      simp only [EqualitySolver.warmstart, SolverBase.warmstartDefault] at h
      rw [SolverBase.updateLambda_zero _ _ _ _ _ hl hpl (hf.clamp c.dt)] at h
      cases h
      exact ⟨⟨⟨hf, hv, hl⟩, hpl, hsol⟩, rfl⟩
    | solveVelocities =>
      obtain ⟨rfl, rfl⟩ := EqualitySolver.solveVelocity_still hf hv hp hq h0 h1 hl hsol h
      exact ⟨⟨⟨hf, hv, hl⟩, hpl, hsol⟩, rfl⟩
    | solvePositions =>
      cases Outcome.ok.inj h
      exact ⟨⟨⟨hf, hv, hl⟩, hpl, hsol⟩, rfl⟩
  | inequality d f =>
    obtain ⟨⟨hf, ho, hm, hC, hr, hd, hl⟩, hpl, hM⟩ := hk
    cases ph with
    | initSolve => exact absurd rfl hph
    | warmstart =>
      have h := Outcome.ok.inj h
      simp only [InequalitySolver.warmstart, SolverBase.warmstartDefault] at h
      rw [SolverBase.updateLambda_zero _ _ _ _ _ hl hpl (hf.clamp c.dt)] at h
      cases h
      exact ⟨⟨⟨hf, ho, hm, hC, hr, hd, hl⟩, hpl, hM⟩, rfl⟩
    | solveVelocities =>
      have hC' := hC
      obtain ⟨C, hv, hC0, -⟩ := hC'
      obtain ⟨rfl, rfl⟩ := InequalitySolver.solveVelocity_still hf ho hv hC0 hdt hp hq h0 h1 hl hr hM (returned_ok h)
      exact ⟨⟨⟨hf, ho, hm, hC, hr, hd, hl⟩, hpl, hM⟩, rfl⟩
    | solvePositions =>
      have hC' := hC
      obtain ⟨C, hv, hC0, hd1⟩ := hC'
      obtain ⟨a, b, g⟩ := InequalitySolver.solvePosition_still hs hf ho hm hv hC0 hd1 hp hq wp wq h
      refine ⟨⟨⟨hf, ho, hm, hC, ?_, ?_, ?_⟩, ?_, g⟩, a⟩ <;> rw [b] <;> assumption
  | limits f =>
    obtain ⟨⟨hf, hm, hd, hl, hLU, C, hC, hL, hU⟩, hpl, hnf, hdat⟩ := hk
    have hmet : LimitsSolver.Met e C := by
      obtain ⟨t1, t2, t3⟩ := LimitsSolver.tight e (hC i0 i1 s hp hq) hL hU hLU
      rw [hnf i0 i1 s hp hq] at t1 t2 t3
      exact ⟨t1, t2, t3⟩
    cases ph with
    | initSolve => exact absurd rfl hph
    | warmstart =>
      have h := Outcome.ok.inj h
      rw [LimitsSolver.warmstart_still hf hl hpl] at h
      cases h
      exact ⟨⟨⟨hf, hm, hd, hl, hLU, C, hC, hL, hU⟩, hpl, hnf, hdat⟩, rfl⟩
    | solveVelocities =>
      obtain ⟨o, ho, h⟩ := bind_ok_iff.1 h
      rw [returned_ok h] at ho
      obtain ⟨rfl, rfl⟩ := LimitsSolver.solveVelocity_still hf hC hp hq h0 h1 hl hmet hdat ho
      exact ⟨⟨⟨hf, hm, hd, hl, hLU, C, hC, hL, hU⟩, hpl, hnf, hdat⟩, rfl⟩
    | solvePositions =>
      obtain ⟨o, ho, h⟩ := bind_ok_iff.1 h
      rw [returned_ok h] at ho
      obtain ⟨a, b⟩ := LimitsSolver.solvePosition_still hs hf hC hp hq wp wq hL hU hLU ho
      refine ⟨?_, a⟩
      rw [b]
      exact ⟨⟨hf, hm, hd, hl, hLU, C, hC, hL, hU⟩, hpl, hnf, hdat⟩
  | contact =>
    obtain ⟨⟨hfr, hsol, htan, ht, hn, hmp, hC⟩, hpt, hpn, hb, hlcp⟩ := hk
    cases ph with
    | initSolve => exact absurd rfl hph
    | warmstart =>
      have h := Outcome.ok.inj h
      rw [Contact.warmstart_still hn ht hpn hpt] at h
      cases h
      exact ⟨⟨⟨hfr, hsol, htan, ht, hn, hmp, hC⟩, hpt, hpn, hb, hlcp⟩, rfl⟩
    | solveVelocities =>
      obtain ⟨rfl, rfl⟩ := Contact.solveVelocities_still hn ht hb hlcp h0 h1 h
      exact ⟨⟨⟨hfr, hsol, htan, ht, hn, hmp, hC⟩, hpt, hpn, hb, hlcp⟩, rfl⟩
    | solvePositions =>
      obtain ⟨a, a1, a2, a3, a4, a5, a6, a7, a8⟩ := Contact.solvePositions_still hp hq hmp hC h
      refine ⟨⟨⟨?_, ?_, ?_, a3.trans ht, a4.trans hn, ?_, ?_⟩, a5.trans hpt, a6.trans hpn, a7.trans hb, a8⟩, a⟩
      · rw [a1, a2]; rfl
      · rw [a1]; exact hsol
      · rw [a1]; exact htan
      · rw [a1]; exact hmp
      · rw [a1]; exact hC

omit [IsStrictOrderedRing K] in
theorem Kind.isActive_satisfied {k : Kind K} {e : k.State} {pr : Proxies K} (hk : k.Satisfied m p q e) : k.Satisfied m p q (k.isActive pr e s).1 := by
  cases k with
  | contact =>
    obtain ⟨-, r⟩ := hk
    exact ⟨rfl, r⟩
  | equality d f => exact hk
  | inequality d f => exact hk
  | limits f => exact hk
  | mouse f => exact hk

end

/-- What `initSolve` makes of satisfied constraints. -/
def Library.Primed (L : Library K) (pos : Nat → Pose K) (l : Link) (s : (l : Link) → (L.kind l).State) : Prop :=
  (L.kind l).Primed (L.bodies l).masses (pos (L.bodies l).i0).1 (pos (L.bodies l).i1).1 (s l)

/-- Satisfied constraints let bodies rest. -/
theorem Library.rests (L : Library K) {c : CallCfg K} (hs : ∀ x, 0 ≤ x → c.sqrt x * c.sqrt x = x) (hdt : 0 < c.dt) (pos : Nat → Pose K) (l : Link) :
    Rests (L.net c) (fun l s => L.Satisfied pos s l) (L.Primed pos) pos (fun _ => ⟨0, 0⟩) l := by
  constructor
  · exact fun s h => h.1
  · intro i0 i1 s ps vs s' ps' vs' hi p0 p1 v0 v1 ha
    obtain ⟨e', t, hk, he, hv, hp⟩ := Library.act_ok ha
    obtain ⟨a, b⟩ := Kind.init_still (s := ⟨fun i => (ps i).1, vs⟩) hs (congrArg Subtype.val p0) (congrArg Subtype.val p1) v0 v1 hi hk
    subst b
    refine ⟨?_, Subtype.ext (hp i0), Subtype.ext (hp i1), by rw [hv], by rw [hv]⟩
    show (L.kind l).Primed _ _ _ (s' l)
    rw [he, Function.update_self]; exact a
  · intro ph i0 i1 s ps vs s' ps' vs' hi p0 p1 v0 v1 ha hph
    obtain ⟨e', t, hk, he, hv, hp⟩ := Library.act_ok ha
    obtain ⟨a, b⟩ := Kind.calls_still (s := ⟨fun i => (ps i).1, vs⟩) hs hdt (pos (L.bodies l).i0).2 (pos (L.bodies l).i1).2 hph (congrArg Subtype.val p0) (congrArg Subtype.val p1) v0 v1 hi hk
    subst b
    refine ⟨?_, Subtype.ext (hp i0), Subtype.ext (hp i1), by rw [hv], by rw [hv]⟩
    show (L.kind l).Primed _ _ _ (s' l)
    rw [he, Function.update_self]; exact a

omit [IsStrictOrderedRing K] in
/-- Constraints of the library do not touch the internal states of each other. -/
theorem Library.apart (L : Library K) (c : CallCfg K) (pos : Nat → Pose K) : Apart (L.net c) (fun l s => L.Satisfied pos s l) (L.Primed pos) := by
  constructor
  · intro ph l i0 i1 s ps vs s' ps' vs' ha l' hne
    obtain ⟨e', t, hk, he, -, -⟩ := Library.act_ok ha
    have : s' l' = s l' := by rw [he, Function.update_of_ne hne]
    unfold Library.Satisfied Library.Primed
    rw [this]
    exact ⟨id, id⟩
  · intro l l' s p q h
    show (L.kind l').Satisfied _ _ _ (Function.update s l _ l')
    by_cases hl : l' = l
    · subst hl
      rw [Function.update_self]
      exact Kind.isActive_satisfied h
    · rw [Function.update_of_ne hl]; exact h

end
end Simu
