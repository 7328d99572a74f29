import Verif.Spec.SlowMotion
import Verif.Lemmas.ContactHeavier
/-
The constraints of the library do to faster bodies what corresponds.
-/
namespace Simu
open Island Mat

section
variable {K : Type*} [Field K] {σ : K} {p : Proxies K} {s t : SolveState K}

theorem Mat.sdiv_smul {m n : Nat} (h : σ ≠ 0) (A : Mat K m n) : (A.smul σ).sdiv σ = A := by
  apply ext_get; intro r c; rw [get_sdiv, get_smul, mul_div_cancel_right₀ _ h]

theorem Mat.sdiv_time {m n : Nat} (A : Mat K m n) (dt : K) : A.sdiv (dt / σ) = (A.sdiv dt).smul σ := by
  apply ext_get; intro r c; rw [get_smul, get_sdiv, get_sdiv, div_div_eq_mul_div, mul_div_right_comm]

theorem Mat.smul_mulMat {l m n : Nat} (A : Mat K l m) (B : Mat K m n) : (A.smul σ).mul B = (A.mul B).smul σ := by
  apply ext_get; intro r c
  rw [get_mul, get_smul, get_mul, Finset.sum_mul]
  exact Finset.sum_congr rfl fun i _ => by rw [get_smul]; ring

theorem elementWiseMul_smul (w P : MVec K 6) : elementWiseMul w (P.smul σ) = (elementWiseMul w P).smul σ := by
  apply ext_at; intro i
  unfold elementWiseMul
  rw [at_ofFn, at_smul, at_smul, at_ofFn]; ring

theorem SeesFaster.incrementVel (h : SeesFaster σ p s t) {i : Nat} (hi : i = p.i0 ∨ i = p.i1) {dv dv' : Vec2 K} {dw dw' : K} (hv : dv' = σ • dv) (hw : dw' = dw * σ) :
    SeesFaster σ p (s.incrementVel i dv dw) (t.incrementVel i dv' dw') := by
  subst hv hw
  have hv : t.vel i = (s.vel i).faster σ := by rcases hi with rfl | rfl; exacts [h.vel0, h.vel1]
  have e : (⟨(t.vel i).linear + σ • dv, (t.vel i).angular + dw * σ⟩ : Velocity K) = (⟨(s.vel i).linear + dv, (s.vel i).angular + dw⟩ : Velocity K).faster σ := by
    rw [hv]
    unfold Velocity.faster
    ext <;> simp <;> ring
  refine ⟨h.pos0, h.pos1, ?_, ?_⟩ <;> simp only [SolveState.incrementVel, SolveState.setVel, Function.update_apply, e]
  · split <;> [rfl; exact h.vel0]
  · split <;> [rfl; exact h.vel1]

theorem SeesFaster.setVel (h : SeesFaster σ p s t) (i : Nat) {v v' : Vec2 K} {w w' : K} (hv : v' = σ • v) (hw : w' = w * σ) : SeesFaster σ p (s.setVel i v w) (t.setVel i v' w') := by
  subst hv hw
  refine ⟨h.pos0, h.pos1, ?_, ?_⟩ <;> simp only [SolveState.setVel, Function.update_apply]
  · split <;> [rfl; exact h.vel0]
  · split <;> [rfl; exact h.vel1]

theorem SeesFaster.advancePos [Trig K] (h : SeesFaster σ p s t) {i : Nat} (hi : i = p.i0 ∨ i = p.i1) (dp : Vec2 K) (dθ : K) : SeesFaster σ p (s.advancePos i dp dθ) (t.advancePos i dp dθ) := by
  have hv : t.pos i = s.pos i := by rcases hi with rfl | rfl; exacts [h.pos0, h.pos1]
  refine ⟨?_, ?_, h.vel0, h.vel1⟩ <;> simp only [SolveState.advancePos, Function.update_apply, hv]
  · split <;> [rfl; exact h.pos0]
  · split <;> [rfl; exact h.pos1]

theorem SeesFaster.applyImpulse (h : SeesFaster σ p s t) (P : MVec K 6) : SeesFaster σ p (p.applyImpulse P s) (p.applyImpulse (P.smul σ) t) := by
  unfold Proxies.applyImpulse
  refine (h.incrementVel (Or.inl rfl) ?_ ?_).incrementVel (Or.inr rfl) ?_ ?_
  · ext <;> simp [at_smul] <;> ring
  · rw [at_smul]; ring
  · ext <;> simp [at_smul] <;> ring
  · rw [at_smul]; ring

theorem SeesFaster.correct [Trig K] (h : SeesFaster σ p s t) (P : MVec K 6) : SeesFaster σ p (p.applyPositionCorrection P s) (p.applyPositionCorrection P t) :=
  (h.advancePos (Or.inl rfl) _ _).advancePos (Or.inr rfl) _ _

theorem SeesFaster.velocity (h : SeesFaster σ p s t) : p.velocity t = (p.velocity s).smul σ := by
  apply ext_at; intro i
  rw [at_smul]
  unfold Proxies.velocity
  rw [h.vel0, h.vel1, at_ofFn, at_ofFn]
  fin_cases i <;> simp [Velocity.faster, mul_comm]

/-- Both calls, if they succeed, end in what corresponds. -/
def EndsFaster {α β : Type*} (σ : K) (p : Proxies K) (R : α → β → Prop) (x : Outcome (α × SolveState K)) (y : Outcome (β × SolveState K)) : Prop :=
  ∀ a b, x = .ok a → y = .ok b → R a.1 b.1 ∧ SeesFaster σ p a.2 b.2

theorem EndsFaster.ok {α β : Type*} {R : α → β → Prop} {a : α × SolveState K} {b : β × SolveState K} (h : R a.1 b.1) (h' : SeesFaster σ p a.2 b.2) : EndsFaster σ p R (.ok a) (.ok b) := by
  intro a' b' ha hb
  cases Outcome.ok.inj ha
  cases Outcome.ok.inj hb
  exact ⟨h, h'⟩

theorem EndsFaster.bind {α β γ δ : Type*} {R : γ → δ → Prop} {g : α → β} (x : Outcome α) {f : α → Outcome (γ × SolveState K)} {f' : β → Outcome (δ × SolveState K)}
    (h : ∀ a, EndsFaster σ p R (f a) (f' (g a))) : EndsFaster σ p R (x.bind f) ((x.bind fun a => .ok (g a)).bind f') := by
  cases x with
  | ok a => exact h a
  | throw => intro a b ha; cases ha
  | ub => intro a b ha; cases ha

theorem EndsFaster.bindSame {α γ δ : Type*} {R : γ → δ → Prop} (x : Outcome α) {f : α → Outcome (γ × SolveState K)} {f' : α → Outcome (δ × SolveState K)}
    (h : ∀ a, EndsFaster σ p R (f a) (f' a)) : EndsFaster σ p R (x.bind f) (x.bind f') := by
  cases x with
  | ok a => exact h a
  | throw => intro a b ha; cases ha
  | ub => intro a b ha; cases ha

theorem EndsFaster.returned {α β γ δ : Type*} {R : γ → δ → Prop} {Q : α → β → Prop} {x : Option α} {y : Option β} (hxy : ∀ a b, x = some a → y = some b → Q a b) {f : α → γ × SolveState K} {f' : β → δ × SolveState K}
    (h : ∀ a b, Q a b → R (f a).1 (f' b).1 ∧ SeesFaster σ p (f a).2 (f' b).2) : EndsFaster σ p R (Simu.returned (x.map f)) (Simu.returned (y.map f')) := by
  cases x with
  | none => intro a b ha; cases ha
  | some a =>
    cases y with
    | none => intro a b _ hb; cases hb
    | some b => exact EndsFaster.ok (h a b (hxy a b rfl rfl)).1 (h a b (hxy a b rfl rfl)).2

end

section
variable {K : Type*} [Field K] [LinearOrder K] [IsStrictOrderedRing K] {n : Nat} {p : Proxies K} {s t : SolveState K} {f f' : CFun K n} {σ : K}

theorem KSolver.mk_faster {sqrt : K → K} (hs : ∀ x, 0 ≤ x → sqrt x * sqrt x = x) (h : σ ≠ 0) {n : Nat} (A : Mat K n n) :
    ((KSolver.mk' sqrt n A).bind fun s => .ok (s.faster σ)) = KSolver.mk' sqrt n A := by
  obtain ⟨s, h1, h2, h3, h4⟩ := KSolver.mk_spec hs A
  rw [h1]
  show Outcome.ok (s.faster σ) = Outcome.ok s
  congr 1
  cases s with
  | mk v g =>
    unfold KSolver.faster
    congr 1
    funext b
    by_cases hd : A.toM.det = 0
    · have e1 : g b = _ := h4 hd b
      have e2 : g (b.sdiv σ) = _ := h4 hd (b.sdiv σ)
      show (g (b.sdiv σ)).bind _ = g b
      rw [e1, e2]; rfl
    · obtain ⟨x, k1, k2, k3⟩ := h3 hd b
      obtain ⟨y, k1', k2', k3'⟩ := h3 hd (b.sdiv σ)
      have k1 : g b = _ := k1
      have k1' : g (b.sdiv σ) = _ := k1'
      show (g (b.sdiv σ)).bind _ = g b
      rw [k1, k1']
      refine congrArg Outcome.ok ?_
      refine k3 (y.smul σ) ?_
      rw [mul_smulVec, k2']
      apply ext_get; intro r c; rw [get_smul, get_sdiv, div_mul_cancel₀ _ h]

theorem KSolver.fixed_faster {sqrt : K → K} (hs : ∀ x, 0 ≤ x → sqrt x * sqrt x = x) (h : σ ≠ 0) {n : Nat} {A : Mat K n n} {k : KSolver K n} (hk : KSolver.mk' sqrt n A = .ok k) : k.faster σ = k := by
  have := KSolver.mk_faster (σ := σ) hs h A
  rw [hk] at this
  exact Outcome.ok.inj this

theorem KSolver.solve_faster (h : σ ≠ 0) (s : KSolver K n) (b : MVec K n) : (s.faster σ).solve (b.smul σ) = (s.solve b).bind fun x => .ok (x.smul σ) := by
  show (s.solve ((b.smul σ).sdiv σ)).bind _ = _
  rw [sdiv_smul h]

theorem LcpSolver.solve_faster (h : 0 < σ) (s : LcpSolver K) (b : MVec K 2) : s.solve (b.smul σ) = (s.solve b).bind fun x => .ok (x.smul σ) := by
  unfold LcpSolver.solve Solver2.solve
  cases hv : s.solver.isValid with
  | false => rfl
  | true =>
    show Outcome.bind (.ok _) _ = Outcome.bind (Outcome.bind (.ok _) _) _
    simp only [Outcome.bind_ok]
    have ex : Mat.smul s.solver.invDet (Mat.ofFn ![(b.smul σ).at_ 0 * s.solver.A.get 1 1 - s.solver.A.get 0 1 * (b.smul σ).at_ 1, s.solver.A.get 0 0 * (b.smul σ).at_ 1 - (b.smul σ).at_ 0 * s.solver.A.get 1 0]) =
        Mat.smul σ (Mat.smul s.solver.invDet (Mat.ofFn ![b.at_ 0 * s.solver.A.get 1 1 - s.solver.A.get 0 1 * b.at_ 1, s.solver.A.get 0 0 * b.at_ 1 - b.at_ 0 * s.solver.A.get 1 0])) := by
      apply ext_at; intro i
      simp only [at_smul, at_ofFn]
      fin_cases i <;> simp <;> ring
    rw [ex]
    generalize Mat.smul s.solver.invDet (Mat.ofFn ![b.at_ 0 * s.solver.A.get 1 1 - s.solver.A.get 0 1 * b.at_ 1, s.solver.A.get 0 0 * b.at_ 1 - b.at_ 0 * s.solver.A.get 1 0] : MVec K 2) = x
    have pos : ∀ a : K, 0 ≤ a * σ ↔ 0 ≤ a := fun a => ⟨fun k => nonneg_of_mul_nonneg_left k h, fun k => mul_nonneg k h.le⟩
    have e1 : (Mat.ofFn ![(b.smul σ).at_ 0 * s.invA11, 0] : MVec K 2) = (Mat.ofFn ![b.at_ 0 * s.invA11, 0] : MVec K 2).smul σ := by
      apply ext_at; intro i; rw [at_smul, at_smul]; fin_cases i <;> simp; ring
    have e2 : (Mat.ofFn ![0, (b.smul σ).at_ 1 * s.invA22] : MVec K 2) = (Mat.ofFn ![0, b.at_ 1 * s.invA22] : MVec K 2).smul σ := by
      apply ext_at; intro i; rw [at_smul, at_smul]; fin_cases i <;> simp; ring
    rw [e1, e2]
    have e3 : ∀ (y a z : K), y * σ * a - z * σ = (y * a - z) * σ := by intro y a z; ring
    simp only [at_smul, pos, e3]
    by_cases c1 : 0 ≤ x.at_ 0 ∧ 0 ≤ x.at_ 1
    · rw [if_pos c1, if_pos c1]; rfl
    · rw [if_neg c1, if_neg c1]
      split
      · rfl
      · split
        · rfl
        · show Outcome.ok _ = Outcome.ok _
          rw [Mat.smul_zero]

omit [LinearOrder K] [IsStrictOrderedRing K] in
theorem SolverBase.faster_init (b : SolverBase K n) : (b.faster σ).initBase = b.initBase.faster σ := by
  unfold SolverBase.faster SolverBase.initBase
  rw [Mat.smul_zero]

omit [LinearOrder K] [IsStrictOrderedRing K] in
theorem CFun.Faster.mass (hf : f.Faster σ f') (h : SeesFaster σ p s t) (b : SolverBase K n) (damp : Bool) :
    (b.faster σ).computeEffectiveMass p t f' damp = ((b.computeEffectiveMass p s f damp).1.faster σ, (b.computeEffectiveMass p s f damp).2) := by
  unfold SolverBase.computeEffectiveMass
  dsimp only
  rw [hf.jacobian p s t h]
  rfl

omit [LinearOrder K] [IsStrictOrderedRing K] in
theorem CFun.Faster.rhs (hf : f.Faster σ f') (h : SeesFaster σ p s t) (b : SolverBase K n) (dt : K) (damp : Bool) :
    (b.faster σ).computeRhs p t f' (dt / σ) damp = (b.computeRhs p s f dt damp).smul σ := by
  unfold SolverBase.computeRhs
  rw [hf.bias p s t h, hf.eval p s t h, h.velocity]
  unfold SolverBase.faster
  dsimp only
  rw [mul_smulVec, Mat.sdiv_time, Mat.smul_neg, Mat.smul_add, Mat.smul_add, Mat.smul_add]
  cases damp
  · simp only [Bool.false_eq_true, if_false, Mat.smul_zero]
  · simp only [if_true, mul_smulVec]

omit [LinearOrder K] [IsStrictOrderedRing K] in
theorem CFun.Faster.updateLambda (hf : f.Faster σ f') (h : SeesFaster σ p s t) (b : SolverBase K n) (dt : K) (dl : MVec K n) :
    ((b.faster σ).updateLambda p f' (dt / σ) (dl.smul σ) t).1 = (b.updateLambda p f dt dl s).1.faster σ ∧
    SeesFaster σ p (b.updateLambda p f dt dl s).2 ((b.faster σ).updateLambda p f' (dt / σ) (dl.smul σ) t).2 := by
  unfold SolverBase.updateLambda SolverBase.faster SolverBase.impulse
  dsimp only
  rw [← Mat.smul_add, hf.clampLambda, ← Mat.smul_sub, mul_smulVec]
  exact ⟨rfl, h.applyImpulse _⟩

theorem EqualitySolver.fast [Trig K] (hσ : σ ≠ 0) (hf : f.Faster σ f') (h : SeesFaster σ p s t) {sqrt : K → K} (hs : ∀ x, 0 ≤ x → sqrt x * sqrt x = x) (dt : K) (e : EqualitySolver K n) :
    (e.faster σ).initSolve sqrt p f' t = ((e.initSolve sqrt p f s).bind fun e => .ok (e.faster σ)) ∧
    EndsFaster σ p (fun a b => b = a.faster σ) (.ok (e.warmstart p f dt s)) (.ok ((e.faster σ).warmstart p f' (dt / σ) t)) ∧
    EndsFaster σ p (fun a b => b = a.faster σ) (e.solveVelocity p f dt s) ((e.faster σ).solveVelocity p f' (dt / σ) t) ∧
    EndsFaster σ p (fun a b => b = a.faster σ) (e.solvePosition sqrt p f s) ((e.faster σ).solvePosition sqrt p f' t) := by
  refine ⟨?_, ?_, ?_, ?_⟩
  · unfold EqualitySolver.initSolve
    rw [show (e.faster σ).base.initBase = e.base.initBase.faster σ from SolverBase.faster_init _, hf.mass h]
    dsimp only
    rw [← KSolver.mk_faster hs hσ (e.base.initBase.computeEffectiveMass p s f true).2]
    conv => rhs; rw [KSolver.mk_faster hs hσ]
    cases KSolver.mk' sqrt n (e.base.initBase.computeEffectiveMass p s f true).2 with
    | throw => rfl
    | ub => rfl
    | ok k =>
      show (Outcome.check k.isValid).bind _ = ((Outcome.check k.isValid).bind _).bind _
      cases Outcome.check k.isValid <;> rfl
  · obtain ⟨h1, h2⟩ := hf.updateLambda h e.base dt e.base.previousLambda
    refine EndsFaster.ok ?_ h2
    exact congrArg (fun b => (⟨b, e.solver.faster σ⟩ : EqualitySolver K n)) h1
  · unfold EqualitySolver.solveVelocity
    rw [show (e.faster σ).base = e.base.faster σ from rfl, hf.rhs h, show (e.faster σ).solver = e.solver.faster σ from rfl]
    dsimp only
    rw [KSolver.solve_faster hσ]
    refine EndsFaster.bind _ fun a => ?_
    obtain ⟨h1, h2⟩ := hf.updateLambda h e.base dt a
    exact EndsFaster.ok (congrArg (fun b => (⟨b, e.solver.faster σ⟩ : EqualitySolver K n)) h1) h2
  · unfold EqualitySolver.solvePosition
    rw [show (e.faster σ).base = e.base.faster σ from rfl, hf.mass h, hf.eval p s t h, hf.jacobian p s t h]
    dsimp only
    cases hk : KSolver.mk' sqrt n (e.base.computeEffectiveMass p s f false).2 with
    | throw => intro a b ha; cases ha
    | ub => intro a b ha; cases ha
    | ok k =>
      refine EndsFaster.bindSame (x := k.solve _) fun b => EndsFaster.ok ?_ ?_
      · show (⟨_, k⟩ : EqualitySolver K n) = ⟨_, k.faster σ⟩
        rw [KSolver.fixed_faster hs hσ hk]
      · dsimp only
        rw [hf.clampPositionLambda]
        exact h.correct _

/-- The multiplier of an inequality of one dimension. -/
theorem inequality_faster {M : Mat K 1 1} {b x0 x0' : MVec K 1} {proj proj' : MVec K 1 → MVec K 1} (hp : ∀ l, proj' (l.smul σ) = (proj l).smul σ) {epsilon : K} {fuel : Nat} {x y : MVec K 1}
    (hx : solveInequalitiesVec M b proj x0 epsilon fuel = some x) (hy : solveInequalitiesVec M (b.smul σ) proj' x0' epsilon fuel = some y) : y = x.smul σ := by
  rw [inequality_one hx, inequality_one hy]
  have : (Mat.ofFn fun _ => (b.smul σ).at_ 0 / M.get 0 0 : MVec K 1) = (Mat.ofFn fun _ => b.at_ 0 / M.get 0 0 : MVec K 1).smul σ := by
    apply ext_at; intro i
    simp only [at_smul, at_ofFn]; ring
  rw [this, hp]
  apply ext_at; intro i
  simp only [at_smul, at_ofFn]

theorem inequality_equal {M : Mat K 1 1} {b x0 x0' : MVec K 1} {proj proj' : MVec K 1 → MVec K 1} (hp : ∀ l, proj' l = proj l) {epsilon : K} {fuel : Nat} {x y : MVec K 1}
    (hx : solveInequalitiesVec M b proj x0 epsilon fuel = some x) (hy : solveInequalitiesVec M b proj' x0' epsilon fuel = some y) : y = x := by
  rw [inequality_one hx, inequality_one hy, hp]

theorem InequalitySolver.fast [Trig K] {f f' : CFun K 1} (hf : f.Faster σ f') (h : SeesFaster σ p s t) {sqrt : K → K} (epsilon : K) (fuel : Nat) (dt : K) (e : InequalitySolver K 1) :
    (e.faster σ).initSolve p f' t = (e.initSolve p f s).faster σ ∧
    EndsFaster σ p (fun a b => b = a.faster σ) (.ok (e.warmstart p f dt s)) (.ok ((e.faster σ).warmstart p f' (dt / σ) t)) ∧
    EndsFaster σ p (fun a b => b = a.faster σ) (returned (e.solveVelocity epsilon fuel p f dt s)) (returned ((e.faster σ).solveVelocity epsilon fuel p f' (dt / σ) t)) ∧
    EndsFaster σ p (fun a b => b = a.faster σ) (e.solvePosition sqrt p f s) ((e.faster σ).solvePosition sqrt p f' t) := by
  refine ⟨?_, ?_, ?_, ?_⟩
  · unfold InequalitySolver.initSolve
    rw [show (e.faster σ).base.initBase = e.base.initBase.faster σ from SolverBase.faster_init _, hf.mass h]
    rfl
  · obtain ⟨h1, h2⟩ := hf.updateLambda h e.base dt e.base.previousLambda
    refine EndsFaster.ok ?_ h2
    exact congrArg (fun b => (⟨b, e.effectiveMass⟩ : InequalitySolver K 1)) h1
  · unfold InequalitySolver.solveVelocity
    rw [show (e.faster σ).base = e.base.faster σ from rfl, show (e.faster σ).effectiveMass = e.effectiveMass from rfl, hf.rhs h,
      show (e.base.faster σ).lambda = e.base.lambda.smul σ from rfl]
    dsimp only
    rw [mul_smulVec, ← Mat.smul_add]
    refine EndsFaster.returned (Q := fun a b => b = a.smul σ) (fun a b ha hb => inequality_faster (fun l => hf.clampLambda l dt) ha hb) ?_
    rintro a b rfl
    dsimp only
    rw [← Mat.smul_sub]
    obtain ⟨h1, h2⟩ := hf.updateLambda h e.base dt (a.sub e.base.lambda)
    exact ⟨congrArg (fun b => (⟨b, e.effectiveMass⟩ : InequalitySolver K 1)) h1, h2⟩
  · unfold InequalitySolver.solvePosition
    dsimp only
    rw [hf.eval p s t h, hf.jacobian p s t h]
    refine EndsFaster.bindSame _ fun a => ?_
    split
    · refine EndsFaster.bindSame _ fun b => EndsFaster.ok rfl ?_
      dsimp only
      rw [hf.clampPositionLambda]
      exact h.correct _
    · exact EndsFaster.ok rfl h

theorem LimitsSolver.fast [Trig K] {f f' : CFun K 1} (hσ : 0 < σ) (hf : f.Faster σ f') (h : SeesFaster σ p s t) {sqrt : K → K} (hs : ∀ x, 0 ≤ x → sqrt x * sqrt x = x) (epsilon : K) (fuel : Nat) (dt : K)
    (e : LimitsSolver K) :
    (e.faster σ).isActive p f' t = e.isActive p f s ∧
    (e.faster σ).initSolve sqrt p f' t = ((e.initSolve sqrt p f s).bind fun e => .ok (e.faster σ)) ∧
    EndsFaster σ p (fun a b => b = a.faster σ) (.ok (e.warmstart p f dt s)) (.ok ((e.faster σ).warmstart p f' (dt / σ) t)) ∧
    EndsFaster σ p (fun a b => b = a.faster σ) ((e.solveVelocity epsilon fuel p f dt s).bind returned) (((e.faster σ).solveVelocity epsilon fuel p f' (dt / σ) t).bind returned) ∧
    EndsFaster σ p (fun a b => b = a.faster σ) ((e.solvePosition sqrt epsilon fuel p f s).bind returned) (((e.faster σ).solvePosition sqrt epsilon fuel p f' t).bind returned) := by
  have h0 : σ ≠ 0 := hσ.ne'
  have hb : ∀ {α β γ : Type _} (x : Outcome α) (f : α → Outcome β) (g : β → Outcome γ), (x.bind f).bind g = x.bind fun a => (f a).bind g := by
    intro α β γ x f g; cases x <;> rfl
  have hn : ∀ e : LimitsSolver K, (e.faster σ).nextFunc p f' t = e.nextFunc p f s := by
    intro e; unfold LimitsSolver.nextFunc; rw [hf.eval p s t h]; rfl
  have hr : (e.faster σ).rhs p f' (dt / σ) t = (e.rhs p f dt s).bind fun x => .ok (x.smul σ) := by
    unfold LimitsSolver.rhs
    dsimp only
    rw [hf.eval p s t h, hf.bias p s t h, h.velocity]
    unfold LimitsSolver.faster SolverBase.faster
    dsimp only
    rw [← Mat.smul_neg, mul_smulVec, mul_smulVec, mul_smulVec, mul_smulVec, Mat.sdiv_time]
    simp only [Mat.smul_mulMat]
    cases e.func
    · dsimp only
      cases e.L with
      | none => rfl
      | some l =>
        simp only [value, Outcome.bind_ok]
        simp only [Mat.smul_neg, Mat.smul_add, Mat.smul_sub]
    · dsimp only
      cases e.U with
      | none => rfl
      | some l =>
        simp only [value, Outcome.bind_ok]
        simp only [Mat.smul_neg, Mat.smul_add, Mat.smul_sub]
    · simp only [Outcome.bind_ok, Mat.smul_neg, Mat.smul_add]
    · simp only [Outcome.bind_ok, Mat.smul_zero]
  refine ⟨?_, ?_, ?_, ?_, ?_⟩
  · unfold LimitsSolver.isActive; rw [hn]
  · have flat : ∀ (e : LimitsSolver K) (p : Proxies K) (f : CFun K 1) (s : SolveState K), e.initSolve sqrt p f s =
        match e.nextFunc p f s with
        | .equality => (KSolver.mk' sqrt 1 (e.base.initBase.computeEffectiveMass p s f true).2).bind fun solver =>
          .ok ⟨(e.base.initBase.computeEffectiveMass p s f true).1, e.nextFunc p f s, e.L, e.U, .solver solver, decide (e.nextFunc p f s = e.func) && decide (e.nextFunc p f s ≠ Func.off)⟩
        | .lower => .ok ⟨(e.base.initBase.computeEffectiveMass p s f true).1, e.nextFunc p f s, e.L, e.U, .effectiveMass (e.base.initBase.computeEffectiveMass p s f true).2,
            decide (e.nextFunc p f s = e.func) && decide (e.nextFunc p f s ≠ Func.off)⟩
        | .upper => .ok ⟨(e.base.initBase.computeEffectiveMass p s f true).1, e.nextFunc p f s, e.L, e.U, .effectiveMass (e.base.initBase.computeEffectiveMass p s f true).2,
            decide (e.nextFunc p f s = e.func) && decide (e.nextFunc p f s ≠ Func.off)⟩
        | .off => .ok ⟨(e.base.initBase.computeEffectiveMass p s f true).1, e.nextFunc p f s, e.L, e.U, e.data, decide (e.nextFunc p f s = e.func) && decide (e.nextFunc p f s ≠ Func.off)⟩ := fun _ _ _ _ => rfl
    rw [flat, flat, hn, show (e.faster σ).base.initBase = e.base.initBase.faster σ from SolverBase.faster_init _, hf.mass h]
    dsimp only
    cases e.nextFunc p f s with
    | equality =>
      dsimp only
      cases hk : KSolver.mk' sqrt 1 (e.base.initBase.computeEffectiveMass p s f true).2 with
      | throw => rfl
      | ub => rfl
      | ok k =>
        simp only [Outcome.bind_ok]
        unfold LimitsSolver.faster
        simp only [LimitsUnion.faster, KSolver.fixed_faster hs h0 hk]
    | lower => rfl
    | upper => rfl
    | off => rfl
  · unfold LimitsSolver.warmstart
    rw [show (e.faster σ).canWarmstart = e.canWarmstart from rfl, show (e.faster σ).func = e.func from rfl, show (e.faster σ).base = e.base.faster σ from rfl]
    split
    · split
      · refine EndsFaster.ok rfl ?_
        dsimp only [SolverBase.faster, SolverBase.impulse]
        rw [← Mat.smul_neg, mul_smulVec]
        exact h.applyImpulse _
      · obtain ⟨h1, h2⟩ := hf.updateLambda h e.base dt e.base.previousLambda
        exact EndsFaster.ok (congrArg (fun b => ({ e.faster σ with base := b } : LimitsSolver K)) h1) h2
    · exact EndsFaster.ok rfl h
  · unfold LimitsSolver.solveVelocity
    rw [hr, hb, hb]
    refine EndsFaster.bind _ fun a => ?_
    rw [show (e.faster σ).func = e.func from rfl, show (e.faster σ).base = e.base.faster σ from rfl, show (e.faster σ).data = e.data.faster σ from rfl]
    cases hfu : e.func <;> cases hd : e.data
    all_goals dsimp only [LimitsUnion.faster]
    all_goals try (intro a b ha; cases ha; done)
    · refine EndsFaster.returned (Q := fun a b => b = a.smul σ) (fun a b ha hb => inequality_faster (fun l => by rw [hf.clampLambda, maxZero_smul hσ]) ha hb) ?_
      rintro b _ rfl
      dsimp only
      rw [show (e.base.faster σ).lambda = e.base.lambda.smul σ from rfl, ← Mat.smul_sub]
      obtain ⟨h1, h2⟩ := hf.updateLambda h e.base dt (b.sub e.base.lambda)
      exact ⟨by rw [h1]; unfold LimitsSolver.faster; simp only [hd]; rfl, h2⟩
    · refine EndsFaster.returned (Q := fun a b => b = a.smul σ) (fun a b ha hb => inequality_faster (fun l => by rw [← Mat.smul_neg, hf.clampLambda, ← Mat.smul_neg, maxZero_smul hσ]) ha hb) ?_
      rintro b _ rfl
      dsimp only
      rw [show (e.base.faster σ).lambda = e.base.lambda.smul σ from rfl, ← Mat.smul_sub, ← Mat.smul_neg]
      refine ⟨rfl, ?_⟩
      dsimp only [SolverBase.impulse, SolverBase.faster]
      rw [mul_smulVec]
      exact h.applyImpulse _
    · rw [hb, hb, KSolver.solve_faster h0]
      refine EndsFaster.bind _ fun b => ?_
      obtain ⟨h1, h2⟩ := hf.updateLambda h e.base dt b
      exact EndsFaster.ok (by dsimp only; rw [h1]; unfold LimitsSolver.faster; simp only [hd, hfu]; rfl) h2
    · exact EndsFaster.ok rfl h
    · exact EndsFaster.ok rfl h
  · unfold LimitsSolver.solvePosition
    dsimp only
    rw [show (e.faster σ).base = e.base.faster σ from rfl, hf.mass h, hf.eval p s t h]
    dsimp only
    rw [show ({ e.faster σ with base := (e.base.computeEffectiveMass p s f false).1.faster σ } : LimitsSolver K) = ({ e with base := (e.base.computeEffectiveMass p s f false).1 } : LimitsSolver K).faster σ from rfl,
      hn]
    generalize hfn : ({ e with base := (e.base.computeEffectiveMass p s f false).1 } : LimitsSolver K).nextFunc p f s = fn
    have hc : ∀ (J : Mat K 1 6) (x y : MVec K 1), y = x → SeesFaster σ p (p.applyPositionCorrection (J.transpose.mul x) s) (p.applyPositionCorrection (J.transpose.mul y) t) := by
      rintro J x _ rfl
      exact h.correct _
    cases fn with
    | equality =>
      rw [hb, hb]
      refine EndsFaster.bindSame _ fun l => ?_
      rw [hb, hb]
      refine EndsFaster.bindSame _ fun k => ?_
      rw [hb, hb]
      exact EndsFaster.bindSame _ fun x => EndsFaster.ok rfl (hc _ _ _ (hf.clampPositionLambda x))
    | lower =>
      rw [hb, hb]
      refine EndsFaster.bindSame _ fun l => ?_
      refine EndsFaster.returned (Q := fun a b => b = a) (fun a b ha hb => inequality_equal (fun l => by rw [hf.clampPositionLambda]) ha hb) ?_
      rintro b _ rfl
      exact ⟨rfl, hc _ _ _ rfl⟩
    | upper =>
      rw [hb, hb]
      refine EndsFaster.bindSame _ fun l => ?_
      refine EndsFaster.returned (Q := fun a b => b = a) (fun a b ha hb => inequality_equal (fun l => by rw [hf.clampPositionLambda]) ha hb) ?_
      rintro b _ rfl
      exact ⟨rfl, hc _ _ _ rfl⟩
    | off => exact EndsFaster.ok rfl (hc _ _ _ rfl)

end

end Simu
