import Verif.Spec.LibraryMoved
import Verif.Lemmas.LibraryTwin
import Verif.Spec.IslandFrames
/-
The constraints of the library do the same at another place, and with another uniform motion.
-/
namespace Simu
open Island Mat

section
variable {K : Type*} [Field K]

theorem Velocity.boost_zero (v : Velocity K) : v.boost 0 = v := by
  ext <;> simp [Velocity.boost]

theorem Position.shift_app [Trig K] (p : Position K) (d v : Vec2 K) : (p.shift d).toWorldSpace.app v = p.toWorldSpace.app v + d := by
  ext <;> simp [Position.shift, Position.toWorldSpace, Transform.app, Translation.mulRotation, Transform.mulTranslation, Translation.mul, Translation.inverse] <;> ring

theorem Position.shift_r [Trig K] (p : Position K) (d : Vec2 K) : (p.shift d).toWorldSpace.r = p.toWorldSpace.r := rfl

theorem Position.shift_centroid [Trig K] (p : Position K) (d : Vec2 K) : (p.shift d).centroid = p.centroid + d := Position.shift_app p d _

theorem Position.shift_advance [Trig K] (p : Position K) (d dp : Vec2 K) (dθ : K) : (p.shift d).advance dp dθ = (p.advance dp dθ).shift d := by
  simp only [Position.shift, Position.advance, Translation.mul, Position.mk.injEq, Translation.mk.injEq, and_true]
  abel

theorem Pose.of_shift [Trig K] (p : Position K) (d : Vec2 K) : (Pose.of (p.shift d)).1 = (Pose.of p).1.shift d := rfl

/-- The velocity `u` for both bodies of a constraint. -/
def boostVec (u : Vec2 K) : MVec K 6 := Mat.ofFn ![u.x, u.y, 0, u.x, u.y, 0]

theorem mul_boost {n : Nat} {J : Mat K n 6} {u : Vec2 K} (h : u = 0 ∨ OppositeLinear J) (v : MVec K 6) : J.mul (v.add (boostVec u)) = J.mul v := by
  apply ext_get
  intro r c
  have hc : c = 0 := Subsingleton.elim _ _
  subst hc
  have hb : ∀ k : Fin 6, (boostVec u).get k 0 = ![u.x, u.y, 0, u.x, u.y, 0] k := fun k => by rw [← at_eq_get]; rfl
  rw [get_mul, get_mul]
  simp only [get_add, hb, Fin.sum_univ_six]
  rcases h with rfl | h
  · simp
  · obtain ⟨h1, h2⟩ := h r
    simp [h1, h2]
    ring

variable {p : Proxies K} {s t : SolveState K} {d u : Vec2 K}

theorem SeesMoved.incrementVel (h : SeesMoved d u p s t) {i : Nat} (hi : i = p.i0 ∨ i = p.i1) (dv : Vec2 K) (dw : K) : SeesMoved d u p (s.incrementVel i dv dw) (t.incrementVel i dv dw) := by
  have hv : t.vel i = (s.vel i).boost u := by rcases hi with rfl | rfl; exacts [h.vel0, h.vel1]
  have e : (⟨(t.vel i).linear + dv, (t.vel i).angular + dw⟩ : Velocity K) = (⟨(s.vel i).linear + dv, (s.vel i).angular + dw⟩ : Velocity K).boost u := by
    rw [hv]; simp only [Velocity.boost, Velocity.mk.injEq, and_true]; abel
  refine ⟨⟨h.pos0, h.pos1⟩, ?_, ?_⟩ <;> simp only [SolveState.incrementVel, SolveState.setVel, Function.update_apply, e]
  · split <;> [rfl; exact h.vel0]
  · split <;> [rfl; exact h.vel1]

theorem SeesMoved.setVel (h : SeesMoved d u p s t) (i : Nat) {v v' : Vec2 K} (hv : v' = v + u) (w : K) : SeesMoved d u p (s.setVel i v w) (t.setVel i v' w) := by
  subst hv
  refine ⟨⟨h.pos0, h.pos1⟩, ?_, ?_⟩ <;> simp only [SolveState.setVel, Function.update_apply]
  · split <;> [rfl; exact h.vel0]
  · split <;> [rfl; exact h.vel1]

theorem SeesMoved.advancePos [Trig K] (h : SeesMoved d u p s t) {i : Nat} (hi : i = p.i0 ∨ i = p.i1) (dp : Vec2 K) (dθ : K) : SeesMoved d u p (s.advancePos i dp dθ) (t.advancePos i dp dθ) := by
  have hv : t.pos i = (s.pos i).shift d := by rcases hi with rfl | rfl; exacts [h.pos0, h.pos1]
  refine ⟨⟨?_, ?_⟩, h.vel0, h.vel1⟩ <;> simp only [SolveState.advancePos, Function.update_apply, hv, Position.shift_advance]
  · split <;> [rfl; exact h.pos0]
  · split <;> [rfl; exact h.pos1]

theorem SeesMoved.applyImpulse (h : SeesMoved d u p s t) (P : MVec K 6) : SeesMoved d u p (p.applyImpulse P s) (p.applyImpulse P t) :=
  (h.incrementVel (Or.inl rfl) _ _).incrementVel (Or.inr rfl) _ _

theorem SeesMoved.correct [Trig K] (h : SeesMoved d u p s t) (P : MVec K 6) : SeesMoved d u p (p.applyPositionCorrection P s) (p.applyPositionCorrection P t) :=
  (h.advancePos (Or.inl rfl) _ _).advancePos (Or.inr rfl) _ _

theorem SeesMoved.velocity (h : SeesMoved d u p s t) : p.velocity t = (p.velocity s).add (boostVec u) := by
  apply ext_get
  intro r c
  have hc : c = 0 := Subsingleton.elim _ _
  subst hc
  rw [get_add, ← at_eq_get, ← at_eq_get, ← at_eq_get]
  unfold Proxies.velocity boostVec
  rw [h.vel0, h.vel1]
  fin_cases r <;> simp [Velocity.boost]

theorem SeesMoved.mul_velocity (h : SeesMoved d u p s t) {n : Nat} {J : Mat K n 6} (hJ : u = 0 ∨ OppositeLinear J) : J.mul (p.velocity t) = J.mul (p.velocity s) := by
  rw [h.velocity, mul_boost hJ]

/-- The same call in two worlds ends in the same way, up to the displacement. -/
def MovedEnd {α : Type*} (d u : Vec2 K) (p : Proxies K) (R : α → α → Prop) : Outcome (α × SolveState K) → Outcome (α × SolveState K) → Prop
  | .ok a, .ok b => R a.1 b.1 ∧ SeesMoved d u p a.2 b.2
  | .throw, .throw => True
  | .ub, .ub => True
  | _, _ => False

theorem MovedEnd.bind {α β : Type*} {R : β → β → Prop} (x : Outcome α) {f g : α → Outcome (β × SolveState K)} (h : ∀ a, MovedEnd d u p R (f a) (g a)) : MovedEnd d u p R (x.bind f) (x.bind g) := by
  cases x with
  | ok a => exact h a
  | throw => trivial
  | ub => trivial

theorem MovedEnd.of {α : Type*} {R : α → α → Prop} {x y : Outcome (α × SolveState K)} (h : MovedEnd d u p R x y) {a b : α × SolveState K} (hx : x = .ok a) (hy : y = .ok b) :
    R a.1 b.1 ∧ SeesMoved d u p a.2 b.2 := by subst hx hy; exact h

end

section
variable {K : Type*} [Field K] [LinearOrder K] {n : Nat} {p : Proxies K} {s t : SolveState K} {f f' : CFun K n} {d u : Vec2 K} {τ : K}

theorem CFun.Carries.mass (hf : f.Carries d u f') (h : SeesMoved (d + τ • u) u p s t) (b : SolverBase K n) (damp : Bool) : b.computeEffectiveMass p t f' damp = b.computeEffectiveMass p s f damp := by
  unfold SolverBase.computeEffectiveMass; rw [hf.jacobian τ p s t h.toPosMoved]

theorem CFun.Carries.rhs (hf : f.Carries d u f') (h : SeesMoved (d + τ • u) u p s t) (b : SolverBase K n) (hb : u = 0 ∨ OppositeLinear b.J) (dt : K) (damp : Bool) :
    b.computeRhs p t f' dt damp = b.computeRhs p s f dt damp := by
  unfold SolverBase.computeRhs; rw [hf.bias τ p s t h.toPosMoved, hf.eval τ p s t h.toPosMoved, h.mul_velocity hb]

theorem CFun.Carries.updateLambda (hf : f.Carries d u f') (h : SeesMoved (d + τ • u) u p s t) (b : SolverBase K n) (dt : K) (dl : MVec K n) :
    (b.updateLambda p f' dt dl t).1 = (b.updateLambda p f dt dl s).1 ∧ SeesMoved (d + τ • u) u p (b.updateLambda p f dt dl s).2 (b.updateLambda p f' dt dl t).2 := by
  unfold SolverBase.updateLambda
  dsimp only
  rw [hf.clampLambda]
  exact ⟨rfl, h.applyImpulse _⟩

theorem MovedEnd.map {α β : Type*} {R : β → β → Prop} (x : Option α) {f g : α → β × SolveState K} (h : ∀ a, R (f a).1 (g a).1 ∧ SeesMoved d u p (f a).2 (g a).2) :
    MovedEnd d u p R (returned (x.map f)) (returned (x.map g)) := by
  cases x with
  | none => trivial
  | some a => exact h a

theorem MovedEnd.thenReturned {α β : Type*} {R : β → β → Prop} (x : Outcome α) {f g : α → Outcome (Option (β × SolveState K))} (h : ∀ a, MovedEnd d u p R ((f a).bind returned) ((g a).bind returned)) :
    MovedEnd d u p R ((x.bind f).bind returned) ((x.bind g).bind returned) := by
  cases x with
  | ok a => exact h a
  | throw => trivial
  | ub => trivial

theorem EqualitySolver.moves [Trig K] (hf : f.Carries d u f') (h : SeesMoved (d + τ • u) u p s t) (sqrt : K → K) (dt : K) (e : EqualitySolver K n) (he : u = 0 ∨ OppositeLinear e.base.J) :
    e.initSolve sqrt p f' t = e.initSolve sqrt p f s ∧ MovedEnd (d + τ • u) u p Eq (.ok (e.warmstart p f dt s)) (.ok (e.warmstart p f' dt t)) ∧
    MovedEnd (d + τ • u) u p Eq (e.solveVelocity p f dt s) (e.solveVelocity p f' dt t) ∧ MovedEnd (d + τ • u) u p Eq (e.solvePosition sqrt p f s) (e.solvePosition sqrt p f' t) := by
  refine ⟨?_, ?_, ?_, ?_⟩
  · unfold EqualitySolver.initSolve; rw [hf.mass h]
  · obtain ⟨h1, h2⟩ := hf.updateLambda h e.base dt e.base.previousLambda
    refine ⟨?_, h2⟩
    show ({ e with base := (e.base.updateLambda p f dt e.base.previousLambda s).1 } : EqualitySolver K n) = { e with base := (e.base.updateLambda p f' dt e.base.previousLambda t).1 }
    rw [h1]
  · unfold EqualitySolver.solveVelocity
    rw [hf.rhs h _ he]
    refine MovedEnd.bind _ fun a => ?_
    obtain ⟨h1, h2⟩ := hf.updateLambda h e.base dt a
    exact ⟨congrArg (fun b => { e with base := b }) h1.symm, h2⟩
  · unfold EqualitySolver.solvePosition
    rw [hf.mass h, hf.eval τ p s t h.toPosMoved, hf.jacobian τ p s t h.toPosMoved, hf.clampPositionLambda]
    exact MovedEnd.bind _ fun a => MovedEnd.bind _ fun b => ⟨rfl, h.correct _⟩

theorem InequalitySolver.moves [Trig K] (hf : f.Carries d u f') (h : SeesMoved (d + τ • u) u p s t) (sqrt : K → K) (epsilon : K) (fuel : Nat) (dt : K) (e : InequalitySolver K n)
    (he : u = 0 ∨ OppositeLinear e.base.J) :
    e.initSolve p f' t = e.initSolve p f s ∧ MovedEnd (d + τ • u) u p Eq (.ok (e.warmstart p f dt s)) (.ok (e.warmstart p f' dt t)) ∧
    MovedEnd (d + τ • u) u p Eq (returned (e.solveVelocity epsilon fuel p f dt s)) (returned (e.solveVelocity epsilon fuel p f' dt t)) ∧
    MovedEnd (d + τ • u) u p Eq (e.solvePosition sqrt p f s) (e.solvePosition sqrt p f' t) := by
  refine ⟨?_, ?_, ?_, ?_⟩
  · unfold InequalitySolver.initSolve; rw [hf.mass h]
  · obtain ⟨h1, h2⟩ := hf.updateLambda h e.base dt e.base.previousLambda
    refine ⟨?_, h2⟩
    show ({ e with base := (e.base.updateLambda p f dt e.base.previousLambda s).1 } : InequalitySolver K n) = { e with base := (e.base.updateLambda p f' dt e.base.previousLambda t).1 }
    rw [h1]
  · unfold InequalitySolver.solveVelocity
    rw [hf.rhs h _ he, hf.clampLambda]
    refine MovedEnd.map _ fun a => ?_
    obtain ⟨h1, h2⟩ := hf.updateLambda h e.base dt (a.sub e.base.lambda)
    exact ⟨congrArg (fun b => { e with base := b }) h1.symm, h2⟩
  · unfold InequalitySolver.solvePosition
    dsimp only
    rw [hf.eval τ p s t h.toPosMoved, hf.jacobian τ p s t h.toPosMoved, hf.clampPositionLambda]
    refine MovedEnd.bind _ fun a => ?_
    split
    · exact MovedEnd.bind _ fun b => ⟨rfl, h.correct _⟩
    · exact ⟨rfl, h⟩

theorem LimitsSolver.moves [Trig K] {f f' : CFun K 1} (hf : f.Carries d u f') (h : SeesMoved (d + τ • u) u p s t) (sqrt : K → K) (epsilon : K) (fuel : Nat) (dt : K) (e : LimitsSolver K)
    (he : u = 0 ∨ OppositeLinear e.base.J) :
    e.isActive p f' t = e.isActive p f s ∧ e.initSolve sqrt p f' t = e.initSolve sqrt p f s ∧ MovedEnd (d + τ • u) u p Eq (.ok (e.warmstart p f dt s)) (.ok (e.warmstart p f' dt t)) ∧
    MovedEnd (d + τ • u) u p Eq ((e.solveVelocity epsilon fuel p f dt s).bind returned) ((e.solveVelocity epsilon fuel p f' dt t).bind returned) ∧
    MovedEnd (d + τ • u) u p Eq ((e.solvePosition sqrt epsilon fuel p f s).bind returned) ((e.solvePosition sqrt epsilon fuel p f' t).bind returned) := by
  have hn : ∀ e : LimitsSolver K, e.nextFunc p f' t = e.nextFunc p f s := by
    intro e; unfold LimitsSolver.nextFunc; rw [hf.eval τ p s t h.toPosMoved]
  have hr : e.rhs p f' dt t = e.rhs p f dt s := by
    unfold LimitsSolver.rhs; dsimp only; rw [hf.eval τ p s t h.toPosMoved, hf.bias τ p s t h.toPosMoved, h.mul_velocity he]
  refine ⟨?_, ?_, ?_, ?_, ?_⟩
  · unfold LimitsSolver.isActive; rw [hn]
  · unfold LimitsSolver.initSolve; dsimp only; rw [hn, hf.mass h]
  · unfold LimitsSolver.warmstart
    split
    · split
      · exact ⟨rfl, h.applyImpulse _⟩
      · obtain ⟨h1, h2⟩ := hf.updateLambda h e.base dt e.base.previousLambda
        refine ⟨?_, h2⟩
        show ({ e with base := (e.base.updateLambda p f dt e.base.previousLambda s).1 } : LimitsSolver K) = { e with base := (e.base.updateLambda p f' dt e.base.previousLambda t).1 }
        rw [h1]
    · exact ⟨rfl, h⟩
  · unfold LimitsSolver.solveVelocity
    rw [hr, hf.clampLambda]
    refine MovedEnd.thenReturned _ fun a => ?_
    split
    · refine MovedEnd.thenReturned _ fun b => ?_
      obtain ⟨h1, h2⟩ := hf.updateLambda h e.base dt b
      exact ⟨congrArg (fun b => { e with base := b }) h1.symm, h2⟩
    · refine MovedEnd.map _ fun b => ?_
      obtain ⟨h1, h2⟩ := hf.updateLambda h e.base dt (b.sub e.base.lambda)
      exact ⟨congrArg (fun b => { e with base := b }) h1.symm, h2⟩
    · exact MovedEnd.map _ fun b => ⟨rfl, h.applyImpulse _⟩
    · exact ⟨rfl, h⟩
    · trivial
  · unfold LimitsSolver.solvePosition
    dsimp only
    rw [hf.mass h, hf.eval τ p s t h.toPosMoved, hn, hf.clampPositionLambda]
    split
    · refine MovedEnd.thenReturned _ fun a => MovedEnd.thenReturned _ fun b => MovedEnd.thenReturned _ fun c => ?_
      exact ⟨rfl, h.correct _⟩
    · refine MovedEnd.thenReturned _ fun a => ?_
      exact MovedEnd.map _ fun b => ⟨rfl, h.correct _⟩
    · refine MovedEnd.thenReturned _ fun a => ?_
      exact MovedEnd.map _ fun b => ⟨rfl, h.correct _⟩
    · exact ⟨rfl, h.correct _⟩

end

section
variable {K : Type*} [Field K] {d u : Vec2 K} {p : Proxies K} {s t : SolveState K}

/-- The contact, its points moved by `d`. -/
def Contact.reframe (e : Contact K) (d : Vec2 K) : Contact K := { e with frame := e.frame.shift d }

theorem Frame.shift_relative (fr : Frame K) (d : Vec2 K) (c : Fin 2) : (fr.shift d).contacts 0 c - (fr.shift d).contacts 1 c = fr.contacts 0 c - fr.contacts 1 c := by
  unfold Frame.shift
  dsimp only
  split
  · abel
  · rfl

theorem add_boost_comm (v x b : MVec K 6) : (v.add b).add x = (v.add x).add b := by
  apply ext_get
  intro r c
  simp only [get_add]
  ring

theorem Contact.computeJacobians_moves [Trig K] (h : SeesMoved d u p s t) (e : Contact K) (b : Bool) : (e.reframe d).computeJacobians p t b = (e.computeJacobians p s b).reframe d := by
  have hr0 : ∀ c : Fin 2, (if c.val < e.frame.nContacts then (e.frame.shift d).contacts 0 c - (t.pos p.i0).centroid else 0) =
      if c.val < e.frame.nContacts then e.frame.contacts 0 c - (s.pos p.i0).centroid else 0 := by
    intro c
    rw [h.pos0, Position.shift_centroid]
    split
    · rename_i hc
      show (if c.val < e.frame.nContacts then e.frame.contacts 0 c + d else e.frame.contacts 0 c) - _ = _
      rw [if_pos hc]; abel
    · rfl
  have hr1 : ∀ c : Fin 2, (if c.val < e.frame.nContacts then (e.frame.shift d).contacts 1 c - (t.pos p.i1).centroid else 0) =
      if c.val < e.frame.nContacts then e.frame.contacts 1 c - (s.pos p.i1).centroid else 0 := by
    intro c
    rw [h.pos1, Position.shift_centroid]
    split
    · rename_i hc
      show (if c.val < e.frame.nContacts then e.frame.contacts 1 c + d else e.frame.contacts 1 c) - _ = _
      rw [if_pos hc]; abel
    · rfl
  have h1 : (e.frame.shift d).nContacts = e.frame.nContacts := rfl
  have h2 : (e.frame.shift d).normal = e.frame.normal := rfl
  have h3 : (e.frame.shift d).tangent = e.frame.tangent := rfl
  unfold Contact.computeJacobians Contact.reframe
  simp only [h1, h2, h3, if_true, one_ne_zero, if_false, hr0, hr1]

variable [LinearOrder K]

theorem Contact.computeKs_moves (e : Contact K) (p : Proxies K) (b : Bool) : (e.reframe d).computeKs p b = (e.computeKs p b).reframe d := by
  unfold Contact.computeKs Contact.reframe
  cases b <;> dsimp only [Frame.shift] <;> split_ifs <;> rfl

theorem Contact.computeBounce_moves (h : SeesMoved d u p s t) (e : Contact K) (he : u = 0 ∨ OppositeLinear e.Jn) : (e.reframe d).computeBounce p t = (e.computeBounce p s).reframe d := by
  unfold Contact.computeBounce Contact.reframe
  dsimp only
  rw [h.mul_velocity he]

theorem Manifold.frame_shift [Trig K] (m : Manifold K) (p0 p1 : Position K) (d : Vec2 K) :
    m.frame ![(p0.shift d).toWorldSpace, (p1.shift d).toWorldSpace] = (m.frame ![p0.toWorldSpace, p1.toWorldSpace]).shift d := by
  have hr : ∀ i : Fin 2, ((![(p0.shift d).toWorldSpace, (p1.shift d).toWorldSpace] : Fin 2 → Transform K) i).r = ((![p0.toWorldSpace, p1.toWorldSpace] : Fin 2 → Transform K) i).r := by
    intro i; fin_cases i <;> rfl
  have ha : ∀ (i : Fin 2) v, ((![(p0.shift d).toWorldSpace, (p1.shift d).toWorldSpace] : Fin 2 → Transform K) i).app v = ((![p0.toWorldSpace, p1.toWorldSpace] : Fin 2 → Transform K) i).app v + d := by
    intro i v; fin_cases i
    · exact Position.shift_app p0 d v
    · exact Position.shift_app p1 d v
  unfold Manifold.frame Frame.shift
  simp only [hr, ha, Frame.mk.injEq, true_and, and_true]
  funext b c
  split <;> rfl

theorem Contact.isActive_moves [Trig K] (h : PosMoved d p s t) (e : Contact K) (fr : Frame K) :
    (({ e with frame := fr } : Contact K).isActive p t).1 = (e.isActive p s).1.reframe d ∧ (({ e with frame := fr } : Contact K).isActive p t).2 = (e.isActive p s).2 := by
  unfold Contact.isActive
  rw [h.pos0, h.pos1, Manifold.frame_shift]
  exact ⟨rfl, rfl⟩

theorem Contact.frictionLoop_moves (e : Contact K) (p : Proxies K) (he : u = 0 ∨ ∀ c, OppositeLinear (e.Jf c)) (v : MVec K 6) :
    (e.reframe d).frictionLoop p (v.add (boostVec u)) = ((e.frictionLoop p v).1, (e.frictionLoop p v).2.add (boostVec u)) := by
  have one : ∀ c (st : MVec K 2 × MVec K 6), (e.reframe d).frictionStep p c (st.1, st.2.add (boostVec u)) = ((e.frictionStep p c st).1, (e.frictionStep p c st).2.add (boostVec u)) := by
    intro c st
    unfold Contact.frictionStep Contact.reframe
    dsimp only
    rw [mul_boost (he.imp_right fun k => k c), add_boost_comm]
  have step : ∀ c (st : MVec K 2 × MVec K 6), (if c.val < (e.reframe d).frame.nContacts then (e.reframe d).frictionStep p c (st.1, st.2.add (boostVec u)) else (st.1, st.2.add (boostVec u))) =
      ((if c.val < e.frame.nContacts then e.frictionStep p c st else st).1, (if c.val < e.frame.nContacts then e.frictionStep p c st else st).2.add (boostVec u)) := by
    intro c st
    show (if c.val < e.frame.nContacts then _ else _) = _
    split
    · exact one c st
    · rfl
  unfold Contact.frictionLoop
  simp only [forFin_succ, forFin_zero]
  have a := step 0 (e.tangentLambda, v)
  rw [show (e.reframe d).tangentLambda = e.tangentLambda from rfl]
  dsimp only at a
  rw [a]
  exact step (Fin.succ 0) _

/-- The normal part of the solution of a contact. -/
theorem Contact.solveNormal_moves (e : Contact K) (p : Proxies K) (he : u = 0 ∨ OppositeLinear e.Jn) (v : MVec K 6) :
    (e.reframe d).solveNormal p (v.add (boostVec u)) = (e.solveNormal p v).bind fun r => .ok (r.1, r.2.add (boostVec u)) := by
  have hJ : u = 0 ∨ OppositeLinear (e.normalJacobian 0) := he.imp_right fun k r => by
    have hr : r = 0 := Subsingleton.elim _ _
    subst hr
    exact k 0
  have hb : ∀ {α β γ : Type _} (x : Outcome α) (f : α → Outcome β) (g : β → Outcome γ), (x.bind f).bind g = x.bind fun a => (f a).bind g := by
    intro α β γ x f g; cases x <;> rfl
  unfold Contact.solveNormal
  by_cases h1 : e.frame.nContacts = 1
  · rw [if_pos (show (e.reframe d).frame.nContacts = 1 from h1), if_pos h1, hb]
    have : (e.reframe d).normalJacobian 0 = e.normalJacobian 0 := rfl
    dsimp only
    rw [this, mul_boost hJ]
    refine congrArg (Outcome.bind _) (funext fun k => ?_)
    rw [add_boost_comm]
    rfl
  · rw [if_neg (show ¬ (e.reframe d).frame.nContacts = 1 from h1), if_neg h1]
    by_cases h2 : e.frame.nContacts = 2
    · rw [if_pos (show (e.reframe d).frame.nContacts = 2 from h2), if_pos h2, hb]
      have : (e.reframe d).Jn = e.Jn := rfl
      dsimp only
      rw [this, mul_boost he]
      refine congrArg (Outcome.bind _) (funext fun k => ?_)
      rw [hb]
      refine congrArg (Outcome.bind _) (funext fun l => ?_)
      rw [add_boost_comm]
      rfl
    · rw [if_neg (show ¬ (e.reframe d).frame.nContacts = 2 from h2), if_neg h2]
      rfl

theorem Contact.moves [Trig K] (h : SeesMoved d u p s t) (e : Contact K) (he : u = 0 ∨ OppositeLinear e.Jn ∧ ∀ c, OppositeLinear (e.Jf c)) :
    (e.reframe d).initSolve p t = (e.initSolve p s).reframe d ∧ MovedEnd d u p (fun a b => b = a.reframe d) (.ok (e.warmstart p s)) (.ok ((e.reframe d).warmstart p t)) ∧
    MovedEnd d u p (fun a b => b = a.reframe d) (e.solveVelocities p s) ((e.reframe d).solveVelocities p t) := by
  refine ⟨?_, ⟨rfl, h.applyImpulse _⟩, ?_⟩
  · unfold Contact.initSolve
    dsimp only
    rw [Contact.computeJacobians_moves h, Contact.computeKs_moves, Contact.computeBounce_moves h]
    · rfl
    · exact Or.inr (Contact.computeKs_fit (Contact.computeJacobians_fit e true) true).1
  · unfold Contact.solveVelocities
    dsimp only
    rw [h.velocity, Contact.frictionLoop_moves e p (he.imp_right And.right)]
    dsimp only
    rw [Contact.solveNormal_moves e p (he.imp_right And.left)]
    cases e.solveNormal p (e.frictionLoop p (p.velocity s)).2 with
    | throw => trivial
    | ub => trivial
    | ok r =>
      obtain ⟨l, v⟩ := r
      have hv : ∀ i, (v.add (boostVec u)).at_ i = v.at_ i + (boostVec u).at_ i := fun i => by rw [at_eq_get, get_add, at_eq_get, at_eq_get]
      refine ⟨rfl, ?_⟩
      dsimp only
      rw [hv 2, hv 5, show (boostVec u).at_ 2 = 0 from rfl, show (boostVec u).at_ 5 = 0 from rfl, add_zero, add_zero]
      refine (h.setVel _ ?_ _).setVel _ ?_ _
      · rw [hv, hv]; rfl
      · rw [hv, hv]; rfl

theorem Contact.solvePositions_moves [Trig K] (h : SeesMoved d u p s t) (e : Contact K) (fr : Frame K) :
    MovedEnd d u p (fun a b => b = a.reframe d) (e.solvePositions p s) (({ e with frame := fr } : Contact K).solvePositions p t) := by
  have hC : ∀ e : Contact K, (forFin 2 (fun c C => if c.val < (e.reframe d).frame.nContacts then C.setAt c (Vec2.dot (e.reframe d).frame.normal ((e.reframe d).relativePosition c)) else C) Mat.zero : MVec K 2) =
      forFin 2 (fun c C => if c.val < e.frame.nContacts then C.setAt c (Vec2.dot e.frame.normal (e.relativePosition c)) else C) Mat.zero := by
    intro e
    have : ∀ c, (e.reframe d).relativePosition c = e.relativePosition c := Frame.shift_relative e.frame d
    simp only [this]
    rfl
  unfold Contact.solvePositions
  rw [h.pos0, h.pos1]
  dsimp only
  rw [Manifold.frame_shift]
  generalize e.manifold.frame ![(s.pos p.i0).toWorldSpace, (s.pos p.i1).toWorldSpace] = fr0
  have e1 : ({ ({ e with frame := fr } : Contact K) with frame := fr0.shift d } : Contact K) = ({ e with frame := fr0 } : Contact K).reframe d := rfl
  have e2 : (({ ({ e with frame := fr0.shift d } : Contact K) with frame := fr0.shift d } : Contact K).computeJacobians p t false).computeKs p false =
     (((({ e with frame := fr0 } : Contact K).computeJacobians p s false).computeKs p false)).reframe d := by
    show ((({ e with frame := fr0 } : Contact K).reframe d).computeJacobians p t false).computeKs p false = _
    rw [Contact.computeJacobians_moves h, Contact.computeKs_moves]
  have e3 : (({ e with frame := fr0.shift d } : Contact K).computeJacobians p t false).computeKs p false =
     (((({ e with frame := fr0 } : Contact K).computeJacobians p s false).computeKs p false)).reframe d := e2
  rw [e3]
  generalize ((({ e with frame := fr0 } : Contact K).computeJacobians p s false).computeKs p false) = g
  rw [hC]
  rw [show (g.reframe d).manifold.minPen = g.manifold.minPen from rfl, show (g.reframe d).normalSolver = g.normalSolver from rfl,
    show (g.reframe d).frame.nContacts = g.frame.nContacts from rfl]
  split
  · exact ⟨rfl, h⟩
  · split
    · exact MovedEnd.bind _ fun a => ⟨rfl, h.correct _⟩
    · split
      · exact MovedEnd.bind _ fun a => MovedEnd.bind _ fun b => ⟨rfl, h.correct _⟩
      · exact ⟨rfl, h⟩

end

section
variable {K : Type*} [Field K] [LinearOrder K] [Trig K] {d u : Vec2 K} {τ : K} {p : Proxies K} {s t s1 t1 : SolveState K}

/-- The points of contact are moved by `d`. -/
def Kind.Framed (d : Vec2 K) (x y : Σ k : Kind K, k.State) : Prop := ∀ e e' : Contact K, x = ⟨.contact, e⟩ → y = ⟨.contact, e'⟩ → e'.frame = e.frame.shift d

theorem Kind.act_moves {x y : Σ k : Kind K, k.State} (hm : Kind.Carries d u x y) (hst : u = 0 ∨ x.1.Opposite ∧ x.1.Fit x.2) (c : CallCfg K) (ph : Phase)
    (hfr : ph ≠ .solvePositions → Kind.Framed (d + τ • u) x y) (hs : SeesMoved (d + τ • u) u p s t) {e1 : x.1.State} {f1 : y.1.State}
    (h1 : x.1.act c ph p x.2 s = .ok (e1, s1)) (h2 : y.1.act c ph p y.2 t = .ok (f1, t1)) :
    Kind.Carries d u ⟨x.1, e1⟩ ⟨y.1, f1⟩ ∧ (ph ≠ .solvePositions → Kind.Framed (d + τ • u) ⟨x.1, e1⟩ ⟨y.1, f1⟩) ∧ SeesMoved (d + τ • u) u p s1 t1 := by
  cases hm with
  | @equality n f f' hf e =>
    have nf : ∀ (e1 : EqualitySolver K n) (f1 : EqualitySolver K n), Kind.Framed (d + τ • u) ⟨.equality n f, e1⟩ ⟨.equality n f', f1⟩ := fun _ _ _ _ h => by cases h
    obtain ⟨k1, k2, k3, k4⟩ := EqualitySolver.moves hf hs c.sqrt c.dt e (hst.imp_right And.right)
    suffices h : (e1 : EqualitySolver K n) = f1 ∧ SeesMoved (d + τ • u) u p s1 t1 by
      obtain ⟨h, h'⟩ := h
      cases h
      exact ⟨.equality hf _, fun _ => nf _ _, h'⟩
    cases ph
    · obtain ⟨a, ha, h1⟩ := bind_ok_iff.1 h1
      obtain ⟨b, hb, h2⟩ := bind_ok_iff.1 h2
      cases Outcome.ok.inj h1
      cases Outcome.ok.inj h2
      dsimp only at hb ha
      rw [k1, ha] at hb
      exact ⟨Outcome.ok.inj hb, hs⟩
    · exact k2.of h1 h2
    · exact k3.of h1 h2
    · exact k4.of h1 h2
  | @inequality n f f' hf e =>
    have nf : ∀ (e1 : InequalitySolver K n) (f1 : InequalitySolver K n), Kind.Framed (d + τ • u) ⟨.inequality n f, e1⟩ ⟨.inequality n f', f1⟩ := fun _ _ _ _ h => by cases h
    obtain ⟨k1, k2, k3, k4⟩ := InequalitySolver.moves hf hs c.sqrt c.epsilon c.fuel c.dt e (hst.imp_right And.right)
    suffices h : (e1 : InequalitySolver K n) = f1 ∧ SeesMoved (d + τ • u) u p s1 t1 by
      obtain ⟨h, h'⟩ := h
      cases h
      exact ⟨.inequality hf _, fun _ => nf _ _, h'⟩
    cases ph
    · cases Outcome.ok.inj h1
      cases Outcome.ok.inj h2
      exact ⟨k1.symm, hs⟩
    · exact k2.of h1 h2
    · exact k3.of h1 h2
    · exact k4.of h1 h2
  | @limits f f' hf e =>
    have nf : ∀ (e1 : LimitsSolver K) (f1 : LimitsSolver K), Kind.Framed (d + τ • u) ⟨.limits f, e1⟩ ⟨.limits f', f1⟩ := fun _ _ _ _ h => by cases h
    obtain ⟨-, k1, k2, k3, k4⟩ := LimitsSolver.moves hf hs c.sqrt c.epsilon c.fuel c.dt e (hst.imp_right And.right)
    suffices h : (e1 : LimitsSolver K) = f1 ∧ SeesMoved (d + τ • u) u p s1 t1 by
      obtain ⟨h, h'⟩ := h
      cases h
      exact ⟨.limits hf _, fun _ => nf _ _, h'⟩
    cases ph
    · obtain ⟨a, ha, h1⟩ := bind_ok_iff.1 h1
      obtain ⟨b, hb, h2⟩ := bind_ok_iff.1 h2
      cases Outcome.ok.inj h1
      cases Outcome.ok.inj h2
      dsimp only at hb ha
      rw [k1, ha] at hb
      exact ⟨Outcome.ok.inj hb, hs⟩
    · exact k2.of h1 h2
    · exact k3.of h1 h2
    · exact k4.of h1 h2
  | @mouse f f' hf e =>
    have nf : ∀ (e1 : EqualitySolver K 2) (f1 : EqualitySolver K 2), Kind.Framed (d + τ • u) ⟨.mouse f, e1⟩ ⟨.mouse f', f1⟩ := fun _ _ _ _ h => by cases h
    obtain ⟨k1, k2, k3, -⟩ := EqualitySolver.moves hf hs c.sqrt c.dt e (hst.imp_right fun k => k.1.elim)
    suffices h : (e1 : EqualitySolver K 2) = f1 ∧ SeesMoved (d + τ • u) u p s1 t1 by
      obtain ⟨h, h'⟩ := h
      cases h
      exact ⟨.mouse hf _, fun _ => nf _ _, h'⟩
    cases ph
    · obtain ⟨a, ha, h1⟩ := bind_ok_iff.1 h1
      obtain ⟨b, hb, h2⟩ := bind_ok_iff.1 h2
      cases Outcome.ok.inj h1
      cases Outcome.ok.inj h2
      dsimp only at hb ha
      rw [k1, ha] at hb
      exact ⟨Outcome.ok.inj hb, hs⟩
    · exact k2.of h1 h2
    · exact k3.of h1 h2
    · cases Outcome.ok.inj h1
      cases Outcome.ok.inj h2
      exact ⟨rfl, hs⟩
  | contact e fr =>
    suffices h : (f1 : Contact K) = Contact.reframe e1 (d + τ • u) ∧ SeesMoved (d + τ • u) u p s1 t1 by
      obtain ⟨h, h'⟩ := h
      cases h
      exact ⟨.contact _ _, fun _ a b ha hb => by cases ha; cases hb; rfl, h'⟩
    have hfr' : ph ≠ .solvePositions → ({ e with frame := fr } : Contact K) = e.reframe (d + τ • u) := fun k => by
      have := hfr k e _ rfl rfl
      dsimp only at this
      unfold Contact.reframe
      rw [this]
    obtain ⟨k1, k2, k3⟩ := Contact.moves hs e (hst.imp_right And.right)
    have k4 := Contact.solvePositions_moves hs e fr
    cases ph
    · cases Outcome.ok.inj h1
      cases Outcome.ok.inj h2
      refine ⟨?_, hs⟩
      show Contact.initSolve { e with frame := fr } p t = _
      rw [hfr' (by decide)]; exact k1
    · rw [← hfr' (by decide)] at k2
      exact k2.of h1 h2
    · rw [← hfr' (by decide)] at k3
      exact k3.of h1 h2
    · exact k4.of h1 h2

theorem Kind.isActive_moves {x y : Σ k : Kind K, k.State} (hm : Kind.Carries d u x y) (hs : PosMoved (d + τ • u) p s t) :
    Kind.Carries d u ⟨x.1, (x.1.isActive p x.2 s).1⟩ ⟨y.1, (y.1.isActive p y.2 t).1⟩ ∧ Kind.Framed (d + τ • u) ⟨x.1, (x.1.isActive p x.2 s).1⟩ ⟨y.1, (y.1.isActive p y.2 t).1⟩ ∧
    (x.1.isActive p x.2 s).2 = (y.1.isActive p y.2 t).2 := by
  cases hm with
  | equality hf e => exact ⟨.equality hf _, fun _ _ h => (by cases h), rfl⟩
  | inequality hf e => exact ⟨.inequality hf _, fun _ _ h => (by cases h), rfl⟩
  | @limits f f' hf e =>
    refine ⟨.limits hf _, fun _ _ h => (by cases h), ?_⟩
    show e.isActive p f s = e.isActive p f' t
    unfold LimitsSolver.isActive LimitsSolver.nextFunc
    rw [hf.eval τ p s t hs]
  | mouse hf e => exact ⟨.mouse hf _, fun _ _ h => (by cases h), rfl⟩
  | contact e fr =>
    obtain ⟨h1, h2⟩ := Contact.isActive_moves hs e fr
    refine ⟨?_, fun a b ha hb => ?_, h2.symm⟩
    · show Kind.Carries d u ⟨.contact, (e.isActive p s).1⟩ ⟨.contact, (({ e with frame := fr } : Contact K).isActive p t).1⟩
      rw [h1]; exact .contact _ _
    · have ha : (e.isActive p s).1 = a := by cases ha; rfl
      have hb : (({ e with frame := fr } : Contact K).isActive p t).1 = b := by cases hb; rfl
      rw [← hb, h1, ← ha]; rfl

theorem Kind.isActive_fit (k : Kind K) (e : k.State) (h : k.Fit e) : k.Fit (k.isActive p e s).1 := by
  cases k <;> exact h

end

section
variable {K : Type*} [Field K] [LinearOrder K] [Trig K] {L L' : Library K}

theorem Library.private_of (L L' : Library K) (c : CallCfg K) (R : (Σ k : Kind K, k.State) → (Σ k : Kind K, k.State) → Prop) :
    Private (L.net c) fun l s (t : (l : Link) → (L'.kind l).State) => R ⟨L.kind l, s l⟩ ⟨L'.kind l, t l⟩ := by
  constructor
  · intro ph l i0 i1 s ps vs s' ps' vs' h l' t hl ha
    obtain ⟨e', t', -, rfl, -⟩ := Library.act_ok h
    rw [Function.update_of_ne hl]; exact ha
  · intro l l' s p q t hl ha
    unfold Library.net
    dsimp only
    rw [Function.update_of_ne hl]; exact ha

/-- Positions and velocities in a second world, before and after the bodies are moved. -/
def movedFrames (c : CallCfg K) (d u : Vec2 K) : Frames (Pose K) (Velocity K) where
  before p q := q.1 = p.1.shift d
  after p q := q.1 = p.1.shift (d + c.dt • u)
  vel v w := w = v.boost u

/-- What is known of the states of a constraint in both worlds once it has been asked whether it is active. -/
def LinkAsked (d u : Vec2 K) (x y : Σ k : Kind K, k.State) : Prop := LinkMoves d u x y ∧ Kind.Framed d x y

theorem Library.acts_moved {d u : Vec2 K} (c : CallCfg K) (ph : Phase) (τ : K) {l : Link} (hb : L'.bodies l = L.bodies l) {i0 i1 : Nat} {s s' : (l : Link) → (L.kind l).State}
    {t t' : (l : Link) → (L'.kind l).State} {ps ps' qs qs' : Nat → Pose K} {vs vs' ws ws' : Nat → Velocity K} (hk : LinkMoves d u ⟨L.kind l, s l⟩ ⟨L'.kind l, t l⟩)
    (hfr : ph ≠ .solvePositions → Kind.Framed (d + τ • u) ⟨L.kind l, s l⟩ ⟨L'.kind l, t l⟩) (e0 : (qs i0).1 = (ps i0).1.shift (d + τ • u)) (e1 : (qs i1).1 = (ps i1).1.shift (d + τ • u))
    (e2 : ws i0 = (vs i0).boost u) (e3 : ws i1 = (vs i1).boost u) (h : (L.net c).act ph l i0 i1 s ps vs = .ok (s', ps', vs')) (h' : (L'.net c).act ph l i0 i1 t qs ws = .ok (t', qs', ws')) :
    LinkMoves d u ⟨L.kind l, s' l⟩ ⟨L'.kind l, t' l⟩ ∧ (ph ≠ .solvePositions → Kind.Framed (d + τ • u) ⟨L.kind l, s' l⟩ ⟨L'.kind l, t' l⟩) ∧ (qs' i0).1 = (ps' i0).1.shift (d + τ • u) ∧
      (qs' i1).1 = (ps' i1).1.shift (d + τ • u) ∧ ws' i0 = (vs' i0).boost u ∧ ws' i1 = (vs' i1).boost u := by
  obtain ⟨e', x, ha, rfl, rfl, hp⟩ := Library.act_ok h
  obtain ⟨f', y, ha', rfl, rfl, hq⟩ := Library.act_ok h'
  rw [hb] at ha'
  have hs : SeesMoved (d + τ • u) u ⟨i0, i1, (L.bodies l).masses⟩ ⟨fun i => (ps i).1, vs⟩ ⟨fun i => (qs i).1, ws⟩ := ⟨⟨e0, e1⟩, e2, e3⟩
  obtain ⟨k1, k2, k3⟩ := Kind.act_moves hk.1 hk.2 c ph hfr hs ha ha'
  have k4 := (Kind.act_acts c _ ph ha).2
  rw [Function.update_self, Function.update_self]
  refine ⟨⟨k1, hk.2.imp_right fun k => ⟨k.1, k4 k.1 k.2⟩⟩, k2, ?_, ?_, k3.vel0, k3.vel1⟩
  · rw [hp, hq]; exact k3.pos0
  · rw [hp, hq]; exact k3.pos1

theorem Library.matched {d u : Vec2 K} (c : CallCfg K) {l : Link} (hb : L'.bodies l = L.bodies l) :
    Matched (L.net c) (L'.net c) (movedFrames c d u) (fun l s t => LinkMoves d u ⟨L.kind l, s l⟩ ⟨L'.kind l, t l⟩) (fun l s t => LinkAsked d u ⟨L.kind l, s l⟩ ⟨L'.kind l, t l⟩) l := by
  have hd : d + (0 : K) • u = d := by ext <;> simp
  constructor
  · show ((L'.bodies l).i0, (L'.bodies l).i1) = _
    rw [hb]; rfl
  · intro s t p q p' q' h hp hq
    have hs : PosMoved (d + (0 : K) • u) ⟨0, 1, (L.bodies l).masses⟩ ⟨fun i => if i = 0 then p.1 else q.1, fun _ => ⟨0, 0⟩⟩ ⟨fun i => if i = 0 then p'.1 else q'.1, fun _ => ⟨0, 0⟩⟩ := by
      rw [hd]; exact ⟨hp, hq⟩
    obtain ⟨k1, k2, k3⟩ := Kind.isActive_moves h.1 hs
    rw [hd] at k2
    unfold Library.net
    dsimp only
    rw [Function.update_self, Function.update_self, hb]
    exact ⟨⟨⟨k1, h.2.imp_right fun k => ⟨k.1, Kind.isActive_fit _ _ k.2⟩⟩, k2⟩, k3⟩
  · exact fun s t h => h.1
  · intro ph hph i0 i1 s ps vs s' ps' vs' t qs ws t' qs' ws' ha e0 e1 e2 e3 h h'
    obtain ⟨k1, k2, k3, k4, k5, k6⟩ := Library.acts_moved c ph 0 hb ha.1 (fun _ => by rw [hd]; exact ha.2) (by rw [hd]; exact e0) (by rw [hd]; exact e1) e2 e3 h h'
    rw [hd] at k2 k3 k4
    exact ⟨⟨k1, k2 hph⟩, k3, k4, k5, k6⟩
  · intro i0 i1 s ps vs s' ps' vs' t qs ws t' qs' ws' ha e0 e1 e2 e3 h h'
    obtain ⟨k1, -, k3, k4, k5, k6⟩ := Library.acts_moved c .solvePositions c.dt hb ha (fun k => absurd rfl k) e0 e1 e2 e3 h h'
    exact ⟨k1, k3, k4, k5, k6⟩

theorem movedFrames_advance (c : CallCfg K) (d u : Vec2 K) (p q : Pose K) (v w : Velocity K) (h : (movedFrames c d u).before p q) (hv : (movedFrames c d u).vel v w) :
    (movedFrames c d u).after ((L.net c).advance p v) ((L'.net c).advance q w) := by
  have h : q.1 = p.1.shift d := h
  have hv : w = v.boost u := hv
  subst hv
  show (Pose.of (q.1.advance (c.dt • (v.linear + u)) (v.angular * c.dt))).1 = (Pose.of (p.1.advance (c.dt • v.linear) (v.angular * c.dt))).1.shift (d + c.dt • u)
  rw [h, ← Pose.of_shift]
  congr 2
  simp only [Position.shift, Position.advance, Translation.mul, Position.mk.injEq, Translation.mk.injEq, and_true, smul_add]
  abel

end

section
variable {K : Type*} [Field K] [LinearOrder K] [IsStrictOrderedRing K]

theorem BoundingBox.shift_overlaps (a b : BoundingBox K) (d : Vec2 K) : (a.shift d).overlaps (b.shift d) = a.overlaps b := by
  have hv : ∀ b : BoundingBox K, (b.shift d).isValid = b.isValid := fun b => by simp [BoundingBox.isValid, BoundingBox.shift]
  have hi : ∀ a b c e x : K, Interval.overlaps ⟨a + x, b + x⟩ ⟨c + x, e + x⟩ = Interval.overlaps ⟨a, b⟩ ⟨c, e⟩ := by
    intro a b c e x
    unfold Interval.overlaps
    dsimp only
    rw [show b + x - (a + x) + (e + x - (c + x)) = b - a + (e - c) by ring, show b + x + (a + x) - (e + x + (c + x)) = b + a - (e + c) by ring]
  unfold BoundingBox.overlaps
  rw [hv, hv]
  split
  · rfl
  · exact congrArg₂ _ (hi _ _ _ _ _) (hi _ _ _ _ _)

theorem BoundingBox.ofVertices_shift (l : List (Vec2 K)) (d : Vec2 K) : BoundingBox.ofVertices (l.map (· + d)) = (BoundingBox.ofVertices l).bind fun b => .ok (b.shift d) := by
  have hm : ∀ a b : Vec2 K, Vec2.min (a + d) (b + d) = Vec2.min a b + d ∧ Vec2.max (a + d) (b + d) = Vec2.max a b + d := by
    intro a b
    constructor
    · ext <;> simp [Vec2.min] <;> split_ifs <;> rfl
    · ext <;> simp [Vec2.max] <;> split_ifs <;> rfl
  cases l with
  | nil => rfl
  | cons p ps =>
    show Outcome.ok _ = Outcome.ok _
    congr 1
    show (ps.map (· + d)).foldl _ ((⟨p, p⟩ : BoundingBox K).shift d) = _
    generalize (⟨p, p⟩ : BoundingBox K) = b
    induction ps generalizing b with
    | nil => rfl
    | cons q ps ih =>
      rw [List.map_cons, List.foldl_cons, List.foldl_cons, ← ih]
      congr 1
      unfold BoundingBox.shift
      rw [(hm _ _).1, (hm _ _).2]

theorem inRegion_shift (f : ForceField K) (d : Vec2 K) (e : Nat × Collider K) : inRegion (f.shift d).region (e.1, e.2.shift d) = inRegion f.region e := by
  cases f with
  | gravity a => rfl
  | linear force region =>
    cases region with
    | none => rfl
    | some r =>
      show (match (e.2.geom.box.bind fun b => Outcome.ok (b.shift d)) with | .ok box => (r.shift d).overlaps box | _ => false) = match e.2.geom.box with | .ok box => r.overlaps box | _ => false
      cases e.2.geom.box with
      | ok b => exact BoundingBox.shift_overlaps r b d
      | throw => rfl
      | ub => rfl

theorem ForceField.apply_carried (f : ForceField K) (b : Body K) (p : MassProperties K) (dt : K) (d u : Vec2 K) : (f.shift d).apply (b.carried d u) p dt = (f.apply b p dt).carried d u := by
  have h : ∀ i w : Vec2 K, (b.carried d u).applyImpulse i w = (b.applyImpulse i w).carried d u := by
    intro i w
    simp only [Body.applyImpulse, Body.setVelocity, Body.setAngularVelocity, Body.carried, Body.mk.injEq, true_and, and_true]
    refine ⟨?_, ?_⟩
    · rw [add_right_comm]; rfl
    · rfl
  cases f <;> exact h _ _

variable {d u : Vec2 K} {group : Finset Nat}

theorem applyToCollider_moved (f : ForceField K) (dt : K) : ∀ (l : List (Nat × Collider K)), (∀ e ∈ l, e.1 ∈ group) → ∀ {B B1 B' B1' : Nat → Body K},
    (∀ b ∈ group, (B b).asleep = false ∧ B' b = (B b).carried d u) → foldlO (applyToCollider f dt) B l = .ok B1 →
    foldlO (applyToCollider (f.shift d) dt) B' (l.map fun e => (e.1, e.2.shift d)) = .ok B1' → ∀ b ∈ group, (B1 b).asleep = false ∧ B1' b = (B1 b).carried d u
  | [], _, B, B1, B', B1', hB, h, h' => by cases Outcome.ok.inj h; cases Outcome.ok.inj h'; exact hB
  | e :: l, hl, B, B1, B', B1', hB, h, h' => by
    obtain ⟨B2, h1, h2⟩ := bind_ok_iff.1 h
    obtain ⟨B2', h1', h2'⟩ := bind_ok_iff.1 h'
    refine applyToCollider_moved f dt l (fun e he => hl e (List.mem_cons_of_mem _ he)) ?_ h2 h2'
    have he := hl e List.mem_cons_self
    obtain ⟨k1, k2⟩ := hB e.1 he
    unfold applyToCollider at h1 h1'
    dsimp only at h1 h1'
    rw [k2] at h1'
    have hc : (!((B e.1).carried d u).asleep && !((B e.1).carried d u).isStructural) = (!(B e.1).asleep && !(B e.1).isStructural) := rfl
    have hp : (e.2.shift d).properties = e.2.properties := rfl
    rw [hc, hp] at h1'
    split at h1
    · rename_i h3
      rw [if_pos h3] at h1'
      obtain ⟨p, hp, h1⟩ := bind_ok_iff.1 h1
      obtain ⟨p', hp', h1'⟩ := bind_ok_iff.1 h1'
      rw [hp] at hp'
      cases Outcome.ok.inj hp'
      cases Outcome.ok.inj h1
      cases Outcome.ok.inj h1'
      intro b hb
      simp only [Function.update_apply]
      split
      · refine ⟨?_, ForceField.apply_carried f _ _ _ _ _⟩
        cases f <;> rfl
      · exact hB b hb
    · rename_i h3
      rw [if_neg h3] at h1'
      cases Outcome.ok.inj h1
      cases Outcome.ok.inj h1'
      exact hB

theorem applyForces_moved (fields : List (ForceField K)) (dt : K) {tree tree' : List (Nat × Collider K)}
    (ht : tree'.filter (·.1 ∈ group) = (tree.filter (·.1 ∈ group)).map fun e => (e.1, e.2.shift d)) {B B1 B' B1' : Nat → Body K}
    (hB : ∀ b ∈ group, (B b).asleep = false ∧ B' b = (B b).carried d u) (h : applyForces fields dt tree B = .ok B1) (h' : applyForces (fields.map (·.shift d)) dt tree' B' = .ok B1') :
    ∀ b ∈ group, (B1 b).asleep = false ∧ B1' b = (B1 b).carried d u := by
  unfold applyForces at h h'
  induction fields generalizing B B' with
  | nil => cases Outcome.ok.inj h; cases Outcome.ok.inj h'; exact hB
  | cons f fields ih =>
    obtain ⟨B2, h1, h2⟩ := bind_ok_iff.1 h
    obtain ⟨B2', h1', h2'⟩ := bind_ok_iff.1 h'
    refine ih ?_ h2 h2'
    obtain ⟨C, k1, k2⟩ := applyToCollider_twin f dt group _ h1 (fun _ _ => rfl)
    obtain ⟨C', k1', k2'⟩ := applyToCollider_twin (f.shift d) dt group _ h1' (fun _ _ => rfl)
    have : (tree'.filter (inRegion (f.shift d).region)).filter (·.1 ∈ group) = ((tree.filter (inRegion f.region)).filter (·.1 ∈ group)).map fun e => (e.1, e.2.shift d) := by
      have e1 : (tree'.filter (inRegion (f.shift d).region)).filter (·.1 ∈ group) = (tree'.filter (·.1 ∈ group)).filter (inRegion (f.shift d).region) := by
        rw [List.filter_filter, List.filter_filter]; simp only [Bool.and_comm]
      have e2 : (tree.filter (inRegion f.region)).filter (·.1 ∈ group) = (tree.filter (·.1 ∈ group)).filter (inRegion f.region) := by
        rw [List.filter_filter, List.filter_filter]; simp only [Bool.and_comm]
      rw [e1, e2, ht, List.filter_map]
      congr 2
      funext e
      exact inRegion_shift f d e
    rw [this] at k1'
    have := applyToCollider_moved f dt _ (fun e he => by simpa using (List.mem_filter.1 he).2) hB k1 k1'
    intro b hb
    rw [k2 b hb, k2' b hb]
    exact this b hb

theorem Body.settle_carried [Trig K] (b : Body K) (x y : BodyState (Pose K) (Velocity K)) (d' : Vec2 K) (hp : y.pos.1 = x.pos.1.shift d') (hv : y.vel = x.vel.boost u) :
    (b.carried d u).settle y = { (b.settle x).carried d' u with asleep := y.asleep } := by
  have hg : ∀ c : Collider K, { c.shift d with geom := (c.shift d).geom.update (x.pos.1.shift d').toWorldSpace.app } = ({ c with geom := c.geom.update x.pos.1.toWorldSpace.app } : Collider K).shift d' := by
    intro c
    have : (c.geom.localVerts.map (x.pos.1.shift d').toWorldSpace.app) = (c.geom.localVerts.map x.pos.1.toWorldSpace.app).map (· + d') := by
      rw [List.map_map]
      exact List.map_congr_left fun v _ => Position.shift_app _ _ _
    show (⟨c.id, ⟨c.geom.localVerts, c.geom.localVerts.map (x.pos.1.shift d').toWorldSpace.app, BoundingBox.ofVertices (c.geom.localVerts.map (x.pos.1.shift d').toWorldSpace.app)⟩, c.material⟩ : Collider K) = _
    rw [this, BoundingBox.ofVertices_shift]
    rfl
  unfold Body.settle Body.update Body.carried Colliders.update
  dsimp only
  rw [hp, hv, List.map_map, List.map_map]
  simp only [Velocity.boost, Body.mk.injEq, true_and, and_true, Colliders.mk.injEq]
  exact List.map_congr_left fun c _ => hg c

end

end Simu
