import Verif.Spec.LibraryTwin
import Verif.Props.Library
/-
The constraints of the library only see their own bodies.
-/
namespace Simu
open Island

section
variable {K : Type*} [Field K] {p : Proxies K} {s t : SolveState K}

theorem SeesSame.refl (p : Proxies K) (s : SolveState K) : SeesSame p s s := ⟨rfl, rfl, rfl, rfl⟩

theorem SeesSame.incrementVel (h : SeesSame p s t) {i : Nat} (hi : i = p.i0 ∨ i = p.i1) (dv : Vec2 K) (dw : K) : SeesSame p (s.incrementVel i dv dw) (t.incrementVel i dv dw) := by
  have hv : s.vel i = t.vel i := by rcases hi with rfl | rfl; exacts [h.vel0, h.vel1]
  refine ⟨h.pos0, h.pos1, ?_, ?_⟩ <;> simp only [SolveState.incrementVel, SolveState.setVel, Function.update_apply, hv]
  · split <;> [rfl; exact h.vel0]
  · split <;> [rfl; exact h.vel1]

theorem SeesSame.setVel (h : SeesSame p s t) (i : Nat) (v : Vec2 K) (w : K) : SeesSame p (s.setVel i v w) (t.setVel i v w) := by
  refine ⟨h.pos0, h.pos1, ?_, ?_⟩ <;> simp only [SolveState.setVel, Function.update_apply]
  · split <;> [rfl; exact h.vel0]
  · split <;> [rfl; exact h.vel1]

theorem SeesSame.advancePos [Trig K] (h : SeesSame p s t) {i : Nat} (hi : i = p.i0 ∨ i = p.i1) (dp : Vec2 K) (dθ : K) : SeesSame p (s.advancePos i dp dθ) (t.advancePos i dp dθ) := by
  have hv : s.pos i = t.pos i := by rcases hi with rfl | rfl; exacts [h.pos0, h.pos1]
  refine ⟨?_, ?_, h.vel0, h.vel1⟩ <;> simp only [SolveState.advancePos, Function.update_apply, hv]
  · split <;> [rfl; exact h.pos0]
  · split <;> [rfl; exact h.pos1]

theorem SeesSame.applyImpulse (h : SeesSame p s t) (P : MVec K 6) : SeesSame p (p.applyImpulse P s) (p.applyImpulse P t) :=
  (h.incrementVel (Or.inl rfl) _ _).incrementVel (Or.inr rfl) _ _

theorem SeesSame.correct [Trig K] (h : SeesSame p s t) (P : MVec K 6) : SeesSame p (p.applyPositionCorrection P s) (p.applyPositionCorrection P t) :=
  (h.advancePos (Or.inl rfl) _ _).advancePos (Or.inr rfl) _ _

theorem SeesSame.velocity (h : SeesSame p s t) : p.velocity s = p.velocity t := by
  unfold Proxies.velocity; rw [h.vel0, h.vel1]

theorem SameEnd.bind {α β : Type*} (x : Outcome α) {f g : α → Outcome (β × SolveState K)} (h : ∀ a, SameEnd p (f a) (g a)) : SameEnd p (x.bind f) (x.bind g) := by
  cases x with
  | ok a => exact h a
  | throw => trivial
  | ub => trivial

theorem SameEnd.ok {α : Type*} (a : α) (h : SeesSame p s t) : SameEnd p (.ok (a, s)) (.ok (a, t)) := ⟨rfl, h⟩

end

section
variable {K : Type*} [Field K] [LinearOrder K] {d : Nat} {p : Proxies K} {s t : SolveState K} {f : CFun K d}

theorem CFun.Local.mass (hf : f.Local) (h : SeesSame p s t) (b : SolverBase K d) (damp : Bool) : b.computeEffectiveMass p s f damp = b.computeEffectiveMass p t f damp := by
  unfold SolverBase.computeEffectiveMass; rw [hf.jacobian p s t h]

theorem CFun.Local.rhs (hf : f.Local) (h : SeesSame p s t) (b : SolverBase K d) (dt : K) (damp : Bool) : b.computeRhs p s f dt damp = b.computeRhs p t f dt damp := by
  unfold SolverBase.computeRhs; rw [hf.bias p s t h, hf.eval p s t h, h.velocity]

theorem SeesSame.updateLambda (h : SeesSame p s t) (f : CFun K d) (b : SolverBase K d) (dt : K) (dl : MVec K d) :
    (b.updateLambda p f dt dl s).1 = (b.updateLambda p f dt dl t).1 ∧ SeesSame p (b.updateLambda p f dt dl s).2 (b.updateLambda p f dt dl t).2 :=
  ⟨rfl, h.applyImpulse _⟩

theorem SameEnd.map {α β : Type*} (x : Option α) {f g : α → β × SolveState K} (h : ∀ a, (f a).1 = (g a).1 ∧ SeesSame p (f a).2 (g a).2) :
    SameEnd p (returned (x.map f)) (returned (x.map g)) := by
  cases x with
  | none => trivial
  | some a => exact h a

theorem SameEnd.thenReturned {α β : Type*} (x : Outcome α) {f g : α → Outcome (Option (β × SolveState K))} (h : ∀ a, SameEnd p ((f a).bind returned) ((g a).bind returned)) :
    SameEnd p ((x.bind f).bind returned) ((x.bind g).bind returned) := by
  cases x with
  | ok a => exact h a
  | throw => trivial
  | ub => trivial

theorem EqualitySolver.local_ [Trig K] (hf : f.Local) (h : SeesSame p s t) (sqrt : K → K) (dt : K) (e : EqualitySolver K d) :
    e.initSolve sqrt p f s = e.initSolve sqrt p f t ∧ SameEnd p (.ok (e.warmstart p f dt s)) (.ok (e.warmstart p f dt t)) ∧
    SameEnd p (e.solveVelocity p f dt s) (e.solveVelocity p f dt t) ∧ SameEnd p (e.solvePosition sqrt p f s) (e.solvePosition sqrt p f t) := by
  refine ⟨?_, ?_, ?_, ?_⟩
  · unfold EqualitySolver.initSolve; rw [hf.mass h]
  · exact ⟨rfl, h.applyImpulse _⟩
  · unfold EqualitySolver.solveVelocity
    rw [hf.rhs h]
    exact SameEnd.bind _ fun a => ⟨rfl, h.applyImpulse _⟩
  · unfold EqualitySolver.solvePosition
    rw [hf.mass h, hf.eval p s t h, hf.jacobian p s t h]
    exact SameEnd.bind _ fun a => SameEnd.bind _ fun b => ⟨rfl, h.correct _⟩

theorem InequalitySolver.local_ [Trig K] (hf : f.Local) (h : SeesSame p s t) (sqrt : K → K) (epsilon : K) (fuel : Nat) (dt : K) (e : InequalitySolver K d) :
    e.initSolve p f s = e.initSolve p f t ∧ SameEnd p (.ok (e.warmstart p f dt s)) (.ok (e.warmstart p f dt t)) ∧
    SameEnd p (returned (e.solveVelocity epsilon fuel p f dt s)) (returned (e.solveVelocity epsilon fuel p f dt t)) ∧ SameEnd p (e.solvePosition sqrt p f s) (e.solvePosition sqrt p f t) := by
  refine ⟨?_, ?_, ?_, ?_⟩
  · unfold InequalitySolver.initSolve; rw [hf.mass h]
  · exact ⟨rfl, h.applyImpulse _⟩
  · unfold InequalitySolver.solveVelocity
    rw [hf.rhs h]
    exact SameEnd.map _ fun a => ⟨rfl, h.applyImpulse _⟩
  · unfold InequalitySolver.solvePosition
    dsimp only
    rw [hf.eval p s t h, hf.jacobian p s t h]
    refine SameEnd.bind _ fun a => ?_
    split
    · exact SameEnd.bind _ fun b => ⟨rfl, h.correct _⟩
    · exact ⟨rfl, h⟩

theorem LimitsSolver.local_ [Trig K] {f : CFun K 1} (hf : f.Local) (h : SeesSame p s t) (sqrt : K → K) (epsilon : K) (fuel : Nat) (dt : K) (e : LimitsSolver K) :
    e.isActive p f s = e.isActive p f t ∧ e.initSolve sqrt p f s = e.initSolve sqrt p f t ∧ SameEnd p (.ok (e.warmstart p f dt s)) (.ok (e.warmstart p f dt t)) ∧
    SameEnd p ((e.solveVelocity epsilon fuel p f dt s).bind returned) ((e.solveVelocity epsilon fuel p f dt t).bind returned) ∧
    SameEnd p ((e.solvePosition sqrt epsilon fuel p f s).bind returned) ((e.solvePosition sqrt epsilon fuel p f t).bind returned) := by
  have hn : ∀ e : LimitsSolver K, e.nextFunc p f s = e.nextFunc p f t := by
    intro e; unfold LimitsSolver.nextFunc; rw [hf.eval p s t h]
  have hr : e.rhs p f dt s = e.rhs p f dt t := by
    unfold LimitsSolver.rhs; rw [hf.eval p s t h, hf.bias p s t h, h.velocity]
  refine ⟨?_, ?_, ?_, ?_, ?_⟩
  · unfold LimitsSolver.isActive; rw [hn]
  · unfold LimitsSolver.initSolve; dsimp only; rw [hn, hf.mass h]
  · unfold LimitsSolver.warmstart
    split
    · split
      · exact ⟨rfl, h.applyImpulse _⟩
      · exact ⟨rfl, h.applyImpulse _⟩
    · exact ⟨rfl, h⟩
  · unfold LimitsSolver.solveVelocity
    rw [hr]
    refine SameEnd.thenReturned _ fun a => ?_
    split
    · refine SameEnd.thenReturned _ fun b => ?_
      exact ⟨rfl, h.applyImpulse _⟩
    · exact SameEnd.map _ fun b => ⟨rfl, h.applyImpulse _⟩
    · exact SameEnd.map _ fun b => ⟨rfl, h.applyImpulse _⟩
    · exact ⟨rfl, h⟩
    · trivial
  · unfold LimitsSolver.solvePosition
    dsimp only
    rw [hf.mass h, hf.eval p s t h, hn]
    split
    · refine SameEnd.thenReturned _ fun a => SameEnd.thenReturned _ fun b => SameEnd.thenReturned _ fun c => ?_
      exact ⟨rfl, h.correct _⟩
    · refine SameEnd.thenReturned _ fun a => ?_
      exact SameEnd.map _ fun b => ⟨rfl, h.correct _⟩
    · refine SameEnd.thenReturned _ fun a => ?_
      exact SameEnd.map _ fun b => ⟨rfl, h.correct _⟩
    · exact ⟨rfl, h.correct _⟩

theorem Contact.local_ [Trig K] (h : SeesSame p s t) (e : Contact K) :
    e.isActive p s = e.isActive p t ∧ e.initSolve p s = e.initSolve p t ∧ SameEnd p (.ok (e.warmstart p s)) (.ok (e.warmstart p t)) ∧
    SameEnd p (e.solveVelocities p s) (e.solveVelocities p t) ∧ SameEnd p (e.solvePositions p s) (e.solvePositions p t) := by
  have hj : ∀ (e : Contact K) b, e.computeJacobians p s b = e.computeJacobians p t b := by
    intro e b
    unfold Contact.computeJacobians
    have : (fun b : Fin 2 => s.pos (if b = 0 then p.i0 else p.i1)) = fun b => t.pos (if b = 0 then p.i0 else p.i1) := by
      funext b; split <;> [exact h.pos0; exact h.pos1]
    have h0 := congrFun this 0
    have h1 := congrFun this 1
    dsimp only at h0 h1 ⊢
    rw [h0, h1]
  have hb : ∀ e : Contact K, e.computeBounce p s = e.computeBounce p t := by
    intro e; unfold Contact.computeBounce; rw [h.velocity]
  refine ⟨?_, ?_, ?_, ?_, ?_⟩
  · unfold Contact.isActive; rw [h.pos0, h.pos1]
  · unfold Contact.initSolve; dsimp only; rw [hj, hb]
  · exact ⟨rfl, h.applyImpulse _⟩
  · unfold Contact.solveVelocities
    dsimp only
    rw [h.velocity]
    exact SameEnd.bind _ fun a => ⟨rfl, (h.setVel _ _ _).setVel _ _ _⟩
  · unfold Contact.solvePositions
    dsimp only
    rw [h.pos0, h.pos1, hj]
    split
    · exact ⟨rfl, h⟩
    · split
      · exact SameEnd.bind _ fun a => ⟨rfl, h.correct _⟩
      · split
        · exact SameEnd.bind _ fun a => SameEnd.bind _ fun b => ⟨rfl, h.correct _⟩
        · exact ⟨rfl, h⟩

/-- A constraint that only looks at its own bodies does the same wherever the others are. -/
theorem Kind.local_act [Trig K] {k : Kind K} (hk : k.Local) (c : CallCfg K) (ph : Phase) (h : SeesSame p s t) (e : k.State) : SameEnd p (k.act c ph p e s) (k.act c ph p e t) := by
  cases k with
  | equality d f =>
    obtain ⟨h1, h2, h3, h4⟩ := EqualitySolver.local_ hk h c.sqrt c.dt e
    cases ph
    · show SameEnd p ((EqualitySolver.initSolve c.sqrt e p f s).bind _) ((EqualitySolver.initSolve c.sqrt e p f t).bind _)
      rw [h1]; exact SameEnd.bind _ fun a => ⟨rfl, h⟩
    · exact h2
    · exact h3
    · exact h4
  | inequality d f =>
    obtain ⟨h1, h2, h3, h4⟩ := InequalitySolver.local_ hk h c.sqrt c.epsilon c.fuel c.dt e
    cases ph
    · exact ⟨h1, h⟩
    · exact h2
    · exact h3
    · exact h4
  | limits f =>
    obtain ⟨-, h1, h2, h3, h4⟩ := LimitsSolver.local_ hk h c.sqrt c.epsilon c.fuel c.dt e
    cases ph
    · show SameEnd p ((LimitsSolver.initSolve c.sqrt e p f s).bind _) ((LimitsSolver.initSolve c.sqrt e p f t).bind _)
      rw [h1]; exact SameEnd.bind _ fun a => ⟨rfl, h⟩
    · exact h2
    · exact h3
    · exact h4
  | mouse f =>
    obtain ⟨h1, h2, h3, -⟩ := EqualitySolver.local_ hk h c.sqrt c.dt e
    cases ph
    · show SameEnd p ((EqualitySolver.initSolve c.sqrt e p f s).bind _) ((EqualitySolver.initSolve c.sqrt e p f t).bind _)
      rw [h1]; exact SameEnd.bind _ fun a => ⟨rfl, h⟩
    · exact h2
    · exact h3
    · exact ⟨rfl, h⟩
  | contact =>
    obtain ⟨-, h1, h2, h3, h4⟩ := Contact.local_ h e
    cases ph
    · exact ⟨h1, h⟩
    · exact h2
    · exact h3
    · exact h4

end

section
variable {K : Type*} [Field K] [LinearOrder K] [Trig K]

/-- The states of a constraint of two libraries are the same. -/
def Library.Agrees (L L' : Library K) (l : Link) (s : (l : Link) → (L.kind l).State) (t : (l : Link) → (L'.kind l).State) : Prop :=
  (⟨L.kind l, s l⟩ : Σ k : Kind K, k.State) = ⟨L'.kind l, t l⟩

theorem Library.private (L L' : Library K) (c : CallCfg K) : Private (L.net c) (L.Agrees L') := by
  constructor
  · intro ph l i0 i1 s ps vs s' ps' vs' h l' t hl ha
    obtain ⟨e', t', -, rfl, -⟩ := Library.act_ok h
    unfold Library.Agrees
    rw [Function.update_of_ne hl]; exact ha
  · intro l l' s p q t hl ha
    unfold Library.Agrees Library.net
    dsimp only
    rw [Function.update_of_ne hl]; exact ha

theorem Library.private' (L L' : Library K) (c : CallCfg K) : Private (L'.net c) fun l s t => L.Agrees L' l t s := by
  constructor
  · intro ph l i0 i1 s ps vs s' ps' vs' h l' t hl ha
    obtain ⟨e', t', -, rfl, -⟩ := Library.act_ok h
    show L.Agrees L' l' t _
    unfold Library.Agrees
    rw [Function.update_of_ne hl]; exact ha
  · intro l l' s p q t hl ha
    show L.Agrees L' l' t _
    unfold Library.Agrees Library.net
    dsimp only
    rw [Function.update_of_ne hl]; exact ha

theorem Kind.act_twin {k k' : Kind K} (hk : k.Local) (c : CallCfg K) (ph : Phase) {p : Proxies K} {s t s1 t1 : SolveState K} (h : SeesSame p s t) {e e1 : k.State} {f f1 : k'.State}
    (hef : (⟨k, e⟩ : Σ k : Kind K, k.State) = ⟨k', f⟩) (h1 : k.act c ph p e s = .ok (e1, s1)) (h2 : k'.act c ph p f t = .ok (f1, t1)) :
    (⟨k, e1⟩ : Σ k : Kind K, k.State) = ⟨k', f1⟩ ∧ SeesSame p s1 t1 := by
  cases hef
  have := Kind.local_act hk c ph h e
  rw [h1, h2] at this
  obtain ⟨a, b⟩ := this
  dsimp only at a b
  subst a
  exact ⟨rfl, b⟩

theorem Kind.isActive_twin {k k' : Kind K} {p : Proxies K} {s : SolveState K} {e : k.State} {f : k'.State} (hef : (⟨k, e⟩ : Σ k : Kind K, k.State) = ⟨k', f⟩) :
    (⟨k, (k.isActive p e s).1⟩ : Σ k : Kind K, k.State) = ⟨k', (k'.isActive p f s).1⟩ ∧ (k.isActive p e s).2 = (k'.isActive p f s).2 := by
  cases hef
  exact ⟨rfl, rfl⟩

theorem Library.alike {L L' : Library K} (c : CallCfg K) {l : Link} (hb : L'.bodies l = L.bodies l) (hl : (L.kind l).Local) : Alike (L.net c) (L'.net c) (L.Agrees L') l := by
  constructor
  · show ((L'.bodies l).i0, (L'.bodies l).i1) = _
    rw [hb]; rfl
  · intro s t p q h
    have := Kind.isActive_twin (p := ⟨0, 1, (L.bodies l).masses⟩) (s := ⟨fun i => if i = 0 then p.1 else q.1, fun _ => ⟨0, 0⟩⟩) h
    refine ⟨?_, ?_⟩
    · unfold Library.Agrees Library.net
      dsimp only
      rw [Function.update_self, Function.update_self, hb]
      exact this.1
    · unfold Library.net
      dsimp only
      rw [hb]
      exact this.2
  · intro ph i0 i1 s ps vs s' ps' vs' t qs ws t' qs' ws' ha e0 e1 e2 e3 h h'
    obtain ⟨e', x, hk, rfl, rfl, hp⟩ := Library.act_ok h
    obtain ⟨f', y, hk', rfl, rfl, hq⟩ := Library.act_ok h'
    rw [hb] at hk'
    obtain ⟨k1, k2⟩ := Kind.act_twin hl c ph (⟨congrArg Subtype.val e0, congrArg Subtype.val e1, e2, e3⟩ : SeesSame ⟨i0, i1, (L.bodies l).masses⟩ ⟨fun i => (ps i).1, vs⟩ ⟨fun i => (qs i).1, ws⟩) ha hk hk'
    refine ⟨?_, ?_, ?_, k2.vel0, k2.vel1⟩
    · unfold Library.Agrees
      rw [Function.update_self, Function.update_self]; exact k1
    · exact Subtype.ext (by rw [hp, hq]; exact k2.pos0)
    · exact Subtype.ext (by rw [hp, hq]; exact k2.pos1)

end

section
variable {K : Type*} [Field K] [LinearOrder K] [IsStrictOrderedRing K]

theorem applyToCollider_twin (f : ForceField K) (dt : K) (group : Finset Nat) : ∀ (l : List (Nat × Collider K)) {B B1 : Nat → Body K}, foldlO (applyToCollider f dt) B l = .ok B1 →
    ∀ {B'}, (∀ b ∈ group, B b = B' b) → ∃ B1', foldlO (applyToCollider f dt) B' (l.filter (·.1 ∈ group)) = .ok B1' ∧ ∀ b ∈ group, B1 b = B1' b
  | [], B, B1, h, B', hB => by cases Outcome.ok.inj h; exact ⟨B', rfl, hB⟩
  | e :: l, B, B1, h, B', hB => by
    obtain ⟨B2, h1, h2⟩ := bind_ok_iff.1 h
    by_cases he : e.1 ∈ group
    · rw [List.filter_cons_of_pos (by simpa using he)]
      unfold applyToCollider at h1
      dsimp only at h1
      have hs : foldlO (applyToCollider f dt) B' (e :: l.filter (·.1 ∈ group)) = (applyToCollider f dt B' e).bind fun s => foldlO (applyToCollider f dt) s (l.filter (·.1 ∈ group)) := rfl
      rw [hs]
      unfold applyToCollider
      dsimp only
      rw [← hB _ he]
      split at h1
      · rename_i hc
        rw [if_pos hc]
        obtain ⟨p, hp, h1⟩ := bind_ok_iff.1 h1
        cases Outcome.ok.inj h1
        rw [hp]
        refine applyToCollider_twin f dt group l h2 (B' := Function.update B' e.1 (f.apply (B e.1) p dt)) fun b hb => ?_
        simp only [Function.update_apply]
        split
        · rfl
        · exact hB b hb
      · rename_i hc
        rw [if_neg hc]
        cases Outcome.ok.inj h1
        exact applyToCollider_twin f dt group l h2 hB
    · rw [List.filter_cons_of_neg (by simpa using he)]
      refine applyToCollider_twin f dt group l h2 fun b hb => ?_
      unfold applyToCollider at h1
      dsimp only at h1
      split at h1
      · obtain ⟨p, hp, h1⟩ := bind_ok_iff.1 h1
        cases Outcome.ok.inj h1
        rw [Function.update_of_ne (show b ≠ e.1 from fun h => he (h ▸ hb))]
        exact hB b hb
      · cases Outcome.ok.inj h1
        exact hB b hb

theorem applyForces_twin (fields : List (ForceField K)) (dt : K) (group : Finset Nat) {tree tree' : List (Nat × Collider K)} (ht : tree.filter (·.1 ∈ group) = tree'.filter (·.1 ∈ group))
    {B B1 B' B1' : Nat → Body K} (hB : ∀ b ∈ group, B b = B' b) (h : applyForces fields dt tree B = .ok B1) (h' : applyForces fields dt tree' B' = .ok B1') :
    ∀ b ∈ group, B1 b = B1' b := by
  unfold applyForces at h h'
  induction fields generalizing B B' with
  | nil => cases Outcome.ok.inj h; cases Outcome.ok.inj h'; exact hB
  | cons f fields ih =>
    obtain ⟨B2, h1, h2⟩ := bind_ok_iff.1 h
    obtain ⟨B2', h1', h2'⟩ := bind_ok_iff.1 h'
    refine ih ?_ h2 h2'
    obtain ⟨C, k1, k2⟩ := applyToCollider_twin f dt group _ h1 hB
    obtain ⟨C', k1', k2'⟩ := applyToCollider_twin f dt group _ h1' (fun _ _ => rfl)
    have : (tree.filter (inRegion f.region)).filter (·.1 ∈ group) = (tree'.filter (inRegion f.region)).filter (·.1 ∈ group) := by
      have := congrArg (List.filter (inRegion f.region)) ht
      rw [List.filter_filter, List.filter_filter] at this ⊢
      simpa only [Bool.and_comm] using this
    rw [this, k1'] at k1
    cases Outcome.ok.inj k1
    intro b hb
    rw [k2 b hb, k2' b hb]

end

end Simu
