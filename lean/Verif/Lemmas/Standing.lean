import Verif.Spec.Standing
import Verif.Lemmas.UniqueIsland
import Verif.Lemmas.LibraryStill
import Verif.Lemmas.LibraryEnergy
/-
Lemmas on constraints that carry.
-/
namespace Simu
open Island Mat Contact
variable {K : Type*} [Field K] [LinearOrder K] [IsStrictOrderedRing K] [Trig K]
variable {c : CallCfg K} {m : InvMasses K} {p q : Position K} {v w : Velocity K} {P : Six K} {i0 i1 : Nat} {s : SolveState K}

omit [Trig K] in
theorem Solvable.other {f : Frame K} {pr pr' : Proxies K} (h : Solvable f pr) (hm : pr'.masses = pr.masses) : Solvable f pr' := by
  refine ⟨?_, ?_, ?_, ?_, ?_, h.normal, ?_⟩ <;> rw [hm]
  · exact h.m0
  · exact h.m1
  · exact h.I0
  · exact h.I1
  · exact h.moves
  · exact h.turns

/-- Constraints that carry can be solved. For a contact, `isActive` has just updated the frame. -/
theorem Kind.carrying_regular {k : Kind K} {e : k.State} (hk : k.Carrying c m p q v w P e) (hi : i0 ≠ i1) (hp : s.pos i0 = p) (hq : s.pos i1 = q)
    (hf : k.Fresh p q e) :
    k.Regular c ⟨i0, i1, m⟩ s e := by
  cases k with
  | equality d f =>
    obtain ⟨-, -, hc, -, hd⟩ := hk
    exact ⟨fun r => (hd r).1, ⟨fun _ x => x, fun _ z w => by simp, fun l r => by rw [hc]⟩, Or.inl hc⟩
  | inequality d f => exact hk.elim
  | limits f => exact hk.elim
  | mouse f => exact hk.elim
  | contact =>
    obtain ⟨h1, h2, h3, h4, h5, -⟩ := hk
    have hf : (e : Contact _).frame = _ := hf
    subst hp hq
    exact ⟨hf, hi, h1, h2.other rfl, h3, h4, h5⟩

/-- The same multipliers. -/
def Kind.Recalls : (k : Kind K) → k.State → k.State → Prop
  | .equality _ _, e, e' => (e' : EqualitySolver _ _).base.previousLambda = (e : EqualitySolver _ _).base.lambda
  | .contact, e, e' => (e' : Contact _).previousNormalLambda = (e : Contact _).normalLambda ∧ (e' : Contact _).previousTangentLambda = (e : Contact _).tangentLambda
  | _, _, _ => True

/-- The same multipliers and the same function. -/
def Kind.Repeats : (k : Kind K) → k.State → k.State → Prop
  | .equality _ _, e, e' => (e' : EqualitySolver _ _).base.lambda = (e : EqualitySolver _ _).base.lambda ∧ (e' : EqualitySolver _ _).base.damping = (e : EqualitySolver _ _).base.damping
  | .contact, e, e' => (e' : Contact _).normalLambda = (e : Contact _).normalLambda ∧ (e' : Contact _).tangentLambda = (e : Contact _).tangentLambda ∧
      (e' : Contact _).manifold = (e : Contact _).manifold ∧ (e' : Contact _).friction = (e : Contact _).friction ∧ (e' : Contact _).restitution = (e : Contact _).restitution
  | _, _, _ => True

omit [IsStrictOrderedRing K] in
theorem Kind.Repeats.carrying {k : Kind K} {e e' : k.State} (h : k.Repeats e e') (hk : k.Carrying c m p q v w P e) : k.Carrying c m p q v w P e' := by
  cases k with
  | equality d f =>
    obtain ⟨h1, h2⟩ := h
    obtain ⟨a1, a2, a3, a4, a5⟩ := hk
    refine ⟨a1, a2, a3, ?_, ?_⟩
    · rw [h1]; exact a4
    · rw [h1, h2]; exact a5
  | inequality d f => exact hk.elim
  | limits f => exact hk.elim
  | mouse f => exact hk.elim
  | contact =>
    obtain ⟨h1, h2, h3, h4, h5⟩ := h
    unfold Kind.Carrying at hk ⊢
    dsimp only at hk ⊢
    rw [h1, h2, h3, h4, h5]
    exact hk

omit [LinearOrder K] [IsStrictOrderedRing K] [Trig K] in
theorem Kind.Repeats.trans {k : Kind K} {a b d : k.State} (h : k.Repeats a b) (h' : k.Repeats b d) : k.Repeats a d := by
  cases k with
  | equality d f => exact ⟨h'.1.trans h.1, h'.2.trans h.2⟩
  | inequality d f => trivial
  | limits f => trivial
  | mouse f => trivial
  | contact => exact ⟨h'.1.trans h.1, h'.2.1.trans h.2.1, h'.2.2.1.trans h.2.2.1, h'.2.2.2.1.trans h.2.2.2.1, h'.2.2.2.2.trans h.2.2.2.2⟩

omit [IsStrictOrderedRing K] in
theorem Kind.recalls_init {k : Kind K} {pr : Proxies K} {e e' : k.State} {s' : SolveState K} (h : k.act c .initSolve pr e s = .ok (e', s')) : k.Recalls e e' := by
  cases k with
  | equality d f =>
    obtain ⟨x, hx, h⟩ := bind_ok_iff.1 h
    cases Outcome.ok.inj h
    unfold EqualitySolver.initSolve at hx
    dsimp only at hx
    obtain ⟨k, -, hx⟩ := bind_ok_iff.1 hx
    obtain ⟨-, -, hx⟩ := bind_ok_iff.1 hx
    cases Outcome.ok.inj hx
    rfl
  | inequality d f => trivial
  | limits f => trivial
  | mouse f => trivial
  | contact =>
    cases Outcome.ok.inj h
    obtain ⟨-, -, -, -, c5, c6, -⟩ := Contact.computeKs_eq (Contact.computeJacobians e pr s true) pr true
    exact ⟨c6, c5⟩

/-- Warm starting repeats what is recalled. -/
theorem Kind.repeats_warmstart {k : Kind K} {pr : Proxies K} {e e1 e' : k.State} {s' : SolveState K} (hk : k.Carrying c m p q v w P e) (hr : k.Recalls e e1) (hb : k.Blank e1)
    (hs : k.Same e e1) (h : k.act c .warmstart pr e1 s = .ok (e', s')) : k.Repeats e e' := by
  cases k with
  | equality d f =>
    obtain ⟨-, -, hc, -⟩ := hk
    cases Outcome.ok.inj h
    refine ⟨?_, hs.1⟩
    show f.clampLambda (Mat.add (e1 : EqualitySolver _ _).base.lambda (e1 : EqualitySolver _ _).base.previousLambda) c.dt = _
    have hr : (e1 : EqualitySolver _ _).base.previousLambda = (e : EqualitySolver _ _).base.lambda := hr
    have hb : (e1 : EqualitySolver _ _).base.lambda = Mat.zero := hb
    rw [hc, hr, hb]
    exact ext_at fun i => by rw [at_add, Mat.at_zero, zero_add]
  | inequality d f => exact hk.elim
  | limits f => exact hk.elim
  | mouse f => exact hk.elim
  | contact =>
    cases Outcome.ok.inj h
    exact ⟨hr.1, hr.2, hs.1, hs.2.2, hs.2.1⟩

/-- What the constraint gives when it repeats. -/
theorem Kind.given_repeats {k : Kind K} {e e2 : k.State} (hk : k.Carrying c m p q v w P e) (hp : s.pos i0 = p) (hq : s.pos i1 = q) (hr : k.Repeats e e2)
    (hst : k.Started c ⟨i0, i1, m⟩ s e2) : k.given e2 = P := by
  cases k with
  | equality d f =>
    obtain ⟨-, -, -, ⟨J, hJ, hP⟩, -⟩ := hk
    show pull (e2 : EqualitySolver _ _).base.J (e2 : EqualitySolver _ _).base.lambda.toV = P
    rw [hst.1, hJ i0 i1 s hp hq, hr.1, hP]
  | inequality d f => exact hk.elim
  | limits f => exact hk.elim
  | mouse f => exact hk.elim
  | contact =>
    obtain ⟨-, -, -, -, -, -, -, -, -, hP⟩ := hk
    obtain ⟨r1, r2, r3, -⟩ := hr
    funext i
    show totalImpulse (e2 : Contact _) i = P i
    have hst : Contact.PreparedAt ⟨i0, i1, m⟩ s (e2 : Contact _) := hst
    rw [hst.ready.totalImpulse_eq, hP, r1, r2, r3]
    subst hp hq
    rfl

/-- The law holds at rest. -/
theorem Kind.law_rest {k : Kind K} {e e2 : k.State} {t : SolveState K} (hk : k.Carrying c m p q v w P e) (hp : s.pos i0 = p) (hq : s.pos i1 = q) (hr : k.Repeats e e2)
    (hpt : t.pos i0 = p) (hqt : t.pos i1 = q) (h0 : t.vel i0 = ⟨0, 0⟩) (h1 : t.vel i1 = ⟨0, 0⟩) (hv : s.vel i0 = v) (hw : s.vel i1 = w) :
    k.Law c ⟨i0, i1, m⟩ s t e2 := by
  cases k with
  | equality d f =>
    obtain ⟨hu, hval, hc, -, hd⟩ := hk
    obtain ⟨r1, r2⟩ := hr
    intro r
    have hz : rowError c ⟨i0, i1, m⟩ f (e2 : EqualitySolver _ _).base.restitution s t r = 0 := by
      unfold rowError
      rw [hu.bias, hval i0 i1 t hpt hqt, Mat.at_zero, mul_zero, zero_div, add_zero, Proxies.velocity_zero h0 h1]
      unfold push
      rw [add_zero]
      exact Finset.sum_eq_zero fun i _ => by
        have : (Mat.zero : MVec K 6).toV i = 0 := Mat.at_zero i
        rw [this, mul_zero]
    rw [hz, r1, r2, (hd r).2, zero_add]
    exact ⟨⟨(e : EqualitySolver _ _).base.lambda, by rw [hc]⟩, fun x _ => by rw [zero_mul]⟩
  | inequality d f => exact hk.elim
  | limits f => exact hk.elim
  | mouse f => exact hk.elim
  | contact =>
    obtain ⟨-, -, -, -, hn, ht, -, -, hb, -⟩ := hk
    obtain ⟨r1, r2, r3, r4, r5⟩ := hr
    unfold Kind.Law
    dsimp only
    rw [r1, r2, r3, r4, r5, hp, hq]
    intro i hi
    have rest : ∀ dir a b x y : Vec2 K, relativeSpeed dir a b x y (⟨0, 0⟩ : Velocity K) ⟨0, 0⟩ = 0 := by
      intro dir a b x y
      simp [relativeSpeed, pointVelocity, Vec2.dot]
    have hreq : requested (e : Contact _).restitution
        (Frame.separationSpeed ((e : Contact _).manifold.frame ![p.toWorldSpace, q.toWorldSpace]) ⟨i0, i1, m⟩ s.pos s.vel i) = 0 := by
      unfold requested
      rcases hb i hi with h | h
      · rw [h]; simp
      · rw [if_neg]
        unfold Frame.separationSpeed
        dsimp only
        rw [hp, hq, hv, hw]
        exact not_le.2 h
    rw [hreq]
    unfold Frame.separationSpeed Frame.slidingSpeed
    dsimp only
    rw [h0, h1, rest, rest, sub_zero]
    exact ⟨⟨hn i, fun x _ => by rw [zero_mul]⟩, ⟨ht i hi, fun x _ => by rw [zero_mul]⟩⟩

/-- Nothing to correct. -/
theorem Kind.repeats_positions (hs : ∀ x, 0 ≤ x → c.sqrt x * c.sqrt x = x) (wp : p.orient.WF) (wq : q.orient.WF) {k : Kind K} {e e' : k.State} {s' : SolveState K}
    (hk : k.Carrying c m p q v w P e) (hp : s.pos i0 = p) (hq : s.pos i1 = q) (h : k.act c .solvePositions ⟨i0, i1, m⟩ e s = .ok (e', s')) : k.Repeats e e' ∧ s' = s := by
  cases k with
  | equality d f =>
    obtain ⟨hu, hval, -⟩ := hk
    obtain ⟨a, b, -⟩ := EqualitySolver.solvePosition_still hs hu hval hp hq wp wq h
    refine ⟨⟨b, ?_⟩, a⟩
    have h : EqualitySolver.solvePosition c.sqrt e ⟨i0, i1, m⟩ f s = .ok (e', s') := h
    unfold EqualitySolver.solvePosition at h
    dsimp only at h
    obtain ⟨k, hk, h⟩ := bind_ok_iff.1 h
    obtain ⟨x, hx, h⟩ := bind_ok_iff.1 h
    cases Outcome.ok.inj h
    rfl
  | inequality d f => exact hk.elim
  | limits f => exact hk.elim
  | mouse f => exact hk.elim
  | contact =>
    obtain ⟨-, -, -, -, -, -, hm, hC, -⟩ := hk
    obtain ⟨a1, a2, -, a4, a5, -⟩ := Contact.solvePositions_still hp hq hm hC h
    obtain ⟨-, -, k3, k4⟩ := Contact.solvePositions_keeps h
    exact ⟨⟨a5, a4, a2, k4, k3⟩, a1⟩

omit [IsStrictOrderedRing K] in
theorem Kind.fresh_positions {k : Kind K} {e e' : k.State} {s' : SolveState K} (hp : s.pos i0 = p) (hq : s.pos i1 = q)
    (h : k.act c .solvePositions ⟨i0, i1, m⟩ e s = .ok (e', s')) : k.Fresh p q e' := by
  cases k with
  | contact =>
    obtain ⟨k1, k2, -⟩ := Contact.solvePositions_keeps h
    show (e' : Contact _).frame = (e' : Contact _).manifold.frame _
    rw [k2, k1]
    subst hp hq
    rfl
  | equality d f => trivial
  | inequality d f => trivial
  | limits f => trivial
  | mouse f => trivial

omit [IsStrictOrderedRing K] in
theorem Kind.fresh_regular {k : Kind K} {e : k.State} (hp : s.pos i0 = p) (hq : s.pos i1 = q) (h : k.Regular c ⟨i0, i1, m⟩ s e) : k.Fresh p q e := by
  cases k with
  | contact => subst hp hq; exact h.1
  | equality d f => trivial
  | inequality d f => trivial
  | limits f => trivial
  | mouse f => trivial

omit [IsStrictOrderedRing K] in
/-- Asking a constraint whether it is active. -/
theorem Kind.carrying_isActive {k : Kind K} {e : k.State} {pr : Proxies K} (hk : k.Carrying c m p q v w P e) (hp : s.pos pr.i0 = p) (hq : s.pos pr.i1 = q) (hf : k.Fresh p q e) :
    k.Carrying c m p q v w P (k.isActive pr e s).1 ∧ k.Fresh p q (k.isActive pr e s).1 := by
  cases k with
  | contact => subst hp hq; exact ⟨hk, rfl⟩
  | equality d f => exact ⟨hk, hf⟩
  | inequality d f => exact ⟨hk, hf⟩
  | limits f => exact ⟨hk, hf⟩
  | mouse f => exact ⟨hk, hf⟩

/-- The constraint without its multipliers. -/
def Kind.forget : (k : Kind K) → k.State → k.State
  | .equality _ _, e => ({ (e : EqualitySolver _ _) with base := { (e : EqualitySolver _ _).base with lambda := Mat.zero } } : EqualitySolver _ _)
  | .contact, e => ({ (e : Contact _) with normalLambda := Mat.zero, tangentLambda := Mat.zero } : Contact _)
  | .inequality _ _, e => e
  | .limits _, e => e
  | .mouse _, e => e

/-- Without its multipliers a constraint carries nothing. -/
theorem Kind.carrying_forget {k : Kind K} {e : k.State} (hk : k.Carrying c m p q v w P e) : k.Carrying c m p q v w 0 (k.forget e) := by
  cases k with
  | equality d f =>
    obtain ⟨a1, a2, a3, ⟨J, hJ, -⟩, a5⟩ := hk
    refine ⟨a1, a2, a3, ⟨J, hJ, ?_⟩, fun r => ⟨(a5 r).1, ?_⟩⟩
    · funext i
      unfold pull
      symm
      refine Finset.sum_eq_zero fun r _ => ?_
      show _ * (Mat.zero : MVec K d).toV r = 0
      rw [show (Mat.zero : MVec K d).toV r = 0 from Mat.at_zero r, mul_zero]
    · show _ * (Mat.zero : MVec K d).at_ r = 0
      rw [Mat.at_zero, mul_zero]
  | inequality d f => exact hk.elim
  | limits f => exact hk.elim
  | mouse f => exact hk.elim
  | contact =>
    obtain ⟨h1, h2, h3, h4, h5, h6, h7, h8, h9, -⟩ := hk
    have z : ∀ i, (Mat.zero : MVec K 2).at_ i = 0 := fun i => Mat.at_zero i
    refine ⟨h1, h2, h3, h4, fun i => le_of_eq (z i).symm, fun i _ => ?_, h7, h8, h9, ?_⟩
    · show |(Mat.zero : MVec K 2).at_ i| ≤ _ * (Mat.zero : MVec K 2).at_ i
      rw [z, abs_zero, mul_zero]
    · funext i
      show 0 = Frame.impulse _ _ _ (Mat.zero : MVec K 2).toV (Mat.zero : MVec K 2).toV i
      have z' : ∀ i, (Mat.zero : MVec K 2).toV i = 0 := z
      unfold Frame.impulse pairImpulse
      simp [z']

omit [LinearOrder K] [IsStrictOrderedRing K] in
theorem Kind.fresh_forget {k : Kind K} {e : k.State} (h : k.Fresh p q e) : k.Fresh p q (k.forget e) := by
  cases k <;> exact h

omit [LinearOrder K] [IsStrictOrderedRing K] [Trig K] in
theorem Kind.repeats_forget {k : Kind K} {e e1 : k.State} (hb : k.Blank e1) (hs : k.Same e e1) : k.Repeats (k.forget e) e1 := by
  cases k with
  | equality d f => exact ⟨hb, hs.1⟩
  | inequality d f => trivial
  | limits f => trivial
  | mouse f => trivial
  | contact => exact ⟨hb.1, hb.2, hs.1, hs.2.2, hs.2.1⟩

/-- The constraint carries; if there is warm starting, with the impulse `P`. -/
def Library.Bears (L : Library K) (warm : Bool) (c : CallCfg K) (pos : Nat → Pose K) (vel : Nat → Velocity K) (P : Link → Six K) (s : (l : Link) → (L.kind l).State) (l : Link) : Prop :=
  ∃ Q : Link → Six K, (warm = true → Q = P) ∧ L.Carrying c pos vel Q s l

end Simu
