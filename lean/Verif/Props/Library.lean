import Verif.Lemmas.Library
import Verif.Props.IslandMomentum
import Verif.Props.Transform
import Verif.Props.Manifold
/-
C72: momentum of a group of bodies in a world made of the constraints of the library; C37 for such worlds.
-/
namespace Simu
open Mat Island Finset
section
variable {K : Type*} [Field K] [LinearOrder K] [IsStrictOrderedRing K] [Trig K]

omit [LinearOrder K] [IsStrictOrderedRing K] in
theorem Pose.of_eq {p : Position K} (h : p.orient.WF) : Pose.of p = ⟨p, h⟩ := by
  apply Subtype.ext
  obtain ⟨t, o, c⟩ := p
  show (⟨t, .ofAngle o.theta, c⟩ : Position K) = _
  rw [← Rotation.wf_ofAngle h]

omit [LinearOrder K] [IsStrictOrderedRing K] in
theorem Position.centroid_sum (P : Position K) : P.centroid = P.pos.offset + P.localCentroid.offset := by
  ext <;> simp [Position.centroid, Position.toWorldSpace, Transform.app, Transform.mulTranslation,
    Translation.mulRotation, Translation.mul, Translation.inverse, Rotation.app] <;> ring

omit [IsStrictOrderedRing K] in
theorem Library.MadeFor.zero {L : Library K} {body : Nat → Body K} (h : L.MadeFor body) (l : Link) :
    ((L.bodies l).masses.m0 = 0 → (L.bodies l).masses.I0 = 0) ∧ ((L.bodies l).masses.m1 = 0 → (L.bodies l).masses.I1 = 0) ∧
    ((L.bodies l).i0 = (L.bodies l).i1 → (L.bodies l).masses.m1 = (L.bodies l).masses.m0) := by
  obtain ⟨dom, hb, h0, h1, he⟩ := h l
  rw [hb]
  simp only [Bodies.make, Body.invMass, Body.invInertia]
  refine ⟨fun h => ?_, fun h => ?_, fun h => ?_⟩
  · rcases mul_eq_zero.1 h with h | h
    · rw [h, zero_mul]
    · exact absurd h (one_div_ne_zero h0)
  · rcases mul_eq_zero.1 h with h | h
    · rw [h, zero_mul]
    · exact absurd h (one_div_ne_zero h1)
  · rw [h]
    cases dom with
    | none => rfl
    | some d => simp only [Option.getD_some]; rw [he h d rfl]

omit [IsStrictOrderedRing K] in
theorem Library.structural {L : Library K} {body : Nat → Body K} (h : L.MadeFor body) (c : CallCfg K) (l : Link) :
    ((L.net c).structuralIn l ((L.net c).ends l).1 = true → (L.bodies l).masses.m0 = 0 ∧ (L.bodies l).masses.I0 = 0) ∧
    ((L.net c).structuralIn l ((L.net c).ends l).2 = true → (L.bodies l).masses.m1 = 0 ∧ (L.bodies l).masses.I1 = 0) := by
  obtain ⟨z0, z1, ze⟩ := h.zero l
  unfold Library.net Bodies.isBodyStructural
  dsimp only
  constructor
  · intro h
    rw [if_pos rfl] at h
    have := of_decide_eq_true h
    exact ⟨this, z0 this⟩
  · intro h
    by_cases hi : (L.bodies l).i1 = (L.bodies l).i0
    · rw [if_pos hi] at h
      have h0 := of_decide_eq_true h
      have h1 : (L.bodies l).masses.m1 = 0 := by rw [ze hi.symm]; exact h0
      exact ⟨h1, z1 h1⟩
    · rw [if_neg hi, if_pos rfl] at h
      have := of_decide_eq_true h
      exact ⟨this, z1 this⟩

omit [IsStrictOrderedRing K] in
/-- A call as the island sees it. -/
theorem Library.act_ok {L : Library K} {c : CallCfg K} {ph : Phase} {l : Link} {i0 i1 : Nat} {s s' : (l : Link) → (L.kind l).State}
    {ps ps' : Nat → Pose K} {vs vs' : Nat → Velocity K} (h : (L.net c).act ph l i0 i1 s ps vs = .ok (s', ps', vs')) :
    ∃ e' t, (L.kind l).act c ph ⟨i0, i1, (L.bodies l).masses⟩ (s l) ⟨fun i => (ps i).1, vs⟩ = .ok (e', t) ∧ s' = Function.update s l e' ∧
      vs' = t.vel ∧ ∀ i, (ps' i).1 = t.pos i := by
  obtain ⟨⟨e', t⟩, h1, h2⟩ := bind_ok_iff.1 h
  cases Outcome.ok.inj h2
  refine ⟨e', t, h1, rfl, rfl, fun i => ?_⟩
  obtain ⟨⟨dv, dp, he, -⟩, -⟩ := Kind.act_acts c _ ph h1
  show (Pose.of (t.pos i)).1 = _
  rw [Pose.of_eq (he.wf i (ps i).2)]

omit [IsStrictOrderedRing K] in
/-- C37 applies to every world made of constraints of the library: they only change bodies that are not structural for them, and a body
at rest does not move. -/
theorem C37_library {L : Library K} {body : Nat → Body K} (h : L.MadeFor body) (c : CallCfg K) : WellBehaved (L.net c) := by
  constructor
  · intro ph l i0 i1 s ps vs s' ps' vs' ha i h0 h1
    obtain ⟨e', t, hk, -, hv, hp⟩ := Library.act_ok ha
    obtain ⟨⟨dv, dp, he, -⟩, -⟩ := Kind.act_acts c _ ph hk
    obtain ⟨a, b⟩ := he.still i (fun hi => (L.structural h c l).1 (h0 hi)) (fun hi => (L.structural h c l).2 (h1 hi))
    exact ⟨Subtype.ext ((hp i).trans (b (ps i).2)), by rw [hv]; exact a⟩
  · intro p v hr
    have hr : v.linear.x = 0 ∧ v.linear.y = 0 ∧ v.angular = 0 := of_decide_eq_true hr
    obtain ⟨hx, hy, hw⟩ := hr
    have hd : c.dt • v.linear = 0 := by ext <;> simp [hx, hy]
    have : p.1.advance (c.dt • v.linear) (v.angular * c.dt) = p.1 := Position.advance_zero p.2 hd (by rw [hw, zero_mul])
    show Pose.of (p.1.advance (c.dt • v.linear) (v.angular * c.dt)) = p
    rw [this]
    exact Pose.of_eq p.2

omit [IsStrictOrderedRing K] in
/-- C72: the states the constraints go through while solving stay fit. -/
theorem Library.steady (L : Library K) (c : CallCfg K) : Steady (L.net c) L.Fit := by
  constructor
  · intro ph l i0 i1 s ps vs s' ps' vs' hs ha l' ho
    obtain ⟨e', t, hk, he, -, -⟩ := Library.act_ok ha
    rw [he]
    by_cases hl : l' = l
    · subst hl
      rw [Function.update_self]
      exact (Kind.act_acts c _ ph hk).2 ho (hs l' ho)
    · rw [Function.update_of_ne hl]; exact hs l' ho
  · intro l s p q hs l' ho
    show (L.kind l').Fit (Function.update s l _ l')
    by_cases hl : l' = l
    · subst hl
      rw [Function.update_self]
      have hf := hs l' ho
      revert hf
      generalize s l' = e
      revert e
      generalize L.kind l' = k
      intro e hf
      cases k <;> exact hf
    · rw [Function.update_of_ne hl]; exact hs l' ho

omit [IsStrictOrderedRing K] in
/-- C72: a constraint between two bodies with dominances 1 only exchanges momentum, and does not move their common centre of mass. -/
theorem Library.exchanges (L : Library K) (c : CallCfg K) {body : Nat → Body K} {l : Link} (h : L.Mutual body l)
    (h0 : (body (L.bodies l).i0).mass ≠ 0) (h1 : (body (L.bodies l).i1).mass ≠ 0) :
    Exchanges (L.net c) L.Fit (fun b v => (body b).mass • v.linear) (fun b p => (body b).mass • p.1.centroid) l := by
  obtain ⟨hne, ho, hm⟩ := h
  refine ⟨hne, ?_⟩
  intro ph i0 i1 s ps vs s' ps' vs' hi hs ha
  obtain ⟨e', t, hk, -, hv, hp⟩ := Library.act_ok ha
  obtain ⟨⟨dv, dp, he, hopp⟩, -⟩ := Kind.act_acts c _ ph hk
  obtain ⟨⟨a, b⟩, ⟨a', b'⟩⟩ := hopp ⟨ho, hs l ho⟩
  have hi' : (⟨i0, i1, (L.bodies l).masses⟩ : Proxies K).i0 ≠ (⟨i0, i1, (L.bodies l).masses⟩ : Proxies K).i1 := hi
  obtain ⟨k0, k1⟩ := kick_masses ⟨i0, i1, (L.bodies l).masses⟩ dv hi
  have v0 := he.vel hi' i0
  have v1 := he.vel hi' i1
  rw [show kick _ dv i0 = _ from k0] at v0
  rw [show kick _ dv i1 = _ from k1] at v1
  have o0 := he.off0 hi'
  have o1 := he.off1 hi'
  have c0 := he.local_ i0
  have c1 := he.local_ i1
  simp only [hm] at v0 v1 o0 o1
  show _ • (vs' i0).linear + _ • (vs' i1).linear = _ ∧ _ • (ps' i0).1.centroid + _ • (ps' i1).1.centroid = _
  rw [hv, v0, v1, hp, hp, Position.centroid_sum, Position.centroid_sum, Position.centroid_sum, Position.centroid_sum, c0, c1, o0, o1, a, b, a', b']
  constructor
  · ext <;> simp [Library.net] <;> field_simp <;> ring
  · ext <;> simp [Library.net] <;> field_simp <;> ring

omit [IsStrictOrderedRing K] in
/-- C72: in a world made of constraints of the library, whatever else happens in it, a group of bodies whose active constraints are contacts, hinges,
welds, distance or rotation constraints between its own bodies (dominances 1) keeps its linear momentum through `solveIslands`, and its centre of mass moves
by the time step times the momentum over the mass: `Σ m c' = Σ m c + dt Σ m v`. -/
theorem C72_library {L : Library K} {body : Nat → Body K} (hL : L.MadeFor body) (c : CallCfg K) {A : Link → Bool} {world : List Nat}
    {st st' : St (Pose K) (Velocity K) ((l : Link) → (L.kind l).State)} {log : List Record} (h : Solved (L.net c) A world st st' log) (hs : L.Fit st.s)
    {group : Finset Nat} (hsub : ∀ b ∈ group, b ∈ world) (hiso : Isolated (L.net c) A group)
    (hm : ∀ b ∈ group, ∀ l ∈ linksOf (L.net c) b, A l = true → L.Mutual body l) :
    ∑ b ∈ group, (body b).mass • (st'.body b).vel.linear = ∑ b ∈ group, (body b).mass • (st.body b).vel.linear ∧
    ∑ b ∈ group, (body b).mass • (st'.body b).pos.1.centroid =
      ∑ b ∈ group, (body b).mass • (st.body b).pos.1.centroid + c.dt • ∑ b ∈ group, (body b).mass • (st.body b).vel.linear := by
  let τ : Vec2 K →+ Vec2 K := ⟨⟨fun v => c.dt • v, by ext <;> simp⟩, fun u v => by ext <;> simp <;> ring⟩
  refine C72_group h (L.steady c) hs (qv := fun b v => (body b).mass • v.linear) (qp := fun b p => (body b).mass • p.1.centroid) hsub hiso ?_ τ ?_
  · intro b hb l hl ha
    obtain ⟨dom, -, m0, m1, -⟩ := hL l
    exact L.exchanges c (hm b hb l hl ha) m0 m1
  · intro b p v
    show _ • (Pose.of (p.1.advance (c.dt • v.linear) (v.angular * c.dt))).1.centroid = _ + c.dt • (_ • v.linear)
    rw [Pose.of_eq (Position.advance_wf _ _ _), Position.centroid_sum, Position.centroid_sum]
    simp only [Position.advance, Translation.mul]
    ext <;> simp <;> ring

/-- C72: the constraints of the library between two bodies with dominances 1 are meant: which functions, and new ones are fit. -/
theorem C72_kinds (bodies : Nat → Body K) (b : Bodies K) (shared p0 p1 : Vec2 K) :
    (Kind.equality 2 (hingeFunOf bodies b shared)).Opposite ∧ (Kind.equality 1 (rotationFunOf bodies b)).Opposite ∧
    (Kind.equality 3 (weldFunOf bodies b)).Opposite ∧ (Kind.limits (distanceFunOf bodies b p0 p1)).Opposite ∧
    (Kind.inequality 2 (inequalityFun (hingeFunOf bodies b shared))).Opposite ∧ (Kind.contact : Kind K).Opposite ∧
    (∀ (d : Nat) (f : CFun K d) (s : KSolver K d), (Kind.equality d f).Fit ⟨SolverBase.init, s⟩) ∧
    (∀ (d : Nat) (f : CFun K d) (M : Mat K d d), (Kind.inequality d f).Fit ⟨SolverBase.init, M⟩) ∧
    (∀ (f : CFun K 1) (e : LimitsSolver K) (lo hi : Option K), distanceLimits lo hi = .ok e → (Kind.limits f).Fit e) ∧
    (∀ sqrt pen (m1 m2 : Material K) sides e, Contact.make sqrt pen m1 m2 sides = .ok e → (Kind.contact : Kind K).Fit e) := by
  have zero : ∀ {d : Nat}, OppositeLinear (Mat.zero : Mat K d 6) := fun r => by simp [get_zero]
  refine ⟨fun p s => (C32_opposite p s).1 _ _, fun p s => (C32_opposite p s).2.1 _, fun p s => (C32_opposite p s).2.2.2.1 _ _,
    fun p s => (C32_opposite p s).2.2.1 _ _, fun p s => (C32_opposite p s).2.2.2.2 _ ((C32_opposite p s).1 _ _), trivial, fun _ _ _ => zero, fun _ _ _ => zero,
    ?_, ?_⟩
  · intro f e lo hi h
    show OppositeLinear e.base.J
    have : e.base = SolverBase.init := by
      unfold distanceLimits at h
      simp only [bind_ok_iff] at h
      obtain ⟨-, -, -, -, -, -, -, -, -, -, h⟩ := h
      cases Outcome.ok.inj h
      cases lo <;> cases hi <;> rfl
    rw [this]; exact zero
  · intro sqrt pen m1 m2 sides e h
    obtain ⟨m, -, h⟩ := bind_ok_iff.1 h
    cases Outcome.ok.inj h
    exact ⟨zero, fun _ => zero⟩

end
end Simu
