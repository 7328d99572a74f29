import Verif.Lemmas.WorldTree
/-
C91: contacts of a world with its tree, whatever happened before.
-/
namespace Simu.World
open World RTree RTree.Spec Simu.Spec
variable {K C : Type*} [Field K] [LinearOrder K] [IsStrictOrderedRing K]

/-- **C91.** In every world that can be reached, an allowed operation that only destroys bodies whose destructor is defined is itself defined: no element is
missing in the tree when its collider is removed, none is left behind, and there is always a place for a new one. Missing:
operations that destroy other bodies (`C39_destructor_disagreement`). -/
theorem C91_defined_partial {cfg : Cfg} {tc : RTree.Cfg K C} (hfin : tc.FiniteAreas) (hov : tc.ovl = BoundingBox.overlaps) {pq : PQ (Cand K C Nat)} {e : Engine K}
    (h : EngineReachable cfg tc pq e) (o : EngineOp K) (ha : o.Allowed e.world) (hd : o.DestroysSafely cfg e.world) : (e.apply cfg tc pq o).2 ≠ .ub :=
  ((h.inv hfin hov).apply hfin hov o ha hd).2

/-- **C91.** After a step, whatever was made, removed and destroyed before: two colliders are in contact exactly if they are in the world, belong to different
bodies, the boxes that they now have meet, and no constraint disables contacts between the bodies. There is one contact for such a pair, and a contact that
remains is the one that was there before. -/
theorem C91_contacts {cfg : Cfg} {tc : RTree.Cfg K C} (hfin : tc.FiniteAreas) (hov : tc.ovl = BoundingBox.overlaps) {pq : PQ (Cand K C Nat)} {e : Engine K}
    (h : EngineReachable cfg tc pq e) (boxes : Nat → BoundingBox K) (ha : (EngineOp.step true boxes none).Allowed e.world)
    (hd : (EngineOp.step true boxes none).DestroysSafely cfg e.world) :
    let r := e.step cfg tc pq true boxes none;
    r.2 = .ok () ∧ (∀ a b, InContact r.1.world (a, b) ↔ ShouldTouch r.1.world boxes a b) ∧
    (∀ m n D E, r.1.world.contact m = some D → r.1.world.contact n = some E → SamePair D.key E.key → m = n) ∧
    ∀ n D, e.world.contact n = some D → D.killed = false → InContact r.1.world D.key → r.1.world.contact n = some D := by
  have i := h.inv hfin hov
  obtain ⟨c, root', hr, -, -, e1⟩ := i.step_full hfin hov boxes hd
  rw [e1]
  exact C40_contacts i.reach hr (fun _ _ hm => hm.symm) ha hd

/-- **C91.** After a step the tree lists exactly the colliders of the bodies that are left, each once and with its current box. -/
theorem C91_tree {cfg : Cfg} {tc : RTree.Cfg K C} (hfin : tc.FiniteAreas) (hov : tc.ovl = BoundingBox.overlaps) {pq : PQ (Cand K C Nat)} {e : Engine K}
    (h : EngineReachable cfg tc pq e) (boxes : Nat → BoundingBox K) (ha : (EngineOp.step true boxes none).Allowed e.world)
    (hd : (EngineOp.step true boxes none).DestroysSafely cfg e.world) :
    let r := e.step cfg tc pq true boxes none;
    (r.1.root.entries.map (·.id)).Nodup ∧ (∀ k b, (⟨k, b⟩ : Entry K Nat) ∈ r.1.root.entries ↔ k ∈ r.1.world.tree ∧ b = boxes k) ∧
    ∀ k, k ∈ r.1.world.tree ↔ k ∈ e.world.tree ∧ ¬DeadBody e.world (e.world.owner k) := by
  have i := h.inv hfin hov
  obtain ⟨c, root', hr, -, l, e1⟩ := i.step_full hfin hov boxes hd
  rw [e1]
  have t := (C39_dead_gone (p := true) (c := c) (f := none) i.reach ⟨_, hr, ha⟩ hd).2.2.2.2
  refine ⟨l.1, fun k b => ?_, t⟩
  refine (l.2 k b).trans ?_
  have : k ∈ (e.world.step cfg true c none).1.tree ↔ k ∈ (World.cleaned e.world).tree := by rw [t k, cleaned_tree i.reach.inv.toInv0]
  rw [this]
  dsimp only
  split_ifs with hk <;> simp [hk, eq_comm]

/-- **C91.** The same in terms of the world before the step: two colliders are in contact exactly if both were in the world, their bodies were different ones and
not killed, the boxes that they now have meet, and every constraint that disables contacts between the bodies was killed. -/
theorem C91_contacts_before {cfg : Cfg} {tc : RTree.Cfg K C} (hfin : tc.FiniteAreas) (hov : tc.ovl = BoundingBox.overlaps) {pq : PQ (Cand K C Nat)} {e : Engine K}
    (h : EngineReachable cfg tc pq e) (boxes : Nat → BoundingBox K) (ha : (EngineOp.step true boxes none).Allowed e.world)
    (hd : (EngineOp.step true boxes none).DestroysSafely cfg e.world) (a b : Nat) :
    InContact (e.step cfg tc pq true boxes none).1.world (a, b) ↔
      (a ∈ e.world.tree ∧ b ∈ e.world.tree ∧ e.world.owner a ≠ e.world.owner b ∧ ¬DeadBody e.world (e.world.owner a) ∧ ¬DeadBody e.world (e.world.owner b)) ∧
      BoxesMeet (boxes a) (boxes b) ∧
      ∀ n J, e.world.joint n = some J → J.disables = true → SamePair (J.b0, J.b1) (e.world.owner a, e.world.owner b) → J.killed = true := by
  rw [(C91_contacts hfin hov h boxes ha hd).2.1 a b]
  have i := h.inv hfin hov
  obtain ⟨-, -, t⟩ := C91_tree hfin hov h boxes ha hd
  obtain ⟨ow, jt⟩ : (e.step cfg tc pq true boxes none).1.world.owner = e.world.owner ∧
      (e.step cfg tc pq true boxes none).1.world.joint = (World.cleaned e.world).joint := by
    obtain ⟨c, root', hr, -, -, e1⟩ := i.step_full hfin hov boxes hd
    rw [e1]
    rcases step_ok (cfg := cfg) (p := true) (c := c) (f := none) i.reach.inv ⟨_, hr, ha⟩ hd with ⟨x, -⟩ | ⟨-, -, -, w1, R, x⟩
    · rcases x with x | x | x <;> exact absurd x (by decide)
    · show (World.step cfg e.world true c none).1.owner = _ ∧ (World.step cfg e.world true c none).1.joint = _
      rw [x]
      exact ⟨R.owner, R.joint⟩
  unfold ShouldTouch Forbidden
  rw [t a, t b, ow, jt]
  simp only [cleaned_joint, ← Bool.not_eq_true, deadJ_iff]
  constructor
  · rintro ⟨⟨a1, a2⟩, ⟨b1, b2⟩, m, ho, hf⟩
    refine ⟨⟨a1, b1, ho, a2, b2⟩, m, fun n J hJ hdis hs => ?_⟩
    by_contra hk
    refine hf ⟨n, J, ⟨?_, hJ⟩, hdis, hs⟩
    rintro ⟨J', hJ', hdead⟩
    obtain rfl : J = J' := Option.some.inj (hJ.symm.trans hJ')
    rcases hdead with x | x | x
    · exact hk x
    · rcases hs with y | y <;> simp only [Prod.mk.injEq] at y
      · exact a2 (y.1 ▸ x)
      · exact b2 (y.1 ▸ x)
    · rcases hs with y | y <;> simp only [Prod.mk.injEq] at y
      · exact b2 (y.2 ▸ x)
      · exact a2 (y.2 ▸ x)
  · rintro ⟨⟨a1, b1, ho, a2, b2⟩, m, hf⟩
    refine ⟨⟨a1, a2⟩, ⟨b1, b2⟩, m, ho, ?_⟩
    rintro ⟨n, J, ⟨hn, hJ⟩, hdis, hs⟩
    exact hn ⟨J, hJ, Or.inl (hf n J hJ hdis hs)⟩

/-- **C91.** In particular no pair of polygons that touch is missed. -/
theorem C91_touching {cfg : Cfg} {tc : RTree.Cfg K C} (hfin : tc.FiniteAreas) (hov : tc.ovl = BoundingBox.overlaps) {pq : PQ (Cand K C Nat)} {e : Engine K}
    (h : EngineReachable cfg tc pq e) (boxes : Nat → BoundingBox K) (ha : (EngineOp.step true boxes none).Allowed e.world)
    (hd : (EngineOp.step true boxes none).DestroysSafely cfg e.world) (vs : Nat → List (Vec2 K)) (hb : ∀ k, BoundingBox.ofVertices (vs k) = .ok (boxes k))
    {a b : Nat} {q : Vec2 K} (hqa : q ∈ convexHull K {v | v ∈ vs a}) (hqb : q ∈ convexHull K {v | v ∈ vs b}) :
    let w' := (e.step cfg tc pq true boxes none).1.world;
    a ∈ w'.tree → b ∈ w'.tree → w'.owner a ≠ w'.owner b → ¬Forbidden w' (w'.owner a) (w'.owner b) → InContact w' (a, b) := by
  intro w' ta tb ho hf
  have inside : ∀ k, q ∈ convexHull K {v | v ∈ vs k} → inBox (boxes k) q := by
    intro k hq
    have hne : vs k ≠ [] := fun e => by
      have := hb k
      rw [(BoundingBox.C08_box_of_vertices_is_tightest (vs k)).2 e] at this
      simp at this
    obtain ⟨x, h1, -, h3⟩ := BoundingBox.C08_collider_box_encloses_polygon ⟨vs k, [], .ub⟩ (fun v => v) hne
    simp only [List.map_id'] at h3
    have : BoundingBox.ofVertices (vs k) = .ok x := by
      rw [← h1]
      simp [ColliderGeom.update]
    rw [hb k] at this
    rw [Outcome.ok.inj this]
    exact h3 q hq
  exact ((C91_contacts hfin hov h boxes ha hd).2.1 a b).2 ⟨ta, tb, ⟨q, inside a hqa, inside b hqb⟩, ho, hf⟩

/-! ### A history -/

theorem addCollider_world (tc : RTree.Cfg K C) (pq : PQ (Cand K C Nat)) (e : Engine K) (b : Nat) (box : Option (BoundingBox K)) :
    (e.addCollider tc pq b box).1.world = (e.world.addCollider b box.isSome).1 := by
  unfold Engine.addCollider
  simp only
  split
  · split <;> rfl
  · rfl

/-- A floor and a box above it. -/
def sceneOps : List (EngineOp ℚ) :=
  [.quiet (.makeBody true) rfl, .quiet (.makeBody false) rfl, .addCollider 0 (some ⟨⟨-5, -1⟩, ⟨5, 0⟩⟩), .addCollider 1 (some ⟨⟨0, 2⟩, ⟨1, 3⟩⟩)]

/-- Runs a list of operations. -/
def Engine.run (cfg : Cfg) (tc : RTree.Cfg K C) (pq : PQ (Cand K C Nat)) (ops : List (EngineOp K)) : Engine K :=
  ops.foldl (fun e o => (e.apply cfg tc pq o).1) Engine.init

/-- The boxes once the box has fallen to the floor. -/
def fallen (k : Nat) : BoundingBox ℚ := if k = 2 then ⟨⟨-5, -1⟩, ⟨5, 0⟩⟩ else ⟨⟨0, 0⟩, ⟨1, 1⟩⟩

/-- The scene, in the exact arithmetic of the tree. -/
def scene : Engine ℚ := Engine.run ⟨true⟩ exactCfg (firstCheapest exactCfg.lt) sceneOps

theorem scene_world : scene.world = ((((World.init.makeBody true).makeBody false).addCollider 0 true).1.addCollider 1 true).1 := by
  show (Engine.addCollider exactCfg _ (Engine.addCollider exactCfg _ _ 0 (some _)).1 1 (some _)).1.world = _
  rw [addCollider_world, addCollider_world]
  rfl

theorem scene_reachable : EngineReachable ⟨true⟩ exactCfg (firstCheapest exactCfg.lt) scene := by
  have h2 : EngineReachable ⟨true⟩ exactCfg (firstCheapest exactCfg.lt) (Engine.run ⟨true⟩ exactCfg (firstCheapest exactCfg.lt) [EngineOp.quiet (K := ℚ) (.makeBody true) rfl, .quiet (.makeBody false) rfl]) :=
    .op (.op .init (.quiet (.makeBody true) rfl) trivial trivial) (.quiet (.makeBody false) rfl) trivial trivial
  have h3 := EngineReachable.op h2 (.addCollider 0 (some ⟨⟨-5, -1⟩, ⟨5, 0⟩⟩)) (show 0 ∈ [0, 1] by decide) trivial
  refine EngineReachable.op h3 (.addCollider 1 (some ⟨⟨0, 2⟩, ⟨1, 3⟩⟩)) ?_ trivial
  show 1 ∈ (Engine.addCollider exactCfg _ _ 0 (some _)).1.world.bodies
  rw [addCollider_world]
  exact (show 1 ∈ [0, 1] by decide)

theorem scene_allowed : (EngineOp.step true fallen none).Allowed scene.world := by
  rw [scene_world]
  intro k0 h0 k1 h1 _ hne
  have t : ((((World.init.makeBody true).makeBody false).addCollider 0 true).1.addCollider 1 true).1.tree = [2, 3] := rfl
  rw [t] at h0 h1
  simp only [List.mem_cons, List.not_mem_nil, or_false] at h0 h1
  rcases h0 with rfl | rfl <;> rcases h1 with rfl | rfl
  · exact absurd rfl hne
  · decide
  · decide
  · exact absurd rfl hne

theorem scene_alive (b : Nat) : ¬DeadBody scene.world b := by
  rw [scene_world]
  rintro ⟨r, hr, hk⟩
  simp only [World.addCollider, World.makeBody, World.init, setBody] at hr
  by_cases h1 : b = 1
  · subst h1
    have : r = ⟨false, false, [3], [], []⟩ := (Option.some.injEq _ _ ▸ hr.symm)
    rw [this] at hk
    simp at hk
  · by_cases h0 : b = 0
    · subst h0
      have : r = ⟨true, false, [2], [], []⟩ := (Option.some.injEq _ _ ▸ hr.symm)
      rw [this] at hk
      simp at hk
    · simp [Function.update, h0, h1] at hr

/-- `C91_contacts` applies: the box that fell is in contact with the floor. -/
example : InContact (scene.step ⟨true⟩ exactCfg (firstCheapest exactCfg.lt) true fallen none).1.world (2, 3) := by
  have hd : (EngineOp.step true fallen none).DestroysSafely ⟨true⟩ scene.world := fun b hb => absurd hb (scene_alive b)
  refine (C91_contacts_before exactCfg_finite rfl scene_reachable fallen scene_allowed hd 2 3).2 ⟨⟨?_, ?_, ?_, scene_alive _, scene_alive _⟩, ⟨⟨0, 0⟩, ?_, ?_⟩, ?_⟩
  · rw [scene_world]; decide
  · rw [scene_world]; decide
  · rw [scene_world]; decide
  · simp [inBox, fallen]
  · simp [inBox, fallen]
  · intro n J hJ
    rw [scene_world] at hJ
    exact absurd hJ (by simp [World.addCollider, World.makeBody, World.init, setBody])

/-- The vertices of the floor and of the box, whose bounding boxes are those of `fallen` (as `C91_touching` assumes); both polygons contain the corner at the origin. -/
example (k : Nat) : BoundingBox.ofVertices (if k = 2 then [⟨-5, -1⟩, ⟨5, -1⟩, ⟨5, 0⟩, ⟨0, 0⟩, ⟨-5, 0⟩] else [⟨0, 0⟩, ⟨1, 0⟩, ⟨1, 1⟩, ⟨0, 1⟩]) = .ok (fallen k) := by
  by_cases h : k = 2
  · simp only [h, fallen, if_true]; decide +kernel
  · simp only [h, fallen, if_false]; decide +kernel

/-- The contact appears when the box has fallen, goes when the box is thrown up, and a killed box leaves with its collider. -/
def story (fall : Nat → BoundingBox ℚ) (more : List (EngineOp ℚ)) : Engine ℚ :=
  Engine.run ⟨true⟩ exactCfg (firstCheapest exactCfg.lt) (sceneOps ++ .step true fall none :: more)

/-- The box is up again. -/
def thrown (k : Nat) : BoundingBox ℚ := if k = 2 then ⟨⟨-5, -1⟩, ⟨5, 0⟩⟩ else ⟨⟨0, 5⟩, ⟨1, 6⟩⟩

#guard (story fallen []).world.contacts == [4]
#guard (story thrown []).world.contacts == []
#guard ((story fallen [.step true thrown none]).world.contact 4).any (·.killed)
#guard (story fallen [.quiet (.killBody 1) rfl, .step true fallen none]).world.contacts == []
#guard ((story fallen [.quiet (.killBody 1) rfl, .step true fallen none]).root.entries.map (·.id)) == [2]
#guard ((story fallen [.removeCollider 2, .addCollider 0 (some ⟨⟨-5, -1⟩, ⟨5, 0⟩⟩), .step true fallen none]).world.contacts) == [6]

end Simu.World
