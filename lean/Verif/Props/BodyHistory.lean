import Verif.Lemmas.BodyHistory
import Verif.Spec.BodyHistory
import Verif.Props.Overlap
import Verif.Props.BodyMotion
/-
C87: colliders follow their body and keep their shape, whatever happens to the body.
-/
namespace Simu
namespace Body
open Gjk
variable {K : Type*} [Field K] [LinearOrder K] [IsStrictOrderedRing K] [Trig K]

theorem live_reach {b : Body K} (h : b.position.orient.Reachable) (events : List (Event K)) : (b.live events).position.orient.Reachable := by
  induction events generalizing b with
  | nil => exact h
  | cons e events ih => exact ih (happen_reach h e)

theorem live_asked {b : Body K} {all : List (Event K)} (h : ∀ c ∈ b.colliders.list, Asked all c) (events : List (Event K)) (hsub : ∀ e ∈ events, e ∈ all) :
    ∀ c ∈ (b.live events).colliders.list, Asked all c := by
  induction events generalizing b with
  | nil => exact h
  | cons e events ih => exact ih (happen_asked h (hsub e List.mem_cons_self)) fun e' he' => hsub e' (List.mem_cons_of_mem _ he')

theorem live_synced {b : Body K} (h : b.Synced) (events : List (Event K)) (hq : b.Quiet events) : (b.live events).Synced := by
  induction events generalizing b with
  | nil => exact h
  | cons e events ih => exact ih (happen_synced h hq.1) hq.2

/-- What a history without failure, or one that ends with a step, gives. -/
theorem follow_of_synced [LawfulTrig K] {position : Vec2 K} {orientation dominance : K} {events : List (Event K)}
    (hsync : ((born position orientation dominance).live events).Synced) {c : Collider K}
    (hc : c ∈ ((born position orientation dominance).live events).colliders.list) :
    ∃ polygon, Event.addCollider c.id polygon c.material ∈ events ∧
      c.geom.transformed = polygon.map ((born position orientation dominance).live events).position.toWorldSpace.app ∧
      c.geom.box = BoundingBox.ofVertices c.geom.transformed ∧ IsRigid ((born position orientation dominance).live events).position.toWorldSpace.app := by
  have ha : Asked events c := live_asked (by intro d hd; cases hd) events (fun _ h => h) c hc
  have hr : ((born position orientation dominance).live events).position.orient.Reachable := live_reach (.ofAngle _) events
  exact ⟨_, ha, (hsync c hc).1, (hsync c hc).2, (C26_rigid (Position.reach hr) hr ⟨0⟩).1⟩

/-- C87: at any time of the life of a body during which no call threw, each of its colliders is the polygon that was asked for, placed by the transform of the body, which is rigid, and the
bounding box of the collider is that of its vertices. -/
theorem C87_follow [LawfulTrig K] (position : Vec2 K) (orientation dominance : K) (events : List (Event K)) (hq : (born position orientation dominance).Quiet events)
    (c : Collider K) (hc : c ∈ ((born position orientation dominance).live events).colliders.list) :
    ∃ polygon, Event.addCollider c.id polygon c.material ∈ events ∧
      c.geom.transformed = polygon.map ((born position orientation dominance).live events).position.toWorldSpace.app ∧
      c.geom.box = BoundingBox.ofVertices c.geom.transformed ∧ IsRigid ((born position orientation dominance).live events).position.toWorldSpace.app :=
  follow_of_synced (live_synced (by intro d hd; cases hd) events hq) hc

/-- C87: after a step this holds whatever happened before, even if calls threw. -/
theorem C87_step [LawfulTrig K] (position : Vec2 K) (orientation dominance : K) (events : List (Event K)) (ds : List (Vec2 K × K)) (v : Vec2 K) (w : K)
    (c : Collider K) (hc : c ∈ ((born position orientation dominance).live (events ++ [.step ds v w])).colliders.list) :
    ∃ polygon, Event.addCollider c.id polygon c.material ∈ events ∧
      c.geom.transformed = polygon.map ((born position orientation dominance).live (events ++ [.step ds v w])).position.toWorldSpace.app ∧
      c.geom.box = BoundingBox.ofVertices c.geom.transformed ∧ IsRigid ((born position orientation dominance).live (events ++ [.step ds v w])).position.toWorldSpace.app := by
  have hs : ((born position orientation dominance).live (events ++ [.step ds v w])).Synced := by
    simp only [live, List.foldl_append, List.foldl_cons, List.foldl_nil]
    exact update_synced _
  obtain ⟨polygon, h1, h2⟩ := follow_of_synced hs hc
  refine ⟨polygon, ?_, h2⟩
  rcases List.mem_append.1 h1 with h | h
  · exact h
  · cases List.mem_singleton.1 h

/-- C87: in particular all the colliders of a body move as one: the distances between any of their vertices are those of the polygons given, and so are the areas spanned. -/
theorem C87_together [LawfulTrig K] (position : Vec2 K) (orientation dominance : K) (events : List (Event K)) (hq : (born position orientation dominance).Quiet events)
    (c d : Collider K) (hc : c ∈ ((born position orientation dominance).live events).colliders.list) (hd : d ∈ ((born position orientation dominance).live events).colliders.list) :
    ∃ P Q, Event.addCollider c.id P c.material ∈ events ∧ Event.addCollider d.id Q d.material ∈ events ∧ c.geom.transformed.length = P.length ∧ d.geom.transformed.length = Q.length ∧
      (∀ (i j : Nat) (p q p' q' : Vec2 K), P[i]? = some p → Q[j]? = some q → c.geom.transformed[i]? = some p' → d.geom.transformed[j]? = some q' → (p' - q').normSquared = (p - q).normSquared) ∧
      ∀ (i j k : Nat) (p q r p' q' r' : Vec2 K), P[i]? = some p → P[j]? = some q → Q[k]? = some r → c.geom.transformed[i]? = some p' → c.geom.transformed[j]? = some q' →
        d.geom.transformed[k]? = some r' → twiceArea p' q' r' = twiceArea p q r := by
  obtain ⟨P, hP, tP, -, hr⟩ := C87_follow position orientation dominance events hq c hc
  obtain ⟨Q, hQ, tQ, -, -⟩ := C87_follow position orientation dominance events hq d hd
  refine ⟨P, Q, hP, hQ, by rw [tP, List.length_map], by rw [tQ, List.length_map], ?_, ?_⟩
  · intro i j p q p' q' h1 h2 h3 h4
    rw [tP, List.getElem?_map, h1] at h3
    rw [tQ, List.getElem?_map, h2] at h4
    cases h3
    cases h4
    exact hr.1 p q
  · intro i j k p q r p' q' r' h1 h2 h3 h4 h5 h6
    rw [tP, List.getElem?_map, h1] at h4
    rw [tP, List.getElem?_map, h2] at h5
    rw [tQ, List.getElem?_map, h3] at h6
    cases h4
    cases h5
    cases h6
    exact rigid_area hr p q r

/-- C87: no call throws if only valid colliders are added. -/
theorem C87_quiet (position : Vec2 K) (orientation dominance : K) (events : List (Event K)) (hv : ∀ e ∈ events, e.Valid) :
    (born position orientation dominance).Quiet events := by
  have key : ∀ (events : List (Event K)) (b : Body K) (ps : List (MassProperties K)), b.Inv ps → (∀ e ∈ events, e.Valid) → b.Quiet events := by
    intro events
    induction events with
    | nil => intro b ps _ _; trivial
    | cons e events ih =>
      intro b ps h hv
      have hv' : ∀ e ∈ events, e.Valid := fun e' h' => hv e' (List.mem_cons_of_mem _ h')
      have he := hv e List.mem_cons_self
      cases e with
      | addCollider id polygon material =>
        obtain ⟨p, h1, h2, _⟩ := addCollider_ok h id he
        exact ⟨h1, ih _ _ h2 hv'⟩
      | removeCollider id =>
        obtain ⟨ps', h1, h2, _⟩ := removeCollider_ok h id
        exact ⟨h1, ih _ _ h2 hv'⟩
      | setVelocity v => exact ⟨rfl, ih _ ps ⟨h.colliders, h.centroid, h.orient, h.attached⟩ hv'⟩
      | setAngularVelocity w => exact ⟨rfl, ih _ ps ⟨h.colliders, h.centroid, h.orient, h.attached⟩ hv'⟩
      | applyImpulse p r => exact ⟨rfl, ih _ ps ⟨h.colliders, h.centroid, h.orient, h.attached⟩ hv'⟩
      | step ds v w =>
        refine ⟨rfl, ih _ ps ⟨h.colliders.update _, fun hn => ?_, advance_reach ds h.orient, h.attached⟩ hv'⟩
        have hl : ∀ (p : Position K), (ds.foldl (fun (p : Position K) (d : Vec2 K × K) => p.advance d.1 d.2) p).localCentroid = p.localCentroid := by
          clear hv he
          induction ds with
          | nil => intro p; rfl
          | cons d ds ih => intro p; exact ih _
        exact (congrArg Translation.offset (hl b.position)).trans (h.centroid hn)
  exact key events _ [] ⟨⟨.nil, rfl⟩, fun h => absurd rfl h, .ofAngle _, rfl⟩ hv

/-- C87, with C85: whatever two bodies went through, convex colliders of theirs that overlap by at least the tolerance get a normal along the shortest way out; and there is a contact if
the polygons were given without obtuse angles. -/
theorem C87_contacts [LawfulTrig K] {sqrt : K → K} (hs : LawfulSqrt sqrt) (fuel : Nat) (m : Manifold K)
    (position : Fin 2 → Vec2 K) (orientation dominance : Fin 2 → K) (events : Fin 2 → List (Event K))
    (hq : ∀ i, (born (position i) (orientation i) (dominance i)).Quiet (events i)) (c : Fin 2 → Collider K)
    (hc : ∀ i, c i ∈ ((born (position i) (orientation i) (dominance i)).live (events i)).colliders.list)
    (hconv : ∀ i polygon, Event.addCollider (c i).id polygon (c i).material ∈ events i → StrictlyConvex polygon ∧ NoObtuse polygon)
    (hover : ¬Cleared (c 0).geom.transformed (c 1).geom.transformed 0)
    (hdeep : ∀ μ, Cleared (c 0).geom.transformed (c 1).geom.transformed μ → m.minPen * m.minPen ≤ μ.normSquared)
    (hfuel : (c 0).geom.transformed.length * (c 1).geom.transformed.length + 4 ≤ fuel) :
    ∃ m' μ, m.update sqrt (boundedPenetration fuel) (fun i => ⟨(c i).geom, ((born (position i) (orientation i) (dominance i)).live (events i)).position⟩) = .ok m' ∧
      Shortest (c 0).geom.transformed (c 1).geom.transformed μ ∧
      ∀ f, f = m'.frame (fun i => ((born (position i) (orientation i) (dominance i)).live (events i)).position.toWorldSpace) →
        0 < f.nContacts ∧ f.nContacts ≤ 2 ∧ sqrt μ.normSquared • f.normal = -μ := by
  have hfol := fun i => C87_follow (position i) (orientation i) (dominance i) (events i) (hq i) (c i) (hc i)
  have hsh : ∀ i, StrictlyConvex (c i).geom.transformed ∧ NoObtuse (c i).geom.transformed := fun i => by
    obtain ⟨P, hP, tP, -, hr⟩ := hfol i
    rw [tP]
    exact ⟨rigid_convex hr (hconv i P hP).1, rigid_noObtuse hr (hconv i P hP).2⟩
  obtain ⟨m', μ, h1, h2, h3⟩ := overlap_contacts hs fuel m (fun i => ⟨(c i).geom, ((born (position i) (orientation i) (dominance i)).live (events i)).position⟩)
    (fun i => live_reach (.ofAngle _) (events i)) (fun i => by obtain ⟨P, _, _, hb, _⟩ := hfol i; exact hb) (fun i => (hsh i).1) hover hdeep hfuel
  refine ⟨m', μ, h1, h2, fun f hf => ?_⟩
  obtain ⟨a, b, _, d⟩ := h3 f hf
  obtain ⟨k, hk, _⟩ := d (Or.inl (hsh _).2)
  exact ⟨lt_of_le_of_lt (Nat.zero_le _) hk, a, b⟩

/-! A concrete case: two square tiles, of which one comes down on the other one. -/

/-- The tile. -/
noncomputable def tile : List (Vec2 ℝ) := [⟨0, 0⟩, ⟨1, 0⟩, ⟨1, 1⟩, ⟨0, 1⟩]

theorem tile_valid : ValidDescriptor tile exMatR := by
  refine ⟨by norm_num [exMatR], tile, ?_⟩
  unfold Polygon.mk' tile
  rw [of_cons]
  simp only [pathSum, List.length_cons, List.length_nil, Outcome.check]
  rw [finish_nondegenerate _ _ _ (by norm_num [aTerm, Vec2.cross])]
  refine ⟨_, if_neg (by norm_num [aTerm, Vec2.cross]), rfl, rfl⟩

/-- A body that gets a tile, then moves by `d` in a step. -/
noncomputable def tileEvents (d : Vec2 ℝ) : List (Event ℝ) := [.addCollider 7 tile exMatR, .step [(d, 0)] 0 0]

theorem tile_quiet (p d : Vec2 ℝ) : (born p 0 1).Quiet (tileEvents d) := by
  refine C87_quiet p 0 1 _ fun e he => ?_
  rcases List.mem_cons.1 he with rfl | he
  · exact tile_valid
  · obtain rfl := List.mem_singleton.1 he
    trivial

theorem tile_life (p d : Vec2 ℝ) : ∃ c ∈ ((born p 0 1).live (tileEvents d)).colliders.list, c.id = 7 ∧ c.material = exMatR ∧ c.geom.transformed = (tileSide (p + d)).geom.transformed := by
  have hinv : (born p 0 1).Inv [] := ⟨⟨.nil, rfl⟩, fun h => absurd rfl h, .ofAngle _, rfl⟩
  obtain ⟨m, h1, h2, h3, h4, _, _, _, h8⟩ := addCollider_ok hinv 7 tile_valid
  have hl : ((born p 0 1).live (tileEvents d)).colliders.list ≠ [] := by
    intro h
    have : ((born p 0 1).addCollider 7 tile exMatR).1.colliders.list = [] := List.map_eq_nil_iff.1 h
    have h5 := h2.colliders.1
    rw [this] at h5
    cases h5
  obtain ⟨c, hc⟩ := List.exists_mem_of_ne_nil _ hl
  obtain ⟨P, hP, tP, -, -⟩ := C87_follow p 0 1 _ (tile_quiet p d) c hc
  have hpos : ((born p 0 1).live (tileEvents d)).position = ((born p 0 1).addCollider 7 tile exMatR).1.position.advance d 0 := rfl
  have happ : ∀ x, ((born p 0 1).live (tileEvents d)).position.toWorldSpace.app x = x + (p + d) := by
    intro x
    rw [hpos, h8]
    ext <;> simp [Position.advance, Position.setLocalCentroid, Position.toWorldSpace, Transform.app, Transform.mulTranslation, Translation.mulRotation, Translation.mul,
      Translation.inverse, Translation.app, Rotation.app, Rotation.mul, Rotation.ofAngle, born, make, Body.update, Position.make, Trig.cos, Trig.sin] <;> ring
  simp only [tileEvents, List.mem_cons, List.not_mem_nil, or_false, reduceCtorEq, Event.addCollider.injEq] at hP
  obtain ⟨e1, rfl, e3⟩ := hP
  refine ⟨c, hc, e1, e3, ?_⟩
  rw [tP, funext happ]
  rfl

/-- The hypotheses are met: the collider is where the body is after the step. -/
example : ∃ c ∈ ((born ⟨1 / 4, 19 / 10⟩ 0 1).live (tileEvents ⟨0, -1⟩)).colliders.list, ∃ polygon, Event.addCollider c.id polygon c.material ∈ tileEvents ⟨0, -1⟩ ∧
    c.geom.transformed = polygon.map ((born ⟨1 / 4, 19 / 10⟩ 0 1).live (tileEvents ⟨0, -1⟩)).position.toWorldSpace.app := by
  obtain ⟨c, hc, _⟩ := tile_life ⟨1 / 4, 19 / 10⟩ ⟨0, -1⟩
  obtain ⟨P, h1, h2, _⟩ := C87_follow _ _ _ _ (tile_quiet ⟨1 / 4, 19 / 10⟩ ⟨0, -1⟩) c hc
  exact ⟨c, hc, P, h1, h2⟩

/-- After a call that throws, too: the second collider has no density. -/
example (c : Collider ℝ) (hc : c ∈ ((born 0 0 1).live (tileEvents ⟨0, -1⟩ ++ [.addCollider 8 tile { exMatR with density := 0 }] ++ [.step [(⟨1, 0⟩, 1)] 0 0])).colliders.list) :
    c.geom.box = BoundingBox.ofVertices c.geom.transformed := by
  obtain ⟨P, _, _, h, _⟩ := C87_step 0 0 1 (tileEvents ⟨0, -1⟩ ++ [.addCollider 8 tile { exMatR with density := 0 }]) [(⟨1, 0⟩, 1)] 0 0 c hc
  exact h

/-- Distances inside a collider are kept. -/
example : ∃ c ∈ ((born ⟨1 / 4, 19 / 10⟩ 0 1).live (tileEvents ⟨0, -1⟩)).colliders.list, ∃ P : List (Vec2 ℝ), c.geom.transformed.length = P.length ∧
    ∀ (i j : Nat) (p q p' q' : Vec2 ℝ), P[i]? = some p → P[j]? = some q → c.geom.transformed[i]? = some p' → c.geom.transformed[j]? = some q' → (p' - q').normSquared = (p - q).normSquared := by
  obtain ⟨c, hc, e7, e8, _⟩ := tile_life ⟨1 / 4, 19 / 10⟩ ⟨0, -1⟩
  obtain ⟨P, Q, hP, hQ, h1, _, h3, _⟩ := C87_together _ _ _ _ (tile_quiet ⟨1 / 4, 19 / 10⟩ ⟨0, -1⟩) c c hc hc
  simp only [tileEvents, List.mem_cons, List.not_mem_nil, or_false, reduceCtorEq, Event.addCollider.injEq] at hP hQ
  obtain ⟨_, rfl, _⟩ := hP
  obtain ⟨_, rfl, _⟩ := hQ
  exact ⟨c, hc, tile, h1, h3⟩

/-- The tile that came down gets a contact with the other one. -/
example : ∃ (c : Fin 2 → Collider ℝ) (m' : Manifold ℝ) (P : Fin 2 → Position ℝ), tilesManifold.update Real.sqrt (boundedPenetration 20) (fun i => ⟨(c i).geom, P i⟩) = .ok m' ∧
    0 < (m'.frame fun i => (P i).toWorldSpace).nContacts := by
  obtain ⟨c0, hc0, i0, j0, t0⟩ := tile_life ⟨1 / 4, 19 / 10⟩ ⟨0, -1⟩
  obtain ⟨c1, hc1, i1, j1, t1⟩ := tile_life ⟨0, 0⟩ ⟨0, 0⟩
  have e0 : (⟨1 / 4, 19 / 10⟩ + ⟨0, -1⟩ : Vec2 ℝ) = ⟨1 / 4, 9 / 10⟩ := by ext <;> norm_num
  have e1 : (⟨0, 0⟩ + ⟨0, 0⟩ : Vec2 ℝ) = ⟨0, 0⟩ := by ext <;> norm_num
  rw [e0] at t0
  rw [e1] at t1
  have hsh : StrictlyConvex tile ∧ NoObtuse tile := by
    have := tile_convex (0 : Vec2 ℝ)
    rw [tile_verts] at this
    simpa [tile] using this
  have hpoly : ∀ (c : Collider ℝ) (d : Vec2 ℝ) (polygon : List (Vec2 ℝ)), Event.addCollider c.id polygon c.material ∈ tileEvents d → polygon = tile := by
    intro c d polygon h
    simp only [tileEvents, List.mem_cons, List.not_mem_nil, or_false, reduceCtorEq, Event.addCollider.injEq] at h
    exact h.2.1
  obtain ⟨m', μ, h1, _, h3⟩ := C87_contacts real_sqrt_lawful 20 tilesManifold ![⟨1 / 4, 19 / 10⟩, ⟨0, 0⟩] ![0, 0] ![1, 1] ![tileEvents ⟨0, -1⟩, tileEvents ⟨0, 0⟩]
    (fun i => by fin_cases i <;> exact tile_quiet _ _) ![c0, c1] (fun i => by fin_cases i <;> assumption)
    (fun i polygon h => by
      fin_cases i
      · rw [hpoly c0 _ polygon h]; exact hsh
      · rw [hpoly c1 _ polygon h]; exact hsh)
    (by show ¬Cleared c0.geom.transformed c1.geom.transformed 0; rw [t0, t1]; exact tiles_overlap.1)
    (by show ∀ μ, Cleared c0.geom.transformed c1.geom.transformed μ → _; rw [t0, t1]; exact tiles_overlap.2)
    (by show c0.geom.transformed.length * c1.geom.transformed.length + 4 ≤ 20; rw [t0, t1, tile_verts, tile_verts]; simp)
  exact ⟨_, m', _, h1, (h3 _ rfl).1⟩

end Body
end Simu
