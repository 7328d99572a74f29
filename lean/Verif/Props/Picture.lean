import Verif.Lemmas.Picture
import Verif.Props.BodyHistory
import Verif.Props.Shapes
/-
C92: the picture of a body is its shape.
-/
namespace Simu
namespace Visible
open GlRenderer Spec Body
variable {K : Type*} [Field K] [LinearOrder K] [IsStrictOrderedRing K]

/-- Spec: what is drawn for a polygon placed by `T`: its smallest box, then its points, each painted once. -/
structure PictureOf (T : Vec2 K → Vec2 K) (polygon : List (Vec2 K)) (bx pl : Drawn K) : Prop where
  shape : ∀ p, Shows (fan pl.center pl.vertices) p ↔ ∃ x, Hull polygon x ∧ T x = p
  once : PaintedOnce (fan pl.center pl.vertices)
  box : ∃ b : BoundingBox K, (∀ p, Shows (fan bx.center bx.vertices) p ↔ inBox b p) ∧ (∀ x, Hull polygon x → inBox b (T x)) ∧
    ∀ b' : BoundingBox K, (∀ x, Hull polygon x → inBox b' (T x)) → subBox b b'
  boxOnce : PaintedOnce (fan bx.center bx.vertices)

/-- C92: the triangles that `drawPolygon` makes of a convex polygon and any of its points show the polygon, nothing else, and nothing twice. -/
theorem C92_polygon {l : List (Vec2 K)} (h : StrictlyConvex l) {c : Vec2 K} (hc : Hull l c) : (∀ p, Shows (fan c l) p ↔ Hull l p) ∧ PaintedOnce (fan c l) :=
  ⟨fan_shows h hc, fan_once h hc⟩

/-- One collider, at its place. -/
theorem collider_picture {T : Transform K} (hT : IsRigid T.app) {c : Collider K} (h1 : c.geom.transformed = c.geom.localVerts.map T.app)
    (h2 : c.geom.box = BoundingBox.ofVertices c.geom.transformed) (hconv : StrictlyConvex c.geom.localVerts) (hd : 0 < c.material.density) :
    ∃ bx pl, drawCollider T c = ([bx, pl], .ok ()) ∧ PictureOf T.app c.geom.localVerts bx pl := by
  have hconv' := rigid_convex hT hconv
  obtain ⟨b, hb, hx, hy, hin, hmin⟩ := hconv'.box
  obtain ⟨m, hm, hc⟩ := hconv.properties hd
  have hc' : Hull (c.geom.localVerts.map T.app) (T.app m.centroid) := (hull_app _ _ _).2 ⟨_, hc, rfl⟩
  refine ⟨boxPolygon b, ⟨T.app m.centroid, c.geom.localVerts.map T.app⟩, ?_, ?_, ?_, ?_, ?_⟩
  · have e1 : polygon (boxPolygon b) = ([boxPolygon b], .ok ()) := rfl
    have e2 : polygon (⟨T.app m.centroid, c.geom.localVerts.map T.app⟩ : Drawn K) = ([⟨T.app m.centroid, c.geom.localVerts.map T.app⟩], .ok ()) := by
      rw [polygon, if_neg (by have := hconv'.1; simpa using this)]
    have e3 : c.properties = .ok m := hm
    simp only [drawCollider, h2, h1, hb, e3, e1, e2, andThen]
    rfl
  · intro p
    rw [fan_shows hconv' hc', hull_app]
  · exact fan_once hconv' hc'
  · refine ⟨b, fun p => by rw [fan_shows (box_convex hx hy) (box_center hx hy), hull_box hx hy], fun x hx => hin _ ((hull_app _ _ _).2 ⟨x, hx, rfl⟩), fun b' hb' => hmin b' fun p hp => ?_⟩
    obtain ⟨x, hx, rfl⟩ := (hull_app _ _ _).1 hp
    exact hb' x hx
  · exact fan_once (box_convex hx hy) (box_center hx hy)

/-- All colliders of a list. -/
theorem colliders_picture (T : Transform K) (P : Collider K → Drawn K → Drawn K → Prop) (cs : List (Collider K))
    (h : ∀ c ∈ cs, ∃ bx pl, drawCollider T c = ([bx, pl], .ok ()) ∧ P c bx pl) :
    ∃ ds, drawColliders T cs = (ds, .ok ()) ∧ ds.length = 2 * cs.length ∧
      ∀ (i : Nat) (c : Collider K), cs[i]? = some c → ∃ bx pl, ds[2 * i]? = some bx ∧ ds[2 * i + 1]? = some pl ∧ P c bx pl := by
  induction cs with
  | nil => exact ⟨[], rfl, rfl, fun i c hc => by simp at hc⟩
  | cons c cs ih =>
    obtain ⟨bx, pl, e, hp⟩ := h c List.mem_cons_self
    obtain ⟨ds, e', hlen, hall⟩ := ih fun c hc => h c (List.mem_cons_of_mem _ hc)
    refine ⟨bx :: pl :: ds, by simp only [drawColliders, e, e', andThen]; rfl, by simp [hlen]; omega, fun i d hd => ?_⟩
    cases i with
    | zero =>
      obtain rfl : c = d := by simpa using hd
      exact ⟨bx, pl, rfl, rfl, hp⟩
    | succ i =>
      obtain ⟨bx', pl', h1, h2, h3⟩ := hall i d (by simpa using hd)
      exact ⟨bx', pl', by rw [show 2 * (i + 1) = 2 * i + 1 + 1 by omega]; simpa using h1, by rw [show 2 * (i + 1) + 1 = 2 * i + 1 + 1 + 1 by omega]; simpa using h2, h3⟩

variable [Trig K]

/-- The body is drawn once its colliders are where it is. -/
theorem body_picture [LawfulTrig K] {position : Vec2 K} {orientation dominance : K} {events : List (Event K)} (hsync : ((born position orientation dominance).live events).Synced)
    (hconv : ∀ id polygon material, Event.addCollider id polygon material ∈ events → StrictlyConvex polygon ∧ 0 < material.density) :
    ∃ ds, drawBody ((born position orientation dominance).live events) = (ds, .ok ()) ∧
      ds.length = 2 * ((born position orientation dominance).live events).colliders.list.length ∧
      ∀ (i : Nat) (c : Collider K), ((born position orientation dominance).live events).colliders.list[i]? = some c → ∃ bx pl polygon, ds[2 * i]? = some bx ∧ ds[2 * i + 1]? = some pl ∧
        Event.addCollider c.id polygon c.material ∈ events ∧
        PictureOf ((born position orientation dominance).live events).position.toWorldSpace.app polygon bx pl := by
  have hr : ((born position orientation dominance).live events).position.orient.Reachable := live_reach (.ofAngle _) events
  obtain ⟨ds, h1, h2, h3⟩ := colliders_picture ((born position orientation dominance).live events).position.toWorldSpace
    (fun c bx pl => ∃ polygon, Event.addCollider c.id polygon c.material ∈ events ∧
      PictureOf ((born position orientation dominance).live events).position.toWorldSpace.app polygon bx pl) ((born position orientation dominance).live events).colliders.list
    (fun c hc => by
      have ha : Asked events c := live_asked (by intro d hd; cases hd) events (fun _ h => h) c hc
      obtain ⟨bx, pl, e, hp⟩ := collider_picture (C26_rigid (Position.reach hr) hr ⟨0⟩).1 (hsync c hc).1 (hsync c hc).2 (hconv _ _ _ ha).1 (hconv _ _ _ ha).2
      exact ⟨bx, pl, e, _, ha, hp⟩)
  refine ⟨ds, h1, h2, fun i c hc => ?_⟩
  obtain ⟨bx, pl, a, b, polygon, d, e⟩ := h3 i c hc
  exact ⟨bx, pl, polygon, a, b, d, e⟩

/-- C92: at any time of the life of a body during which no call threw, drawing it does not throw, and draws, for each of its colliders in order, the smallest box around it, then
exactly the points of the polygon that was asked for, placed by the transform of the body; each of the points is painted once. -/
theorem C92_body [LawfulTrig K] (position : Vec2 K) (orientation dominance : K) (events : List (Event K)) (hq : (born position orientation dominance).Quiet events)
    (hconv : ∀ id polygon material, Event.addCollider id polygon material ∈ events → StrictlyConvex polygon ∧ 0 < material.density) :
    ∃ ds, drawBody ((born position orientation dominance).live events) = (ds, .ok ()) ∧
      ds.length = 2 * ((born position orientation dominance).live events).colliders.list.length ∧
      ∀ (i : Nat) (c : Collider K), ((born position orientation dominance).live events).colliders.list[i]? = some c → ∃ bx pl polygon, ds[2 * i]? = some bx ∧ ds[2 * i + 1]? = some pl ∧
        Event.addCollider c.id polygon c.material ∈ events ∧
        PictureOf ((born position orientation dominance).live events).position.toWorldSpace.app polygon bx pl :=
  body_picture (live_synced (by intro d hd; cases hd) events hq) hconv

/-- C92: after a step this holds whatever happened before, even if calls threw. -/
theorem C92_step [LawfulTrig K] (position : Vec2 K) (orientation dominance : K) (events : List (Event K)) (moves : List (Vec2 K × K)) (v : Vec2 K) (w : K)
    (hconv : ∀ id polygon material, Event.addCollider id polygon material ∈ events → StrictlyConvex polygon ∧ 0 < material.density) (b : Body K)
    (hb : b = (born position orientation dominance).live (events ++ [.step moves v w])) :
    ∃ ds, drawBody b = (ds, .ok ()) ∧ ds.length = 2 * b.colliders.list.length ∧
      ∀ (i : Nat) (c : Collider K), b.colliders.list[i]? = some c → ∃ bx pl polygon, ds[2 * i]? = some bx ∧ ds[2 * i + 1]? = some pl ∧
        Event.addCollider c.id polygon c.material ∈ events ∧ PictureOf b.position.toWorldSpace.app polygon bx pl := by
  subst hb
  have hmem : ∀ id polygon material, Event.addCollider id polygon material ∈ events ++ [Event.step moves v w] → Event.addCollider id polygon material ∈ events := by
    intro id polygon material h
    rcases List.mem_append.1 h with h | h
    · exact h
    · cases List.mem_singleton.1 h
  have hs : ((born position orientation dominance).live (events ++ [.step moves v w])).Synced := by
    simp only [live, List.foldl_append, List.foldl_cons, List.foldl_nil]
    exact update_synced _
  obtain ⟨ds, h1, h2, h3⟩ := body_picture hs fun id polygon material h => hconv id polygon material (hmem _ _ _ h)
  refine ⟨ds, h1, h2, fun i c hc => ?_⟩
  obtain ⟨bx, pl, polygon, a1, a2, a3, a4⟩ := h3 i c hc
  exact ⟨bx, pl, polygon, a1, a2, hmem _ _ _ a3, a4⟩

omit [Trig K] in
theorem colliders_throw (T : Transform K) (cs : List (Collider K)) (hok : ∀ c ∈ cs, (drawCollider T c).2 ≠ .ub) (h : ∃ c ∈ cs, (drawCollider T c).2 = .throw) : (drawColliders T cs).2 = .throw := by
  induction cs with
  | nil => obtain ⟨c, hc, _⟩ := h; cases hc
  | cons d cs ih =>
    simp only [drawColliders, andThen]
    cases hd : (drawCollider T d).2 with
    | throw => exact hd
    | ub => exact absurd hd (hok d List.mem_cons_self)
    | ok _ =>
      refine ih (fun c hc => hok c (List.mem_cons_of_mem _ hc)) ?_
      obtain ⟨c, hc, e⟩ := h
      rcases List.mem_cons.1 hc with rfl | hc
      · rw [hd] at e; cases e
      · exact ⟨c, hc, e⟩

/-- C92 fails after a call that throws: a collider whose density is not positive is refused by `addCollider`, which throws, but it stays in the body, and from then on drawing the body
(that is, each step of the world) throws. -/
theorem C92_refused_disagreement (position : Vec2 K) (orientation dominance : K) (id : Nat) (polygon : List (Vec2 K)) (material : Material K) (hp : polygon ≠ [])
    (hd : ¬0 < material.density) (moves : List (Vec2 K × K)) (v : Vec2 K) (w : K) :
    ((born position orientation dominance).addCollider id polygon material).2 = .throw ∧
      (drawBody ((born position orientation dominance).live [.addCollider id polygon material, .step moves v w])).2 = .throw := by
  have hprop : (⟨id, .make polygon, material⟩ : Collider K).properties = .throw := by
    simp [Collider.properties, MassProperties.ofGeometry, Outcome.check, hd, Outcome.bind]
  have hadd : (born position orientation dominance).addCollider id polygon material =
      ({ born position orientation dominance with colliders := { Colliders.empty with list := [⟨id, .make polygon, material⟩] } }, .throw) := by
    have ha : (born position orientation dominance).attached = true := rfl
    have hc : (born position orientation dominance).colliders.add id polygon material = ({ Colliders.empty with list := [⟨id, .make polygon, material⟩] }, .throw) := by
      simp only [Colliders.add, hprop]
      rfl
    simp only [Body.addCollider]
    rw [if_neg (by simp [ha]), hc]
  refine ⟨by rw [hadd], ?_⟩
  have hlist : ∃ T : Transform K, ∃ g, ((born position orientation dominance).live [.addCollider id polygon material, .step moves v w]).colliders.list =
      [(⟨id, (ColliderGeom.make polygon).update g, material⟩ : Collider K)] ∧
      ((born position orientation dominance).live [.addCollider id polygon material, .step moves v w]).position.toWorldSpace = T := by
    refine ⟨_, ((born position orientation dominance).live [.addCollider id polygon material, .step moves v w]).position.toWorldSpace.app, ?_, rfl⟩
    simp only [live, List.foldl_cons, List.foldl_nil, happen, hadd, Body.update, Colliders.update, List.map_cons, List.map_nil]
  obtain ⟨T, g, hl, hT⟩ := hlist
  rw [drawBody, hT, hl]
  have hone : (drawCollider T (⟨id, (ColliderGeom.make polygon).update g, material⟩ : Collider K)).2 = .throw := by
    obtain ⟨b, hb, _⟩ := (BoundingBox.C08_box_of_vertices_is_tightest (polygon.map g)).1 (by simpa using hp)
    have e1 : ((ColliderGeom.make polygon).update g).box = .ok b := hb
    have e2 : (⟨id, (ColliderGeom.make polygon).update g, material⟩ : Collider K).properties = .throw := hprop
    simp only [drawCollider, e1, e2, andThen, Visible.polygon, boxPolygon]
    rfl
  exact colliders_throw T _ (fun c hc => by rw [List.mem_singleton.1 hc, hone]; simp) ⟨_, List.mem_singleton.2 rfl, hone⟩

omit [Trig K] in
/-- C92, with C44: what OpenGL is given for polygons drawn one after the other shows a point if and only if one of the polygons does. -/
theorem C92_screen (ds : List (Drawn K)) (h : ∀ d ∈ ds, 3 ≤ d.vertices.length ∧ d.vertices.length ≤ 64511) (r : GlRenderer (Vec2 K))
    (hr : r = (ds.map fun d => Op.draw d.center d.vertices).foldl apply init) (p : Vec2 K) :
    (∃ t, some t ∈ r.shown ∧ InTriangle t.1 t.2.1 t.2.2 p) ↔ ∃ d ∈ ds, Shows (fan d.center d.vertices) p := by
  obtain ⟨e, _⟩ := C44_drawn_partial (ds.map fun d => Op.draw d.center d.vertices) (fun c vs hm => by
    obtain ⟨d, hd, e⟩ := List.mem_map.1 hm
    cases e
    exact (h d hd).2) r hr
  rw [e]
  constructor
  · rintro ⟨t, ht, hp⟩
    obtain ⟨t', ht', e'⟩ := List.mem_map.1 ht
    cases e'
    obtain ⟨op, hop, ht'⟩ := List.mem_flatMap.1 ht'
    obtain ⟨d, hd, rfl⟩ := List.mem_map.1 hop
    rw [Op.meant, if_neg (by have := (h d hd).1; omega)] at ht'
    exact ⟨d, hd, t, ht', hp⟩
  · rintro ⟨d, hd, t, ht, hp⟩
    refine ⟨t, List.mem_map.2 ⟨t, List.mem_flatMap.2 ⟨_, List.mem_map.2 ⟨d, hd, rfl⟩, ?_⟩, rfl⟩, hp⟩
    rw [Op.meant, if_neg (by have := (h d hd).1; omega)]
    exact ht

/-! ### Constraints and contacts -/

omit [Trig K] in
/-- C92: a line shows exactly the points beside its segment that are at most half of its width away. -/
theorem C92_line {sqrt : K → K} (hs : LawfulSqrt sqrt) (r : Renderer K) (hw : 0 < r.lineWidth) {A B : Vec2 K} (hAB : A ≠ B) :
    ∃ d, shape (r.drawLine sqrt A B) = ([d], .ok ()) ∧
      ∀ p, Shows (fan d.center d.vertices) p ↔ ∃ q, OnSegment A B q ∧ Vec2.dot (p - q) (B - A) = 0 ∧ 4 * (p - q).normSquared ≤ r.lineWidth ^ 2 := by
  have hne : A.x ≠ B.x ∨ A.y ≠ B.y := by
    by_contra hc
    push Not at hc
    exact hAB (Vec2.ext hc.1 hc.2)
  have hn0 : 0 < ((B - A).perp : Vec2 K).normSquared := by
    have : ((B - A).perp : Vec2 K).normSquared = (B.x - A.x) * (B.x - A.x) + (B.y - A.y) * (B.y - A.y) := by simp [Vec2.normSquared, Vec2.dot, Vec2.perp]; ring
    rw [this]
    rcases hne with h | h
    · exact add_pos_of_pos_of_nonneg (mul_self_pos.2 (sub_ne_zero.2 (Ne.symm h))) (mul_self_nonneg _)
    · exact add_pos_of_nonneg_of_pos (mul_self_nonneg _) (mul_self_pos.2 (sub_ne_zero.2 (Ne.symm h)))
  obtain ⟨h1, h2⟩ := hs _ hn0.le
  set n2 := ((B - A).perp : Vec2 K).normSquared with hn2
  set q := sqrt n2 with hq
  have hq0 : 0 < q := lt_of_le_of_ne h2 (by intro e; rw [← e, mul_zero] at h1; exact hn0.ne h1)
  set n := Vec2.sdiv (r.lineWidth • Vec2.sdiv ((B - A).perp : Vec2 K) q) 2 with hn
  have hN : (B.x - A.x) * (B.x - A.x) + (B.y - A.y) * (B.y - A.y) = q * q := by
    rw [h1, hn2]; simp [Vec2.normSquared, Vec2.dot, Vec2.perp]; ring
  set k := r.lineWidth / (2 * q) with hk
  have hk0 : 0 < k := div_pos hw (by linarith)
  have hkq : k * (2 * q) = r.lineWidth := div_mul_cancel₀ _ (by linarith)
  have hnx : n.x = -(B.y - A.y) * k := by
    rw [hn, hk]; simp [Vec2.sdiv, Vec2.perp]; field_simp
  have hny : n.y = (B.x - A.x) * k := by
    rw [hn, hk]; simp [Vec2.sdiv, Vec2.perp]; field_simp
  have hpos : 0 < Vec2.cross (B - A) n := by
    simp only [Vec2.cross, Vec2.sub_x, Vec2.sub_y, hnx, hny]
    have := mul_pos hk0 (mul_pos hq0 hq0)
    rw [← hN] at this
    nlinarith
  have hB : A + (B - A) = B := by ext <;> simp
  refine ⟨⟨Vec2.sdiv (A + B) 2, [A + n, B + n, B - n, A - n]⟩, ?_, fun p => ?_⟩
  · rw [Renderer.drawLine, if_pos hne]
    rfl
  · have := rect_shows (A := A) hpos p
    rw [hB] at this
    dsimp only
    rw [this]
    constructor
    · rintro ⟨s, u, s0, s1, u0, u1, rfl⟩
      refine ⟨A + s • (B - A), ⟨s, s0, s1, by ext <;> simp <;> ring⟩, ?_, ?_⟩
      · simp only [Vec2.dot_def, Vec2.add_x, Vec2.add_y, Vec2.sub_x, Vec2.sub_y, Vec2.smul_x, Vec2.smul_y, hnx, hny]
        ring
      · have e : 4 * (A + s • (B - A) + u • n - (A + s • (B - A))).normSquared = u ^ 2 * r.lineWidth ^ 2 := by
          simp only [Vec2.normSquared, Vec2.dot_def, Vec2.add_x, Vec2.add_y, Vec2.sub_x, Vec2.sub_y, Vec2.smul_x, Vec2.smul_y, hnx, hny]
          rw [← hkq]
          linear_combination 4 * u ^ 2 * k ^ 2 * hN
        rw [e]
        have : u ^ 2 ≤ 1 := by nlinarith
        nlinarith [mul_le_mul_of_nonneg_right this (sq_nonneg r.lineWidth)]
    · rintro ⟨x, ⟨s, s0, s1, rfl⟩, hdot, hle⟩
      simp only [Vec2.normSquared, Vec2.dot_def, Vec2.add_x, Vec2.add_y, Vec2.sub_x, Vec2.sub_y, Vec2.smul_x, Vec2.smul_y] at hdot hle
      set vx := p.x - (A.x * (1 - s) + B.x * s) with hvx
      set vy := p.y - (A.y * (1 - s) + B.y * s) with hvy
      set u := (-(B.y - A.y) * vx + (B.x - A.x) * vy) / (k * (q * q)) with hu
      have hkqq : 0 < k * (q * q) := mul_pos hk0 (mul_pos hq0 hq0)
      have huk : u * (k * (q * q)) = -(B.y - A.y) * vx + (B.x - A.x) * vy := div_mul_cancel₀ _ hkqq.ne'
      have ex : vx = u * n.x := by
        have : (vx - u * n.x) * (q * q) = 0 := by
          rw [hnx, sub_mul]
          linear_combination (B.y - A.y) * huk + (B.x - A.x) * hdot - vx * hN
        rcases mul_eq_zero.1 this with e | e
        · linarith
        · exact absurd e (mul_pos hq0 hq0).ne'
      have ey : vy = u * n.y := by
        have : (vy - u * n.y) * (q * q) = 0 := by
          rw [hny, sub_mul]
          linear_combination -(B.x - A.x) * huk + (B.y - A.y) * hdot - vy * hN
        rcases mul_eq_zero.1 this with e | e
        · linarith
        · exact absurd e (mul_pos hq0 hq0).ne'
      have hu2 : u ^ 2 ≤ 1 := by
        have e : 4 * (vx * vx + vy * vy) = u ^ 2 * r.lineWidth ^ 2 := by
          rw [ex, ey, hnx, hny, ← hkq]
          linear_combination 4 * u ^ 2 * k ^ 2 * hN
        rw [e] at hle
        by_contra hc
        push Not at hc
        have := mul_pos (show 0 < u ^ 2 - 1 by linarith) (pow_pos hw 2)
        linarith
      obtain ⟨u0, u1⟩ := abs_le.1 ((sq_le_one_iff_abs_le_one u).1 hu2)
      refine ⟨s, u, s0, s1, u0, u1, ?_⟩
      ext
      · simp only [Vec2.add_x, Vec2.smul_x, Vec2.sub_x]
        linear_combination ex
      · simp only [Vec2.add_y, Vec2.smul_y, Vec2.sub_y]
        linear_combination ey

omit [Trig K] in
/-- C92: a distance constraint whose anchors are apart is drawn as the line between them. Missing: anchors at the same place (`C92_distance_disagreement`). -/
theorem C92_distance_partial {sqrt : K → K} (hs : LawfulSqrt sqrt) (r : Renderer K) (hw : 0 < r.lineWidth) (T0 T1 : Transform K) (l0 l1 : Vec2 K) (h : T0.app l0 ≠ T1.app l1) :
    ∃ d, drawDistance sqrt r T0 T1 l0 l1 = ([d], .ok ()) ∧
      ∀ p, Shows (fan d.center d.vertices) p ↔
        ∃ q, OnSegment (T0.app l0) (T1.app l1) q ∧ Vec2.dot (p - q) (T1.app l1 - T0.app l0) = 0 ∧ 4 * (p - q).normSquared ≤ r.lineWidth ^ 2 := C92_line hs r hw h

omit [IsStrictOrderedRing K] [Trig K] in
/-- C92 is false of distance constraints whose anchors meet: drawing them throws, so that the step of the world throws. -/
theorem C92_distance_disagreement (sqrt : K → K) (r : Renderer K) (T0 T1 : Transform K) (l0 l1 : Vec2 K) (h : T0.app l0 = T1.app l1) :
    drawDistance sqrt r T0 T1 l0 l1 = ([], .throw) := by
  rw [drawDistance, h, Renderer.drawLine, if_neg (by simp)]
  rfl

omit [Trig K] in
/-- C92: a mouse constraint is always drawn: as the line between the mouse and the point of the body that follows it, or not at all if the point is there. -/
theorem C92_mouse {sqrt : K → K} (hs : LawfulSqrt sqrt) (r : Renderer K) (hw : 0 < r.lineWidth) (bodyPos mousePos : Vec2 K) :
    ∃ ds, drawMouse sqrt r bodyPos mousePos = (ds, .ok ()) ∧
      ∀ p, (∃ d ∈ ds, Shows (fan d.center d.vertices) p) ↔
        bodyPos ≠ mousePos ∧ ∃ q, OnSegment bodyPos mousePos q ∧ Vec2.dot (p - q) (mousePos - bodyPos) = 0 ∧ 4 * (p - q).normSquared ≤ r.lineWidth ^ 2 := by
  by_cases h : bodyPos = mousePos
  · refine ⟨[], by rw [drawMouse, if_neg (by simp [h])], fun p => ⟨?_, fun hp => absurd h hp.1⟩⟩
    rintro ⟨d, hd, _⟩
    cases hd
  · obtain ⟨d, h1, h2⟩ := C92_line hs r hw h
    have hne : bodyPos.x ≠ mousePos.x ∨ bodyPos.y ≠ mousePos.y := by
      by_contra hc
      push Not at hc
      exact h (Vec2.ext hc.1 hc.2)
    refine ⟨[d], by rw [drawMouse, if_pos hne, h1], fun p => ?_⟩
    rw [← h2 p]
    simp [h]

omit [LinearOrder K] [IsStrictOrderedRing K] [Trig K] in
theorem pointLoop_enough (r : Renderer K) (hn : r.pointPrecision ≤ 255) (P : Vec2 K) (d i fuel : Nat) (v : List (Vec2 K)) (hd : r.pointPrecision - i = d) (hi : i ≤ r.pointPrecision)
    (hf : d < fuel) : r.pointLoop P fuel i v = some (.ok (v ++ (r.pointOffsets.drop i).map (P + ·))) := by
  induction d generalizing i fuel v with
  | zero =>
    obtain ⟨fuel, rfl⟩ := Nat.exists_eq_succ_of_ne_zero (by omega : fuel ≠ 0)
    have : r.pointOffsets.drop i = [] := by
      rw [List.drop_eq_nil_iff]
      unfold Renderer.pointPrecision at *; omega
    rw [Renderer.pointLoop, if_neg (by omega), this]
    simp
  | succ d ih =>
    obtain ⟨fuel, rfl⟩ := Nat.exists_eq_succ_of_ne_zero (by omega : fuel ≠ 0)
    have hi' : i < r.pointOffsets.length := by unfold Renderer.pointPrecision at *; omega
    rw [Renderer.pointLoop, if_pos (by omega), List.getElem?_eq_getElem hi']
    have hm : (i + 1) % 256 = i + 1 := by omega
    simp only [hm]
    rw [ih (i + 1) fuel _ (by omega) (by omega) (by omega), List.drop_eq_getElem_cons hi', List.map_cons, List.append_assoc, List.singleton_append]

omit [IsStrictOrderedRing K] [Trig K] in
theorem point_drawn (r : Renderer K) (h3 : 3 ≤ r.pointPrecision) (hn : r.pointPrecision ≤ 255) (P : Vec2 K) : point r P = ([⟨P, r.pointOffsets.map (P + ·)⟩], .ok ()) := by
  have : r.drawPoint 257 P = some (.ok ⟨P, r.pointOffsets.map (P + ·)⟩) := by
    rw [Renderer.drawPoint, pointLoop_enough r hn P r.pointPrecision 0 257 [] (by omega) (by omega) (by omega)]
    simp
  rw [point, this]
  simp only [shape, polygon]
  rw [if_neg (by unfold Renderer.pointPrecision at h3; simpa using h3)]

/-- Spec: the marks of a contact: a point on each of the bodies, and, from the first one, a line along the normal, ten times as long as lines are wide. -/
def MarksOf (r : Renderer K) (ref inc normal : Vec2 K) (a b c : Drawn K) : Prop :=
  a = ⟨ref, r.pointOffsets.map (ref + ·)⟩ ∧ c = ⟨inc, r.pointOffsets.map (inc + ·)⟩ ∧
    ∀ p, Shows (fan b.center b.vertices) p ↔
      ∃ q, OnSegment ref (ref + (10 * r.lineWidth) • normal) q ∧ Vec2.dot (p - q) normal = 0 ∧ 4 * (p - q).normSquared ≤ r.lineWidth ^ 2

omit [Trig K] in
theorem contact_line {sqrt : K → K} (hs : LawfulSqrt sqrt) (r : Renderer K) (hw : 0 < r.lineWidth) (ref normal : Vec2 K) (hn : normal ≠ 0) :
    ∃ d, shape (r.drawLine sqrt ref (ref + (r.lineWidth * 10) • normal)) = ([d], .ok ()) ∧
      ∀ p, Shows (fan d.center d.vertices) p ↔
        ∃ q, OnSegment ref (ref + (10 * r.lineWidth) • normal) q ∧ Vec2.dot (p - q) normal = 0 ∧ 4 * (p - q).normSquared ≤ r.lineWidth ^ 2 := by
  have hk : r.lineWidth * 10 ≠ 0 := mul_ne_zero hw.ne' (by norm_num)
  have hne : ref ≠ ref + (r.lineWidth * 10) • normal := by
    intro e
    have ex := congrArg Vec2.x e
    have ey := congrArg Vec2.y e
    simp only [Vec2.add_x, Vec2.add_y, Vec2.smul_x, Vec2.smul_y] at ex ey
    refine hn (Vec2.ext ?_ ?_)
    · exact (mul_eq_zero.1 (show normal.x * (r.lineWidth * 10) = 0 by linarith)).resolve_right hk
    · exact (mul_eq_zero.1 (show normal.y * (r.lineWidth * 10) = 0 by linarith)).resolve_right hk
  obtain ⟨d, h1, h2⟩ := C92_line hs r hw hne
  refine ⟨d, h1, fun p => ?_⟩
  rw [h2 p]
  have e : ∀ v : Vec2 K, Vec2.dot v (ref + (r.lineWidth * 10) • normal - ref) = 0 ↔ Vec2.dot v normal = 0 := by
    intro v
    have : Vec2.dot v (ref + (r.lineWidth * 10) • normal - ref) = (r.lineWidth * 10) * Vec2.dot v normal := by
      simp only [Vec2.dot_def, Vec2.add_x, Vec2.add_y, Vec2.sub_x, Vec2.sub_y, Vec2.smul_x, Vec2.smul_y]; ring
    rw [this, mul_eq_zero]
    simp [hk]
  simp only [e]
  simp only [mul_comm r.lineWidth 10]

omit [Trig K] in
/-- C92: a contact is drawn with its marks, and contacts that are not touching as the centroids of the two bodies, provided lines have a width and points between 3 and 255 corners. -/
theorem C92_contact_partial {sqrt : K → K} (hs : LawfulSqrt sqrt) (r : Renderer K) (hw : 0 < r.lineWidth) (h3 : 3 ≤ r.pointPrecision) (hp : r.pointPrecision ≤ 255) (n : Nat) (hn2 : n ≤ 2)
    (ref inc centroids : Fin 2 → Vec2 K) (normal : Vec2 K) (hn : normal ≠ 0) :
    ∃ ds, drawContact sqrt r (n, ref, inc, normal) centroids = (ds, .ok ()) ∧
      (n = 0 → ds = [⟨centroids 0, r.pointOffsets.map (centroids 0 + ·)⟩, ⟨centroids 1, r.pointOffsets.map (centroids 1 + ·)⟩]) ∧
      (n ≠ 0 → ds.length = 3 * n ∧ ∀ i : Fin 2, i.val < n → ∃ a b c, ds[3 * i.val]? = some a ∧ ds[3 * i.val + 1]? = some b ∧ ds[3 * i.val + 2]? = some c ∧
        MarksOf r (ref i) (inc i) normal a b c) := by
  have hpt := point_drawn r h3 hp
  obtain ⟨d0, a0, b0⟩ := contact_line hs r hw (ref 0) normal hn
  obtain ⟨d1, a1, b1⟩ := contact_line hs r hw (ref 1) normal hn
  match n, hn2 with
  | 0, _ =>
    refine ⟨_, ?_, fun _ => rfl, fun h => absurd rfl h⟩
    simp only [drawContact, hpt, andThen]
    rfl
  | 1, _ =>
    refine ⟨[⟨ref 0, r.pointOffsets.map (ref 0 + ·)⟩, d0, ⟨inc 0, r.pointOffsets.map (inc 0 + ·)⟩], ?_, fun h => absurd h (by omega), fun _ => ⟨rfl, fun i hi => ?_⟩⟩
    · simp only [drawContact, drawContactsFrom, hpt, a0, andThen]
      rfl
    · obtain rfl : i = 0 := Fin.ext (by simpa using hi)
      exact ⟨_, _, _, rfl, rfl, rfl, rfl, rfl, b0⟩
  | 2, _ =>
    refine ⟨[⟨ref 0, r.pointOffsets.map (ref 0 + ·)⟩, d0, ⟨inc 0, r.pointOffsets.map (inc 0 + ·)⟩, ⟨ref 1, r.pointOffsets.map (ref 1 + ·)⟩, d1, ⟨inc 1, r.pointOffsets.map (inc 1 + ·)⟩],
      ?_, fun h => absurd h (by omega), fun _ => ⟨rfl, fun i hi => ?_⟩⟩
    · simp only [drawContact, drawContactsFrom, hpt, a0, a1, andThen]
      rfl
    · fin_cases i
      · exact ⟨_, _, _, rfl, rfl, rfl, rfl, rfl, b0⟩
      · exact ⟨_, _, _, rfl, rfl, rfl, rfl, rfl, b1⟩

omit [IsStrictOrderedRing K] [Trig K] in
/-- C92 is false of contacts if lines have no width, which `setLineWidth` accepts: drawing a contact throws. -/
theorem C92_contact_disagreement (sqrt : K → K) (r : Renderer K) (h3 : 3 ≤ r.pointPrecision) (hp : r.pointPrecision ≤ 255) (n : Nat) (h1 : 1 ≤ n) (hn2 : n ≤ 2)
    (ref inc centroids : Fin 2 → Vec2 K) (normal : Vec2 K) : (drawContact sqrt (r.setLineWidth 0) (n, ref, inc, normal) centroids).2 = .throw := by
  have hpt := point_drawn (r.setLineWidth 0) h3 hp
  have hl : ∀ A : Vec2 K, shape ((r.setLineWidth 0).drawLine sqrt A (A + ((r.setLineWidth 0).lineWidth * 10) • normal)) = ([], .throw) := by
    intro A
    rw [Renderer.drawLine, if_neg (by simp [Renderer.setLineWidth])]
    rfl
  match n, h1, hn2 with
  | 1, _, _ => simp only [drawContact, drawContactsFrom, hpt, hl, andThen]
  | 2, _, _ => simp only [drawContact, drawContactsFrom, hpt, hl, andThen]

/-! Concrete cases: a tile that came down, a line of width 2, contacts. -/

theorem tile_strict : StrictlyConvex tile := by
  have := (tile_convex (0 : Vec2 ℝ)).1
  rw [tile_verts] at this
  simpa [tile] using this

theorem tile_asked (d : Vec2 ℝ) (id : Nat) (polygon : List (Vec2 ℝ)) (material : Material ℝ) (h : Event.addCollider id polygon material ∈ tileEvents d) :
    StrictlyConvex polygon ∧ 0 < material.density := by
  simp only [tileEvents, List.mem_cons, List.not_mem_nil, or_false, reduceCtorEq, Event.addCollider.injEq] at h
  obtain ⟨_, rfl, rfl⟩ := h
  exact ⟨tile_strict, by norm_num [exMatR]⟩

/-- The middle of the tile is shown, a point outside is not. -/
example : Shows (fan (⟨1 / 3, 1 / 4⟩ : Vec2 ℝ) tile) ⟨1 / 2, 1 / 2⟩ ∧ ¬Shows (fan (⟨1 / 3, 1 / 4⟩ : Vec2 ℝ) tile) ⟨2, 1 / 2⟩ := by
  have e : tile = (boxPolygon (⟨⟨0, 0⟩, ⟨1, 1⟩⟩ : BoundingBox ℝ)).vertices := rfl
  have hh := hull_box (b := (⟨⟨0, 0⟩, ⟨1, 1⟩⟩ : BoundingBox ℝ)) (by norm_num) (by norm_num)
  obtain ⟨h, _⟩ := C92_polygon tile_strict (c := ⟨1 / 3, 1 / 4⟩) (by rw [e, hh]; norm_num [inBox])
  rw [h, h, e, hh, hh]
  norm_num [inBox]

/-- The picture of the body with the tile has a box and a polygon. -/
example : ∃ bx pl, drawBody ((born ⟨1 / 4, 19 / 10⟩ 0 1).live (tileEvents ⟨0, -1⟩)) = ([bx, pl], .ok ()) ∧
    PictureOf ((born ⟨1 / 4, 19 / 10⟩ 0 1).live (tileEvents ⟨0, -1⟩)).position.toWorldSpace.app tile bx pl := by
  obtain ⟨ds, h1, h2, h3⟩ := C92_body _ _ _ _ (tile_quiet ⟨1 / 4, 19 / 10⟩ ⟨0, -1⟩) (tile_asked _)
  obtain ⟨m, _, _, _, _, _, _, _, h8⟩ := addCollider_ok (b := born (⟨1 / 4, 19 / 10⟩ : Vec2 ℝ) 0 1) ⟨⟨.nil, rfl⟩, fun h => absurd rfl h, .ofAngle _, rfl⟩ 7 tile_valid
  have hl : ((born (⟨1 / 4, 19 / 10⟩ : Vec2 ℝ) 0 1).live (tileEvents ⟨0, -1⟩)).colliders.list.length = 1 := by
    obtain ⟨c, hc, _⟩ := tile_life ⟨1 / 4, 19 / 10⟩ ⟨0, -1⟩
    have hle : ((born (⟨1 / 4, 19 / 10⟩ : Vec2 ℝ) 0 1).live (tileEvents ⟨0, -1⟩)).colliders.list.length ≤ 1 := by
      simp only [live, tileEvents, List.foldl_cons, List.foldl_nil, happen, Body.update, Colliders.update, List.length_map, Body.addCollider]
      rw [if_neg (by simp [born])]
      have hal := add_list (born (⟨1 / 4, 19 / 10⟩ : Vec2 ℝ) 0 1).colliders 7 tile exMatR
      have hempty : (born (⟨1 / 4, 19 / 10⟩ : Vec2 ℝ) 0 1).colliders.list = [] := rfl
      rw [hempty, List.nil_append] at hal
      cases ((born (⟨1 / 4, 19 / 10⟩ : Vec2 ℝ) 0 1).colliders.add 7 tile exMatR).2 with
      | ok _ =>
        simp only [recenter, Body.update, Colliders.update, List.length_map]
        change ((born (⟨1 / 4, 19 / 10⟩ : Vec2 ℝ) 0 1).colliders.add 7 tile exMatR).1.list.length ≤ 1
        rw [hal]; simp
      | throw => dsimp only; rw [hal]; simp
      | ub => dsimp only; rw [hal]; simp
    have := List.length_pos_of_mem hc
    omega
  rw [hl] at h2
  match ds, h2 with
  | [bx, pl], _ =>
    obtain ⟨bx', pl', polygon, e1, e2, e3, e4⟩ := h3 0 _ (List.getElem?_eq_getElem (by rw [hl]; omega))
    cases e1
    cases e2
    simp only [tileEvents, List.mem_cons, List.not_mem_nil, or_false, reduceCtorEq, Event.addCollider.injEq] at e3
    obtain ⟨_, rfl, _⟩ := e3
    exact ⟨_, _, h1, e4⟩

/-- After another step, too. -/
example : ∃ ds, drawBody ((born (0 : Vec2 ℝ) 0 1).live (tileEvents ⟨0, -1⟩ ++ [.step [(⟨1, 0⟩, 1)] 0 0])) = (ds, .ok ()) := by
  obtain ⟨ds, h, _⟩ := C92_step (0 : Vec2 ℝ) 0 1 (tileEvents ⟨0, -1⟩) [(⟨1, 0⟩, 1)] 0 0 (tile_asked _) _ rfl
  exact ⟨ds, h⟩

/-- A tile without density. -/
example : (drawBody ((born (0 : Vec2 ℝ) 0 1).live [.addCollider 8 tile { exMatR with density := 0 }, .step [(⟨1, 0⟩, 1)] 0 0])).2 = .throw :=
  (C92_refused_disagreement 0 0 1 8 tile { exMatR with density := 0 } (by simp [tile]) (by simp) [(⟨1, 0⟩, 1)] 0 0).2

/-- A tile and a box on the screen. -/
example (p : Vec2 ℝ) : (∃ t, some t ∈ (([⟨⟨1 / 2, 1 / 2⟩, tile⟩, boxPolygon ⟨⟨3, 0⟩, ⟨4, 2⟩⟩].map fun d : Drawn ℝ => Op.draw d.center d.vertices).foldl apply init).shown ∧ InTriangle t.1 t.2.1 t.2.2 p) ↔
    Shows (fan ⟨1 / 2, 1 / 2⟩ tile) p ∨ inBox ⟨⟨3, 0⟩, ⟨4, 2⟩⟩ p := by
  rw [C92_screen [⟨⟨1 / 2, 1 / 2⟩, tile⟩, boxPolygon ⟨⟨3, 0⟩, ⟨4, 2⟩⟩] (by intro d hd; fin_cases hd <;> simp [tile, boxPolygon]) _ rfl p,
    ← hull_box (b := (⟨⟨3, 0⟩, ⟨4, 2⟩⟩ : BoundingBox ℝ)) (by norm_num) (by norm_num),
    ← fan_shows (box_convex (b := (⟨⟨3, 0⟩, ⟨4, 2⟩⟩ : BoundingBox ℝ)) (by norm_num) (by norm_num)) (box_center (by norm_num) (by norm_num))]
  simp

/-- A renderer whose points are triangles. -/
noncomputable def exRenderer : Renderer ℝ := ⟨[⟨1, 0⟩, ⟨0, 1⟩, ⟨-1, -1⟩], 2, 1⟩

/-- A line from the origin to the right shows points up to 1 above it. -/
example : ∃ d, shape (exRenderer.drawLine Real.sqrt ⟨0, 0⟩ ⟨5, 0⟩) = ([d], .ok ()) ∧ Shows (fan d.center d.vertices) ⟨3, 1⟩ ∧ ¬Shows (fan d.center d.vertices) ⟨3, 3 / 2⟩ := by
  obtain ⟨d, h1, h2⟩ := C92_line real_sqrt_lawful exRenderer (by norm_num [exRenderer]) (A := ⟨0, 0⟩) (B := ⟨5, 0⟩) (by intro e; have := congrArg Vec2.x e; norm_num at this)
  refine ⟨d, h1, (h2 _).2 ⟨⟨3, 0⟩, ⟨3 / 5, by norm_num, by norm_num, by ext <;> norm_num⟩, by norm_num [Vec2.dot_def], by norm_num [Vec2.normSquared, Vec2.dot_def, exRenderer]⟩, fun h => ?_⟩
  obtain ⟨q, ⟨t, _, _, rfl⟩, hd, hl⟩ := (h2 _).1 h
  simp [Vec2.dot_def, Vec2.normSquared, exRenderer] at hd hl
  nlinarith

/-- A distance constraint between the origins of two frames that are apart, and between the same points. -/
example : ∃ d, drawDistance Real.sqrt exRenderer ⟨⟨0, 1, 0⟩, ⟨⟨1, 1⟩⟩⟩ ⟨⟨0, 1, 0⟩, ⟨⟨2, 1⟩⟩⟩ 0 0 = ([d], .ok ()) := by
  obtain ⟨d, h, _⟩ := C92_distance_partial real_sqrt_lawful exRenderer (by norm_num [exRenderer]) ⟨⟨0, 1, 0⟩, ⟨⟨1, 1⟩⟩⟩ ⟨⟨0, 1, 0⟩, ⟨⟨2, 1⟩⟩⟩ 0 0
    (by intro e; have := congrArg Vec2.x e; norm_num [Transform.app, Rotation.app, Translation.app] at this)
  exact ⟨d, h⟩

example : drawDistance Real.sqrt exRenderer ⟨⟨0, 1, 0⟩, ⟨⟨1, 1⟩⟩⟩ ⟨⟨0, 1, 0⟩, ⟨⟨2, 1⟩⟩⟩ ⟨1, 0⟩ 0 = ([], .throw) :=
  C92_distance_disagreement _ _ _ _ _ _ (by ext <;> norm_num [Transform.app, Rotation.app, Translation.app])

example : ∃ ds, drawMouse Real.sqrt exRenderer ⟨1, 2⟩ ⟨1, 2⟩ = (ds, .ok ()) := by
  obtain ⟨ds, h, _⟩ := C92_mouse real_sqrt_lawful exRenderer (by norm_num [exRenderer]) ⟨1, 2⟩ ⟨1, 2⟩
  exact ⟨ds, h⟩

/-- Two contacts along an edge: six marks. -/
example : ∃ ds, drawContact Real.sqrt exRenderer (2, ![⟨0, 0⟩, ⟨1, 0⟩], ![⟨0, -1⟩, ⟨1, -1⟩], ⟨0, 1⟩) ![⟨0, 5⟩, ⟨0, -5⟩] = (ds, .ok ()) ∧ ds.length = 6 := by
  obtain ⟨ds, h, _, h2⟩ := C92_contact_partial real_sqrt_lawful exRenderer (by norm_num [exRenderer]) (by simp [exRenderer, Renderer.pointPrecision]) (by simp [exRenderer, Renderer.pointPrecision]) 2
    (by omega) ![⟨0, 0⟩, ⟨1, 0⟩] ![⟨0, -1⟩, ⟨1, -1⟩] ![⟨0, 5⟩, ⟨0, -5⟩] ⟨0, 1⟩ (by intro e; have := congrArg Vec2.y e; norm_num at this)
  exact ⟨ds, h, (h2 (by omega)).1⟩

example : (drawContact Real.sqrt (exRenderer.setLineWidth 0) (1, ![⟨0, 0⟩, ⟨1, 0⟩], ![⟨0, -1⟩, ⟨1, -1⟩], ⟨0, 1⟩) ![⟨0, 5⟩, ⟨0, -5⟩]).2 = .throw :=
  C92_contact_disagreement _ _ (by simp [exRenderer, Renderer.pointPrecision]) (by simp [exRenderer, Renderer.pointPrecision]) 1 (by omega) (by omega) _ _ _ _

end Visible
end Simu
