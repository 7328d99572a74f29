import Verif.Spec.Spawner
import Verif.Props.BodyMotion
import Verif.Lemmas.BodyHistory
/-
C88: the boxes made with the mouse are those the settings describe.
-/
namespace Simu
namespace Spawner
variable {K : Type*} [Field K] [LinearOrder K] [IsStrictOrderedRing K] [Trig K]

/-- What `Polygon::box` gives. -/
theorem box_polygon {dims : Vec2 K} (h : dims.x * dims.y ≠ 0) : ∃ P, Polygon.box dims 0 = .ok P ∧ P.properties.area = |dims.x * dims.y| ∧ P.properties.centroid = 0 ∧
    P.properties.momentOfArea = |dims.x * dims.y| * (dims.x * dims.x + dims.y * dims.y) / 12 ∧ P.properties.isDegenerate = false ∧ P.vertices.length = 4 ∧
    GeometricProperties.of P.vertices = .ok P.properties ∧
    (∃ vs, Polygon.mk' vs = .ok P) ∧ ∀ v, v ∈ P.vertices ↔ ∃ σ τ : K, (σ = 1 ∨ σ = -1) ∧ (τ = 1 ∨ τ = -1) ∧ v = ⟨σ * (dims.x / 2), τ * (dims.y / 2)⟩ := by
  obtain ⟨P, h1, h2, h3, h4, h5, h6, -⟩ := C15_box dims 0 h
  have h1' := h1
  unfold Polygon.box at h1'
  dsimp only at h1'
  obtain ⟨Q, k1, k2, k3, -, -⟩ := C15_polygon [(0 : Vec2 K) + ⟨-(dims.x / 2), -(dims.y / 2)⟩, 0 + ⟨dims.x / 2, -(dims.y / 2)⟩, 0 + ⟨dims.x / 2, dims.y / 2⟩, 0 + ⟨-(dims.x / 2), dims.y / 2⟩] (by simp)
  rw [h1'] at k1
  obtain rfl : P = Q := Outcome.ok.inj k1
  refine ⟨P, h1, h2, h3, h4, h5, h6, k3, ⟨_, h1'⟩, fun v => ?_⟩
  have hm : v ∈ P.vertices ↔ v ∈ [(0 : Vec2 K) + ⟨-(dims.x / 2), -(dims.y / 2)⟩, 0 + ⟨dims.x / 2, -(dims.y / 2)⟩, 0 + ⟨dims.x / 2, dims.y / 2⟩, 0 + ⟨-(dims.x / 2), dims.y / 2⟩] := by
    rcases k2 with k | k
    · rw [k]
    · rw [k, List.mem_reverse]
  rw [hm]
  have e : ∀ x y : K, (0 : Vec2 K) + ⟨x, y⟩ = ⟨x, y⟩ := fun x y => by ext <;> simp
  simp only [e, List.mem_cons, List.not_mem_nil, or_false]
  constructor
  · rintro (rfl | rfl | rfl | rfl)
    · exact ⟨-1, -1, .inr rfl, .inr rfl, by simp⟩
    · exact ⟨1, -1, .inl rfl, .inr rfl, by simp⟩
    · exact ⟨1, 1, .inl rfl, .inl rfl, by simp⟩
    · exact ⟨-1, 1, .inr rfl, .inl rfl, by simp⟩
  · rintro ⟨σ, τ, rfl | rfl, rfl | rfl, rfl⟩ <;> simp

/-- C88: a box of non-zero dimensions and positive density is made. Its body is the only one added to the world; it is at rest, with its centre at the place asked for, the mass and inertia of a
rectangle, the material of the settings; and the corners of its only collider are those of the rectangle, turned by the orientation of the settings. -/
theorem C88_box [LawfulTrig K] (s : Spawner K) (pos : Vec2 K) (dimensions : Option (Vec2 K)) (id : Nat) (world : List (Body K)) (dims : Vec2 K) (hdims : dims = dimensions.getD s.dims)
    (hd : dims.x * dims.y ≠ 0) (hdens : 0 < s.density) :
    ∃ b, s.makeBox pos dimensions id world = (world ++ [b], .ok ()) ∧ b.centroid = pos ∧ b.velocity = 0 ∧ b.angular = 0 ∧ b.asleep = false ∧ b.dominance = s.dominance ∧
      b.mass = s.density * |dims.x * dims.y| ∧ b.inertia = b.mass * (dims.x * dims.x + dims.y * dims.y) / 12 ∧
      ∃ c, b.colliders.list = [c] ∧ c.id = id ∧ c.material = s.material ∧ IsBox c.geom.transformed pos dims (Trig.cos s.orientation) (Trig.sin s.orientation) ∧
        c.geom.box = BoundingBox.ofVertices c.geom.transformed := by
  obtain ⟨P, h1, h2, h3, h4, h5, h6, h7, ⟨vs, hvs⟩, h8⟩ := box_polygon hd
  have hv : ValidDescriptor P.vertices s.material := ⟨hdens, vs, P, hvs, h5, rfl⟩
  have hinv : (Body.born pos s.orientation s.dominance).Inv [] := ⟨⟨.nil, rfl⟩, fun h => absurd rfl h, .ofAngle _, rfl⟩
  obtain ⟨p, a1, a2, a3, a4, a5, a6, a7, a8⟩ := Body.addCollider_ok hinv id hv
  have hp : p = ⟨|dims.x * dims.y| * s.density, |dims.x * dims.y| * (dims.x * dims.x + dims.y * dims.y) / 12 * s.density, 0⟩ := by
    have := a3.1
    simp only [Collider.properties, MassProperties.ofGeometry, ColliderGeom.make, h7, h5, Outcome.check, material, hdens, decide_true, Outcome.bind, Bool.not_false, if_true, h2, h3, h4] at this
    exact (Outcome.ok.inj this).symm
  set b := ((Body.born pos s.orientation s.dominance).addCollider id P.vertices s.material).1 with hb
  have hcomb := a2.colliders.isCombination
  have hpm := hcomb.mass
  have hpx := hcomb.momentX
  have hpy := hcomb.momentY
  have hpI := hcomb.inertia
  simp only [List.nil_append, totalMass, firstMomentX, firstMomentY, inertiaAbout, List.map_cons, List.map_nil, List.sum_cons, List.sum_nil, add_zero, hp, Vec2.zero_x, Vec2.zero_y, mul_zero] at hpm hpx hpy hpI
  have hmpos : 0 < b.colliders.properties.m := by
    rw [hpm]
    exact mul_pos (abs_pos.2 hd) hdens
  have hcx : b.colliders.properties.centroid = 0 := by
    ext
    · exact (mul_eq_zero.1 hpx).resolve_left hmpos.ne'
    · exact (mul_eq_zero.1 hpy).resolve_left hmpos.ne'
  have hlist : b = (({ Body.born pos s.orientation s.dominance with colliders := ((Body.born pos s.orientation s.dominance).colliders.add id P.vertices s.material).1 } : Body K).recenter
        (Body.born pos s.orientation s.dominance).centroid) := by
    rw [hb]
    unfold Body.addCollider
    have : ((Body.born pos s.orientation s.dominance).colliders.add id P.vertices s.material).2 = .ok () := by simp [Colliders.add, a3.1]
    simp only [this]
    simp [Body.born]
  have hone : ∃ f, b.colliders.list = [⟨id, (ColliderGeom.make P.vertices).update f, s.material⟩] := by
    have hl := Body.add_list (Body.born pos s.orientation s.dominance).colliders id P.vertices s.material
    have he : (Body.born pos s.orientation s.dominance).colliders.list = [] := rfl
    rw [he, List.nil_append] at hl
    rw [hlist]
    obtain ⟨f, hf⟩ := Body.recenter_list ({ Body.born pos s.orientation s.dominance with
      colliders := ((Body.born pos s.orientation s.dominance).colliders.add id P.vertices s.material).1 } : Body K) (Body.born pos s.orientation s.dominance).centroid
    dsimp only at hf
    rw [hl] at hf
    exact ⟨f, hf⟩
  obtain ⟨f, hg⟩ := hone
  set g := (ColliderGeom.make P.vertices).update f with hgdef
  have hgv : g.localVerts = P.vertices := rfl
  have hsync := a4 ⟨id, g, s.material⟩ (by rw [hg]; simp)
  refine ⟨b, ?_, ?_, a5, a6, ?_, a7, ?_, ?_, ⟨id, g, s.material⟩, hg, rfl, rfl, ⟨?_, ?_⟩, hsync.2⟩
  · simp only [makeBox, ← hdims, h1, a1, ← hb]
  · show b.position.centroid = pos
    rw [C27_centroid, a8, hcx]
    ext <;> simp [Position.setLocalCentroid, Body.born, Body.make, Body.update, Position.make]
  · rw [hlist]; rfl
  · show b.colliders.properties.m = _
    rw [hpm]; ring
  · show b.colliders.properties.I = b.colliders.properties.m * _ / 12
    rw [hpI, hpm, hcx]
    simp only [Vec2.zero_x, Vec2.zero_y]
    ring
  · rw [hsync.1, List.length_map, hgv, h6]
  · intro v
    have happ : ∀ x, b.position.toWorldSpace.app x = rotateAbout (Trig.cos s.orientation) (Trig.sin s.orientation) pos ⟨pos.x + x.x, pos.y + x.y⟩ := by
      intro x
      rw [a8, hcx]
      ext <;> simp [rotateAbout, Position.setLocalCentroid, Position.toWorldSpace, Transform.app, Transform.mulTranslation, Translation.mulRotation, Translation.mul, Translation.inverse,
        Rotation.app, Rotation.ofAngle, Body.born, Body.make, Body.update, Position.make] <;> ring
    rw [hsync.1, List.mem_map]
    simp only [hgv, h8, happ]
    constructor
    · rintro ⟨x, ⟨σ, τ, h1, h2, rfl⟩, rfl⟩
      exact ⟨σ, τ, h1, h2, rfl⟩
    · rintro ⟨σ, τ, h1, h2, rfl⟩
      exact ⟨_, ⟨σ, τ, h1, h2, rfl⟩, rfl⟩

/-- The hypotheses are met by the initial settings. -/
example : ∃ b, (init : Spawner ℝ).makeBox ⟨3, 4⟩ none 7 [] = ([b], .ok ()) ∧ b.centroid = ⟨3, 4⟩ ∧ b.mass = 4 := by
  obtain ⟨b, h1, h2, -, -, -, -, h7, -⟩ := C88_box (init : Spawner ℝ) ⟨3, 4⟩ none 7 [] ⟨2, 2⟩ rfl (by norm_num) (by norm_num [init])
  exact ⟨b, h1, h2, by rw [h7]; norm_num [init]⟩

theorem truncate_int (k : ℤ) : truncate k = k := by
  unfold truncate
  split
  · exact Int.floor_intCast k
  · exact Int.ceil_intCast k

theorem truncate_between {x : ℝ} (h0 : 0 ≤ x) (h1 : x ≤ 255) : 0 ≤ truncate x ∧ truncate x ≤ 255 := by
  unfold truncate
  rw [if_pos h0]
  refine ⟨Int.floor_nonneg.2 h0, ?_⟩
  have := Int.floor_le_floor h1
  have e : ⌊(255 : ℝ)⌋ = 255 := Int.floor_intCast 255
  omega

theorem channel_none (c : ℤ) (i : Fin 4) : channel c none i = c := by
  unfold channel
  have : ((if h : i.val < 3 then ((none : Option (Fin 3 → ℝ)).map fun e => e ⟨i.val, h⟩).getD (c / 255) else (c / 255 : ℝ)) * 255) = c := by
    split <;> simp
  rw [this]
  exact truncate_int c

theorem channel_range {c : ℤ} (hc : 0 ≤ c ∧ c ≤ 255) (edit : Option (Fin 3 → ℝ)) (he : ∀ e, edit = some e → ∀ i, 0 ≤ e i ∧ e i ≤ 1) (i : Fin 4) :
    0 ≤ channel c edit i ∧ channel c edit i ≤ 255 := by
  cases edit with
  | none => rw [channel_none]; exact hc
  | some e =>
    unfold channel
    by_cases h : i.val < 3
    · rw [dif_pos h]
      have := he e rfl ⟨i.val, h⟩
      apply truncate_between
      · simp only [Option.map_some, Option.getD_some]; linarith [this.1]
      · simp only [Option.map_some, Option.getD_some]; linarith [this.2]
    · rw [dif_neg h]
      have : (c / 255 : ℝ) * 255 = c := by ring
      rw [this, truncate_int]
      exact hc

/-- A frame with the window keeps the settings in range. -/
theorem doGui_range {s : Spawner ℝ} (h : s.InRange) {e : Edit} (he : e.Ranges) : (s.doGui e).InRange := by
  obtain ⟨h1, h2, h3, h4, h5⟩ := h
  obtain ⟨e1, e2, e3, e4, -, e6⟩ := he
  refine ⟨?_, ?_, ?_, ?_, fun i => channel_range (h5 i) e.rgb e6 i⟩
  · show 1 / 10 ≤ (e.dims.getD s.dims).x ∧ (e.dims.getD s.dims).x ≤ 50 ∧ 1 / 10 ≤ (e.dims.getD s.dims).y ∧ (e.dims.getD s.dims).y ≤ 50
    cases hd : e.dims with
    | none => exact h1
    | some d => exact e1 d hd
  · show 1 / 10 ≤ e.density.getD s.density ∧ e.density.getD s.density ≤ 100
    cases hd : e.density with
    | none => exact h2
    | some d => exact e2 d hd
  · show 0 ≤ e.friction.getD s.friction ∧ e.friction.getD s.friction ≤ 1
    cases hd : e.friction with
    | none => exact h3
    | some d => exact e3 d hd
  · show 0 ≤ e.bounciness.getD s.bounciness ∧ e.bounciness.getD s.bounciness ≤ 1
    cases hd : e.bounciness with
    | none => exact h4
    | some d => exact e4 d hd

theorem init_range : (init : Spawner ℝ).InRange := by
  refine ⟨?_, ?_, ?_, ?_, fun i => ?_⟩
  · norm_num [init]
  · norm_num [init]
  · norm_num [init]
  · norm_num [init]
  · fin_cases i <;> simp [init]

/-- C88: whatever the user does with the sliders and the mouse, no call fails, the settings stay in the ranges of the sliders, each click of the left button adds one body, and nothing else
changes the bodies of the world. -/
theorem C88_uses (s : Spawner ℝ) (hs : s.InRange) (world : List (Body ℝ)) (uses : List Use) (hu : ∀ e, Use.frame e ∈ uses → e.Ranges) :
    (s.uses world uses).2.2 ∧ (s.uses world uses).1.InRange ∧ ∃ new, (s.uses world uses).2.1 = world ++ new ∧ new.length = clicks uses ∧ ∀ b ∈ new, 0 < b.mass ∧ 0 < b.inertia := by
  induction uses generalizing s world with
  | nil => exact ⟨trivial, hs, [], by simp [Spawner.uses], rfl, by simp⟩
  | cons u uses ih =>
    have hu' : ∀ e, Use.frame e ∈ uses → e.Ranges := fun e he => hu e (List.mem_cons_of_mem _ he)
    cases u with
    | frame e =>
      have := ih (s.doGui e) (doGui_range hs (hu e List.mem_cons_self)) world hu'
      simpa only [Spawner.uses, clicks] using this
    | mouse a bt pos id =>
      by_cases hp : a = .press ∧ bt = .left
      · obtain ⟨rfl, rfl⟩ := hp
        have hx : 0 < s.dims.x := by linarith [hs.1.1]
        have hy : 0 < s.dims.y := by linarith [hs.1.2.2.1]
        have hdens : 0 < s.density := by linarith [hs.2.1.1]
        obtain ⟨b, h1, -, -, -, -, -, h7, h8, -⟩ := C88_box s pos none id world s.dims rfl (mul_pos hx hy).ne' hdens
        have hm : 0 < b.mass := by
          rw [h7]
          exact mul_pos hdens (abs_pos.2 (mul_pos hx hy).ne')
        have hI : 0 < b.inertia := by
          rw [h8]
          have := mul_pos hm (add_pos (mul_pos hx hx) (mul_pos hy hy))
          linarith
        have hr : s.onMousePress .press .left pos id world = (world ++ [b], .ok true) := by
          simp [onMousePress, h1, Outcome.bind]
        obtain ⟨k1, k2, new, k3, k4, k5⟩ := ih s hs (world ++ [b]) hu'
        simp only [Spawner.uses, hr, clicks]
        refine ⟨⟨⟨true, rfl⟩, k1⟩, k2, b :: new, by rw [k3]; simp, by simp [k4], fun c hc => ?_⟩
        rcases List.mem_cons.1 hc with rfl | hc
        · exact ⟨hm, hI⟩
        · exact k5 c hc
      · have hr : s.onMousePress a bt pos id world = (world, .ok false) := by
          simp only [onMousePress, if_neg hp]
        have hc : clicks (.mouse a bt pos id :: uses) = clicks uses := by
          cases a <;> cases bt <;> first | rfl | exact absurd ⟨rfl, rfl⟩ hp
        obtain ⟨k1, k2, k3⟩ := ih s hs world hu'
        rw [hc]
        simp only [Spawner.uses, hr]
        exact ⟨⟨⟨false, rfl⟩, k1⟩, k2, k3⟩

/-- The hypotheses are met: the density is set, then two clicks, and the release of the button in between. -/
example : ∃ new, ((init : Spawner ℝ).uses [] [.frame { density := some 3 }, .mouse .press .left 0 1, .mouse .release .left 0 2, .mouse .press .left ⟨5, 0⟩ 3]).2.1 = [] ++ new ∧ new.length = 2 := by
  obtain ⟨-, -, new, h, hn, -⟩ := C88_uses (init : Spawner ℝ) init_range [] [.frame { density := some 3 }, .mouse .press .left 0 1, .mouse .release .left 0 2, .mouse .press .left ⟨5, 0⟩ 3]
    (fun e he => by
      simp only [List.mem_cons, Use.frame.injEq, reduceCtorEq, List.not_mem_nil, or_false, or_self] at he
      subst he
      refine ⟨?_, ?_, ?_, ?_, ?_, ?_⟩ <;> intro _ h
      · cases h
      · cases h; norm_num
      · cases h
      · cases h
      · cases h
      · cases h)
  exact ⟨new, h, hn⟩

/-! ### The window -/

/-- The orientation that a whole number of degrees stands for. -/
theorem degreesShown_whole (s : Spawner ℝ) (d : ℤ) (h : s.orientation = d * Real.pi / 180) : s.degreesShown = d - 180 * (d / 360) := by
  have hpi : Real.pi ≠ 0 := Real.pi_ne_zero
  have hr : s.orientation / (2 * Real.pi) = ((d : ℚ) / 360 : ℚ) := by
    rw [h]; push_cast; field_simp; ring
  have hf : ⌊s.orientation / (2 * Real.pi)⌋ = d / 360 := by
    rw [hr, Rat.floor_cast]
    exact Rat.floor_intCast_div_natCast d 360
  unfold degreesShown
  simp only [hf]
  have : 180 * (s.orientation - ((d / 360 : ℤ) : ℝ) * Real.pi) / Real.pi = ((d - 180 * (d / 360) : ℤ) : ℝ) := by
    rw [h]; push_cast; field_simp
  rw [this, truncate_int]

/-- C88 (partial): a frame in which the user touches nothing changes no setting, if the orientation is a whole number of degrees from 0 to 359; it then shows this number. The full claim, for all
orientations, is false: `C88_disagreement`. -/
theorem C88_window_partial (s : Spawner ℝ) (d : ℤ) (h : s.orientation = d * Real.pi / 180) (h0 : 0 ≤ d) (h1 : d < 360) : s.doGui {} = s ∧ s.degreesShown = d := by
  have hd : s.degreesShown = d := by
    rw [degreesShown_whole s d h]
    omega
  refine ⟨?_, hd⟩
  unfold doGui
  simp only [Option.getD_none, hd, channel_none]
  rw [← h]

/-- The hypotheses are met by the initial settings, and by 45 degrees. -/
example : (init : Spawner ℝ).doGui {} = init ∧ (init.doGui { degrees := some 45 }).degreesShown = 45 :=
  ⟨(C88_window_partial init 0 (by norm_num [init]) le_rfl (by norm_num)).1, (C88_window_partial (init.doGui { degrees := some 45 }) 45 rfl (by norm_num) (by norm_num)).2⟩

/-- C88: what the user gives to a widget is what is set, and the other settings are not touched (the orientation apart). -/
theorem C88_edit (s : Spawner ℝ) (e : Edit) :
    (∀ d, e.dims = some d → (s.doGui e).dims = d) ∧ (e.dims = none → (s.doGui e).dims = s.dims) ∧
    (∀ d, e.density = some d → (s.doGui e).density = d) ∧ (e.density = none → (s.doGui e).density = s.density) ∧
    (∀ d, e.friction = some d → (s.doGui e).friction = d) ∧ (e.friction = none → (s.doGui e).friction = s.friction) ∧
    (∀ d, e.bounciness = some d → (s.doGui e).bounciness = d) ∧ (e.bounciness = none → (s.doGui e).bounciness = s.bounciness) ∧
    (∀ d : ℤ, e.degrees = some d → (s.doGui e).orientation = d * Real.pi / 180) ∧ (e.rgb = none → (s.doGui e).color = s.color) ∧ (s.doGui e).color 3 = s.color 3 ∧
    (s.doGui e).dominance = s.dominance := by
  refine ⟨?_, ?_, ?_, ?_, ?_, ?_, ?_, ?_, ?_, ?_, ?_, rfl⟩
  · intro d h; simp [doGui, h]
  · intro h; simp [doGui, h]
  · intro d h; simp [doGui, h]
  · intro h; simp [doGui, h]
  · intro d h; simp [doGui, h]
  · intro h; simp [doGui, h]
  · intro d h; simp [doGui, h]
  · intro h; simp [doGui, h]
  · intro d h; simp [doGui, h]
  · intro h; funext i; simp only [doGui, h, channel_none]
  · show channel (s.color 3) e.rgb 3 = s.color 3
    have : channel (s.color 3) e.rgb 3 = channel (s.color 3) none 3 := by
      unfold channel
      rw [dif_neg (by decide), dif_neg (by decide)]
    rw [this, channel_none]

example : ((init : Spawner ℝ).doGui { degrees := some (-90) }).orientation = (-90 : ℤ) * Real.pi / 180 := (C88_edit (init : Spawner ℝ) { degrees := some (-90) }).2.2.2.2.2.2.2.2.1 _ rfl

/-- Turning a box by half turns gives the same box. -/
theorem isBox_half_turns {vertices : List (Vec2 ℝ)} {pos dims : Vec2 ℝ} {o : ℝ} (k : ℤ) (h : IsBox vertices pos dims (Real.cos o) (Real.sin o)) :
    IsBox vertices pos dims (Real.cos (o + k * Real.pi)) (Real.sin (o + k * Real.pi)) := by
  refine ⟨h.1, fun v => (h.2 v).trans ?_⟩
  have hc : Real.cos (o + k * Real.pi) = (-1) ^ k * Real.cos o := Real.cos_add_int_mul_pi o k
  have hs : Real.sin (o + k * Real.pi) = (-1) ^ k * Real.sin o := Real.sin_add_int_mul_pi o k
  rcases Int.even_or_odd k with hk | hk
  · rw [hc, hs, hk.neg_one_zpow, one_mul, one_mul]
  · rw [hc, hs, hk.neg_one_zpow]
    have key : ∀ σ τ : ℝ, rotateAbout (Real.cos o) (Real.sin o) pos ⟨pos.x + σ * (dims.x / 2), pos.y + τ * (dims.y / 2)⟩ =
        rotateAbout (-1 * Real.cos o) (-1 * Real.sin o) pos ⟨pos.x + -σ * (dims.x / 2), pos.y + -τ * (dims.y / 2)⟩ := by
      intro σ τ
      ext <;> simp [rotateAbout]
    have hneg : ∀ σ : ℝ, σ = 1 ∨ σ = -1 → -σ = 1 ∨ -σ = -1 := by
      rintro σ (rfl | rfl)
      · right; rfl
      · left; norm_num
    constructor
    · rintro ⟨σ, τ, h1, h2, rfl⟩
      exact ⟨-σ, -τ, hneg σ h1, hneg τ h2, key σ τ⟩
    · rintro ⟨σ, τ, h1, h2, rfl⟩
      exact ⟨-σ, -τ, hneg σ h1, hneg τ h2, by rw [key (-σ) (-τ), neg_neg, neg_neg]⟩

/-- C88: for all whole numbers of degrees, a frame in which the user touches nothing at least does not change which boxes are made: the orientation changes by half turns only. -/
theorem C88_same_box (s : Spawner ℝ) (d : ℤ) (h : s.orientation = d * Real.pi / 180) (vertices : List (Vec2 ℝ)) (pos dims : Vec2 ℝ)
    (hb : IsBox vertices pos dims (Real.cos s.orientation) (Real.sin s.orientation)) : IsBox vertices pos dims (Real.cos (s.doGui {}).orientation) (Real.sin (s.doGui {}).orientation) := by
  have e : (s.doGui {}).orientation = s.orientation + ((-(d / 360) : ℤ) : ℝ) * Real.pi := by
    show ((Option.getD none s.degreesShown : ℤ) : ℝ) * Real.pi / 180 = _
    rw [Option.getD_none, degreesShown_whole s d h, h]
    push_cast
    ring
  rw [e]
  exact isBox_half_turns _ hb

/-- The hypotheses are met: a box made at -90 degrees is one at 90 degrees. -/
example : ∃ c : Collider ℝ, IsBox c.geom.transformed 0 ⟨2, 2⟩ (Real.cos ((init.doGui { degrees := some (-90) }).doGui {}).orientation) (Real.sin ((init.doGui { degrees := some (-90) }).doGui {}).orientation) := by
  obtain ⟨b, -, -, -, -, -, -, -, -, c, -, -, -, hc, -⟩ := C88_box (init.doGui { degrees := some (-90) }) 0 none 7 [] ⟨2, 2⟩ rfl (by norm_num) (by norm_num [init, doGui])
  exact ⟨c, C88_same_box _ (-90) rfl _ _ _ hc⟩

/-- C88, disagreement: the slider goes from -180 to 180 degrees, but -90 degrees, once chosen, is 90 degrees in the next frame, although the user touched nothing (half turns are taken away instead
of full ones). And an orientation that is not a whole number of degrees is changed by the window being open. -/
theorem C88_disagreement :
    (init.doGui { degrees := some (-90) }).orientation = -(Real.pi / 2) ∧ ((init.doGui { degrees := some (-90) }).doGui {}).orientation = Real.pi / 2 ∧
    ({ init with orientation := Real.pi / 360 : Spawner ℝ }.doGui {}).orientation = 0 := by
  have hpi := Real.pi_pos
  refine ⟨?_, ?_, ?_⟩
  · show ((-90 : ℤ) : ℝ) * Real.pi / 180 = _
    push_cast
    ring
  · show ((Option.getD none (init.doGui { degrees := some (-90) }).degreesShown : ℤ) : ℝ) * Real.pi / 180 = _
    rw [Option.getD_none, degreesShown_whole _ (-90) rfl]
    norm_num
    ring
  · show ((Option.getD none ({ init with orientation := Real.pi / 360 : Spawner ℝ }).degreesShown : ℤ) : ℝ) * Real.pi / 180 = _
    have : ({ init with orientation := Real.pi / 360 : Spawner ℝ }).degreesShown = 0 := by
      unfold degreesShown
      have h1 : Real.pi / 360 / (2 * Real.pi) = 1 / 720 := by field_simp; norm_num
      have h2 : ⌊(1 / 720 : ℝ)⌋ = 0 := by rw [Int.floor_eq_zero_iff]; constructor <;> norm_num
      simp only [h1, h2]
      have h3 : 180 * (Real.pi / 360 - ((0 : ℤ) : ℝ) * Real.pi) / Real.pi = 1 / 2 := by push_cast; field_simp; norm_num
      rw [h3]
      unfold truncate
      rw [if_pos (by norm_num), Int.floor_eq_zero_iff]
      constructor <;> norm_num
    rw [Option.getD_none, this]
    simp

end Spawner
end Simu
