import Verif.Model.Demos
import Verif.Spec.Demos
import Verif.Lemmas.BodyHistory
import Verif.Props.Spawner
/-
Lemmas on the bodies of the demonstration scenes.
-/
namespace Simu
namespace Demos

theorem apart_of_lies {b b' : Body ℝ} {l r d u l' r' d' u' : ℝ} (h : LiesIn b l r d u) (h' : LiesIn b' l' r' d' u') (hs : r ≤ l' ∨ r' ≤ l ∨ u ≤ d' ∨ u' ≤ d) : NoOverlap b b' := by
  intro c hc c' hc'
  rcases hs with hs | hs | hs | hs
  · refine ⟨⟨1, 0⟩, by intro e; have := congrArg Vec2.x e; simp at this, fun v hv w hw => ?_⟩
    have := (h c hc v hv).1
    have := (h' c' hc' w hw).1
    simp only [Vec2.dot_def, Vec2.sub_x, Vec2.sub_y, Vec2.add_x, Vec2.add_y, Vec2.zero_x, Vec2.zero_y]
    linarith
  · refine ⟨⟨-1, 0⟩, by intro e; have := congrArg Vec2.x e; simp at this, fun v hv w hw => ?_⟩
    have := (h c hc v hv).1
    have := (h' c' hc' w hw).1
    simp only [Vec2.dot_def, Vec2.sub_x, Vec2.sub_y, Vec2.add_x, Vec2.add_y, Vec2.zero_x, Vec2.zero_y]
    linarith
  · refine ⟨⟨0, 1⟩, by intro e; have := congrArg Vec2.y e; simp at this, fun v hv w hw => ?_⟩
    have := (h c hc v hv).2
    have := (h' c' hc' w hw).2
    simp only [Vec2.dot_def, Vec2.sub_x, Vec2.sub_y, Vec2.add_x, Vec2.add_y, Vec2.zero_x, Vec2.zero_y]
    linarith
  · refine ⟨⟨0, -1⟩, by intro e; have := congrArg Vec2.y e; simp at this, fun v hv w hw => ?_⟩
    have := (h c hc v hv).2
    have := (h' c' hc' w hw).2
    simp only [Vec2.dot_def, Vec2.sub_x, Vec2.sub_y, Vec2.add_x, Vec2.add_y, Vec2.zero_x, Vec2.zero_y]
    linarith

/-- The piece can be made, and its body lies in the rectangle. -/
def Fits (p : Piece) (l r d u : ℝ) : Prop :=
  ∀ id, ∃ b, p.make id = .ok b ∧ LiesIn b l r d u ∧ b.velocity = p.velocity.getD 0 ∧ b.angular = 0 ∧ b.dominance = p.dominance ∧ 0 < b.mass ∧ b.colliders.list.length = 1

theorem make_valid (p : Piece) (vs : List (Vec2 ℝ)) (P : Polygon ℝ) (hp : p.polygon = .ok P) (hvs : Polygon.mk' vs = .ok P) (hd : P.properties.isDegenerate = false)
    (hdens : 0 < p.material.density) (id : Nat) :
    ∃ b c, p.make id = .ok b ∧ b.velocity = p.velocity.getD 0 ∧ b.angular = 0 ∧ b.dominance = p.dominance ∧ 0 < b.mass ∧ b.colliders.list = [c] ∧
      c.geom.transformed = P.vertices.map b.position.toWorldSpace.app ∧ b.position = (Position.make p.position p.orientation 0).setLocalCentroid b.position.localCentroid.offset ∧
      b.position.localCentroid.offset = P.properties.centroid := by
  have hv : ValidDescriptor P.vertices p.material := ⟨hdens, vs, P, hvs, hd, rfl⟩
  have hinv : (Body.born p.position p.orientation p.dominance).Inv [] := ⟨⟨.nil, rfl⟩, fun h => absurd rfl h, .ofAngle _, rfl⟩
  obtain ⟨q, a1, a2, a3, a4, a5, a6, a7, a8⟩ := Body.addCollider_ok hinv id hv
  obtain ⟨Q, k1, -, k3, -⟩ := C15_polygon vs (by
    by_contra hc
    rw [C15_too_few vs (by omega)] at hvs
    cases hvs)
  rw [hvs] at k1
  obtain rfl : P = Q := Outcome.ok.inj k1
  have hq : q.centroid = P.properties.centroid := by
    have := a3.1
    simp only [Collider.properties, MassProperties.ofGeometry, ColliderGeom.make, k3, hd, Outcome.check, hdens, decide_true, Outcome.bind, Bool.not_false, if_true] at this
    rw [← Outcome.ok.inj this]
  set b := ((Body.born p.position p.orientation p.dominance).addCollider id P.vertices p.material).1 with hb
  have hcomb := a2.colliders.isCombination
  have hpm := hcomb.mass
  have hpx := hcomb.momentX
  have hpy := hcomb.momentY
  simp only [List.nil_append, totalMass, firstMomentX, firstMomentY, List.map_cons, List.map_nil, List.sum_cons, List.sum_nil, add_zero] at hpm hpx hpy
  have hmpos : 0 < b.colliders.properties.m := by rw [hpm]; exact a3.2.1
  have hcx : b.colliders.properties.centroid = P.properties.centroid := by
    rw [← hq]
    rw [hpm] at hpx hpy
    ext
    · exact mul_left_cancel₀ a3.2.1.ne' hpx
    · exact mul_left_cancel₀ a3.2.1.ne' hpy
  have hlist : b = (({ Body.born p.position p.orientation p.dominance with colliders := ((Body.born p.position p.orientation p.dominance).colliders.add id P.vertices p.material).1 } : Body ℝ).recenter
        (Body.born p.position p.orientation p.dominance).centroid) := by
    rw [hb]
    unfold Body.addCollider
    have : ((Body.born p.position p.orientation p.dominance).colliders.add id P.vertices p.material).2 = .ok () := by simp [Colliders.add, a3.1]
    simp only [this]
    simp [Body.born]
  have hone : ∃ f, b.colliders.list = [⟨id, (ColliderGeom.make P.vertices).update f, p.material⟩] := by
    have hl := Body.add_list (Body.born p.position p.orientation p.dominance).colliders id P.vertices p.material
    have he : (Body.born p.position p.orientation p.dominance).colliders.list = [] := rfl
    rw [he, List.nil_append] at hl
    rw [hlist]
    obtain ⟨f, hf⟩ := Body.recenter_list ({ Body.born p.position p.orientation p.dominance with
      colliders := ((Body.born p.position p.orientation p.dominance).colliders.add id P.vertices p.material).1 } : Body ℝ) (Body.born p.position p.orientation p.dominance).centroid
    dsimp only at hf
    rw [hl] at hf
    exact ⟨f, hf⟩
  obtain ⟨f, hg⟩ := hone
  have hsync := a4 _ (by rw [hg]; exact List.mem_cons_self)
  have hoff : b.position.localCentroid.offset = P.properties.centroid := by rw [a8]; exact hcx
  have hpos : b.position = (Position.make p.position p.orientation 0).setLocalCentroid b.position.localCentroid.offset := by
    conv_lhs => rw [a8]
    rw [hoff, hcx]
    rfl
  have hmk : p.make id = .ok (match p.velocity with | some v => b.setVelocity v | none => b) := by
    simp only [Piece.make, hp, Outcome.bind, a1]
    rfl
  cases hvel : p.velocity with
  | none =>
    refine ⟨b, _, by rw [hmk, hvel], a5, a6, a7, hmpos, hg, ?_, hpos, hoff⟩
    exact hsync.1
  | some v =>
    refine ⟨b.setVelocity v, _, by rw [hmk, hvel], rfl, a6, a7, hmpos, hg, ?_, hpos, hoff⟩
    exact hsync.1

theorem build_apart {ps : List Piece} (hfit : ∀ p ∈ ps, ∃ l r d u, Fits p l r d u)
    (h : ps.Pairwise fun p q => ∃ l r d u l' r' d' u', Fits p l r d u ∧ Fits q l' r' d' u' ∧ (r ≤ l' ∨ r' ≤ l ∨ u ≤ d' ∨ u' ≤ d)) (id : Nat) :
    ∃ bs, build id ps = .ok bs ∧ List.Forall₂ (fun (p : Piece) (b : Body ℝ) => ∃ k, p.make k = .ok b) ps bs ∧ bs.Pairwise NoOverlap := by
  induction ps generalizing id with
  | nil => exact ⟨[], rfl, .nil, .nil⟩
  | cons p ps ih =>
    obtain ⟨hp, hps⟩ := List.pairwise_cons.1 h
    obtain ⟨bs, h1, h2, h3⟩ := ih (fun q hq => hfit q (List.mem_cons_of_mem _ hq)) hps (id + 1)
    obtain ⟨l, r, d, u, hf⟩ := hfit p List.mem_cons_self
    obtain ⟨b, hb, _⟩ := hf id
    refine ⟨b :: bs, by simp only [build, hb, h1, Outcome.bind], .cons ⟨id, hb⟩ h2, List.pairwise_cons.2 ⟨fun b' hb' => ?_, h3⟩⟩
    obtain ⟨q, hq, k, hk⟩ : ∃ q ∈ ps, ∃ k, q.make k = .ok b' := by
      clear hp hps ih h h1 h3 hfit
      induction h2 with
      | nil => cases hb'
      | cons hx _ ihx =>
        rcases List.mem_cons.1 hb' with rfl | hb'
        · exact ⟨_, List.mem_cons_self, hx⟩
        · obtain ⟨q, hq, h⟩ := ihx hb'
          exact ⟨q, List.mem_cons_of_mem _ hq, h⟩
    obtain ⟨l, r, d, u, l', r', d', u', f1, f2, hs⟩ := hp q hq
    obtain ⟨b1, e1, g1, _⟩ := f1 id
    obtain ⟨b2, e2, g2, _⟩ := f2 k
    rw [hb] at e1
    rw [hk] at e2
    obtain rfl : b = b1 := Outcome.ok.inj e1
    obtain rfl : b' = b2 := Outcome.ok.inj e2
    exact apart_of_lies g1 g2 hs

/-- What `Polygon::box` gives, around any centre. -/
theorem box_around {dims : Vec2 ℝ} (center : Vec2 ℝ) (hx : 0 < dims.x) (hy : 0 < dims.y) :
    ∃ P vs, Polygon.box dims center = .ok P ∧ Polygon.mk' vs = .ok P ∧ P.properties.isDegenerate = false ∧ P.properties.centroid = center ∧
      ∀ v ∈ P.vertices, (center.x - dims.x / 2 ≤ v.x ∧ v.x ≤ center.x + dims.x / 2) ∧ center.y - dims.y / 2 ≤ v.y ∧ v.y ≤ center.y + dims.y / 2 := by
  obtain ⟨P, h1, h2, h3, h4, h5, h6, -⟩ := C15_box dims center (mul_pos hx hy).ne'
  have h1' := h1
  unfold Polygon.box at h1'
  dsimp only at h1'
  obtain ⟨Q, k1, k2, -⟩ := C15_polygon [center + ⟨-(dims.x / 2), -(dims.y / 2)⟩, center + ⟨dims.x / 2, -(dims.y / 2)⟩, center + ⟨dims.x / 2, dims.y / 2⟩, center + ⟨-(dims.x / 2), dims.y / 2⟩] (by simp)
  rw [h1'] at k1
  obtain rfl : P = Q := Outcome.ok.inj k1
  refine ⟨P, _, h1, h1', h5, h3, fun v hv => ?_⟩
  have hm : v ∈ [center + ⟨-(dims.x / 2), -(dims.y / 2)⟩, center + ⟨dims.x / 2, -(dims.y / 2)⟩, center + ⟨dims.x / 2, dims.y / 2⟩, center + ⟨-(dims.x / 2), dims.y / 2⟩] := by
    rcases k2 with k | k
    · rw [← k]; exact hv
    · rw [k, List.mem_reverse] at hv; exact hv
  simp only [List.mem_cons, List.not_mem_nil, or_false] at hm
  rcases hm with rfl | rfl | rfl | rfl <;> simp only [Vec2.add_x, Vec2.add_y] <;> refine ⟨⟨?_, ?_⟩, ?_, ?_⟩ <;> linarith

theorem app_flat (p c x : Vec2 ℝ) : ((Position.make p 0 0).setLocalCentroid c).toWorldSpace.app x = x + p := by
  ext <;> simp [Position.setLocalCentroid, Position.toWorldSpace, Transform.app, Transform.mulTranslation, Translation.mulRotation, Translation.mul, Translation.inverse, Rotation.app,
    Rotation.ofAngle, Position.make, Trig.cos, Trig.sin] <;> ring

theorem app_quarter (p x : Vec2 ℝ) : ((Position.make p (Real.pi / 2) 0).setLocalCentroid 0).toWorldSpace.app x = ⟨p.x - x.y, p.y + x.x⟩ := by
  ext <;> simp [Position.setLocalCentroid, Position.toWorldSpace, Transform.app, Transform.mulTranslation, Translation.mulRotation, Translation.mul, Translation.inverse, Rotation.app,
    Rotation.ofAngle, Position.make, Trig.cos, Trig.sin] <;> ring

/-- Pieces that are not turned. -/
theorem fits_flat (p : Piece) (vs : List (Vec2 ℝ)) (P : Polygon ℝ) (hp : p.polygon = .ok P) (hvs : Polygon.mk' vs = .ok P) (hd : P.properties.isDegenerate = false)
    (hdens : 0 < p.material.density) (ho : p.orientation = 0) {l r d u : ℝ} (hv : ∀ v ∈ P.vertices, (l ≤ v.x + p.position.x ∧ v.x + p.position.x ≤ r) ∧ d ≤ v.y + p.position.y ∧ v.y + p.position.y ≤ u) :
    Fits p l r d u := by
  intro id
  obtain ⟨b, c, h1, h2, h3, h4, h5, h6, h7, h8, _⟩ := make_valid p vs P hp hvs hd hdens id
  refine ⟨b, h1, fun c' hc' v hv' => ?_, h2, h3, h4, h5, by rw [h6]; rfl⟩
  rw [h6, List.mem_singleton] at hc'
  subst hc'
  rw [h7, List.mem_map] at hv'
  obtain ⟨x, hx, rfl⟩ := hv'
  rw [h8, ho, app_flat]
  exact hv x hx

theorem fits_box (p : Piece) (dims center : Vec2 ℝ) (hx : 0 < dims.x) (hy : 0 < dims.y) (hp : p.polygon = Polygon.box dims center) (hdens : 0 < p.material.density) (ho : p.orientation = 0) :
    Fits p (p.position.x + center.x - dims.x / 2) (p.position.x + center.x + dims.x / 2) (p.position.y + center.y - dims.y / 2) (p.position.y + center.y + dims.y / 2) := by
  obtain ⟨P, vs, h1, h2, h3, _, h5⟩ := box_around center hx hy
  refine fits_flat p vs P (hp.trans h1) h2 h3 hdens ho fun v hv => ?_
  obtain ⟨⟨a, b⟩, c, d⟩ := h5 v hv
  refine ⟨⟨?_, ?_⟩, ?_, ?_⟩ <;> linarith

theorem fits_spawned (pos dims : Vec2 ℝ) (hx : 0 < dims.x) (hy : 0 < dims.y) :
    Fits (spawned pos dims) (pos.x - dims.x / 2) (pos.x + dims.x / 2) (pos.y - dims.y / 2) (pos.y + dims.y / 2) := by
  have := fits_box (spawned pos dims) dims 0 hx hy rfl (by norm_num [spawned, material]) rfl
  simpa [spawned] using this

theorem fits_ground (dims center : Vec2 ℝ) (hx : 0 < dims.x) (hy : 0 < dims.y) :
    Fits (ground dims center) (center.x - dims.x / 2) (center.x + dims.x / 2) (center.y - dims.y / 2) (center.y + dims.y / 2) := by
  have := fits_box (ground dims center) dims center hx hy rfl (by norm_num [ground, material]) rfl
  simpa [ground] using this

theorem slab_box (pos : Vec2 ℝ) (vertical : Bool) : (slab pos vertical).polygon = Polygon.box ⟨if vertical then 5 else 10, 1⟩ 0 := by
  have e : ∀ x y : ℝ, (0 : Vec2 ℝ) + ⟨x, y⟩ = ⟨x, y⟩ := fun x y => by ext <;> simp
  cases vertical <;> simp only [slab, Polygon.box, e, neg_div] <;> norm_num

theorem fits_slab_flat (pos : Vec2 ℝ) : Fits (slab pos false) (pos.x - 5) (pos.x + 5) (pos.y - 1 / 2) (pos.y + 1 / 2) := by
  have := fits_box (slab pos false) ⟨10, 1⟩ 0 (by norm_num) (by norm_num) (by rw [slab_box]; rfl) (by norm_num [slab, material]) rfl
  have e : (slab pos false).position = pos := rfl
  rw [e] at this
  simp only [Vec2.zero_x, Vec2.zero_y, add_zero] at this
  norm_num at this ⊢
  exact this

theorem fits_slab_up (pos : Vec2 ℝ) : Fits (slab pos true) (pos.x - 1 / 2) (pos.x + 1 / 2) (pos.y - 5 / 2) (pos.y + 5 / 2) := by
  intro id
  obtain ⟨P, vs, h1, h2, h3, h4, h5⟩ := box_around (dims := ⟨5, 1⟩) (0 : Vec2 ℝ) (by norm_num) (by norm_num)
  obtain ⟨b, c, k1, k2, k3, k4, k5, k6, k7, k8, k9⟩ := make_valid (slab pos true) vs P ((slab_box pos true).trans h1) h2 h3 (by norm_num [slab, material]) id
  refine ⟨b, k1, fun c' hc' v hv' => ?_, k2, k3, k4, k5, by rw [k6]; rfl⟩
  rw [k6, List.mem_singleton] at hc'
  subst hc'
  rw [k7, List.mem_map] at hv'
  obtain ⟨x, hx, rfl⟩ := hv'
  have ho : (slab pos true).orientation = Real.pi / 2 := rfl
  have hq : (slab pos true).position = pos := rfl
  rw [k8, k9, h4, ho, hq, app_quarter]
  obtain ⟨⟨a1, a2⟩, a3, a4⟩ := h5 x hx
  simp only [Vec2.zero_x, Vec2.zero_y] at a1 a2 a3 a4 ⊢
  refine ⟨⟨?_, ?_⟩, ?_, ?_⟩ <;> linarith

/-- A regular polygon has a surface. -/
theorem circle_valid {radius : ℝ} (hr : 0 < radius) {precision : Nat} (hn : 3 ≤ precision) :
    ∃ P, Polygon.mk' (circle radius precision) = .ok P ∧ P.properties.isDegenerate = false ∧ ∀ v ∈ P.vertices, (-radius ≤ v.x ∧ v.x ≤ radius) ∧ -radius ≤ v.y ∧ v.y ≤ radius := by
  obtain ⟨n, rfl⟩ : ∃ n, precision = n + 1 := ⟨precision - 1, by omega⟩
  obtain ⟨P, h1, h2, h3, -, -⟩ := C15_polygon (circle radius (n + 1)) (by simpa [circle] using hn)
  have hin : ∀ v ∈ P.vertices, v ∈ circle radius (n + 1) := fun v hv => by
    rcases h2 with h | h
    · rwa [h] at hv
    · rw [h, List.mem_reverse] at hv; exact hv
  refine ⟨P, h1, ?_, fun v hv => ?_⟩
  · -- the area is that of `n + 1` equal triangles
    have hof := of_ofFn (K := ℝ) fun i : Fin (n + 1) => radius • (⟨Real.cos ((i.val + 1) * (2 * Real.pi / (n + 1 : ℕ))), Real.sin ((i.val + 1) * (2 * Real.pi / (n + 1 : ℕ)))⟩ : Vec2 ℝ)
    set v := fun i : Fin (n + 1) => radius • (⟨Real.cos ((i.val + 1) * (2 * Real.pi / (n + 1 : ℕ))), Real.sin ((i.val + 1) * (2 * Real.pi / (n + 1 : ℕ)))⟩ : Vec2 ℝ) with hv
    have harea : cyc aTerm v = (n + 1) * (radius * radius * Real.sin (2 * Real.pi / (n + 1 : ℕ))) := by
      have hterm : ∀ i : Fin (n + 1), aTerm (v (i - 1)) (v i) = radius * radius * Real.sin (2 * Real.pi / (n + 1 : ℕ)) := by
        intro i
        set t : ℝ := 2 * Real.pi / (n + 1 : ℕ) with ht
        have hprev : v (i - 1) = radius • (⟨Real.cos (i.val * t), Real.sin (i.val * t)⟩ : Vec2 ℝ) := by
          by_cases h0 : i = 0
          · subst h0
            have e : ((0 - 1 : Fin (n + 1)).val : ℝ) = n := by
              have : (0 - 1 : Fin (n + 1)) = Fin.last n := by
                rw [sub_eq_iff_eq_add]
                exact (Fin.last_add_one n).symm
              rw [this]; simp
            have e2 : ((n : ℝ) + 1) * t = 2 * Real.pi := by
              rw [ht]; push_cast
              have : (n : ℝ) + 1 ≠ 0 := by positivity
              field_simp
            simp only [hv, e, e2, Fin.val_zero, Nat.cast_zero, zero_mul, Real.cos_two_pi, Real.sin_two_pi, Real.cos_zero, Real.sin_zero]
          · have e : ((i - 1 : Fin (n + 1)).val : ℝ) + 1 = i.val := by
              have h1 : (i - 1 : Fin (n + 1)).val = i.val - 1 := Fin.val_sub_one_of_ne_zero h0
              have h2 : 0 < i.val := Nat.pos_of_ne_zero fun h => h0 (Fin.ext h)
              rw [h1]
              have : i.val - 1 + 1 = i.val := by omega
              exact_mod_cast this
            simp only [hv, e]
        rw [hprev]
        have hadd : ((i.val : ℝ) + 1) * t = i.val * t + t := by ring
        simp only [hv, aTerm, Vec2.cross, Vec2.smul_x, Vec2.smul_y, hadd, Real.cos_add, Real.sin_add]
        have := Real.sin_sq_add_cos_sq (i.val * t)
        linear_combination (radius * radius * Real.sin t) * this
      unfold cyc
      rw [Finset.sum_congr rfl fun i _ => hterm i, Finset.sum_const, Finset.card_univ, Fintype.card_fin, nsmul_eq_mul]
      push_cast
      ring
    have hpos : cyc aTerm v ≠ 0 := by
      rw [harea]
      have h3 : (3 : ℝ) ≤ (n + 1 : ℕ) := by exact_mod_cast hn
      have hs : 0 < Real.sin (2 * Real.pi / (n + 1 : ℕ)) := by
        apply Real.sin_pos_of_pos_of_lt_pi
        · have := Real.pi_pos; positivity
        · rw [div_lt_iff₀ (by linarith)]
          nlinarith [Real.pi_pos]
      have : 0 < ((n : ℝ) + 1) * (radius * radius * Real.sin (2 * Real.pi / (n + 1 : ℕ))) := by positivity
      exact this.ne'
    have hnd : (propsOf (cyc aTerm v) (cyc cTerm v) (cyc mTerm v)).isDegenerate = false := by
      rw [Bool.eq_false_iff]
      intro h
      exact hpos ((propsOf_degenerate _ _ _).1 h)
    have hmk : Polygon.mk' (circle radius (n + 1)) = if (propsOf (cyc aTerm v) (cyc cTerm v) (cyc mTerm v)).area < 0 then
        .ok ⟨{ propsOf (cyc aTerm v) (cyc cTerm v) (cyc mTerm v) with area := (propsOf (cyc aTerm v) (cyc cTerm v) (cyc mTerm v)).area * -1 }, (circle radius (n + 1)).reverse⟩
        else .ok ⟨propsOf (cyc aTerm v) (cyc cTerm v) (cyc mTerm v), circle radius (n + 1)⟩ := by
      have hl : 3 ≤ (circle radius (n + 1)).length := by simpa [circle] using hn
      have hof' : GeometricProperties.of (circle radius (n + 1)) = .ok (propsOf (cyc aTerm v) (cyc cTerm v) (cyc mTerm v)) := hof
      unfold Polygon.mk'
      rw [hof']
      simp only [Outcome.check, hl, decide_true, if_true, Outcome.bind_ok]
    rw [hmk] at h1
    by_cases ha : (propsOf (cyc aTerm v) (cyc cTerm v) (cyc mTerm v)).area < 0
    · rw [if_pos ha] at h1
      rw [← Outcome.ok.inj h1]
      exact hnd
    · rw [if_neg ha] at h1
      rw [← Outcome.ok.inj h1]
      exact hnd
  · have := hin v hv
    simp only [circle, List.mem_ofFn] at this
    obtain ⟨i, rfl⟩ := this
    simp only [Vec2.smul_x, Vec2.smul_y]
    have c1 := Real.neg_one_le_cos ((i.val + 1) * (2 * Real.pi / (n + 1 : ℕ)))
    have c2 := Real.cos_le_one ((i.val + 1) * (2 * Real.pi / (n + 1 : ℕ)))
    have s1 := Real.neg_one_le_sin ((i.val + 1) * (2 * Real.pi / (n + 1 : ℕ)))
    have s2 := Real.sin_le_one ((i.val + 1) * (2 * Real.pi / (n + 1 : ℕ)))
    refine ⟨⟨?_, ?_⟩, ?_, ?_⟩ <;> nlinarith

end Demos
end Simu
