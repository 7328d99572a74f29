import Verif.Lemmas.Triangulated
import Verif.Props.Body
/-
C71: the mass properties of loops cut into triangles.
-/
namespace Simu
variable {K : Type*} [Field K] [LinearOrder K] [IsStrictOrderedRing K]

/-- C71: for a loop (convex or not) cut into positively oriented triangles, the area is positive and the sum of theirs, the centroid is inside the hull and is the mean of theirs,
the moment is positive and the sum of theirs about it. -/
theorem C71_geometry (l : List (Vec2 K)) (ts : List (Vec2 K × Vec2 K × Vec2 K)) (h : Triangulated l ts) :
    ∃ g, GeometricProperties.of l = .ok g ∧ g.isDegenerate = false ∧
      g.area = sumTri triArea ts ∧ 0 < g.area ∧
      g.area • g.centroid = sumTri (fun a b c => triArea a b c • triCentroid a b c) ts ∧ Hull l g.centroid ∧
      g.momentOfArea = sumTri (fun a b c => triMoment a b c + triArea a b c * distSq (triCentroid a b c) g.centroid) ts ∧ 0 < g.momentOfArea := by
  have T := h.tris
  have hS : 0 < sumTri (K := K) triArea ts := sumTri_pos T.1 fun u hu => by have := (T.2 u hu).1; unfold triArea; linarith
  have eA : loopSum aTerm l = sumTri triArea ts * 2 := by
    rw [h.sum _ fun a b => by simp [aTerm, Vec2.cross]; ring, ← sumTri_mul]
    exact sumTri_congr (fun a b c => by simp [triArea, twiceArea, aTerm, Vec2.cross]; ring) _
  have eC : loopSum cTerm l = (6 : K) • sumTri (fun a b c => triArea a b c • triCentroid a b c) ts := by
    rw [h.sum _ fun a b => by ext <;> simp [cTerm, Vec2.cross] <;> ring, ← sumTri_smul]
    exact sumTri_congr (fun a b c => by ext <;> simp [triArea, triCentroid, twiceArea, cTerm, Vec2.cross] <;> ring) _
  set S := sumTri triArea ts with hSd
  set C := sumTri (fun a b c => triArea a b c • triCentroid a b c) ts with hC
  have key : ∀ c : Vec2 K, sumTri (fun x y z => triMoment x y z + triArea x y z * distSq (triCentroid x y z) c) ts =
      loopSum mTerm l / 12 - 2 * Vec2.dot C c + S * Vec2.normSquared c := by
    intro c
    rw [h.sum mTerm fun a b => by simp [mTerm, Vec2.cross, Vec2.normSquared, Vec2.dot]; ring]
    rw [div_eq_mul_inv, hSd, hC, ← sumTri_dot, ← sumTri_mul, ← sumTri_mul, sub_eq_add_neg, ← mul_neg_one (2 * _), mul_comm 2 _, mul_assoc, ← sumTri_mul, ← sumTri_add, ← sumTri_add]
    exact sumTri_congr (fun a b c => by
      simp [triMoment, triArea, triCentroid, twiceArea, distSq, mTerm, Vec2.cross, Vec2.dot, Vec2.normSquared]; ring) _
  have hcent : Vec2.sdiv (loopSum cTerm l) (6 * (loopSum aTerm l / 2)) = S⁻¹ • C := by
    rw [eA, eC]; ext <;> simp only [Vec2.sdiv_x, Vec2.sdiv_y, Vec2.smul_x, Vec2.smul_y] <;> field_simp
  have hmom : loopSum mTerm l / 12 - loopSum aTerm l / 2 * Vec2.normSquared (S⁻¹ • C) =
      sumTri (fun x y z => triMoment x y z + triArea x y z * distSq (triCentroid x y z) (S⁻¹ • C)) ts := by
    rw [key, eA]
    simp only [Vec2.normSquared, Vec2.dot, Vec2.smul_x, Vec2.smul_y]
    field_simp
    ring
  have hpos : 0 < sumTri (fun x y z => triMoment x y z + triArea x y z * distSq (triCentroid x y z) (S⁻¹ • C)) ts := by
    refine sumTri_pos T.1 fun u hu => ?_
    have h1 := (T.2 u hu).1
    have h2 : 0 < triArea u.1 u.2.1 u.2.2 := by unfold triArea; linarith
    exact add_pos_of_pos_of_nonneg (triMoment_pos h1) (mul_nonneg h2.le (distSq_nonneg' _ _))
  refine ⟨_, of_loop h.ne_nil, ?_⟩
  rw [finish_nondegenerate _ _ _ (by rw [eA]; positivity), hcent, hmom, abs_of_pos hpos]
  have hA2 : loopSum aTerm l / 2 = S := by rw [eA]; ring
  simp only [hA2]
  refine ⟨trivial, trivial, hS, ?_, hull_sumTri T, trivial, hpos⟩
  ext <;> simp only [Vec2.smul_x, Vec2.smul_y] <;> field_simp

/-- Strictly convex polygons are cut into triangles by the diagonals from their first vertex. -/
theorem C71_convex (o a b : Vec2 K) (t : List (Vec2 K)) (h : StarShaped o (a :: b :: t)) : Triangulated (o :: a :: b :: t) (fanOf o (a :: b :: t)) := by
  induction t generalizing a b with
  | nil => exact .triangle h.1
  | cons c t ih => exact .ear h.1 (ih b c h.2)

/-- A concave loop, an L, in six vertices. -/
def exEll : List (Vec2 ℚ) := [⟨0, 0⟩, ⟨2, 0⟩, ⟨2, 1⟩, ⟨1, 1⟩, ⟨1, 2⟩, ⟨0, 2⟩]

theorem exEll_cut : ∃ ts, Triangulated exEll ts := by
  have h1 : Triangulated ([⟨0, 2⟩, ⟨0, 0⟩, ⟨1, 1⟩] : List (Vec2 ℚ)) _ := .triangle (by norm_num [twiceArea])
  have h2 := Triangulated.start 2 h1
  have h3 : Triangulated ([⟨1, 1⟩, ⟨1, 2⟩, ⟨0, 2⟩, ⟨0, 0⟩] : List (Vec2 ℚ)) _ := .ear (by norm_num [twiceArea]) h2
  have h4 := Triangulated.start 3 h3
  have h5 : Triangulated ([⟨0, 0⟩, ⟨2, 1⟩, ⟨1, 1⟩, ⟨1, 2⟩, ⟨0, 2⟩] : List (Vec2 ℚ)) _ := .ear (by norm_num [twiceArea]) h4
  exact ⟨_, .ear (by norm_num [twiceArea]) h5⟩

example : ∃ g, GeometricProperties.of exEll = .ok g ∧ 0 < g.area ∧ 0 < g.momentOfArea ∧ Hull exEll g.centroid := by
  obtain ⟨ts, h⟩ := exEll_cut
  obtain ⟨g, h1, -, -, h2, -, h3, -, h4⟩ := C71_geometry _ _ h
  exact ⟨g, h1, h2, h4, h3⟩

example : Triangulated ([⟨0, 0⟩, ⟨2, 0⟩, ⟨3, 1⟩, ⟨1, 2⟩] : List (Vec2 ℚ)) (fanOf ⟨0, 0⟩ [⟨2, 0⟩, ⟨3, 1⟩, ⟨1, 2⟩]) :=
  C71_convex _ _ _ _ ⟨by norm_num [twiceArea], by norm_num [twiceArea], trivial⟩

/-- C71: the polygon made from such a loop, given in one order or in the other, is the loop. -/
theorem C71_polygon (l : List (Vec2 K)) (ts : List (Vec2 K × Vec2 K × Vec2 K)) (h : Triangulated l ts) :
    ∃ g, GeometricProperties.of l = .ok g ∧ Polygon.mk' l = .ok ⟨g, l⟩ ∧ Polygon.mk' l.reverse = .ok ⟨g, l⟩ := by
  obtain ⟨g, h1, h2, -, h3, -⟩ := C71_geometry l ts h
  have hl := h.length
  refine ⟨g, h1, ?_, ?_⟩
  · simp [Polygon.mk', h1, Outcome.check, hl, not_lt.2 h3.le]
  · have h4 := C14_reverse l g h1 h2
    simp [Polygon.mk', h4, Outcome.check, hl, h3]

example : ∃ g, Polygon.mk' exEll.reverse = .ok ⟨g, exEll⟩ := by
  obtain ⟨ts, h⟩ := exEll_cut
  obtain ⟨g, -, -, h⟩ := C71_polygon _ _ h
  exact ⟨g, h⟩

/-- C71: with a positive density, mass and inertia are positive and the centroid is inside the hull. -/
theorem C71_mass (l : List (Vec2 K)) (ts : List (Vec2 K × Vec2 K × Vec2 K)) (h : Triangulated l ts) (density : K) (hd : 0 < density) :
    ∃ p, MassProperties.ofGeometry l density = .ok p ∧ p.m = sumTri triArea ts * density ∧ 0 < p.m ∧ 0 < p.I ∧ Hull l p.centroid := by
  obtain ⟨g, h1, h2, h3, h4, -, h5, -, h6⟩ := C71_geometry l ts h
  refine ⟨⟨g.area * density, g.momentOfArea * density, g.centroid⟩, ?_, by rw [h3], mul_pos h4 hd, mul_pos h6 hd, h5⟩
  simp [MassProperties.ofGeometry, Outcome.check, hd, h1, h2]

theorem triangulated_valid {l : List (Vec2 K)} {ts} (h : Triangulated l ts) {material : Material K} (hd : 0 < material.density) : ValidDescriptor l material := by
  obtain ⟨g, h1, h2, -⟩ := C71_polygon l ts h
  refine ⟨hd, l, _, h2, ?_, rfl⟩
  obtain ⟨g', h3, h4, -⟩ := C71_geometry l ts h
  rw [h1] at h3
  cases h3
  exact h4

/-- The operation adds only loops cut into triangles, with a positive density. -/
def ColliderOp.Solid : ColliderOp K → Prop
  | .add _ polygon material => (∃ ts, Triangulated polygon ts) ∧ 0 < material.density
  | .remove _ => True

theorem eraseId_subset (id : Nat) (l : List (Collider K)) : ∀ c ∈ Colliders.eraseId id l, c ∈ l := by
  induction l with
  | nil => simp [Colliders.eraseId]
  | cons c l ih =>
    intro d hd
    unfold Colliders.eraseId at hd
    split at hd
    · exact List.mem_cons_of_mem _ hd
    · rcases List.mem_cons.1 hd with rfl | hd
      · simp
      · exact List.mem_cons_of_mem _ (ih d hd)

theorem Colliders.add_mem (cs : Colliders K) (id polygon material) : ∀ c ∈ (cs.add id polygon material).1.list, c ∈ cs.list ∨ c = ⟨id, .make polygon, material⟩ := by
  intro c hc
  unfold Colliders.add at hc
  simp only at hc
  split at hc <;> simpa using hc

theorem Colliders.run_mem (P : Collider K → Prop) (ops : List (ColliderOp K)) (s : Colliders K × List (Outcome Unit)) (hs : ∀ c ∈ s.1.list, P c)
    (hops : ∀ op ∈ ops, ∀ id polygon material, op = .add id polygon material → P ⟨id, .make polygon, material⟩) :
    ∀ c ∈ (ops.foldl (fun s op => ((s.1.step op).1, s.2 ++ [(s.1.step op).2])) s).1.list, P c := by
  induction ops generalizing s with
  | nil => exact hs
  | cons op ops ih =>
    refine ih _ ?_ fun o ho => hops o (by simp [ho])
    intro c hc
    cases op with
    | add id polygon material =>
      rcases Colliders.add_mem _ _ _ _ c hc with h | rfl
      · exact hs c h
      · exact hops _ (by simp) _ _ _ rfl
    | remove id => exact hs c (eraseId_subset _ _ c hc)

theorem hull_combination {l : List (Vec2 K)} (ps : List (MassProperties K)) (hne : ps ≠ []) (h : ∀ p ∈ ps, 0 < p.m ∧ Hull l p.centroid) :
    0 < totalMass ps ∧ Hull l ⟨firstMomentX ps / totalMass ps, firstMomentY ps / totalMass ps⟩ := by
  induction ps with
  | nil => exact absurd rfl hne
  | cons p ps ih =>
    obtain ⟨h1, h2⟩ := h p (by simp)
    rcases ps with _ | ⟨p', ps⟩
    · simp only [totalMass, firstMomentX, firstMomentY, List.map_cons, List.map_nil, List.sum_cons, List.sum_nil, add_zero]
      refine ⟨h1, ?_⟩
      convert h2 using 1
      ext <;> simp only <;> field_simp
    · obtain ⟨i1, i2⟩ := ih (by simp) fun q hq => h q (by simp [hq])
      generalize p' :: ps = ps at *
      have e1 : totalMass (p :: ps) = p.m + totalMass ps := by simp [totalMass]
      have e2 : firstMomentX (p :: ps) = p.m * p.centroid.x + firstMomentX ps := by simp [firstMomentX]
      have e3 : firstMomentY (p :: ps) = p.m * p.centroid.y + firstMomentY ps := by simp [firstMomentY]
      rw [e1, e2, e3]
      have hs := add_pos h1 i1
      refine ⟨hs, ?_⟩
      have := Hull.segment (totalMass ps / (p.m + totalMass ps)) (div_nonneg i1.le hs.le) ((div_le_one hs).2 (by linarith)) h2 i2
      convert this using 1
      ext <;> simp only [Vec2.smul_x, Vec2.smul_y, Vec2.add_x, Vec2.add_y] <;> field_simp <;> ring

theorem hull_mono {l l' : List (Vec2 K)} (h : ∀ p ∈ l, p ∈ l') {q : Vec2 K} (hq : Hull l q) : Hull l' q := by
  induction hq with
  | vertex hp => exact .vertex (h _ hp)
  | segment t t0 t1 _ _ i1 i2 => exact .segment t t0 t1 i1 i2

/-- C71: after any history of additions of such colliders and removals, no call failed and, if any collider is left, mass and inertia are positive and the centroid is
inside the hull of the vertices. -/
theorem C71_history (ops : List (ColliderOp K)) (hops : ∀ op ∈ ops, op.Solid) :
    let r := Colliders.run .empty ops
    (∀ o ∈ r.2, o = .ok ()) ∧
    (r.1.list ≠ [] → 0 < r.1.properties.m ∧ 0 < r.1.properties.I ∧ Hull (r.1.list.flatMap fun c => c.geom.localVerts) r.1.properties.centroid) := by
  intro r
  obtain ⟨h1, ps, h2, h3, h4⟩ := C28_history ops fun op hop => by
    cases op with
    | add id polygon material =>
      obtain ⟨⟨ts, h⟩, hd⟩ := hops _ hop
      exact triangulated_valid h hd
    | remove id => trivial
  refine ⟨h1, fun hne => ?_⟩
  have hmem : ∀ c ∈ r.1.list, (∃ ts, Triangulated c.geom.localVerts ts) ∧ 0 < c.material.density :=
    Colliders.run_mem (fun c => (∃ ts, Triangulated c.geom.localVerts ts) ∧ 0 < c.material.density) ops (.empty, []) (by simp [Colliders.empty]) (by
      rintro op hop id polygon material rfl
      exact hops _ hop)
  have hps : ∀ p ∈ ps, 0 < p.m ∧ 0 < p.I ∧ Hull (r.1.list.flatMap fun c => c.geom.localVerts) p.centroid := by
    intro p hp
    have : Outcome.ok p ∈ r.1.list.map Collider.properties := by rw [h2]; exact List.mem_map.2 ⟨p, hp, rfl⟩
    obtain ⟨c, hc, e⟩ := List.mem_map.1 this
    obtain ⟨⟨ts, ht⟩, hd⟩ := hmem c hc
    obtain ⟨p', e', -, m1, m2, m3⟩ := C71_mass _ _ ht _ hd
    rw [Collider.properties, e'] at e
    cases e
    exact ⟨m1, m2, hull_mono (fun q hq => List.mem_flatMap.2 ⟨c, hc, hq⟩) m3⟩
  have hne' : ps ≠ [] := by
    rintro rfl
    simp at h2
    exact hne h2
  obtain ⟨t1, t2⟩ := hull_combination ps hne' fun p hp => ⟨(hps p hp).1, (hps p hp).2.2⟩
  have hm : 0 < r.1.properties.m := by rw [h4.mass]; exact t1
  refine ⟨hm, ?_, ?_⟩
  · rw [h4.inertia, inertiaAbout]
    refine List.sum_pos _ ?_ (by simpa using hne')
    intro x hx
    obtain ⟨p, hp, rfl⟩ := List.mem_map.1 hx
    obtain ⟨m1, m2, -⟩ := hps p hp
    exact add_pos_of_pos_of_nonneg m2 (mul_nonneg m1.le (by positivity))
  · convert t2 using 1
    rw [← h4.mass, ← h4.momentX, ← h4.momentY]
    ext
    · exact (mul_div_cancel_left₀ _ hm.ne').symm
    · exact (mul_div_cancel_left₀ _ hm.ne').symm

example : let r := Colliders.run .empty [.add 1 exEll (exMat 1), .add 2 exRect (exMat 3), .remove 1]
    (∀ o ∈ r.2, o = .ok ()) ∧ (r.1.list ≠ [] → 0 < r.1.properties.m ∧ 0 < r.1.properties.I ∧ Hull (r.1.list.flatMap fun c => c.geom.localVerts) r.1.properties.centroid) :=
  C71_history _ (by
    intro op hop
    simp at hop
    rcases hop with rfl | rfl | rfl
    · exact ⟨exEll_cut, by norm_num [exMat]⟩
    · exact ⟨⟨_, C71_convex _ _ _ _ ⟨by norm_num [twiceArea], by norm_num [twiceArea], trivial⟩⟩, by norm_num [exMat]⟩
    · trivial)

end Simu
