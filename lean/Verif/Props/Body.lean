import Verif.Lemmas.Body
import Mathlib.Algebra.Order.Ring.Rat
/-
C28 (mass properties), C29 (changing the colliders of a body), C30 (force fields), C31 (surface properties).
-/
namespace Simu
variable {K : Type*} [Field K] [LinearOrder K] [IsStrictOrderedRing K]

/-! ### C31 -/

omit [IsStrictOrderedRing K] in
/-- The combined friction or bounciness does not depend on the order of the two colliders. -/
theorem C31_symmetric (a b : CombinableProperty K) : a.combine b = b.combine a := by
  obtain ⟨ma, va⟩ := a
  obtain ⟨mb, vb⟩ := b
  have hmin : (if vb < va then vb else va) = if va < vb then va else vb := by
    rcases lt_trichotomy va vb with h | h | h
    · simp [h, h.not_gt]
    · simp [h]
    · simp [h, h.not_gt]
  have hmax : (if va < vb then vb else va) = if vb < va then va else vb := by
    rcases lt_trichotomy va vb with h | h | h
    · simp [h, h.not_gt]
    · simp [h]
    · simp [h, h.not_gt]
  cases ma <;> cases mb <;>
    simp [CombinableProperty.combine, CombinableProperty.combineValues, Mode.val, add_comm, mul_comm, hmin, hmax]

example : (⟨.average, 1⟩ : CombinableProperty ℚ).combine ⟨.multiply, 1 / 3⟩ = ⟨.multiply, 1 / 3⟩ ∧
    (⟨.multiply, 1 / 3⟩ : CombinableProperty ℚ).combine ⟨.average, 1⟩ = ⟨.multiply, 1 / 3⟩ := by
  constructor
  · decide +kernel
  · rw [C31_symmetric]; decide +kernel

omit [IsStrictOrderedRing K] in
/-- The policy used is the one of highest priority among the two. -/
theorem C31_priority (a b : CombinableProperty K) :
    (a.combine b).mode.val = max a.mode.val b.mode.val ∧
    ((a.combine b).mode = a.mode ∨ (a.combine b).mode = b.mode) := by
  unfold CombinableProperty.combine
  by_cases h : a.mode.val < b.mode.val
  · simp [h, h.le]
  · simp [h, not_lt.1 h]

example : ((⟨.minimum, 1⟩ : CombinableProperty ℚ).combine ⟨.maximum, 1 / 3⟩).mode = .maximum := by decide +kernel

/-- Values in [0, 1] combine to a value in [0, 1]. -/
theorem C31_range (a b : CombinableProperty K) (ha : 0 ≤ a.value ∧ a.value ≤ 1) (hb : 0 ≤ b.value ∧ b.value ≤ 1) :
    0 ≤ (a.combine b).value ∧ (a.combine b).value ≤ 1 := by
  have key : ∀ m, 0 ≤ CombinableProperty.combineValues m a.value b.value ∧ CombinableProperty.combineValues m a.value b.value ≤ 1 := by
    intro m
    cases m <;> simp only [CombinableProperty.combineValues]
    · constructor <;> linarith [ha.1, ha.2, hb.1, hb.2]
    · split_ifs <;> assumption
    · exact ⟨mul_nonneg ha.1 hb.1, mul_le_one₀ ha.2 hb.1 hb.2⟩
    · split_ifs <;> assumption
  exact key _

example : 0 ≤ ((⟨.multiply, 1 / 2⟩ : CombinableProperty ℚ).combine ⟨.minimum, 1⟩).value :=
  (C31_range _ _ (by norm_num) (by norm_num)).1

/-- Each policy computes what its name says; the average and the product of the same two values are between their
minimum and their maximum, or below it. -/
theorem C31_policies (x y : K) :
    CombinableProperty.combineValues .average x y * 2 = x + y ∧
    CombinableProperty.combineValues .minimum x y = min x y ∧
    CombinableProperty.combineValues .multiply x y = x * y ∧
    CombinableProperty.combineValues .maximum x y = max x y := by
  refine ⟨by simp [CombinableProperty.combineValues], ?_, rfl, ?_⟩
  · simp only [CombinableProperty.combineValues]
    split_ifs with h
    · exact (min_eq_right h.le).symm
    · exact (min_eq_left (not_lt.1 h)).symm
  · simp only [CombinableProperty.combineValues]
    split_ifs with h
    · exact (max_eq_right h.le).symm
    · exact (max_eq_left (not_lt.1 h)).symm

example : CombinableProperty.combineValues .average (1 : ℚ) 4 = 5 / 2 := by
  have := (C31_policies (1 : ℚ) 4).1; linarith

/-! ### C28 -/

/-- Two pieces used in the examples. -/
def exA : MassProperties ℚ := ⟨2, 3, ⟨1, 0⟩⟩
/-- Two pieces used in the examples. -/
def exB : MassProperties ℚ := ⟨4, 1, ⟨-2, 5⟩⟩

/-- Combining is commutative on pieces of positive mass (and the empty piece). -/
theorem C28_comm {a b : MassProperties K} (ha : a.Proper) (hb : b.Proper) : a.combine b = b.combine a :=
  MassProperties.mom_inj (MassProperties.combine_proper ha hb) (MassProperties.combine_proper hb ha)
    (by rw [MassProperties.combine_mom ha hb, MassProperties.combine_mom hb ha, add_comm])

/-- Combining is associative on pieces of positive mass (and the empty piece). -/
theorem C28_assoc {a b c : MassProperties K} (ha : a.Proper) (hb : b.Proper) (hc : c.Proper) :
    (a.combine b).combine c = a.combine (b.combine c) := by
  have hab := MassProperties.combine_proper ha hb
  have hbc := MassProperties.combine_proper hb hc
  exact MassProperties.mom_inj (MassProperties.combine_proper hab hc) (MassProperties.combine_proper ha hbc)
    (by rw [MassProperties.combine_mom hab hc, MassProperties.combine_mom ha hb, MassProperties.combine_mom ha hbc,
      MassProperties.combine_mom hb hc, add_assoc])

example : exA.combine exB = exB.combine exA ∧ (exA.combine exB).combine exA = exA.combine (exB.combine exA) :=
  ⟨C28_comm (.inl (by norm_num [exA])) (.inl (by norm_num [exB])),
   C28_assoc (.inl (by norm_num [exA])) (.inl (by norm_num [exB])) (.inl (by norm_num [exA]))⟩

/-- The empty piece is neutral, and positive masses stay positive. -/
theorem C28_identity {a b : MassProperties K} (ha : a.Proper) (hb : b.Proper) :
    a.combine 0 = a ∧ MassProperties.combine 0 a = a ∧ (a.combine b).Proper ∧ (0 < a.m → 0 < (a.combine b).m) := by
  have h0 : (0 : MassProperties K).Proper := MassProperties.zero_proper
  refine ⟨?_, ?_, MassProperties.combine_proper ha hb, fun h => ?_⟩
  · exact MassProperties.mom_inj (MassProperties.combine_proper ha h0) ha
      (by rw [MassProperties.combine_mom ha h0, MassProperties.mom_zero, add_zero])
  · exact MassProperties.mom_inj (MassProperties.combine_proper h0 ha) ha
      (by rw [MassProperties.combine_mom h0 ha, MassProperties.mom_zero, zero_add])
  · have := congrArg Prod.fst (MassProperties.combine_mom ha hb)
    simp only [MassProperties.mom, Prod.fst_add] at this
    rw [this]; exact add_pos_of_pos_of_nonneg h hb.nonneg

example : exA.combine 0 = exA := (C28_identity (.inl (by norm_num [exA])) (.inl (by norm_num [exA] : (0 : ℚ) < exA.m))).1

/-- Folding any collection of pieces of positive mass gives its total mass, its mass-weighted mean position and its
inertia about that point; the order does not matter, the mass is positive and the inertia is not negative. -/
theorem C28_collection (L : List (MassProperties K)) (hL : ∀ p ∈ L, 0 < p.m) :
    IsCombination (L.foldl MassProperties.combine 0) L ∧
    (∀ L', L.Perm L' → L'.foldl MassProperties.combine 0 = L.foldl MassProperties.combine 0) ∧
    (L ≠ [] → 0 < (L.foldl MassProperties.combine 0).m) ∧
    ((∀ p ∈ L, 0 ≤ p.I) → 0 ≤ (L.foldl MassProperties.combine 0).I) ∧
    ((∀ p ∈ L, 0 ≤ p.I) → (∃ p ∈ L, 0 < p.I) → 0 < (L.foldl MassProperties.combine 0).I) := by
  have hp : ∀ p ∈ L, p.Proper := fun p h => .inl (hL p h)
  have hf := MassProperties.foldl_mom L 0 MassProperties.zero_proper hp
  have hc : IsCombination (L.foldl MassProperties.combine 0) L := by
    rw [isCombination_iff, hf.2, MassProperties.mom_zero, zero_add]
  have hnn : (∀ p ∈ L, 0 ≤ p.I) → ∀ p ∈ L, ∀ q : Vec2 K, p.I ≤ p.I + p.m * ((p.centroid.x - q.x) ^ 2 + (p.centroid.y - q.y) ^ 2) := by
    intro _ p h q
    have : 0 ≤ p.m * ((p.centroid.x - q.x) ^ 2 + (p.centroid.y - q.y) ^ 2) := mul_nonneg (hL p h).le (by positivity)
    linarith
  refine ⟨hc, ?_, ?_, ?_, ?_⟩
  · intro L' hP
    have hp' : ∀ p ∈ L', p.Proper := fun p h => hp p (hP.mem_iff.2 h)
    have hf' := MassProperties.foldl_mom L' 0 MassProperties.zero_proper hp'
    refine MassProperties.mom_inj hf'.1 hf.1 ?_
    rw [hf.2, hf'.2, (hP.map _).sum_eq]
  · intro hne
    rw [hc.mass, totalMass]
    refine List.sum_pos _ ?_ (by simpa using hne)
    intro x hx
    obtain ⟨p, h, rfl⟩ := List.mem_map.1 hx
    exact hL p h
  · intro hI
    rw [hc.inertia, inertiaAbout]
    refine List.sum_nonneg ?_
    intro x hx
    obtain ⟨p, h, rfl⟩ := List.mem_map.1 hx
    exact (hI p h).trans (hnn hI p h _)
  · rintro hI ⟨p, h, hpos⟩
    rw [hc.inertia, inertiaAbout]
    have hle := List.single_le_sum (l := L.map fun p => p.I + p.m * ((p.centroid.x - (L.foldl MassProperties.combine 0).centroid.x) ^ 2 +
        (p.centroid.y - (L.foldl MassProperties.combine 0).centroid.y) ^ 2)) (by
      intro x hx
      obtain ⟨p, h, rfl⟩ := List.mem_map.1 hx
      exact (hI p h).trans (hnn hI p h _)) _ (List.mem_map.2 ⟨p, h, rfl⟩)
    exact lt_of_lt_of_le (lt_of_lt_of_le hpos (hnn hI p h _)) hle

/-- Masses 2 and 4 at (1, 0) and (-2, 5): total mass 6, centroid (-1, 10/3), inertia about it 4 + 2 (4 + 100/9) + 4 (1 + 25/9). -/
example : IsCombination ([exA, exB].foldl MassProperties.combine 0) [exA, exB] ∧
    [exA, exB].foldl MassProperties.combine 0 = ⟨6, 148 / 3, ⟨-1, 10 / 3⟩⟩ :=
  ⟨(C28_collection _ (by intro p hp; simp at hp; rcases hp with rfl | rfl <;> norm_num [exA, exB])).1, by decide +kernel⟩

/-- One modification of the colliders of a body. -/
def Colliders.step (cs : Colliders K) : ColliderOp K → Colliders K × Outcome Unit
  | .add id polygon material => cs.add id polygon material
  | .remove id => cs.remove id

/-- The colliders after a history, and the outcomes of its calls. -/
def Colliders.run (cs : Colliders K) (ops : List (ColliderOp K)) : Colliders K × List (Outcome Unit) :=
  ops.foldl (fun s op => ((s.1.step op).1, s.2 ++ [(s.1.step op).2])) (cs, [])

theorem Colliders.run_inv (ops : List (ColliderOp K)) (cs : Colliders K) (outs : List (Outcome Unit)) (ps : List (MassProperties K)) (h : cs.Inv ps)
    (ho : ∀ o ∈ outs, o = .ok ()) (hops : ∀ op ∈ ops, op.Valid) :
    ∃ ps', (ops.foldl (fun s op => ((s.1.step op).1, s.2 ++ [(s.1.step op).2])) (cs, outs)).1.Inv ps' ∧
      ∀ o ∈ (ops.foldl (fun s op => ((s.1.step op).1, s.2 ++ [(s.1.step op).2])) (cs, outs)).2, o = .ok () := by
  induction ops generalizing cs outs ps with
  | nil => exact ⟨ps, h, ho⟩
  | cons op ops ih =>
    have hop := hops op (by simp)
    have hrest : ∀ op ∈ ops, op.Valid := fun o h => hops o (by simp [h])
    cases op with
    | add id polygon material =>
      obtain ⟨p, h1, h2, _, _⟩ := h.add id hop
      refine ih _ _ _ h2 ?_ hrest
      intro o ho'
      rcases List.mem_append.1 ho' with ho' | ho'
      · exact ho o ho'
      · rw [List.mem_singleton.1 ho']; exact h1
    | remove id =>
      obtain ⟨ps', h1, h2, _⟩ := h.remove id
      refine ih _ _ _ h2 ?_ hrest
      intro o ho'
      rcases List.mem_append.1 ho' with ho' | ho'
      · exact ho o ho'
      · rw [List.mem_singleton.1 ho']; exact h1

theorem map_props {l : List (Collider K)} {ps : List (MassProperties K)} (h : List.Forall₂ Collider.Good l ps) :
    l.map Collider.properties = ps.map Outcome.ok := by
  induction h with
  | nil => rfl
  | cons h _ ih => rw [List.map_cons, List.map_cons, ih, h.1]

/-- After any history of additions of valid colliders and removals, no call failed and the stored mass properties are
the combination of those of the colliders currently in the collection, which all have positive mass. -/
theorem C28_history (ops : List (ColliderOp K)) (hops : ∀ op ∈ ops, op.Valid) :
    let r := Colliders.run .empty ops
    (∀ o ∈ r.2, o = .ok ()) ∧
    ∃ ps, r.1.list.map Collider.properties = ps.map Outcome.ok ∧ (∀ p ∈ ps, 0 < p.m ∧ 0 ≤ p.I) ∧
      IsCombination r.1.properties ps := by
  obtain ⟨ps, h1, h2⟩ := Colliders.run_inv ops .empty [] [] .empty (by simp) hops
  refine ⟨h2, ps, ?_, h1.proper, h1.isCombination⟩
  exact map_props h1.1

/-- A 2 by 1 rectangle. -/
def exRect : List (Vec2 ℚ) := [⟨0, 0⟩, ⟨2, 0⟩, ⟨2, 1⟩, ⟨0, 1⟩]
/-- A material of density `d`. -/
def exMat (d : ℚ) : Material ℚ := ⟨d, ⟨.average, 0⟩, ⟨.average, 0⟩, ⟨.average, 1 / 200⟩⟩

/-- The properties of the rectangle. -/
theorem exRect_props : GeometricProperties.of exRect = .ok { centroid := ⟨1, 1 / 2⟩, area := 2, momentOfArea := 5 / 6, isDegenerate := false } := by
  rw [GeometricProperties.of, exRect, edgesOf_cons]; decide +kernel

theorem exRect_valid {d : ℚ} (h : 0 < d) : ValidDescriptor exRect (exMat d) := by
  refine ⟨h, exRect, ⟨{ centroid := ⟨1, 1 / 2⟩, area := 2, momentOfArea := 5 / 6, isDegenerate := false }, exRect⟩, ?_, rfl, rfl⟩
  rw [Polygon.mk', exRect_props]; decide +kernel

theorem exRect_mass (id : Nat) (d : ℚ) (h : 0 < d) : (⟨id, .make exRect, exMat d⟩ : Collider ℚ).properties = .ok ⟨2 * d, 5 / 6 * d, ⟨1, 1 / 2⟩⟩ := by
  rw [Collider.properties, MassProperties.ofGeometry]
  show (Outcome.check (decide (0 < d))).bind (fun _ => (GeometricProperties.of exRect).bind _) = _
  rw [exRect_props]
  simp [Outcome.check, h, exMat, ColliderGeom.make]

example : ∃ ps : List (MassProperties ℚ), ((Colliders.run .empty [.add 1 exRect (exMat 1), .add 2 exRect (exMat 3), .remove 1]).1.list.map Collider.properties
    = ps.map Outcome.ok) := by
  obtain ⟨_, ps, h, _⟩ := C28_history [.add 1 exRect (exMat 1), .add 2 exRect (exMat 3), .remove 1] (by
    intro op h
    simp at h
    rcases h with rfl | rfl | rfl
    · exact exRect_valid (by norm_num)
    · exact exRect_valid (by norm_num)
    · trivial)
  exact ⟨ps, h⟩

/-- Disagreement: an addition that throws (here because the density is not positive) leaves the collider in the
collection although its mass is not counted ... -/
theorem C28_failed_add_stays (cs : Colliders K) (id : Nat) (polygon : List (Vec2 K)) (material : Material K)
    (h : material.density ≤ 0) :
    (cs.add id polygon material).2 = .throw ∧
    (cs.add id polygon material).1.list = cs.list ++ [⟨id, .make polygon, material⟩] ∧
    (cs.add id polygon material).1.properties = cs.properties := by
  have : (⟨id, .make polygon, material⟩ : Collider K).properties = .throw := by
    simp [Collider.properties, MassProperties.ofGeometry, Outcome.check, not_lt.2 h]
  simp [Colliders.add, this]

example : ((Colliders.empty : Colliders ℚ).add 7 exRect (exMat 0)).2 = .throw :=
  (C28_failed_add_stays _ _ _ _ (by norm_num [exMat])).1

theorem recompute_append_throw {l : List (Collider K)} {ps : List (MassProperties K)} (h : List.Forall₂ Collider.Good l ps)
    (acc : MassProperties K) (c : Collider K) (hc : c.properties = .throw) :
    Colliders.recompute acc (l ++ [c]) = (ps.foldl MassProperties.combine acc, .throw) := by
  induction h generalizing acc with
  | nil => simp [Colliders.recompute, hc]
  | cons hp _ ih => simp only [List.cons_append, Colliders.recompute, hp.1, List.foldl_cons]; exact ih _

theorem eraseId_append_of_ne (l : List (Collider K)) (c : Collider K) (id : Nat) (h : c.id ≠ id) :
    Colliders.eraseId id (l ++ [c]) = Colliders.eraseId id l ++ [c] := by
  induction l with
  | nil => simp [Colliders.eraseId, h]
  | cons d l ih =>
    by_cases hd : d.id = id
    · simp [Colliders.eraseId, hd]
    · simp [Colliders.eraseId, hd, ih]

/-- ... and afterwards removing any other collider throws, although that collider is gone from the list. -/
theorem C28_failed_add_poisons {cs : Colliders K} {ps : List (MassProperties K)} (hcs : cs.Inv ps) (id : Nat)
    (polygon : List (Vec2 K)) (material : Material K) (h : material.density ≤ 0) (other : Nat) (hne : id ≠ other) :
    (((cs.add id polygon material).1.remove other).2 = .throw) := by
  obtain ⟨-, h2, -⟩ := C28_failed_add_stays cs id polygon material h
  have hp : (⟨id, .make polygon, material⟩ : Collider K).properties = .throw := by
    simp [Collider.properties, MassProperties.ofGeometry, Outcome.check, not_lt.2 h]
  obtain ⟨ps', hg, -⟩ := Colliders.eraseId_good hcs.1 other
  simp only [Colliders.remove, h2]
  rw [eraseId_append_of_ne _ _ _ hne, recompute_append_throw hg _ _ hp]

example : ((((Colliders.empty : Colliders ℚ).add 1 exRect (exMat 1)).1.add 2 exRect (exMat 0)).1.remove 1).2 = .throw := by
  obtain ⟨p, -, h, -⟩ := Colliders.Inv.empty.add 1 (exRect_valid (d := 1) (by norm_num))
  exact C28_failed_add_poisons h 2 exRect (exMat 0) (by norm_num [exMat]) 1 (by norm_num)

end Simu
