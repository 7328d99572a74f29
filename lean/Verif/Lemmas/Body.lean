import Verif.Spec.Body
import Verif.Lemmas.Vec2
import Verif.Props.Geometry
import Verif.Props.Transform
import Mathlib.Tactic.FieldSimp
import Mathlib.Tactic.Positivity
/-
Lemmas on mass properties and on colliders.
-/
namespace Simu
variable {K : Type*} [Field K] [LinearOrder K] [IsStrictOrderedRing K]

namespace MassProperties

/-- Positive mass, or no mass at all. -/
def Proper (p : MassProperties K) : Prop := 0 < p.m ∨ p = 0

/-- Mass, first moments and inertia about the origin. -/
def mom (p : MassProperties K) : K × K × K × K :=
  (p.m, p.m * p.centroid.x, p.m * p.centroid.y, p.I + p.m * (p.centroid.x * p.centroid.x + p.centroid.y * p.centroid.y))

@[simp] theorem zero_m : (0 : MassProperties K).m = 0 := rfl
@[simp] theorem zero_I : (0 : MassProperties K).I = 0 := rfl
@[simp] theorem zero_c : (0 : MassProperties K).centroid = 0 := rfl

theorem mom_zero : mom (0 : MassProperties K) = 0 := by simp [mom]

theorem Proper.nonneg {p : MassProperties K} (h : p.Proper) : 0 ≤ p.m := by
  rcases h with h | rfl
  · exact h.le
  · simp

theorem Proper.eq_zero {p : MassProperties K} (h : p.Proper) (hm : p.m = 0) : p = 0 := by
  rcases h with h | h
  · exact absurd hm h.ne'
  · exact h

theorem combine_proper {a b : MassProperties K} (ha : a.Proper) (hb : b.Proper) : (a.combine b).Proper := by
  unfold combine
  by_cases h : a.m + b.m = 0
  · right; simp only [h, if_true]; rfl
  · left; simp only [h, if_false]
    exact lt_of_le_of_ne (add_nonneg ha.nonneg hb.nonneg) (Ne.symm h)

theorem combine_mom {a b : MassProperties K} (ha : a.Proper) (hb : b.Proper) : (a.combine b).mom = a.mom + b.mom := by
  unfold combine
  by_cases h : a.m + b.m = 0
  · have h1 : a.m = 0 := le_antisymm (by have := hb.nonneg; linarith) ha.nonneg
    have h2 : b.m = 0 := by linarith
    rw [ha.eq_zero h1, hb.eq_zero h2]
    simp [mom]
  · simp only [h, if_false, mom, Vec2.normSquared, Vec2.dot, Vec2.sdiv_x, Vec2.sdiv_y, Vec2.add_x, Vec2.add_y, Vec2.smul_x, Vec2.smul_y]
    refine Prod.ext rfl (Prod.ext ?_ (Prod.ext ?_ ?_)) <;> simp only [Prod.fst_add, Prod.snd_add]
    · field_simp
    · field_simp
    · ring

theorem mom_inj {a b : MassProperties K} (ha : a.Proper) (hb : b.Proper) (h : a.mom = b.mom) : a = b := by
  simp only [mom, Prod.mk.injEq] at h
  obtain ⟨h1, h2, h3, h4⟩ := h
  by_cases h0 : a.m = 0
  · rw [ha.eq_zero h0, hb.eq_zero (h1 ▸ h0)]
  · have hx : a.centroid.x = b.centroid.x := by rw [h1] at h2; exact mul_left_cancel₀ (h1 ▸ h0) h2
    have hy : a.centroid.y = b.centroid.y := by rw [h1] at h3; exact mul_left_cancel₀ (h1 ▸ h0) h3
    rw [h1, hx, hy] at h4
    exact MassProperties.ext h1 (add_right_cancel h4) (Vec2.ext hx hy)

theorem zero_proper : (0 : MassProperties K).Proper := Or.inr rfl

theorem foldl_mom (L : List (MassProperties K)) (a : MassProperties K) (ha : a.Proper) (hL : ∀ p ∈ L, p.Proper) :
    (L.foldl combine a).Proper ∧ (L.foldl combine a).mom = a.mom + (L.map mom).sum := by
  induction L generalizing a with
  | nil => simp [ha]
  | cons p L ih =>
    have hp := hL p (by simp)
    have := ih (a.combine p) (combine_proper ha hp) (fun q hq => hL q (by simp [hq]))
    refine ⟨this.1, ?_⟩
    rw [List.foldl_cons, this.2, combine_mom ha hp, List.map_cons, List.sum_cons, add_assoc]

theorem sum_mom (L : List (MassProperties K)) : (L.map mom).sum =
    (totalMass L, firstMomentX L, firstMomentY L, inertiaAbout 0 L) := by
  induction L with
  | nil => simp [totalMass, firstMomentX, firstMomentY, inertiaAbout]; rfl
  | cons p L ih =>
    rw [List.map_cons, List.sum_cons, ih]
    simp only [totalMass, firstMomentX, firstMomentY, inertiaAbout, List.map_cons, List.sum_cons, mom]
    refine Prod.ext rfl (Prod.ext rfl (Prod.ext rfl ?_))
    simp [sq]

end MassProperties

omit [LinearOrder K] [IsStrictOrderedRing K] in
/-- Huygens: moving the reference point. -/
theorem inertiaAbout_eq (q : Vec2 K) (L : List (MassProperties K)) : inertiaAbout q L =
    inertiaAbout 0 L - 2 * (q.x * firstMomentX L + q.y * firstMomentY L) + totalMass L * (q.x * q.x + q.y * q.y) := by
  induction L with
  | nil => simp [totalMass, firstMomentX, firstMomentY, inertiaAbout]
  | cons p L ih =>
    simp only [totalMass, firstMomentX, firstMomentY, inertiaAbout, List.map_cons, List.sum_cons] at ih ⊢
    rw [ih]; simp; ring

open MassProperties in
theorem isCombination_iff {p : MassProperties K} (L : List (MassProperties K)) :
    IsCombination p L ↔ p.mom = (L.map mom).sum := by
  rw [sum_mom]
  simp only [mom, Prod.mk.injEq]
  constructor
  · rintro ⟨h1, h2, h3, h4⟩
    refine ⟨h1, h2, h3, ?_⟩
    rw [h4, inertiaAbout_eq, ← h2, ← h3, ← h1]; ring
  · rintro ⟨h1, h2, h3, h4⟩
    refine ⟨h1, h2, h3, ?_⟩
    rw [inertiaAbout_eq, ← h2, ← h3, ← h1, ← h4]; ring

/-- A collider whose mass properties can be computed. -/
def Collider.Good (c : Collider K) (p : MassProperties K) : Prop := c.properties = .ok p ∧ 0 < p.m ∧ 0 ≤ p.I

theorem momentOfArea_nonneg {l : List (Vec2 K)} {g : GeometricProperties K} (h : GeometricProperties.of l = .ok g)
    (hd : g.isDegenerate = false) : 0 ≤ g.momentOfArea := by
  obtain ⟨n, v, rfl⟩ := exists_ofFn (of_ne_nil h)
  rw [of_ofFn] at h
  obtain rfl := Outcome.ok.inj h
  unfold propsOf GeometricProperties.finish at hd ⊢
  by_cases h0 : cyc aTerm v = 0
  · simp [h0] at hd
  · simp [h0]

theorem good_of_valid {id : Nat} {polygon : List (Vec2 K)} {material : Material K} (h : ValidDescriptor polygon material)
    {g : ColliderGeom K} (hg : g.localVerts = polygon) :
    ∃ p, (⟨id, g, material⟩ : Collider K).Good p := by
  obtain ⟨hd, vs, P, hP, hdeg, rfl⟩ := h
  have h3 : 3 ≤ vs.length := by
    by_contra hc
    rw [C15_too_few vs (by omega)] at hP; cases hP
  obtain ⟨P', hP', _, hof, hA, hA0⟩ := C15_polygon vs h3
  obtain rfl : P' = P := by rw [hP'] at hP; exact Outcome.ok.inj hP
  have hpos : 0 < P'.properties.area := lt_of_le_of_ne hA (fun h0 => by
    have := hA0.2 h0.symm; rw [hdeg] at this; cases this)
  refine ⟨_, ⟨by
    simp only [Collider.properties, MassProperties.ofGeometry, hg, hof, hd, hdeg, Outcome.check, decide_true, if_true,
      Outcome.bind_ok, Bool.not_false]; rfl, mul_pos hpos hd, ?_⟩⟩
  exact mul_nonneg (momentOfArea_nonneg hof hdeg) hd.le

namespace Colliders

/-- All colliders have mass properties `ps`, and the stored total is theirs. -/
def Inv (cs : Colliders K) (ps : List (MassProperties K)) : Prop :=
  List.Forall₂ Collider.Good cs.list ps ∧ cs.properties = ps.foldl MassProperties.combine 0

theorem Inv.empty : (empty : Colliders K).Inv [] := ⟨.nil, rfl⟩

theorem Inv.add {cs : Colliders K} {ps : List (MassProperties K)} (h : cs.Inv ps) (id : Nat) {polygon : List (Vec2 K)}
    {material : Material K} (hv : ValidDescriptor polygon material) :
    ∃ p, (cs.add id polygon material).2 = .ok () ∧ (cs.add id polygon material).1.Inv (ps ++ [p]) ∧
      (⟨id, .make polygon, material⟩ : Collider K).Good p ∧
      (cs.add id polygon material).1.list = cs.list ++ [⟨id, .make polygon, material⟩] := by
  obtain ⟨p, hp⟩ := good_of_valid (id := id) hv (g := .make polygon) rfl
  refine ⟨p, ?_, ?_, hp, ?_⟩
  · simp [Colliders.add, hp.1]
  · simp only [Colliders.add, hp.1]
    refine ⟨List.rel_append h.1 (.cons hp .nil), ?_⟩
    rw [List.foldl_append, ← h.2]; rfl
  · simp [Colliders.add, hp.1]

theorem recompute_eq {l : List (Collider K)} {ps : List (MassProperties K)} (h : List.Forall₂ Collider.Good l ps)
    (acc : MassProperties K) : recompute acc l = (ps.foldl MassProperties.combine acc, .ok ()) := by
  induction h generalizing acc with
  | nil => rfl
  | cons hp _ ih => simp only [recompute, hp.1, List.foldl_cons]; exact ih _

theorem eraseId_good {l : List (Collider K)} {ps : List (MassProperties K)} (h : List.Forall₂ Collider.Good l ps) (id : Nat) :
    ∃ ps', List.Forall₂ Collider.Good (eraseId id l) ps' ∧ ps'.Sublist ps := by
  induction h with
  | nil => exact ⟨[], .nil, .refl _⟩
  | @cons c p l ps hp hl ih =>
    unfold eraseId
    by_cases hc : c.id = id
    · exact ⟨ps, by simpa [hc] using hl, .cons _ (.refl _)⟩
    · obtain ⟨ps', h1, h2⟩ := ih
      exact ⟨p :: ps', by simpa [hc] using ⟨hp, h1⟩, h2.cons₂ _⟩

theorem Inv.remove {cs : Colliders K} {ps : List (MassProperties K)} (h : cs.Inv ps) (id : Nat) :
    ∃ ps', (cs.remove id).2 = .ok () ∧ (cs.remove id).1.Inv ps' ∧ ps'.Sublist ps := by
  obtain ⟨ps', h1, h2⟩ := eraseId_good h.1 id
  refine ⟨ps', ?_, ⟨?_, ?_⟩, h2⟩
  · simp [Colliders.remove, recompute_eq h1]
  · exact h1
  · simp [Colliders.remove, recompute_eq h1]

theorem Inv.update {cs : Colliders K} {ps : List (MassProperties K)} (h : cs.Inv ps) (f : Vec2 K → Vec2 K) :
    (cs.update f).Inv ps := by
  refine ⟨?_, h.2⟩
  simp only [Colliders.update, List.forall₂_map_left_iff]
  exact h.1.imp (fun c p hp => hp)

theorem Inv.proper {cs : Colliders K} {ps : List (MassProperties K)} (h : cs.Inv ps) : ∀ p ∈ ps, 0 < p.m ∧ 0 ≤ p.I := by
  intro p hp
  obtain ⟨h1, -⟩ := h
  generalize cs.list = l at h1
  induction h1 with
  | nil => simp at hp
  | cons hq _ ih =>
    rcases List.mem_cons.1 hp with rfl | hp
    · exact hq.2
    · exact ih hp

theorem Inv.isCombination {cs : Colliders K} {ps : List (MassProperties K)} (h : cs.Inv ps) :
    IsCombination cs.properties ps := by
  rw [isCombination_iff, h.2,
    (MassProperties.foldl_mom ps 0 MassProperties.zero_proper (fun p hp => Or.inl (h.proper p hp).1)).2, MassProperties.mom_zero, zero_add]

end Colliders
end Simu
