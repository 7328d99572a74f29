import Verif.Lemmas.Contacting
import Verif.Model.Penetration
import Verif.Props.BoundingBox
/-
C85: colliders that overlap get contacts that push them apart along the shortest way.
-/
namespace Simu
open Gjk

section
variable {K : Type*} [Field K] [LinearOrder K] [IsStrictOrderedRing K]

/-- The boxes of polygons that overlap do overlap. -/
theorem boxes_overlap {A B : List (Vec2 K)} (hA : A ≠ []) (hB : B ≠ []) (h : ¬Cleared A B 0) :
    ∃ a b, BoundingBox.ofVertices A = .ok a ∧ BoundingBox.ofVertices B = .ok b ∧ a.overlaps b = true := by
  obtain ⟨a, ha, va, ma, _⟩ := (BoundingBox.C08_box_of_vertices_is_tightest A).1 hA
  obtain ⟨b, hb, vb, mb, _⟩ := (BoundingBox.C08_box_of_vertices_is_tightest B).1 hB
  refine ⟨a, b, ha, hb, BoundingBox.overlaps_iff.2 ⟨va, vb, ?_⟩⟩
  have key : ∀ n : Vec2 K, n ≠ 0 → (∀ p q, Spec.inBox a p → Spec.inBox b q → Vec2.dot (p - q) n ≤ 0) → False := by
    intro n hn hpq
    refine h ⟨n, hn, fun p hp q hq => ?_⟩
    have e : p - (q + 0) = p - q := by ext <;> simp
    rw [e]
    exact hpq p q (ma p hp) (mb q hq)
  simp only [Spec.inBox, Vec2.dot_def, Vec2.sub_x, Vec2.sub_y] at key
  refine ⟨⟨?_, ?_⟩, ?_, ?_⟩
  · by_contra hx
    exact key ⟨-1, 0⟩ (by intro e; have := congrArg Vec2.x e; simp at this) (fun p q hp hq => by simp only; linarith [hp.1.1, hq.1.2])
  · by_contra hx
    exact key ⟨1, 0⟩ (by intro e; have := congrArg Vec2.x e; simp at this) (fun p q hp hq => by simp only; linarith [hp.1.2, hq.1.1])
  · by_contra hx
    exact key ⟨0, -1⟩ (by intro e; have := congrArg Vec2.y e; simp at this) (fun p q hp hq => by simp only; linarith [hp.2.1, hq.2.2])
  · by_contra hx
    exact key ⟨0, 1⟩ (by intro e; have := congrArg Vec2.y e; simp at this) (fun p q hp hq => by simp only; linarith [hp.2.2, hq.2.1])

theorem cleared_swap {A B : List (Vec2 K)} {μ : Vec2 K} : Cleared A B μ ↔ Cleared B A (-μ) := by
  have key : ∀ {A B : List (Vec2 K)} {μ : Vec2 K}, Cleared A B μ → Cleared B A (-μ) := by
    rintro A B μ ⟨n, hn, h⟩
    refine ⟨-n, ?_, fun b hb a ha => ?_⟩
    · intro e
      apply hn
      have hx := congrArg Vec2.x e; have hy := congrArg Vec2.y e
      simp only [Vec2.neg_x, Vec2.neg_y, Vec2.zero_x, Vec2.zero_y] at hx hy
      ext
      · exact neg_eq_zero.1 hx
      · exact neg_eq_zero.1 hy
    · have := h a ha b hb
      simp only [Vec2.dot_def, Vec2.sub_x, Vec2.sub_y, Vec2.add_x, Vec2.add_y, Vec2.neg_x, Vec2.neg_y] at this ⊢
      linarith
  refine ⟨key, fun h => ?_⟩
  have := key h
  rwa [show -(-μ) = μ by ext <;> simp] at this

theorem Shortest.swap {A B : List (Vec2 K)} {μ : Vec2 K} (h : Shortest A B μ) : Shortest B A (-μ) := by
  have hn : ∀ v : Vec2 K, (-v).normSquared = v.normSquared := fun v => by
    simp only [normSq_dot, Vec2.dot_def, Vec2.neg_x, Vec2.neg_y]
    ring
  refine ⟨cleared_swap.1 h.1, fun μ' hμ' => ?_⟩
  have := h.2 _ (cleared_swap.1 hμ')
  rwa [hn μ', ← hn μ] at this

theorem touching_swap {A B : List (Vec2 K)} {μ : Vec2 K} (h : Touching A B μ) : Touching B A (-μ) := by
  obtain ⟨q, hq, q', hq', e⟩ := h
  refine ⟨q', hq', q, hq, ?_⟩
  rw [e]
  ext <;> simp

variable [Trig K] [LawfulTrig K]

/-- Everything about the contacts of convex polygons that overlap. -/
theorem overlap_contacts {sqrt : K → K} (hs : LawfulSqrt sqrt) (fuel : Nat) (m : Manifold K) (s : Fin 2 → Side K) (hrot : ∀ i, (s i).position.orient.Reachable)
    (hbox : ∀ i, (s i).geom.box = BoundingBox.ofVertices (s i).geom.transformed) (hconv : ∀ i, StrictlyConvex (s i).geom.transformed)
    (hover : ¬Cleared (s 0).geom.transformed (s 1).geom.transformed 0)
    (hdeep : ∀ μ, Cleared (s 0).geom.transformed (s 1).geom.transformed μ → m.minPen * m.minPen ≤ μ.normSquared)
    (hfuel : (s 0).geom.transformed.length * (s 1).geom.transformed.length + 4 ≤ fuel) :
    ∃ m' μ, m.update sqrt (boundedPenetration fuel) s = .ok m' ∧ Shortest (s 0).geom.transformed (s 1).geom.transformed μ ∧
      ∀ f, f = m'.frame (fun i => (s i).position.toWorldSpace) → f.nContacts ≤ 2 ∧ sqrt μ.normSquared • f.normal = -μ ∧
        (∀ c : Fin 2, c.val < f.nContacts → -sqrt μ.normSquared ≤ Vec2.dot f.normal (f.contacts 0 c - f.contacts 1 c) ∧ Vec2.dot f.normal (f.contacts 0 c - f.contacts 1 c) ≤ 0) ∧
        (NoObtuse (s m'.refIndex).geom.transformed ∨ LiesFlat (s m'.incIndex).geom.transformed (-outOf m'.refIndex μ) → ∃ c : Fin 2, c.val < f.nContacts ∧
          ((∀ v, Furthest (s m'.incIndex).geom.transformed (-outOf m'.refIndex μ) v → Hull (s m'.refIndex).geom.transformed v) ∨ LiesFlat (s m'.incIndex).geom.transformed (-outOf m'.refIndex μ) →
            Vec2.dot f.normal (f.contacts 0 c - f.contacts 1 c) = -sqrt μ.normSquared)) := by
  have hne : ∀ i, (s i).geom.transformed ≠ [] := fun i e => by
    have := (hconv i).1
    rw [e] at this
    simp at this
  obtain ⟨box0, box1, b0, b1, hov⟩ := boxes_overlap (hne 0) (hne 1) hover
  obtain ⟨st, μ, hrun, htouch, hclear, hmin⟩ := C70_penetration_partial _ _ (hne 0) (hne 1) hover (if m.nContacts = 0 then
      (s 1).position.centroid - (s 0).position.centroid else (s m.refIndex).position.toWorldSpace.r.app m.normal)
  obtain ⟨hr1, hr2⟩ := hrun fuel hfuel
  have hsh : Shortest (s 0).geom.transformed (s 1).geom.transformed μ := ⟨hclear, hmin⟩
  have hμ := hsh.ne_zero hover
  have hpen : boundedPenetration fuel (s 0).geom.transformed (s 1).geom.transformed (if m.nContacts = 0 then
      (s 1).position.centroid - (s 0).position.centroid else (s m.refIndex).position.toWorldSpace.r.app m.normal) = .ok μ := by
    unfold boundedPenetration
    rw [hr1]
    simp only
    rw [hr2]
    rfl
  obtain ⟨m', r, R, E, V, N, l, hup, href, hR, hE, hV, hN, hVR, hNR, hl, hle, hfr⟩ :=
    update_full sqrt (boundedPenetration fuel) m s hrot box0 box1 ((hbox 0).trans b0) ((hbox 1).trans b1) hov hne μ hpen hμ (hdeep μ hclear)
  refine ⟨m', μ, hup, hsh, fun f hf => ?_⟩
  obtain ⟨hfn, hfnorm, hfc⟩ := hfr f hf
  have hinc : m'.incIndex = otherOf r := by unfold Manifold.incIndex otherOf; rw [href]
  rw [href, hinc]
  -- what holds for either body as the reference
  have hnorm : (outOf r μ).normSquared = μ.normSquared := by
    unfold outOf
    split_ifs
    · rfl
    · simp only [normSq_dot, Vec2.dot_def, Vec2.neg_x, Vec2.neg_y]; ring
  have hover' : ¬Cleared (s r).geom.transformed (s (otherOf r)).geom.transformed 0 := by
    fin_cases r
    · exact hover
    · intro h
      apply hover
      have := cleared_swap.1 h
      rwa [show -(0 : Vec2 K) = 0 by ext <;> simp] at this
  have hsh' : Shortest (s r).geom.transformed (s (otherOf r)).geom.transformed (outOf r μ) := by
    fin_cases r
    · exact hsh
    · exact hsh.swap
  have htouch' : Touching (s r).geom.transformed (s (otherOf r)).geom.transformed (outOf r μ) := by
    fin_cases r
    · exact htouch
    · exact touching_swap htouch
  have hμ' := hsh'.ne_zero hover'
  have hneg : -outOf r μ ≠ 0 := by
    intro e
    apply hμ'
    have hx := congrArg Vec2.x e; have hy := congrArg Vec2.y e
    simp only [Vec2.neg_x, Vec2.neg_y, Vec2.zero_x, Vec2.zero_y] at hx hy
    ext
    · exact neg_eq_zero.1 hx
    · exact neg_eq_zero.1 hy
  have huR := (edgeUnitNormal_props hs ((hconv r).edge hR.cases).ne).choose_spec.2.2
  have hflat : Vec2.dot (edgeUnitNormal sqrt R) (outOf r μ) = sqrt (outOf r μ).normSquared := by
    refine le_antisymm (unit_dot_le hs huR _) ?_
    rcases hsh'.across (hne r) (hne _) hover' htouch' with ⟨a, a', ha, ha', haa⟩ | ⟨b, b', hb, hb', hbb⟩
    · exact (hR.flat hs (hconv r) hμ' ha ha' haa).ge
    · have := hE.flat hs (hconv _) hneg hb hb' hbb
      have e : (-outOf r μ).normSquared = (outOf r μ).normSquared := by
        simp only [normSq_dot, Vec2.dot_def, Vec2.neg_x, Vec2.neg_y]; ring
      rw [e] at this
      rw [← this]
      exact hle
  obtain ⟨hdepth, hfound⟩ := reference_contacts hs (hconv r) (hconv (otherOf r)) hμ' (hsh'.side hover')
    (fun a b ha hb => hsh'.touch hover' htouch' ha hb) hR hE hflat hV hN hVR hNR
  rw [hnorm] at hdepth hfound
  have hspec := incidentContacts_spec R V N E (-edgeUnitNormal sqrt R)
  obtain ⟨l', hl', hl2, _, hmem⟩ := hspec
  obtain rfl : l' = l := Outcome.ok.inj (hl'.symm.trans hl)
  refine ⟨by rw [hfn]; exact hl2, ?_, ?_, ?_⟩
  · have := unit_eq hs huR (outOf r μ) hflat
    rw [hnorm] at this
    rw [hfnorm]
    fin_cases r
    · simp only [Fin.zero_eta, if_true, outOf] at this ⊢
      rw [← this]
      rw [this]
      ext
      · have := congrArg Vec2.x this; simp only [Vec2.smul_x, Vec2.neg_x] at this ⊢; linarith
      · have := congrArg Vec2.y this; simp only [Vec2.smul_y, Vec2.neg_y] at this ⊢; linarith
    · exact this
  · intro c hc
    rw [hfn] at hc
    rw [(hfc c hc).2]
    obtain ⟨hseg, hdot⟩ := hmem _ (List.getElem_mem hc)
    refine ⟨hdepth _ hseg, ?_⟩
    simp only [Vec2.dot_def, Vec2.sub_x, Vec2.sub_y, Vec2.neg_x, Vec2.neg_y] at hdot ⊢
    linarith
  · intro hob
    obtain ⟨p, hp, hple, hpin⟩ := hfound hob
    have hpl : p ∈ l' := by
      obtain ⟨p1, h1, _⟩ := clipInside_spec E V
      obtain ⟨p2, h2, _⟩ := clipInside_spec E N
      have hm := incidentContacts_mem hl h1 h2
      have hneg' : ∀ q : Vec2 K, Vec2.dot (q - R.1) (-edgeUnitNormal sqrt R) = -Vec2.dot (edgeUnitNormal sqrt R) (q - R.1) := by
        intro q
        simp only [Vec2.dot_def, Vec2.neg_x, Vec2.neg_y]
        ring
      rw [hneg', hneg'] at hm
      rcases hp with hp | hp
      · obtain rfl := Outcome.ok.inj (h1.symm.trans hp)
        exact hm.1.resolve_right (by linarith)
      · obtain rfl := Outcome.ok.inj (h2.symm.trans hp)
        exact hm.2.resolve_right (by linarith)
    obtain ⟨j, hj, rfl⟩ := List.getElem_of_mem hpl
    have hj2 : j < 2 := lt_of_lt_of_le hj hl2
    refine ⟨⟨j, hj2⟩, by rw [hfn]; exact hj, fun hin => ?_⟩
    rw [(hfc ⟨j, hj2⟩ hj).2]
    exact hpin hin

/-- C85: when convex colliders overlap by at least the tolerance, recomputing their contacts succeeds; the normal has length one and is exactly that of the shortest translation that
separates them (from the second body towards the first one); there are at most two contacts, at which they overlap by no more than that translation. -/
theorem C85_normal {sqrt : K → K} (hs : LawfulSqrt sqrt) (fuel : Nat) (m : Manifold K) (s : Fin 2 → Side K) (hrot : ∀ i, (s i).position.orient.Reachable)
    (hbox : ∀ i, (s i).geom.box = BoundingBox.ofVertices (s i).geom.transformed) (hconv : ∀ i, StrictlyConvex (s i).geom.transformed)
    (hover : ¬Cleared (s 0).geom.transformed (s 1).geom.transformed 0)
    (hdeep : ∀ μ, Cleared (s 0).geom.transformed (s 1).geom.transformed μ → m.minPen * m.minPen ≤ μ.normSquared)
    (hfuel : (s 0).geom.transformed.length * (s 1).geom.transformed.length + 4 ≤ fuel) :
    ∃ m' μ, m.update sqrt (boundedPenetration fuel) s = .ok m' ∧ Shortest (s 0).geom.transformed (s 1).geom.transformed μ ∧
      ∀ f, f = m'.frame (fun i => (s i).position.toWorldSpace) → f.nContacts ≤ 2 ∧ sqrt μ.normSquared • f.normal = -μ ∧ f.normal.normSquared = 1 ∧
        ∀ c : Fin 2, c.val < f.nContacts → -sqrt μ.normSquared ≤ Vec2.dot f.normal (f.contacts 0 c - f.contacts 1 c) ∧ Vec2.dot f.normal (f.contacts 0 c - f.contacts 1 c) ≤ 0 := by
  obtain ⟨m', μ, h1, h2, h3⟩ := overlap_contacts hs fuel m s hrot hbox hconv hover hdeep hfuel
  refine ⟨m', μ, h1, h2, fun f hf => ?_⟩
  obtain ⟨a, b, c, _⟩ := h3 f hf
  refine ⟨a, b, ?_, c⟩
  have hμ := vec_self_pos (h2.ne_zero hover)
  rw [← normSq_dot] at hμ
  have hk := sqrt_pos' hs hμ
  have hk2 := (hs _ hμ.le).1
  have hx := congrArg Vec2.x b; have hy := congrArg Vec2.y b
  simp only [Vec2.smul_x, Vec2.smul_y, Vec2.neg_x, Vec2.neg_y] at hx hy
  set σ := sqrt μ.normSquared with hσ
  rw [normSq_dot, Vec2.dot_def] at hk2 ⊢
  have e : σ * σ * (f.normal.x * f.normal.x + f.normal.y * f.normal.y) = σ * σ * 1 := by
    linear_combination (f.normal.x * σ - μ.x) * hx + (f.normal.y * σ - μ.y) * hy - hk2
  exact mul_left_cancel₀ (mul_pos hk hk).ne' e

/-- C85 for reference polygons that have no obtuse angle (rectangles, and triangles that are not obtuse), which any of the two may be, and for any two polygons that rest on each other
with edges that are parallel: there is a contact. If the vertices of the other polygon that are deepest in the reference polygon are inside of it, or if the edges are parallel,
at one contact the overlap is exactly the length of the shortest translation that separates them.
What is missing: see `C85_missed_disagreement`. -/
theorem C85_found_partial {sqrt : K → K} (hs : LawfulSqrt sqrt) (fuel : Nat) (m : Manifold K) (s : Fin 2 → Side K) (hrot : ∀ i, (s i).position.orient.Reachable)
    (hbox : ∀ i, (s i).geom.box = BoundingBox.ofVertices (s i).geom.transformed) (hconv : ∀ i, StrictlyConvex (s i).geom.transformed)
    (hover : ¬Cleared (s 0).geom.transformed (s 1).geom.transformed 0)
    (hdeep : ∀ μ, Cleared (s 0).geom.transformed (s 1).geom.transformed μ → m.minPen * m.minPen ≤ μ.normSquared)
    (hfuel : (s 0).geom.transformed.length * (s 1).geom.transformed.length + 4 ≤ fuel) :
    ∃ m' μ, m.update sqrt (boundedPenetration fuel) s = .ok m' ∧ Shortest (s 0).geom.transformed (s 1).geom.transformed μ ∧
      ∀ f, f = m'.frame (fun i => (s i).position.toWorldSpace) → NoObtuse (s m'.refIndex).geom.transformed ∨ LiesFlat (s m'.incIndex).geom.transformed (-outOf m'.refIndex μ) → ∃ c : Fin 2, c.val < f.nContacts ∧
        ((∀ v, Furthest (s m'.incIndex).geom.transformed (-outOf m'.refIndex μ) v → Hull (s m'.refIndex).geom.transformed v) ∨ LiesFlat (s m'.incIndex).geom.transformed (-outOf m'.refIndex μ) →
          Vec2.dot f.normal (f.contacts 0 c - f.contacts 1 c) = -sqrt μ.normSquared) := by
  obtain ⟨m', μ, h1, h2, h3⟩ := overlap_contacts hs fuel m s hrot hbox hconv hover hdeep hfuel
  exact ⟨m', μ, h1, h2, fun f hf => (h3 f hf).2.2.2⟩

omit [LawfulTrig K] in
/-- C85: colliders that do not touch, or that overlap by less than the tolerance, have no contact. -/
theorem C85_none (sqrt : K → K) (fuel : Nat) (m : Manifold K) (s : Fin 2 → Side K)
    (hbox : ∀ i, (s i).geom.box = BoundingBox.ofVertices (s i).geom.transformed) (hconv : ∀ i, StrictlyConvex (s i).geom.transformed)
    (hfuel : (s 0).geom.transformed.length * (s 1).geom.transformed.length + 4 ≤ fuel) (hpen : m.minPen ≠ 0)
    (h : ¬Common (s 0).geom.transformed (s 1).geom.transformed ∨
      (¬Cleared (s 0).geom.transformed (s 1).geom.transformed 0 ∧ ∃ μ, Cleared (s 0).geom.transformed (s 1).geom.transformed μ ∧ μ.normSquared < m.minPen * m.minPen)) :
    m.update sqrt (boundedPenetration fuel) s = .ok { m with nContacts := 0 } := by
  have hne : ∀ i, (s i).geom.transformed ≠ [] := fun i e => by
    have := (hconv i).1
    rw [e] at this
    simp at this
  have hb : ∀ i, ∃ b, (s i).geom.box = .ok b := fun i => by
    obtain ⟨b, hb, _⟩ := (BoundingBox.C08_box_of_vertices_is_tightest (s i).geom.transformed).1 (hne i)
    exact ⟨b, (hbox i).trans hb⟩
  obtain ⟨b0, hb0⟩ := hb 0
  obtain ⟨b1, hb1⟩ := hb 1
  set dir := (if m.nContacts = 0 then (s 1).position.centroid - (s 0).position.centroid else (s m.refIndex).position.toWorldSpace.r.app m.normal) with hdir
  have hshort : ∃ μ, boundedPenetration fuel (s 0).geom.transformed (s 1).geom.transformed dir = .ok μ ∧ μ.normSquared < m.minPen * m.minPen := by
    rcases h with h | ⟨h, μ, hμ, hlt⟩
    · have hp : Proper (s 0).geom.transformed := by
        obtain ⟨i0, hi0⟩ : ∃ a, (s 0).geom.transformed[0]? = some a := ⟨_, List.getElem?_eq_getElem (by have := (hconv 0).1; omega)⟩
        obtain ⟨i1, hi1⟩ : ∃ a, (s 0).geom.transformed[1]? = some a := ⟨_, List.getElem?_eq_getElem (by have := (hconv 0).1; omega)⟩
        obtain ⟨i2, hi2⟩ : ∃ a, (s 0).geom.transformed[2]? = some a := ⟨_, List.getElem?_eq_getElem (by have := (hconv 0).1; omega)⟩
        have h1 : (0 + 1) % (s 0).geom.transformed.length = 1 := Nat.mod_eq_of_lt (by have := (hconv 0).1; omega)
        exact ⟨i0, List.mem_of_getElem? hi0, i1, List.mem_of_getElem? hi1, i2, List.mem_of_getElem? hi2,
          ((hconv 0).2 0 2 _ _ _ hi0 (by rw [h1]; exact hi1) hi2 (by decide) (by rw [h1]; decide)).ne'⟩
      obtain ⟨st, c, hmake, hcase⟩ := C70_ends_partial _ _ (hne 0) (hne 1) (Or.inl hp) dir
      rcases hcase with ⟨_, _, hz⟩ | ⟨_, μ, _, ⟨q, hq, q', hq', e⟩, _⟩ | ⟨_, hcom, _⟩
      · refine ⟨0, ?_, ?_⟩
        · unfold boundedPenetration
          rw [hmake fuel hfuel]
          simp only
          rw [hz fuel]
          rfl
        · rw [normSq_dot, Vec2.dot_def]
          simp only [Vec2.zero_x, Vec2.zero_y, mul_zero, add_zero]
          exact mul_self_pos.2 hpen
      · exfalso
        obtain ⟨st', c', hmake', hc'⟩ := C20_polygons _ _ (hne 0) (hne 1) (Or.inl hp) dir
        have e := (hmake fuel hfuel).symm.trans (hmake' fuel hfuel)
        simp only [Option.some.injEq, Outcome.ok.injEq, Prod.mk.injEq] at e
        exact h (hc'.1 (by rw [← e.2]; assumption))
      · exact absurd hcom h
    · obtain ⟨st, ν, hrun, _, _, hmin⟩ := C70_penetration_partial _ _ (hne 0) (hne 1) h dir
      obtain ⟨r1, r2⟩ := hrun fuel hfuel
      refine ⟨ν, ?_, (hmin μ hμ).trans_lt hlt⟩
      unfold boundedPenetration
      rw [r1]
      simp only
      rw [r2]
      rfl
  obtain ⟨μ, hμ, hlt⟩ := hshort
  unfold Manifold.update
  simp only [hb0, hb1, Outcome.bind_ok, ← hdir]
  by_cases hov : b0.overlaps b1 = true
  · simp only [hov, Bool.not_true, Bool.false_eq_true, if_false, hμ, Outcome.bind_ok]
    rw [if_pos hlt]
  · simp only [Bool.not_eq_true] at hov
    simp only [hov, Bool.not_false, if_true]

end

/-! ### Two squares -/
section

theorem convex_four {a b c d : Vec2 ℝ} (h1 : 0 < twiceArea a b c) (h2 : 0 < twiceArea a b d) (h3 : 0 < twiceArea b c d) (h4 : 0 < twiceArea b c a)
    (h5 : 0 < twiceArea c d a) (h6 : 0 < twiceArea c d b) (h7 : 0 < twiceArea d a b) (h8 : 0 < twiceArea d a c) : StrictlyConvex [a, b, c, d] := by
  refine ⟨by simp, fun i k x y z hx hy hz k1 k2 => ?_⟩
  have hi : i < 4 := (List.getElem?_eq_some_iff.1 hx).1
  have hk : k < 4 := (List.getElem?_eq_some_iff.1 hz).1
  interval_cases i <;> interval_cases k <;> simp_all

theorem noObtuse_four {a b c d : Vec2 ℝ} (h1 : Vec2.dot (b - a) (c - b) ≤ 0) (h2 : Vec2.dot (c - b) (d - c) ≤ 0) (h3 : Vec2.dot (d - c) (a - d) ≤ 0)
    (h4 : Vec2.dot (a - d) (b - a) ≤ 0) : NoObtuse [a, b, c, d] := by
  intro i x y z hx hy hz
  have hi : i < 4 := (List.getElem?_eq_some_iff.1 hx).1
  interval_cases i <;> simp_all

/-- A unit square with its lower left corner at `p`, and its body there. -/
noncomputable def tileSide (p : Vec2 ℝ) : Side ℝ :=
  ⟨(ColliderGeom.make [⟨0, 0⟩, ⟨1, 0⟩, ⟨1, 1⟩, ⟨0, 1⟩]).update (· + p), .make p 0 ⟨1 / 2, 1 / 2⟩⟩

theorem tile_verts (p : Vec2 ℝ) : (tileSide p).geom.transformed = [⟨p.x, p.y⟩, ⟨1 + p.x, p.y⟩, ⟨1 + p.x, 1 + p.y⟩, ⟨p.x, 1 + p.y⟩] := by
  simp [tileSide, ColliderGeom.make, ColliderGeom.update, Vec2.ext_iff]

theorem tile_convex (p : Vec2 ℝ) : StrictlyConvex (tileSide p).geom.transformed ∧ NoObtuse (tileSide p).geom.transformed := by
  rw [tile_verts]
  constructor
  · apply convex_four <;> simp [twiceArea]
  · apply noObtuse_four <;> simp [Vec2.dot_def]

/-- Two tiles, the first one resting on the second one with an overlap of 1/10 and an offset of 1/4. -/
noncomputable def twoTiles : Fin 2 → Side ℝ := ![tileSide ⟨1 / 4, 9 / 10⟩, tileSide ⟨0, 0⟩]

theorem tiles_overlap : ¬Cleared (twoTiles 0).geom.transformed (twoTiles 1).geom.transformed 0 ∧
    ∀ μ, Cleared (twoTiles 0).geom.transformed (twoTiles 1).geom.transformed μ → (1 / 200 : ℝ) * (1 / 200) ≤ μ.normSquared := by
  have v0 : (twoTiles 0).geom.transformed = [⟨1 / 4, 9 / 10⟩, ⟨5 / 4, 9 / 10⟩, ⟨5 / 4, 19 / 10⟩, ⟨1 / 4, 19 / 10⟩] := by
    change (tileSide _).geom.transformed = _
    rw [tile_verts]
    norm_num
  have v1 : (twoTiles 1).geom.transformed = [⟨0, 0⟩, ⟨1, 0⟩, ⟨1, 1⟩, ⟨0, 1⟩] := by
    change (tileSide _).geom.transformed = _
    rw [tile_verts]
    norm_num
  -- four differences around the origin, all at a distance of at least 1/10
  have key : ∀ μ, Cleared (twoTiles 0).geom.transformed (twoTiles 1).geom.transformed μ → (1 / 200 : ℝ) * (1 / 200) ≤ μ.normSquared := by
    rintro μ ⟨n, hn, h⟩
    rw [v0, v1] at h
    have h1 := h ⟨1 / 4, 9 / 10⟩ (by simp) ⟨0, 1⟩ (by simp)
    have h2 := h ⟨1 / 4, 9 / 10⟩ (by simp) ⟨1, 1⟩ (by simp)
    have h3 := h ⟨5 / 4, 19 / 10⟩ (by simp) ⟨0, 0⟩ (by simp)
    have h4 := h ⟨1 / 4, 19 / 10⟩ (by simp) ⟨1, 0⟩ (by simp)
    simp only [Vec2.dot_def, Vec2.sub_x, Vec2.sub_y, Vec2.add_x, Vec2.add_y] at h1 h2 h3 h4
    have hnn := vec_self_pos hn
    rw [Vec2.dot_def] at hnn
    rw [normSq_dot, Vec2.dot_def]
    -- the bound of Cauchy
    have hb : (1 / 10) * (1 / 10) * (n.x * n.x + n.y * n.y) ≤ (μ.x * n.x + μ.y * n.y) * (μ.x * n.x + μ.y * n.y) := by
      have hd : (1 / 10) * |n.x| ≤ μ.x * n.x + μ.y * n.y ∧ (1 / 10) * |n.y| ≤ μ.x * n.x + μ.y * n.y ∧ |n.x| / 5 + |n.y| / 10 ≤ μ.x * n.x + μ.y * n.y := by
        rcases abs_cases n.x with ⟨a, _⟩ | ⟨a, _⟩ <;> rcases abs_cases n.y with ⟨b, _⟩ | ⟨b, _⟩ <;> rw [a, b] <;> refine ⟨?_, ?_, ?_⟩ <;> linarith
      have a0 := abs_nonneg n.x
      have b0 := abs_nonneg n.y
      have ax := abs_mul_abs_self n.x
      have ay := abs_mul_abs_self n.y
      have : (|n.x| / 5 + |n.y| / 10) * (|n.x| / 5 + |n.y| / 10) ≤ (μ.x * n.x + μ.y * n.y) * (μ.x * n.x + μ.y * n.y) :=
        mul_self_le_mul_self (by linarith) hd.2.2
      have hab := mul_nonneg a0 b0
      nlinarith
    have hc : (μ.x * n.x + μ.y * n.y) * (μ.x * n.x + μ.y * n.y) ≤ (μ.x * μ.x + μ.y * μ.y) * (n.x * n.x + n.y * n.y) := by
      nlinarith [mul_self_nonneg (μ.x * n.y - μ.y * n.x)]
    have := le_of_mul_le_mul_right (hb.trans hc) hnn
    linarith
  refine ⟨fun h => ?_, key⟩
  have := key 0 h
  rw [normSq_dot, Vec2.dot_def] at this
  norm_num at this

/-- The manifold of the two tiles before its update. -/
noncomputable def tilesManifold : Manifold ℝ := ⟨fun _ _ => 0, 0, 0, 1 / 200, 0⟩

theorem real_sqrt_lawful : LawfulSqrt Real.sqrt := fun x h => ⟨Real.mul_self_sqrt h, Real.sqrt_nonneg x⟩

/-- The hypotheses are met by the two tiles: they get a contact. -/
example : ∃ m' μ, tilesManifold.update Real.sqrt (boundedPenetration 20) twoTiles = .ok m' ∧ Shortest (twoTiles 0).geom.transformed (twoTiles 1).geom.transformed μ ∧
    ∀ f, f = m'.frame (fun i => (twoTiles i).position.toWorldSpace) → ∃ c : Fin 2, c.val < f.nContacts := by
  have hc : ∀ i, StrictlyConvex (twoTiles i).geom.transformed ∧ NoObtuse (twoTiles i).geom.transformed := fun i => by
    fin_cases i
    · exact tile_convex _
    · exact tile_convex _
  obtain ⟨m', μ, h1, h2, h3⟩ := C85_found_partial real_sqrt_lawful 20 tilesManifold twoTiles
    (fun i => by fin_cases i <;> exact .ofAngle 0) (fun i => by fin_cases i <;> rfl) (fun i => (hc i).1) tiles_overlap.1 tiles_overlap.2
    (by change (tileSide _).geom.transformed.length * (tileSide _).geom.transformed.length + 4 ≤ 20; rw [tile_verts, tile_verts]; simp)
  refine ⟨m', μ, h1, h2, fun f hf => ?_⟩
  obtain ⟨c, hc', _⟩ := h3 f hf (Or.inl (hc _).2)
  exact ⟨c, hc'⟩

/-- The normal of the two tiles has length one. -/
example : ∃ m', tilesManifold.update Real.sqrt (boundedPenetration 20) twoTiles = .ok m' ∧
    (m'.frame (fun i => (twoTiles i).position.toWorldSpace)).normal.normSquared = 1 := by
  obtain ⟨m', _, h1, _, h3⟩ := C85_normal real_sqrt_lawful 20 tilesManifold twoTiles
    (fun i => by fin_cases i <;> exact .ofAngle 0) (fun i => by fin_cases i <;> rfl) (fun i => by fin_cases i <;> exact (tile_convex _).1) tiles_overlap.1 tiles_overlap.2
    (by change (tileSide _).geom.transformed.length * (tileSide _).geom.transformed.length + 4 ≤ 20; rw [tile_verts, tile_verts]; simp)
  exact ⟨m', h1, (h3 _ rfl).2.2.1⟩

/-- With a tolerance of 1/2, the two tiles have no contact. -/
example : { tilesManifold with minPen := 1 / 2 }.update Real.sqrt (boundedPenetration 20) twoTiles = .ok { tilesManifold with minPen := 1 / 2, nContacts := 0 } := by
  refine C85_none Real.sqrt 20 _ twoTiles (fun i => by fin_cases i <;> rfl) (fun i => by fin_cases i <;> exact (tile_convex _).1)
    (by change (tileSide _).geom.transformed.length * (tileSide _).geom.transformed.length + 4 ≤ 20; rw [tile_verts, tile_verts]; simp) (by norm_num)
    (Or.inr ⟨tiles_overlap.1, ⟨0, -1 / 10⟩, ⟨⟨0, -1⟩, by simp [Vec2.ext_iff], ?_⟩, by rw [normSq_dot, Vec2.dot_def]; norm_num⟩)
  change ∀ a ∈ (tileSide _).geom.transformed, ∀ b ∈ (tileSide _).geom.transformed, _
  rw [tile_verts, tile_verts]
  intro a ha b hb
  simp only [List.mem_cons, List.not_mem_nil, or_false] at ha hb
  rcases ha with rfl | rfl | rfl | rfl <;> rcases hb with rfl | rfl | rfl | rfl <;> norm_num [Vec2.dot_def]

end

/-! ### A contact that is missed -/
section
attribute [local instance] flatTrig

theorem bounded_of {A B : List (Vec2 ℚ)} {fuel : Nat} {d μ : Vec2 ℚ} (h : penetrationOf fuel A B d = some (.ok μ)) : boundedPenetration fuel A B d = .ok μ := by
  unfold penetrationOf at h
  unfold boundedPenetration
  generalize Gjk.make fuel A B d = r at h ⊢
  rcases r with _ | (r | _ | _)
  · simp at h
  · simp only at h ⊢
    rw [h]
    rfl
  · simp at h
  · simp at h

/-- A triangle with its tip down at `(0, -1/2)`, and its body there. -/
def spikeSide : Side ℚ := ⟨(ColliderGeom.make [⟨0, 0⟩, ⟨3, 4⟩, ⟨-3, 4⟩]).update (· + ⟨0, -1 / 2⟩), .make ⟨0, -1 / 2⟩ 0 ⟨0, 8 / 3⟩⟩

/-- A trapezoid whose short side is on top, on the line `y = 0`. -/
def plinthSide : Side ℚ := ⟨(ColliderGeom.make [⟨-5, -3⟩, ⟨5, -3⟩, ⟨1, 0⟩, ⟨-1, 0⟩]).update (· + ⟨0, 0⟩), .make ⟨0, 0⟩ 0 ⟨0, -11 / 6⟩⟩

/-- The spike, sunk by one half in the middle of the top side of the plinth. -/
def spikeOnPlinth : Fin 2 → Side ℚ := ![spikeSide, plinthSide]

/-- Exact roots of the squared lengths of the sides of the spike and of the plinth. -/
def spikeRoot (x : ℚ) : ℚ := if x = 25 then 5 else if x = 36 then 6 else if x = 4 then 2 else 10

theorem spike_verts : (spikeOnPlinth 0).geom.transformed = [⟨0, -1 / 2⟩, ⟨3, 7 / 2⟩, ⟨-3, 7 / 2⟩] := by decide +kernel
theorem plinth_verts : (spikeOnPlinth 1).geom.transformed = [⟨-5, -3⟩, ⟨5, -3⟩, ⟨1, 0⟩, ⟨-1, 0⟩] := by decide +kernel

theorem spike_over : ¬Cleared (spikeOnPlinth 0).geom.transformed (spikeOnPlinth 1).geom.transformed 0 := by
  rw [spike_verts, plinth_verts]
  rintro ⟨n, hn, h⟩
  have h1 := h ⟨0, -1 / 2⟩ (by simp) ⟨-1, 0⟩ (by simp)
  have h2 := h ⟨0, -1 / 2⟩ (by simp) ⟨1, 0⟩ (by simp)
  have h3 := h ⟨0, -1 / 2⟩ (by simp) ⟨-5, -3⟩ (by simp)
  have h4 := h ⟨0, -1 / 2⟩ (by simp) ⟨5, -3⟩ (by simp)
  norm_num [Vec2.dot_def] at h1 h2 h3 h4
  exact hn (Vec2.ext (by simp only [Vec2.zero_x]; linarith) (by simp only [Vec2.zero_y]; linarith))

theorem spike_pen (d : Vec2 ℚ) (hd : d = (spikeOnPlinth 1).position.centroid - (spikeOnPlinth 0).position.centroid) :
    penetrationOf 40 (spikeOnPlinth 0).geom.transformed (spikeOnPlinth 1).geom.transformed d = some (.ok ⟨0, -1 / 2⟩) := by
  subst hd
  rw [penetrationOf_eval, spike_verts, plinth_verts]
  decide +kernel

theorem spike_deep (μ : Vec2 ℚ) (h : Cleared (spikeOnPlinth 0).geom.transformed (spikeOnPlinth 1).geom.transformed μ) : 1 / 2 * (1 / 2) ≤ μ.normSquared := by
  obtain ⟨st, ν, hrun, _, _, hmin⟩ := C70_penetration_partial _ _ (by rw [spike_verts]; simp) (by rw [plinth_verts]; simp) spike_over
    ((spikeOnPlinth 1).position.centroid - (spikeOnPlinth 0).position.centroid)
  obtain ⟨r1, r2⟩ := hrun 40 (by rw [spike_verts, plinth_verts]; simp)
  have e := spike_pen _ rfl
  unfold penetrationOf at e
  rw [r1] at e
  simp only [r2, Option.some.injEq, Outcome.ok.injEq] at e
  have := hmin μ h
  rw [e] at this
  refine le_trans ?_ this
  decide +kernel

theorem spike_update : ∃ m', emptyManifold.update spikeRoot (boundedPenetration 40) spikeOnPlinth = .ok m' ∧ m'.nContacts = 0 := by
  have b0 : (spikeOnPlinth 0).geom.box = .ok ⟨⟨-3, -1 / 2⟩, ⟨3, 7 / 2⟩⟩ := by decide +kernel
  have b1 : (spikeOnPlinth 1).geom.box = .ok ⟨⟨-5, -3⟩, ⟨5, 0⟩⟩ := by decide +kernel
  have hv3 := EdgeIt.visit_eq 3 (by decide)
  have hv := EdgeIt.visit_eq 4 (by decide)
  have c0 : ∃ e, computeContactEdge spikeRoot (spikeOnPlinth 0).geom.transformed ⟨0, -1 / 2⟩ = .ok e ∧ e = ⟨2, 0⟩ := by
    refine ⟨_, ?_, rfl⟩
    rw [spike_verts]
    unfold computeContactEdge
    simp only [List.length_cons, List.length_nil, Nat.zero_add, Nat.reduceAdd, hv3]
    decide +kernel
  have c1 : computeContactEdge spikeRoot (spikeOnPlinth 1).geom.transformed (-⟨0, -1 / 2⟩) = .ok ⟨2, 3⟩ := by
    rw [plinth_verts]
    unfold computeContactEdge
    simp only [List.length_cons, List.length_nil, Nat.zero_add, Nat.reduceAdd, hv]
    decide +kernel
  obtain ⟨e, c0, rfl⟩ := c0
  have hov : (!(⟨⟨-3, -1 / 2⟩, ⟨3, 7 / 2⟩⟩ : BoundingBox ℚ).overlaps ⟨⟨-5, -3⟩, ⟨5, 0⟩⟩) = false := by decide +kernel
  have hpen : ¬(⟨0, -1 / 2⟩ : Vec2 ℚ).normSquared < emptyManifold.minPen * emptyManifold.minPen := by decide +kernel
  have hb := bounded_of (spike_pen _ rfl)
  have hn : emptyManifold.nContacts = 0 := rfl
  have hup : ∀ P : Manifold ℚ → Bool, (match emptyManifold.update spikeRoot (boundedPenetration 40) spikeOnPlinth with
      | .ok m => P m
      | _ => false) = true → ∃ m', emptyManifold.update spikeRoot (boundedPenetration 40) spikeOnPlinth = .ok m' ∧ P m' = true := by
    intro P h
    cases hm : emptyManifold.update spikeRoot (boundedPenetration 40) spikeOnPlinth with
    | ok m => exact ⟨m, rfl, by rw [hm] at h; exact h⟩
    | throw => rw [hm] at h; exact absurd h Bool.false_ne_true
    | ub => rw [hm] at h; exact absurd h Bool.false_ne_true
  obtain ⟨m', h, hP⟩ := hup (fun m => decide (m.nContacts = 0)) (by
      unfold Manifold.update
      simp only [b0, b1, Outcome.bind_ok, hov, Bool.false_eq_true, if_false, hn, if_true, hb, c0, c1, hpen]
      rw [spike_verts, plinth_verts]
      decide +kernel)
  exact ⟨m', h, by simpa using hP⟩

/-- C85 is false for reference polygons with obtuse angles: a triangle whose tip is one half deep in the middle of the top side of a trapezoid, both of them strictly convex and with exact
lengths, has no contact at all although every translation that separates them is at least one half long and the tolerance is 1/200: the ends of the incident edge are clipped
by the sides that neighbour the reference edge, both of which end up in front of the reference edge (Edges.hpp:78-90, ContactManifold.hpp:215-245). -/
theorem C85_missed_disagreement : ∃ (sqrt : ℚ → ℚ) (s : Fin 2 → Side ℚ) (m m' : Manifold ℚ),
    (∀ i k a b, (s i).geom.transformed[k]? = some a → (s i).geom.transformed[(k + 1) % (s i).geom.transformed.length]? = some b →
      sqrt (b - a).normSquared * sqrt (b - a).normSquared = (b - a).normSquared ∧ 0 ≤ sqrt (b - a).normSquared) ∧
    (∀ i, (s i).position.orient.Reachable) ∧ (∀ i, (s i).geom.box = BoundingBox.ofVertices (s i).geom.transformed) ∧ (∀ i, StrictlyConvex (s i).geom.transformed) ∧
    (∀ μ, Cleared (s 0).geom.transformed (s 1).geom.transformed μ → 1 / 2 * (1 / 2) ≤ μ.normSquared) ∧ m.minPen = 1 / 200 ∧
    m.update sqrt (boundedPenetration 40) s = .ok m' ∧ m'.nContacts = 0 := by
  obtain ⟨m', h, hn⟩ := spike_update
  refine ⟨spikeRoot, spikeOnPlinth, emptyManifold, m', ?_, ?_, ?_, ?_, spike_deep, rfl, h, hn⟩
  · intro i k a b ha hb
    fin_cases i
    · simp only [Fin.zero_eta] at ha hb
      rw [spike_verts] at ha hb
      have hk : k < 3 := (List.getElem?_eq_some_iff.1 ha).1
      interval_cases k <;> simp at ha hb <;> subst ha hb <;> decide +kernel
    · simp only [Fin.mk_one] at ha hb
      rw [plinth_verts] at ha hb
      have hk : k < 4 := (List.getElem?_eq_some_iff.1 ha).1
      interval_cases k <;> simp at ha hb <;> subst ha hb <;> decide +kernel
  · intro i; fin_cases i <;> exact .ofAngle 0
  · intro i; fin_cases i <;> rfl
  · intro i
    fin_cases i
    · simp only [Fin.zero_eta]
      rw [spike_verts]
      refine ⟨by simp, fun i k a b c ha hb hc k1 k2 => ?_⟩
      have hi : i < 3 := (List.getElem?_eq_some_iff.1 ha).1
      have hk : k < 3 := (List.getElem?_eq_some_iff.1 hc).1
      interval_cases i <;> interval_cases k <;> simp at ha hb hc k1 k2 <;> subst ha hb hc <;> decide +kernel
    · simp only [Fin.mk_one]
      rw [plinth_verts]
      refine ⟨by simp, fun i k a b c ha hb hc k1 k2 => ?_⟩
      have hi : i < 4 := (List.getElem?_eq_some_iff.1 ha).1
      have hk : k < 4 := (List.getElem?_eq_some_iff.1 hc).1
      interval_cases i <;> interval_cases k <;> simp at ha hb hc k1 k2 <;> subst ha hb hc <;> decide +kernel

end
end Simu
