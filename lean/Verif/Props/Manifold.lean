import Verif.Model.Contact
import Verif.Props.Geometry
import Verif.Props.Barycentric
import Verif.Props.Transform
import Verif.Props.Solver
/-
C52: contact manifolds.
-/
namespace Simu
open Mat

theorem Outcome.bind_eq_ok_iff {α β : Type*} {x : Outcome α} {f : α → Outcome β} {y : β} :
    x.bind f = .ok y ↔ ∃ a, x = .ok a ∧ f a = .ok y := by
  cases x with
  | ok a => simp [Outcome.bind]
  | throw => simp [Outcome.bind]
  | ub => simp [Outcome.bind]

section
variable {K : Type*} [Field K] [LinearOrder K] [IsStrictOrderedRing K]

/-- `e` is one of the edges of the loop. -/
def LoopEdge (verts : List (Vec2 K)) (e : Vec2 K × Vec2 K) : Prop := ∃ es, edgesOf verts = .ok es ∧ e ∈ es

/-- Clipping an edge never fails and gives a point of the edge. -/
theorem clipInside_spec (e other : Vec2 K × Vec2 K) : ∃ p, clipInside e other = .ok p ∧ OnSegment e.1 e.2 p := by
  unfold clipInside
  split_ifs with h
  · exact ⟨_, rfl, 0, le_refl _, zero_le_one, by ext <;> simp⟩
  · set A : Mat K 2 2 := ⟨![(edgeDirection e).x, (edgeDirection other).x, (edgeDirection e).y, (edgeDirection other).y]⟩ with hA
    have hd : A.toM.det ≠ 0 := by
      intro h0
      apply h
      rw [Matrix.det_fin_two] at h0
      have e1 : A.toM 0 0 = (edgeDirection e).x := rfl
      have e2 : A.toM 0 1 = (edgeDirection other).x := rfl
      have e3 : A.toM 1 0 = (edgeDirection e).y := rfl
      have e4 : A.toM 1 1 = (edgeDirection other).y := rfl
      rw [e1, e2, e3, e4] at h0
      simp only [Vec2.dot, edgeNormal, Vec2.perp, if_true, Vec2.neg_x, Vec2.neg_y]
      linear_combination h0
    obtain ⟨x, hx, _⟩ := (C10_solver2 A).2.2.1 hd (Mat.ofFn ![(other.1 - e.1).x, (other.1 - e.1).y])
    obtain ⟨c0, c1, _⟩ := clamp01 (x.at_ 0)
    refine ⟨e.1 + Algo.clamp (x.at_ 0) 0 1 • edgeDirection e, ?_, ?_⟩
    · change ((Solver2.mk' A).solve (Mat.ofFn ![(other.1 - e.1).x, (other.1 - e.1).y])).bind _ = _
      rw [hx]
      rfl
    · exact ⟨Algo.clamp (x.at_ 0) 0 1, c0, c1, by ext <;> simp [edgeDirection] <;> ring⟩

theorem IsEdge.ends {l : List (Vec2 K)} {e : EdgeIt} (h : IsEdge l.length e) :
    ∃ E, e.ends l = .ok E ∧ LoopEdge l E ∧ l[e.dst]? = some E.2 ∧ l[e.src]? = some E.1 := by
  have hl : l ≠ [] := by rintro rfl; exact absurd h.1 (by simp)
  obtain ⟨es, hes, hlen, hget⟩ := C16_edges l hl
  have hs : e.src < l.length := h.2 ▸ Nat.mod_lt _ (List.length_pos_iff.2 hl)
  have hdl := h.1
  have h1 : l[e.src]? = some l[e.src] := List.getElem?_eq_getElem hs
  have h2 : l[e.dst]? = some l[e.dst] := List.getElem?_eq_getElem h.1
  refine ⟨(l[e.src], l[e.dst]), ?_, ⟨es, hes, ?_⟩, h2, h1⟩
  · simp only [EdgeIt.ends, h1, h2]
  · have := hget e.dst
    rw [h2, Option.bind_some, ← h.2, h1, Option.map_some] at this
    exact List.mem_of_getElem? this


/-- The edge chosen for a direction: of the two edges at a vertex that is furthest in that direction, the one whose outer normal is
better aligned with it. -/
theorem computeContactEdge_spec (sqrt : K → K) (verts : List (Vec2 K)) (hv : verts ≠ []) (d : Vec2 K) (hd : d ≠ 0) :
    ∃ e p prev next P N, computeContactEdge sqrt verts d = .ok e ∧ furthestVertexInDirection verts d = .ok p ∧
      IsEdge verts.length prev ∧ prev.next verts.length = .ok next ∧ IsEdge verts.length next ∧ prev.ends verts = .ok P ∧
      next.ends verts = .ok N ∧ P.2 = p ∧ N.1 = p ∧ (e = prev ∨ e = next) ∧
      (e = prev → Vec2.dot (edgeUnitNormal sqrt N) d ≤ Vec2.dot (edgeUnitNormal sqrt P) d) ∧
      (e ≠ prev → Vec2.dot (edgeUnitNormal sqrt P) d < Vec2.dot (edgeUnitNormal sqrt N) d) := by
  obtain ⟨p, hp, hmem, _⟩ := C17_support verts d hv hd
  have hpos : 0 < verts.length := List.length_pos_iff.2 hv
  have hvis := EdgeIt.visit_eq verts.length hpos
  set edges : List EdgeIt := ⟨verts.length - 1, 0⟩ :: (List.range' 1 (verts.length - 1)).map fun i => ⟨i - 1, i⟩ with hedges
  have hedge : ∀ e ∈ edges, IsEdge verts.length e := by
    intro e he
    rw [hedges] at he
    rcases List.mem_cons.1 he with rfl | he
    · refine ⟨hpos, ?_⟩
      simp only
      rw [Nat.zero_add, Nat.mod_eq_of_lt (by omega)]
    · obtain ⟨i, hi, rfl⟩ := List.mem_map.1 he
      rw [List.mem_range'_1] at hi
      refine ⟨by simp only; omega, ?_⟩
      simp only
      rw [show i + verts.length - 1 = (i - 1) + verts.length by omega, Nat.add_mod_right, Nat.mod_eq_of_lt (by omega)]
  obtain ⟨i, hi, hip⟩ := List.getElem_of_mem hmem
  have hex : ∃ e ∈ edges, decide (verts[e.dst]? = some p) = true := by
    by_cases h0 : i = 0
    · subst h0
      exact ⟨⟨verts.length - 1, 0⟩, by simp [hedges], by simp [List.getElem?_eq_getElem hi, hip]⟩
    · refine ⟨⟨i - 1, i⟩, ?_, by simp [List.getElem?_eq_getElem hi, hip]⟩
      rw [hedges]
      refine List.mem_cons_of_mem _ (List.mem_map.2 ⟨i, ?_, rfl⟩)
      rw [List.mem_range'_1]
      omega
  cases hf : edges.find? (fun e => decide (verts[e.dst]? = some p)) with
  | none =>
    obtain ⟨e, he, hpe⟩ := hex
    exact absurd hpe (List.find?_eq_none.1 hf e he)
  | some prev =>
    have hprev := hedge prev (List.mem_of_find?_eq_some hf)
    have hdst : verts[prev.dst]? = some p := by simpa using List.find?_some hf
    obtain ⟨next, hnext, hnedge, hsrc, _⟩ := C16_next verts.length prev hprev
    obtain ⟨P, hP, _, hP2, _⟩ := hprev.ends
    obtain ⟨N, hN, _, _, hN1⟩ := hnedge.ends
    have eP : P.2 = p := by rw [hdst] at hP2; exact (Option.some.inj hP2).symm
    have eN : N.1 = p := by rw [hsrc, hdst] at hN1; exact (Option.some.inj hN1).symm
    have hc : computeContactEdge sqrt verts d =
        if Vec2.dot (edgeUnitNormal sqrt P) d < Vec2.dot (edgeUnitNormal sqrt N) d then .ok next else .ok prev := by
      simp only [computeContactEdge, hp, hvis, hf, hnext, hP, hN, Outcome.bind_ok]
    by_cases hlt : Vec2.dot (edgeUnitNormal sqrt P) d < Vec2.dot (edgeUnitNormal sqrt N) d
    · rw [if_pos hlt] at hc
      refine ⟨next, p, prev, next, P, N, hc, hp, hprev, hnext, hnedge, hP, hN, eP, eN, Or.inr rfl, ?_, fun _ => hlt⟩
      rintro rfl
      rw [hP] at hN
      obtain rfl : P = N := Outcome.ok.inj hN
      exact le_refl _
    · rw [if_neg hlt] at hc
      exact ⟨prev, p, prev, next, P, N, hc, hp, hprev, hnext, hnedge, hP, hN, eP, eN, Or.inl rfl, fun _ => not_lt.1 hlt, fun h => absurd rfl h⟩

/-- The contacts on the incident edge. -/
theorem incidentContacts_spec (refEdge prev next inc : Vec2 K × Vec2 K) (n : Vec2 K) :
    ∃ l, incidentContacts refEdge prev next inc n = .ok l ∧ l.length ≤ 2 ∧ l.Nodup ∧
      ∀ p ∈ l, OnSegment inc.1 inc.2 p ∧ 0 ≤ Vec2.dot (p - refEdge.1) n := by
  obtain ⟨p1, h1, s1⟩ := clipInside_spec inc prev
  obtain ⟨p2, h2, s2⟩ := clipInside_spec inc next
  simp only [incidentContacts, h1, h2, Outcome.bind_ok]
  by_cases c1 : 0 ≤ Vec2.dot (p1 - refEdge.1) n <;> by_cases c2 : 0 ≤ Vec2.dot (p2 - refEdge.1) n
  · by_cases hq : p1 = p2
    · subst hq
      exact ⟨[p1], by simp [c1], by simp, by simp, by simp [s1, c1]⟩
    · refine ⟨[p1, p2], by simp [c1, c2, hq], by simp, by simp [hq], ?_⟩
      intro p hp
      rcases List.mem_pair.1 hp with rfl | rfl
      · exact ⟨s1, c1⟩
      · exact ⟨s2, c2⟩
  · exact ⟨[p1], by simp [c1, c2], by simp, by simp, by simp [s1, c1]⟩
  · exact ⟨[p2], by simp [c1, c2], by simp, by simp, by simp [s2, c2]⟩
  · exact ⟨[], by simp [c1, c2], by simp, by simp, by simp⟩


theorem computeContactEdge_isEdge {sqrt : K → K} {verts : List (Vec2 K)} {d : Vec2 K} {e : EdgeIt}
    (h : computeContactEdge sqrt verts d = .ok e) : IsEdge verts.length e := by
  by_cases hd : d = 0
  · subst hd
    simp [computeContactEdge, C17_zero_direction] at h
  by_cases hv : verts = []
  · subst hv
    simp [computeContactEdge, C17_empty d hd] at h
  obtain ⟨e', p, prev, next, P, N, hc, _, h1, _, h2, _, _, _, _, he, _⟩ := computeContactEdge_spec sqrt verts hv d hd
  rw [hc] at h
  obtain rfl := Outcome.ok.inj h
  rcases he with rfl | rfl
  · exact h1
  · exact h2

theorem edgeUnitNormal_dot (sqrt : K → K) (E : Vec2 K × Vec2 K) : Vec2.dot (edgeUnitNormal sqrt E) (E.2 - E.1) = 0 := by
  simp only [edgeUnitNormal, edgeNormal, edgeDirection, Vec2.sdiv, Vec2.dot, Vec2.perp, if_true, Vec2.neg_x, Vec2.neg_y, Vec2.sub_x, Vec2.sub_y]
  ring

theorem computeContacts_spec (m : Manifold K) (verts : Fin 2 → List (Vec2 K)) (e : Fin 2 → EdgeIt)
    (he : ∀ i, IsEdge (verts i).length (e i)) : ∃ (l : List (Vec2 K)) (R E : Vec2 K × Vec2 K) (m' : Manifold K), computeContacts m verts e = .ok m' ∧
      (e m.refIndex).ends (verts m.refIndex) = .ok R ∧ (e m.incIndex).ends (verts m.incIndex) = .ok E ∧
      LoopEdge (verts m.refIndex) R ∧ LoopEdge (verts m.incIndex) E ∧ l.length ≤ 2 ∧ l.Nodup ∧
      (∀ p ∈ l, OnSegment E.1 E.2 p ∧ 0 ≤ Vec2.dot (p - R.1) (-m.normal)) ∧
      m' = { m with
        nContacts := l.length
        contacts := fun b c =>
          match l[c.val]? with
          | none => m.contacts b c
          | some p => if b = m.incIndex then p else (LineBarycentric.mk' R.1 R.2 p).closestPoint } := by
  obtain ⟨prev, hprev, pe, _⟩ := C16_previous _ _ (he m.refIndex)
  obtain ⟨next, hnext, ne, _⟩ := C16_next _ _ (he m.refIndex)
  obtain ⟨R, hR, hR', _⟩ := (he m.refIndex).ends
  obtain ⟨E, hE, hE', _⟩ := (he m.incIndex).ends
  obtain ⟨P, hP, _⟩ := pe.ends
  obtain ⟨N, hN, _⟩ := ne.ends
  obtain ⟨l, hl, hl2, hnd, hmem⟩ := incidentContacts_spec R P N E (-m.normal)
  refine ⟨l, R, E, _, ?_, hR, hE, hR', hE', hl2, hnd, hmem, rfl⟩
  simp only [computeContacts, hprev, hnext, hR, hE, hP, hN, hl, Outcome.bind_ok]
  rfl

variable [Trig K] [LawfulTrig K]

/-- C52: right after the contacts of two colliders have been recomputed, for any result of the penetration query: there are at
most two contacts; they lie on one edge of each body, the contact on the reference body being the point of its edge closest to the contact on the
other body; the bodies penetrate each other at each contact, along the normal; the contacts are distinct; the tangent is the normal turned by a right angle. -/
theorem C52_manifold {sqrt : K → K} {pen : List (Vec2 K) → List (Vec2 K) → Vec2 K → Outcome (Vec2 K)} {m m' : Manifold K}
    {s : Fin 2 → Side K} (hrot : ∀ i, (s i).position.orient.Reachable) (h : m.update sqrt pen s = .ok m') (f : Frame K)
    (hf : f = m'.frame fun i => (s i).position.toWorldSpace) :
    m'.minPen = m.minPen ∧ f.nContacts ≤ 2 ∧ f.tangent = ⟨-f.normal.y, f.normal.x⟩ ∧
    (f.nContacts = 2 → f.contacts m'.incIndex 0 ≠ f.contacts m'.incIndex 1) ∧
    (f.nContacts ≠ 0 → ∃ R E, LoopEdge (s m'.refIndex).geom.transformed R ∧ LoopEdge (s m'.incIndex).geom.transformed E ∧
      Vec2.dot f.normal (R.2 - R.1) = 0 ∧
      (R.1 ≠ R.2 → (∀ x, 0 ≤ x → sqrt x * sqrt x = x ∧ 0 ≤ sqrt x) → f.normal.normSquared = 1 ∧
        if m'.refIndex = 0 then 0 < Vec2.cross (R.2 - R.1) f.normal else Vec2.cross (R.2 - R.1) f.normal < 0) ∧
      ∀ c : Fin 2, c.val < f.nContacts →
        OnSegment E.1 E.2 (f.contacts m'.incIndex c) ∧ OnSegment R.1 R.2 (f.contacts m'.refIndex c) ∧
        (∀ P, OnSegment R.1 R.2 P → distSq (f.contacts m'.refIndex c) (f.contacts m'.incIndex c) ≤ distSq P (f.contacts m'.incIndex c)) ∧
        Vec2.dot f.normal (f.contacts 0 c - f.contacts 1 c) ≤ 0) := by
  have htan : f.tangent = ⟨-f.normal.y, f.normal.x⟩ := by
    rw [hf]
    simp only [Manifold.frame]
    split_ifs <;> ext <;> simp [Vec2.perp]
  unfold Manifold.update at h
  simp only [Outcome.bind_eq_ok_iff] at h
  obtain ⟨box0, _, box1, _, h⟩ := h
  by_cases hov : (!box0.overlaps box1) = true
  · rw [if_pos hov] at h
    have hm : m' = { m with nContacts := 0 } := (Outcome.ok.inj h).symm
    have h0 : f.nContacts = 0 := by rw [hf, hm]; rfl
    exact ⟨by rw [hm], by omega, htan, by omega, by omega⟩
  rw [if_neg hov, Outcome.bind_eq_ok_iff] at h
  obtain ⟨mtv, _, h⟩ := h
  by_cases hpen : mtv.normSquared < m.minPen * m.minPen
  · rw [if_pos hpen] at h
    have hm : m' = { m with nContacts := 0 } := (Outcome.ok.inj h).symm
    have h0 : f.nContacts = 0 := by rw [hf, hm]; rfl
    exact ⟨by rw [hm], by omega, htan, by omega, by omega⟩
  rw [if_neg hpen] at h
  simp only [Outcome.bind_eq_ok_iff] at h
  obtain ⟨e0, he0, e1, he1, ends0, hends0, ends1, hends1, h⟩ := h
  set m1 : Manifold K := if Vec2.dot (edgeUnitNormal sqrt ends1) (-mtv) < Vec2.dot (edgeUnitNormal sqrt ends0) mtv then
      { m with nContacts := 0, refIndex := 0, normal := edgeUnitNormal sqrt ends0 }
    else { m with nContacts := 0, refIndex := 1, normal := edgeUnitNormal sqrt ends1 } with hm1
  obtain ⟨m2, hm2, h⟩ := h
  have hm2' : computeContacts m1 (fun i => (s i).geom.transformed) ![e0, e1] = .ok m2 := hm2
  have hie : ∀ i, IsEdge ((s i).geom.transformed).length (![e0, e1] i) := by
    intro i
    fin_cases i
    · exact computeContactEdge_isEdge he0
    · exact computeContactEdge_isEdge he1
  obtain ⟨l, R, E, m2', hcc, hR, hE, hRe, hEe, hl2, hnd, hmem, hm2eq⟩ :=
    computeContacts_spec m1 (fun i => (s i).geom.transformed) ![e0, e1] hie
  obtain rfl : m2' = m2 := by rw [hm2'] at hcc; exact (Outcome.ok.inj hcc).symm
  clear hm2 hm2' hcc
  have hpen1 : m1.minPen = m.minPen := by rw [hm1]; split_ifs <;> rfl
  have hnormal : m1.normal = edgeUnitNormal sqrt R := by
    by_cases hlt : Vec2.dot (edgeUnitNormal sqrt ends1) (-mtv) < Vec2.dot (edgeUnitNormal sqrt ends0) mtv
    · rw [if_pos hlt] at hm1
      rw [hm1] at hR ⊢
      have : ends0 = R := by
        have := hends0.symm.trans hR
        exact Outcome.ok.inj this
      rw [this]
    · rw [if_neg hlt] at hm1
      rw [hm1] at hR ⊢
      have : ends1 = R := by
        have := hends1.symm.trans hR
        exact Outcome.ok.inj this
      rw [this]
  clear_value m1
  have hfin := (Outcome.ok.inj h).symm
  have href : m'.refIndex = m1.refIndex := by rw [hfin, hm2eq]
  have hinc : m'.incIndex = m1.incIndex := by unfold Manifold.incIndex; rw [href]
  have hn : m'.nContacts = l.length := by rw [hfin, hm2eq]
  have hnorm : m'.normal = (s m1.refIndex).position.toLocalSpace.r.app m1.normal := by rw [hfin, hm2eq]
  have hcon : ∀ b c, m'.contacts b c = if c.val < l.length then (s b).position.toLocalSpace.app (m2'.contacts b c) else m2'.contacts b c := by
    intro b c; rw [hfin, hm2eq]
  have hfn : f.nContacts = l.length := by rw [hf]; exact hn
  have hr : ∀ i, (s i).position.toWorldSpace.r.Reachable := hrot
  have hfc : ∀ b (c : Fin 2) (hc : c.val < l.length), f.contacts b c =
      if b = m1.incIndex then l[c.val] else (LineBarycentric.mk' R.1 R.2 l[c.val]).closestPoint := by
    intro b c hc
    have e1 : f.contacts b c = (s b).position.toWorldSpace.app (m'.contacts b c) := by
      rw [hf]; simp only [Manifold.frame, hn, if_pos hc]
    rw [e1, hcon, if_pos hc]
    have e2 := (C26_inverse (hr b) (hrot b) ⟨0⟩ (m2'.contacts b c)).2.1
    have e3 : (s b).position.toLocalSpace = (s b).position.toWorldSpace.inverse := rfl
    rw [e3, e2, hm2eq]
    simp only [List.getElem?_eq_getElem hc]
  have hfnorm : f.normal = if m1.refIndex = 0 then -edgeUnitNormal sqrt R else edgeUnitNormal sqrt R := by
    have e1 : (s m1.refIndex).position.toWorldSpace.r.app m'.normal = edgeUnitNormal sqrt R := by
      rw [hnorm, hnormal]
      exact (C26_inverse (hr m1.refIndex) (hr m1.refIndex) ⟨0⟩ (edgeUnitNormal sqrt R)).2.2.2.1
    rw [hf]
    simp only [Manifold.frame, href, e1]
  have hne : m1.incIndex ≠ m1.refIndex := by
    unfold Manifold.incIndex
    split_ifs with h0
    · rw [h0]; decide
    · exact Ne.symm h0
  have hother : ∀ i, i ≠ m1.incIndex → i = m1.refIndex := by
    intro i hi
    have h1 := hne
    revert hi h1
    generalize m1.incIndex = a
    generalize m1.refIndex = b
    revert i a b
    decide
  refine ⟨by rw [hfin, hm2eq]; exact hpen1, by omega, htan, ?_, ?_⟩
  · intro h2
    rw [hinc, hfc _ 0 (by simp; omega), hfc _ 1 (by simp; omega), if_pos rfl, if_pos rfl]
    intro heq
    have := (List.Nodup.getElem_inj_iff hnd (hi := by omega) (hj := by omega)).1 heq
    simp at this
  · intro h0
    refine ⟨R, E, by rw [href]; exact hRe, by rw [hinc]; exact hEe, ?_, ?_, ?_⟩
    · have := edgeUnitNormal_dot sqrt R
      rw [hfnorm]
      split_ifs
      · simp only [Vec2.dot, Vec2.neg_x, Vec2.neg_y] at this ⊢; linear_combination -this
      · exact this
    · intro hRR hs
      set q := Vec2.normSquared (edgeNormal R) with hq
      have hq' : q = (R.2.x - R.1.x) * (R.2.x - R.1.x) + (R.2.y - R.1.y) * (R.2.y - R.1.y) := by
        simp only [hq, edgeNormal, edgeDirection, Vec2.normSquared, Vec2.dot, Vec2.perp, if_true, Vec2.neg_x, Vec2.neg_y, Vec2.sub_x, Vec2.sub_y]
        ring
      have hqpos : 0 < q := by
        rw [hq']
        have hx := mul_self_nonneg (R.2.x - R.1.x); have hy := mul_self_nonneg (R.2.y - R.1.y)
        rcases (add_nonneg hx hy).eq_or_lt with h0 | h0
        · exfalso
          apply hRR
          have a1 : R.2.x - R.1.x = 0 := mul_self_eq_zero.1 (by linarith)
          have a2 : R.2.y - R.1.y = 0 := mul_self_eq_zero.1 (by linarith)
          ext
          · linarith
          · linarith
        · exact h0
      obtain ⟨hs1, hs2⟩ := hs q hqpos.le
      have hspos : 0 < sqrt q := by
        rcases hs2.eq_or_lt with h0 | h0
        · rw [← h0, mul_zero] at hs1; linarith
        · exact h0
      have hU : edgeUnitNormal sqrt R = ⟨(R.2.y - R.1.y) / sqrt q, -(R.2.x - R.1.x) / sqrt q⟩ := by
        ext <;> simp [edgeUnitNormal, edgeNormal, edgeDirection, Vec2.sdiv, Vec2.perp, hq]
      have hcr : Vec2.cross (R.2 - R.1) (edgeUnitNormal sqrt R) = -sqrt q := by
        rw [hU]
        simp only [Vec2.cross, Vec2.sub_x, Vec2.sub_y]
        field_simp
        linear_combination hs1 + hq'
      constructor
      · have : f.normal.normSquared = (edgeUnitNormal sqrt R).normSquared := by
          rw [hfnorm]
          split_ifs
          · simp [Vec2.normSquared, Vec2.dot]
          · rfl
        rw [this, hU]
        simp only [Vec2.normSquared, Vec2.dot]
        field_simp
        linear_combination -hs1 - hq'
      · rw [href]
        split_ifs with hz
        · rw [hfnorm, if_pos hz]
          have : Vec2.cross (R.2 - R.1) (-edgeUnitNormal sqrt R) = -Vec2.cross (R.2 - R.1) (edgeUnitNormal sqrt R) := by
            simp only [Vec2.cross, Vec2.neg_x, Vec2.neg_y]; ring
          rw [this, hcr]; linarith
        · rw [hfnorm, if_neg hz, hcr]; linarith
    · intro c hc
      rw [hfn] at hc
      have hi := hfc m1.incIndex c hc
      rw [if_pos rfl] at hi
      have hrf := hfc m1.refIndex c hc
      rw [if_neg (Ne.symm hne)] at hrf
      obtain ⟨hseg, hdot⟩ := hmem l[c.val] (List.getElem_mem hc)
      obtain ⟨hon, hclose, _⟩ := C18_closest R.1 R.2 l[c.val]
      rw [hinc, href, hi, hrf]
      refine ⟨hseg, hon, hclose, ?_⟩
      obtain ⟨t, _, _, ht⟩ := hon
      have horth := edgeUnitNormal_dot sqrt R
      rw [hnormal] at hdot
      -- along the normal, the reference contact is on the reference edge
      have hline : Vec2.dot (edgeUnitNormal sqrt R) ((LineBarycentric.mk' R.1 R.2 l[c.val]).closestPoint - R.1) = 0 := by
        rw [ht]
        have : Vec2.dot (edgeUnitNormal sqrt R) ((1 - t) • R.1 + t • R.2 - R.1) = t * Vec2.dot (edgeUnitNormal sqrt R) (R.2 - R.1) := by
          simp [Vec2.dot]; ring
        rw [this, horth, mul_zero]
      set Q := (LineBarycentric.mk' R.1 R.2 l[c.val]).closestPoint with hQ
      set U := edgeUnitNormal sqrt R with hUdef
      have hkey : Vec2.dot U (l[c.val] - Q) ≤ 0 := by
        simp only [Vec2.dot, Vec2.sub_x, Vec2.sub_y, Vec2.neg_x, Vec2.neg_y] at hline hdot ⊢
        linarith
      by_cases hz : m1.refIndex = 0
      · have hi1 : m1.incIndex = 1 := by unfold Manifold.incIndex; rw [if_pos hz]
        rw [hz] at hrf
        rw [hi1] at hi
        rw [hfnorm, if_pos hz, hrf, hi]
        simp only [Vec2.dot, Vec2.sub_x, Vec2.sub_y, Vec2.neg_x, Vec2.neg_y] at hkey ⊢
        linarith
      · have hi1 : m1.incIndex = 0 := by unfold Manifold.incIndex; rw [if_neg hz]
        have hr1 : m1.refIndex = 1 := by
          revert hz; generalize m1.refIndex = a; revert a; decide
        rw [hr1] at hrf
        rw [hi1] at hi
        rw [hfnorm, if_neg hz, hrf, hi]
        exact hkey


/-- `E` is an edge of the loop at a vertex that is furthest in direction `d`, and its unit normal is at least as well aligned with `d` as that
of the other edge at that vertex. -/
def FacingEdge (sqrt : K → K) (verts : List (Vec2 K)) (d : Vec2 K) (E : Vec2 K × Vec2 K) : Prop :=
  ∃ p P N, (∀ q ∈ verts, Vec2.dot q d ≤ Vec2.dot p d) ∧ LoopEdge verts P ∧ LoopEdge verts N ∧ P.2 = p ∧ N.1 = p ∧ (E = P ∨ E = N) ∧
    Vec2.dot (edgeUnitNormal sqrt P) d ≤ Vec2.dot (edgeUnitNormal sqrt E) d ∧
    Vec2.dot (edgeUnitNormal sqrt N) d ≤ Vec2.dot (edgeUnitNormal sqrt E) d

omit [Trig K] [LawfulTrig K] in
theorem computeContactEdge_facing (sqrt : K → K) (verts : List (Vec2 K)) (hv : verts ≠ []) (d : Vec2 K) (hd : d ≠ 0) :
    ∃ e E, computeContactEdge sqrt verts d = .ok e ∧ IsEdge verts.length e ∧ e.ends verts = .ok E ∧ FacingEdge sqrt verts d E := by
  obtain ⟨e, p, prev, next, P, N, hc, hp, h1, _, h2, hP, hN, eP, eN, he, hle, hlt⟩ := computeContactEdge_spec sqrt verts hv d hd
  obtain ⟨p', hp', _, hmax⟩ := C17_support verts d hv hd
  obtain rfl : p' = p := by rw [hp] at hp'; exact (Outcome.ok.inj hp').symm
  have hP' : LoopEdge verts P := by
    obtain ⟨P', hP', hl, _⟩ := h1.ends
    rw [hP] at hP'; rwa [Outcome.ok.inj hP']
  have hN' : LoopEdge verts N := by
    obtain ⟨N', hN', hl, _⟩ := h2.ends
    rw [hN] at hN'; rwa [Outcome.ok.inj hN']
  by_cases hep : e = prev
  · subst hep
    exact ⟨e, P, hc, h1, hP, p', P, N, fun q hq => hmax q (.vertex hq), hP', hN', eP, eN, Or.inl rfl, le_refl _, hle rfl⟩
  · have hen : e = next := he.resolve_left hep
    subst hen
    exact ⟨e, N, hc, h2, hN, p', P, N, fun q hq => hmax q (.vertex hq), hP', hN', eP, eN, Or.inr rfl, (hlt hep).le, le_refl _⟩

omit [LawfulTrig K] in
/-- C52: recomputing the contacts of colliders whose boxes overlap, when the penetration query gives a vector that is not zero and not shorter than
the tolerance, always succeeds; each body's contact edge faces the other one, and the edge that is best aligned with the penetration gives the normal. -/
theorem C52_reference (sqrt : K → K) (pen : List (Vec2 K) → List (Vec2 K) → Vec2 K → Outcome (Vec2 K)) (m : Manifold K)
    (s : Fin 2 → Side K) (box0 box1 : BoundingBox K) (h0 : (s 0).geom.box = .ok box0) (h1 : (s 1).geom.box = .ok box1)
    (hov : box0.overlaps box1 = true) (hv : ∀ i, (s i).geom.transformed ≠ []) (mtv : Vec2 K)
    (hmtv : pen (s 0).geom.transformed (s 1).geom.transformed (if m.nContacts = 0 then
      (s 1).position.centroid - (s 0).position.centroid else (s m.refIndex).position.toWorldSpace.r.app m.normal) = .ok mtv)
    (hne : mtv ≠ 0) (hlen : m.minPen * m.minPen ≤ mtv.normSquared) :
    ∃ m' E0 E1, m.update sqrt pen s = .ok m' ∧ FacingEdge sqrt (s 0).geom.transformed mtv E0 ∧ FacingEdge sqrt (s 1).geom.transformed (-mtv) E1 ∧
      (m'.refIndex = 0 → m'.normal = (s 0).position.toLocalSpace.r.app (edgeUnitNormal sqrt E0) ∧
        Vec2.dot (edgeUnitNormal sqrt E1) (-mtv) < Vec2.dot (edgeUnitNormal sqrt E0) mtv) ∧
      (m'.refIndex = 1 → m'.normal = (s 1).position.toLocalSpace.r.app (edgeUnitNormal sqrt E1) ∧
        Vec2.dot (edgeUnitNormal sqrt E0) mtv ≤ Vec2.dot (edgeUnitNormal sqrt E1) (-mtv)) := by
  have hne' : -mtv ≠ 0 := by
    intro hz
    apply hne
    have hx := congrArg Vec2.x hz; have hy := congrArg Vec2.y hz
    simp only [Vec2.neg_x, Vec2.neg_y] at hx hy
    ext
    · exact neg_eq_zero.1 hx
    · exact neg_eq_zero.1 hy
  obtain ⟨e0, E0, c0, i0, n0, f0⟩ := computeContactEdge_facing sqrt (s 0).geom.transformed (hv 0) mtv hne
  obtain ⟨e1, E1, c1, i1, n1, f1⟩ := computeContactEdge_facing sqrt (s 1).geom.transformed (hv 1) (-mtv) hne'
  have hie : ∀ i, IsEdge ((s i).geom.transformed).length (![e0, e1] i) := by
    intro i
    fin_cases i
    · exact i0
    · exact i1
  set m1 : Manifold K := if Vec2.dot (edgeUnitNormal sqrt E1) (-mtv) < Vec2.dot (edgeUnitNormal sqrt E0) mtv then
      { m with nContacts := 0, refIndex := 0, normal := edgeUnitNormal sqrt E0 }
    else { m with nContacts := 0, refIndex := 1, normal := edgeUnitNormal sqrt E1 } with hm1
  obtain ⟨l, R, E, m2, hcc, _, _, _, _, _, _, _, hm2⟩ := computeContacts_spec m1 (fun i => (s i).geom.transformed) ![e0, e1] hie
  have hup : m.update sqrt pen s = .ok { m2 with
      normal := (s m2.refIndex).position.toLocalSpace.r.app m2.normal
      contacts := fun i c => if c.val < m2.nContacts then (s i).position.toLocalSpace.app (m2.contacts i c) else m2.contacts i c } := by
    unfold Manifold.update
    simp only [h0, h1, Outcome.bind_ok, hov, Bool.not_true, Bool.false_eq_true, if_false, hmtv, if_neg (not_lt.2 hlen), c0, c1, n0, n1]
    rw [← hm1, hcc]
    rfl
  refine ⟨_, E0, E1, hup, f0, f1, ?_, ?_⟩
  · intro hr
    have hr' : m1.refIndex = 0 := by rw [hm2] at hr; exact hr
    by_cases hlt : Vec2.dot (edgeUnitNormal sqrt E1) (-mtv) < Vec2.dot (edgeUnitNormal sqrt E0) mtv
    · refine ⟨?_, hlt⟩
      rw [hm2]
      simp only [hr']
      rw [hm1, if_pos hlt]
    · rw [hm1, if_neg hlt] at hr'
      exact absurd (show (1 : Fin 2) = 0 from hr') (by decide)
  · intro hr
    have hr' : m1.refIndex = 1 := by rw [hm2] at hr; exact hr
    by_cases hlt : Vec2.dot (edgeUnitNormal sqrt E1) (-mtv) < Vec2.dot (edgeUnitNormal sqrt E0) mtv
    · rw [hm1, if_pos hlt] at hr'
      exact absurd (show (0 : Fin 2) = 1 from hr') (by decide)
    · refine ⟨?_, not_lt.1 hlt⟩
      rw [hm2]
      simp only [hr']
      rw [hm1, if_neg hlt]

omit [LawfulTrig K] in
/-- C52: with a tolerance of zero (materials with no allowed penetration), colliders that touch without penetrating make the update throw. -/
theorem C52_zero_tolerance (sqrt : K → K) (pen : List (Vec2 K) → List (Vec2 K) → Vec2 K → Outcome (Vec2 K)) (m : Manifold K)
    (s : Fin 2 → Side K) (box0 box1 : BoundingBox K) (h0 : (s 0).geom.box = .ok box0) (h1 : (s 1).geom.box = .ok box1)
    (hov : box0.overlaps box1 = true) (hp : ∀ d, pen (s 0).geom.transformed (s 1).geom.transformed d = .ok 0) (hz : m.minPen = 0) :
    m.update sqrt pen s = .throw := by
  unfold Manifold.update
  have hn : ¬(0 : Vec2 K).normSquared < 0 * 0 := by simp [Vec2.normSquared, Vec2.dot]
  simp only [h0, h1, Outcome.bind_ok, hov, Bool.not_true, Bool.false_eq_true, if_false, hp, hz, if_neg hn]
  simp [computeContactEdge, C17_zero_direction]

end

/-! ### Examples -/
section Samples

/-- Trigonometry of the angle 0, to compute examples with unrotated bodies. -/
@[reducible] def flatTrig : Trig ℚ := ⟨fun _ => 1, fun _ => 0⟩

attribute [local instance] flatTrig

theorem flatTrig_lawful : LawfulTrig ℚ := by
  constructor <;> intros <;> norm_num [Trig.cos, Trig.sin]

/-- A unit square with its lower left corner at `p`, and its body there. -/
def squareSide (p : Vec2 ℚ) : Side ℚ :=
  ⟨(ColliderGeom.make [⟨0, 0⟩, ⟨1, 0⟩, ⟨1, 1⟩, ⟨0, 1⟩]).update (· + p), .make p 0 ⟨1 / 2, 1 / 2⟩⟩

/-- Two unit squares, the first one resting on the second one with an overlap of 1/10 and an offset of 1/4. -/
def twoSquares : Fin 2 → Side ℚ := ![squareSide ⟨1 / 4, 9 / 10⟩, squareSide ⟨0, 0⟩]

/-- A manifold of the two squares. -/
def emptyManifold : Manifold ℚ := ⟨fun _ _ => 0, 0, 0, 1 / 200, 0⟩

/-- Its outcome when the penetration query finds the overlap. -/
theorem twoSquares_update : ∃ m', emptyManifold.update id (fun _ _ _ => .ok ⟨0, -1 / 10⟩) twoSquares = .ok m' ∧ m'.nContacts = 2 ∧
    m'.refIndex = 1 ∧ m'.normal = ⟨0, 1⟩ ∧ m'.contacts 0 0 = ⟨3 / 4, 0⟩ ∧ m'.contacts 1 0 = ⟨1, 1⟩ ∧ m'.contacts 0 1 = ⟨0, 0⟩ := by
  have b0 : (twoSquares 0).geom.box = .ok ⟨⟨1 / 4, 9 / 10⟩, ⟨5 / 4, 19 / 10⟩⟩ := by decide +kernel
  have b1 : (twoSquares 1).geom.box = .ok ⟨⟨0, 0⟩, ⟨1, 1⟩⟩ := by decide +kernel
  have v0 : (twoSquares 0).geom.transformed = [⟨1 / 4, 9 / 10⟩, ⟨5 / 4, 9 / 10⟩, ⟨5 / 4, 19 / 10⟩, ⟨1 / 4, 19 / 10⟩] := by decide +kernel
  have v1 : (twoSquares 1).geom.transformed = [⟨0, 0⟩, ⟨1, 0⟩, ⟨1, 1⟩, ⟨0, 1⟩] := by decide +kernel
  have hv := EdgeIt.visit_eq 4 (by decide)
  have c0 : computeContactEdge id (twoSquares 0).geom.transformed ⟨0, -1 / 10⟩ = .ok ⟨0, 1⟩ := by
    rw [v0]
    unfold computeContactEdge
    simp only [List.length_cons, List.length_nil, Nat.zero_add, Nat.reduceAdd, hv]
    decide +kernel
  have c1 : computeContactEdge id (twoSquares 1).geom.transformed (-⟨0, -1 / 10⟩) = .ok ⟨2, 3⟩ := by
    rw [v1]
    unfold computeContactEdge
    simp only [List.length_cons, List.length_nil, Nat.zero_add, Nat.reduceAdd, hv]
    decide +kernel
  have hov : (!(⟨⟨1 / 4, 9 / 10⟩, ⟨5 / 4, 19 / 10⟩⟩ : BoundingBox ℚ).overlaps ⟨⟨0, 0⟩, ⟨1, 1⟩⟩) = false := by decide +kernel
  have hpen : ¬(⟨0, -1 / 10⟩ : Vec2 ℚ).normSquared < emptyManifold.minPen * emptyManifold.minPen := by decide +kernel
  have hup : ∀ P : Manifold ℚ → Bool, (match emptyManifold.update id (fun _ _ _ => .ok ⟨0, -1 / 10⟩) twoSquares with
      | .ok m => P m
      | _ => false) = true → ∃ m', emptyManifold.update id (fun _ _ _ => .ok ⟨0, -1 / 10⟩) twoSquares = .ok m' ∧ P m' = true := by
    intro P h
    cases hm : emptyManifold.update id (fun _ _ _ => .ok ⟨0, -1 / 10⟩) twoSquares with
    | ok m => exact ⟨m, rfl, by rw [hm] at h; exact h⟩
    | throw => rw [hm] at h; exact absurd h Bool.false_ne_true
    | ub => rw [hm] at h; exact absurd h Bool.false_ne_true
  obtain ⟨m', h, hP⟩ := hup (fun m => decide (m.nContacts = 2 ∧ m.refIndex = 1 ∧ m.normal = ⟨0, 1⟩ ∧
    m.contacts 0 0 = ⟨3 / 4, 0⟩ ∧ m.contacts 1 0 = ⟨1, 1⟩ ∧ m.contacts 0 1 = ⟨0, 0⟩)) (by
      unfold Manifold.update
      simp only [b0, b1, Outcome.bind_ok, hov, Bool.false_eq_true, if_false, c0, c1, hpen]
      rw [v0, v1]
      decide +kernel)
  exact ⟨m', h, by simpa using hP⟩

-- C52: the contacts of the two squares: the normal points out of the second one and they penetrate at both contacts.
example : ∃ m' f, emptyManifold.update id (fun _ _ _ => .ok ⟨0, -1 / 10⟩) twoSquares = .ok m' ∧
    f = m'.frame (fun i => (twoSquares i).position.toWorldSpace) ∧ f.nContacts = 2 ∧
    ∀ c : Fin 2, Vec2.dot f.normal (f.contacts 0 c - f.contacts 1 c) ≤ 0 := by
  haveI := flatTrig_lawful
  obtain ⟨m', h, hn, _⟩ := twoSquares_update
  have hrot : ∀ i, (twoSquares i).position.orient.Reachable := by
    intro i
    fin_cases i
    · exact .ofAngle 0
    · exact .ofAngle 0
  have hm := C52_manifold hrot h _ rfl
  refine ⟨m', _, h, rfl, hn, fun c => ?_⟩
  obtain ⟨R, E, _, _, _, _, hc⟩ := hm.2.2.2.2 (by rw [show Frame.nContacts _ = m'.nContacts from rfl, hn]; decide)
  exact (hc c (by rw [show Frame.nContacts _ = m'.nContacts from rfl, hn]; exact c.isLt)).2.2.2

-- C52: the hypotheses of the existence theorem hold for the two squares.
example : ∃ m' E0 E1, emptyManifold.update id (fun _ _ _ => .ok ⟨0, -1 / 10⟩) twoSquares = .ok m' ∧
    FacingEdge id (twoSquares 0).geom.transformed ⟨0, -1 / 10⟩ E0 ∧ FacingEdge id (twoSquares 1).geom.transformed (-⟨0, -1 / 10⟩) E1 := by
  obtain ⟨m', E0, E1, h, h0, h1, _⟩ := C52_reference id (fun _ _ _ => .ok ⟨0, -1 / 10⟩) emptyManifold twoSquares
    ⟨⟨1 / 4, 9 / 10⟩, ⟨5 / 4, 19 / 10⟩⟩ ⟨⟨0, 0⟩, ⟨1, 1⟩⟩ (by decide +kernel) (by decide +kernel) (by decide +kernel) (by decide +kernel)
    ⟨0, -1 / 10⟩ rfl (by decide +kernel) (by decide +kernel)
  exact ⟨m', E0, E1, h, h0, h1⟩

-- C52: squares that touch without penetrating, and materials without tolerance.
example : (⟨fun _ _ => 0, 0, 0, 0, 0⟩ : Manifold ℚ).update id (fun _ _ _ => .ok 0) ![squareSide ⟨0, 1⟩, squareSide 0] = .throw :=
  C52_zero_tolerance id _ _ _ ⟨⟨0, 1⟩, ⟨1, 2⟩⟩ ⟨⟨0, 0⟩, ⟨1, 1⟩⟩ (by decide +kernel) (by decide +kernel) (by decide +kernel) (fun _ => rfl) rfl

end Samples
end Simu
