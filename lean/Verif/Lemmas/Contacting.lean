import Verif.Lemmas.Incident
/-
Lemmas about convex polygons that overlap, continued: the manifold of two colliders in terms of the edges that face the penetration.
-/
namespace Simu
open Gjk
variable {K : Type*} [Field K] [LinearOrder K] [IsStrictOrderedRing K]

theorem dot_swap (a b : Vec2 K) : Vec2.dot a b = Vec2.dot b a := by
  simp only [Vec2.dot_def]
  ring

/-- The other of two bodies. -/
def otherOf (r : Fin 2) : Fin 2 := if r = 0 then 1 else 0

/-- The direction out of the given body towards the other one. -/
def outOf (r : Fin 2) (μ : Vec2 K) : Vec2 K := if r = 0 then μ else -μ

/-- The contacts that are kept. -/
theorem incidentContacts_mem {R V N E : Vec2 K × Vec2 K} {n p1 p2 : Vec2 K} {l : List (Vec2 K)} (h : incidentContacts R V N E n = .ok l)
    (h1 : clipInside E V = .ok p1) (h2 : clipInside E N = .ok p2) : (p1 ∈ l ∨ Vec2.dot (p1 - R.1) n < 0) ∧ (p2 ∈ l ∨ Vec2.dot (p2 - R.1) n < 0) := by
  simp only [incidentContacts, h1, h2, Outcome.bind_ok] at h
  by_cases c1 : 0 ≤ Vec2.dot (p1 - R.1) n <;> by_cases c2 : 0 ≤ Vec2.dot (p2 - R.1) n
  · simp only [c1, c2, if_true] at h
    by_cases hq : p1 = p2
    · subst hq
      simp only [if_true] at h
      obtain rfl := Outcome.ok.inj h
      exact ⟨Or.inl (by simp), Or.inl (by simp)⟩
    · have hq' : ¬[p1] = [p2] := by simpa using hq
      rw [if_neg hq'] at h
      obtain rfl := Outcome.ok.inj h
      exact ⟨Or.inl (by simp), Or.inl (by simp)⟩
  · simp only [c1, c2, if_true, if_false] at h
    obtain rfl := Outcome.ok.inj h
    exact ⟨Or.inl (by simp), Or.inr (not_le.1 c2)⟩
  · refine ⟨Or.inr (not_le.1 c1), Or.inl ?_⟩
    simp only [c1, c2, if_true, if_false] at h
    rw [if_neg (by simp)] at h
    obtain rfl := Outcome.ok.inj h
    simp
  · exact ⟨Or.inr (not_le.1 c1), Or.inr (not_le.1 c2)⟩

theorem computeContacts_full (m : Manifold K) (verts : Fin 2 → List (Vec2 K)) (e : Fin 2 → EdgeIt) (he : ∀ i, IsEdge (verts i).length (e i))
    {R E : Vec2 K × Vec2 K} (hR : (e m.refIndex).ends (verts m.refIndex) = .ok R) (hE : (e m.incIndex).ends (verts m.incIndex) = .ok E) :
    ∃ (l : List (Vec2 K)) (V N : Vec2 K × Vec2 K), LoopEdge (verts m.refIndex) V ∧ LoopEdge (verts m.refIndex) N ∧ V.2 = R.1 ∧ N.1 = R.2 ∧
      incidentContacts R V N E (-m.normal) = .ok l ∧ computeContacts m verts e = .ok { m with
        nContacts := l.length
        contacts := fun b c =>
          match l[c.val]? with
          | none => m.contacts b c
          | some p => if b = m.incIndex then p else (LineBarycentric.mk' R.1 R.2 p).closestPoint } := by
  obtain ⟨prev, hprev, pe, pd⟩ := C16_previous _ _ (he m.refIndex)
  obtain ⟨next, hnext, ne, nd, _⟩ := C16_next _ _ (he m.refIndex)
  obtain ⟨R', hR', _, r1, r2⟩ := (he m.refIndex).ends
  obtain rfl : R' = R := Outcome.ok.inj (hR'.symm.trans hR)
  obtain ⟨V, hV, hVe, v2, v1⟩ := pe.ends
  obtain ⟨N, hN, hNe, n2, n1⟩ := ne.ends
  obtain ⟨l, hl, _⟩ := incidentContacts_spec R' V N E (-m.normal)
  refine ⟨l, V, N, hVe, hNe, ?_, ?_, hl, ?_⟩
  · rw [pd, r2] at v2
    exact (Option.some.inj v2).symm
  · rw [nd, r1] at n1
    exact (Option.some.inj n1).symm
  · simp only [computeContacts, hprev, hnext, hR, hE, hV, hN, hl, Outcome.bind_ok]
    rfl

/-! ### The contacts on the incident edge of convex polygons -/

theorem StrictlyConvex.inj {l : List (Vec2 K)} (h : StrictlyConvex l) {i k : Nat} {a : Vec2 K} (hi : l[i]? = some a) (hk : l[k]? = some a) : k = i := by
  by_contra hne
  have il : i < l.length := (List.getElem?_eq_some_iff.1 hi).1
  have hn : (i + 1) % l.length < l.length := Nat.mod_lt _ (by omega)
  by_cases k1 : k = (i + 1) % l.length
  · have hE : LoopEdge l (a, a) := by
      have hl : l ≠ [] := by rintro rfl; simp at il
      obtain ⟨es, hes, _, hget⟩ := C16_edges l hl
      refine ⟨es, hes, ?_⟩
      have := hget k
      have hs : (k + l.length - 1) % l.length = i := by
        rw [k1]
        by_cases e : i + 1 = l.length
        · rw [e, Nat.mod_self, Nat.zero_add, Nat.mod_eq_of_lt (by omega)]
          omega
        · rw [Nat.mod_eq_of_lt (show i + 1 < l.length by omega), show i + 1 + l.length - 1 = i + l.length by omega, Nat.add_mod_right, Nat.mod_eq_of_lt il]
      rw [hk, hs, Option.bind_some, hi, Option.map_some] at this
      exact List.mem_of_getElem? this
    exact (h.edge hE).ne rfl
  · have := h.2 i k _ _ _ hi (List.getElem?_eq_getElem hn) hk hne k1
    simp only [twiceArea] at this
    ring_nf at this
    exact absurd this (lt_irrefl _)

theorem NoObtuse.turn {l : List (Vec2 K)} (hc : StrictlyConvex l) (h : NoObtuse l) {V R : Vec2 K × Vec2 K} (hV : LoopEdge l V) (hR : LoopEdge l R) (e : V.2 = R.1) :
    Vec2.dot (V.2 - V.1) (R.2 - R.1) ≤ 0 := by
  obtain ⟨i, v1, v2⟩ := loopEdge_index hV
  obtain ⟨j, r1, r2⟩ := loopEdge_index hR
  rw [e] at v2
  have hj := hc.inj v2 r1
  rw [hj, Nat.mod_add_mod] at r2
  rw [e]
  exact h i _ _ _ v1 v2 r2

theorem hull_left {l : List (Vec2 K)} {V : Vec2 K × Vec2 K} (hV : EdgeOf l V) {q : Vec2 K} (hq : Hull l q) : 0 ≤ twiceArea V.1 V.2 q := by
  induction hq with
  | @vertex p hp =>
    rcases hV.left p hp with e | e | e
    · rw [e]; simp only [twiceArea]; ring_nf; exact le_refl _
    · rw [e]; simp only [twiceArea]; ring_nf; exact le_refl _
    · exact e.le
  | @segment p q t t0 t1 _ _ i1 i2 =>
    have e : twiceArea V.1 V.2 ((1 - t) • p + t • q) = (1 - t) * twiceArea V.1 V.2 p + t * twiceArea V.1 V.2 q := by
      simp only [twiceArea, Vec2.add_x, Vec2.add_y, Vec2.smul_x, Vec2.smul_y]
      ring
    rw [e]
    exact add_nonneg (mul_nonneg (by linarith) i1) (mul_nonneg t0 i2)

theorem onSegment_segment {a b p q : Vec2 K} {t : K} (t0 : 0 ≤ t) (t1 : t ≤ 1) (hp : OnSegment a b p) (hq : OnSegment a b q) : OnSegment a b ((1 - t) • p + t • q) := by
  obtain ⟨x, x0, x1, rfl⟩ := hp
  obtain ⟨y, y0, y1, rfl⟩ := hq
  refine ⟨(1 - t) * x + t * y, add_nonneg (mul_nonneg (by linarith) x0) (mul_nonneg t0 y0), ?_, ?_⟩
  · have a1 := mul_le_mul_of_nonneg_left x1 (show 0 ≤ 1 - t by linarith)
    have a2 := mul_le_mul_of_nonneg_left y1 t0
    linarith
  · ext <;> simp only [Vec2.add_x, Vec2.add_y, Vec2.smul_x, Vec2.smul_y] <;> ring

/-- What the contacts of the reference polygon `P` and the incident polygon `Q` are, `μ` being the shortest translation of `Q` out of `P`, across the edge `R` of `P`. -/
theorem reference_contacts {sqrt : K → K} (hs : LawfulSqrt sqrt) {P Q : List (Vec2 K)} (hP : StrictlyConvex P) (hQ : StrictlyConvex Q) {μ : Vec2 K} (hμ : μ ≠ 0)
    (hside : ∀ p ∈ P, ∀ q ∈ Q, Vec2.dot (p - q) μ ≤ Vec2.dot μ μ)
    (htouch : ∀ a b, Furthest P μ a → Furthest Q (-μ) b → Vec2.dot (a - b) μ = Vec2.dot μ μ ∧
      ∃ q q', Hull P q ∧ Hull Q q' ∧ q = q' + μ ∧ Vec2.dot q μ = Vec2.dot a μ ∧ Vec2.dot q' (-μ) = Vec2.dot b (-μ))
    {R E V N : Vec2 K × Vec2 K} (hR : FacingEdge sqrt P μ R) (hE : FacingEdge sqrt Q (-μ) E) (hflat : Vec2.dot (edgeUnitNormal sqrt R) μ = sqrt μ.normSquared)
    (hV : LoopEdge P V) (hN : LoopEdge P N) (hVR : V.2 = R.1) (hNR : N.1 = R.2) :
    (∀ c, OnSegment E.1 E.2 c → -sqrt μ.normSquared ≤ Vec2.dot (edgeUnitNormal sqrt R) (c - R.1)) ∧
    (NoObtuse P ∨ LiesFlat Q (-μ) → ∃ p, (clipInside E V = .ok p ∨ clipInside E N = .ok p) ∧ Vec2.dot (edgeUnitNormal sqrt R) (p - R.1) ≤ 0 ∧
      ((∀ v, Furthest Q (-μ) v → Hull P v) ∨ LiesFlat Q (-μ) → Vec2.dot (edgeUnitNormal sqrt R) (p - R.1) = -sqrt μ.normSquared)) := by
  have hμμ := vec_self_pos hμ
  have hnp : 0 < μ.normSquared := by rw [normSq_dot]; exact hμμ
  obtain ⟨s1, _⟩ := hs _ hnp.le
  have s2 := sqrt_pos' hs hnp
  set σ := sqrt μ.normSquared with hσ
  have eR := hP.edge hR.cases
  have eE := hQ.edge hE.cases
  have eV := hP.edge hV
  have eN := hP.edge hN
  obtain ⟨k, kp, hn, hu⟩ := edgeUnitNormal_props hs eR.ne
  have hU := unit_eq hs hu μ hflat
  rw [← hσ] at hU
  set U := edgeUnitNormal sqrt R with hUdef
  have hUx : μ.x = σ * U.x := by rw [← hU]; simp only [Vec2.smul_x]; ring
  have hUy : μ.y = σ * U.y := by rw [← hU]; simp only [Vec2.smul_y]; ring
  have hdotU : ∀ v : Vec2 K, Vec2.dot v μ = σ * Vec2.dot U v := by
    intro v
    simp only [Vec2.dot_def, hUx, hUy]
    ring
  have hdotn : ∀ v : Vec2 K, σ * Vec2.dot v (edgeNormal R) = k * Vec2.dot v μ := by
    intro v
    rw [hn]
    simp only [Vec2.dot_def, hUx, hUy, Vec2.smul_x, Vec2.smul_y]
    ring
  have hσσ : Vec2.dot μ μ = σ * σ := by rw [s1, normSq_dot]
  -- the reference edge is furthest
  have hRμ : Vec2.dot (R.2 - R.1) μ = 0 := by
    rw [hdotU, edgeUnitNormal_dot, mul_zero]
  have hRfar : Furthest P μ R.1 ∧ ∀ w ∈ P, Vec2.dot w μ = Vec2.dot R.1 μ → w = R.1 ∨ w = R.2 := by
    have key : ∀ w, 0 < twiceArea R.1 R.2 w → Vec2.dot (w - R.1) μ < 0 := by
      intro w hw
      have e := hdotn (w - R.1)
      have e2 : Vec2.dot (w - R.1) (edgeNormal R) = -twiceArea R.1 R.2 w := by
        simp only [edgeNormal, edgeDirection, Vec2.dot_def, Vec2.perp, if_true, Vec2.neg_x, Vec2.neg_y, Vec2.sub_x, Vec2.sub_y, twiceArea]
        ring
      rw [e2] at e
      by_contra hx
      push Not at hx
      have := mul_nonneg kp.le hx
      have := mul_pos s2 hw
      linarith
    refine ⟨⟨eR.mem1, fun w hw => ?_⟩, fun w hw he => ?_⟩
    · rcases eR.left w hw with e | e | e
      · rw [e]
      · rw [e]
        simp only [Vec2.dot_def, Vec2.sub_x, Vec2.sub_y] at hRμ ⊢
        linarith
      · have := key w e
        simp only [Vec2.dot_def, Vec2.sub_x, Vec2.sub_y] at this ⊢
        linarith
    · rcases eR.left w hw with e | e | e
      · exact Or.inl e
      · exact Or.inr e
      · have := key w e
        simp only [Vec2.dot_def, Vec2.sub_x, Vec2.sub_y] at this he
        linarith
  refine ⟨?_, ?_⟩
  · intro c hc
    obtain ⟨t, t0, t1, rfl⟩ := hc
    have a1 := hside _ eR.mem1 _ eE.mem1
    have a2 := hside _ eR.mem1 _ eE.mem2
    rw [hdotU, hσσ] at a1 a2
    have b1 := le_of_mul_le_mul_left a1 s2
    have b2 := le_of_mul_le_mul_left a2 s2
    have e : Vec2.dot U ((1 - t) • E.1 + t • E.2 - R.1) = -((1 - t) * Vec2.dot U (R.1 - E.1) + t * Vec2.dot U (R.1 - E.2)) := by
      simp only [Vec2.dot_def, Vec2.add_x, Vec2.add_y, Vec2.sub_x, Vec2.sub_y, Vec2.smul_x, Vec2.smul_y]
      ring
    rw [e]
    have c1 := mul_le_mul_of_nonneg_left b1 (show 0 ≤ 1 - t by linarith)
    have c2 := mul_le_mul_of_nonneg_left b2 t0
    linarith
  · intro hob
    have hforward := hE.forward hs hQ (show -μ ≠ 0 by
      intro e
      apply hμ
      have hx := congrArg Vec2.x e; have hy := congrArg Vec2.y e
      simp only [Vec2.neg_x, Vec2.neg_y, Vec2.zero_x, Vec2.zero_y] at hx hy
      ext
      · exact neg_eq_zero.1 hx
      · exact neg_eq_zero.1 hy)
    obtain ⟨k', kp', hn', hu'⟩ := edgeUnitNormal_props hs eE.ne
    -- the incident edge goes the other way
    have hX : Vec2.dot (E.2 - E.1) (R.2 - R.1) < 0 := by
      have h1 : Vec2.cross (-μ) (E.2 - E.1) = k' * Vec2.dot (edgeUnitNormal sqrt E) (-μ) := by
        rw [← edgeNormal_dot, hn']
        simp only [Vec2.dot_def, Vec2.smul_x, Vec2.smul_y]
        ring
      have h2 := mul_pos kp' hforward
      rw [← h1] at h2
      have h3 : k * Vec2.cross (-μ) (E.2 - E.1) = -(σ * Vec2.dot (E.2 - E.1) (R.2 - R.1)) := by
        have n1 : (edgeNormal R).x = k * U.x := by rw [hn]; simp only [Vec2.smul_x]; ring
        have n2 : (edgeNormal R).y = k * U.y := by rw [hn]; simp only [Vec2.smul_y]; ring
        simp only [edgeNormal, edgeDirection, Vec2.perp, if_true, Vec2.neg_x, Vec2.neg_y, Vec2.sub_x, Vec2.sub_y] at n1 n2
        simp only [Vec2.cross, Vec2.dot_def, Vec2.neg_x, Vec2.neg_y, Vec2.sub_x, Vec2.sub_y, hUx, hUy]
        linear_combination σ * (E.2.y - E.1.y) * n1 - σ * (E.2.x - E.1.x) * n2
      by_contra hx
      push Not at hx
      have := mul_nonneg s2.le hx
      have := mul_pos kp h2
      linarith
    have hL : 0 < Vec2.dot (R.2 - R.1) (R.2 - R.1) := by
      apply vec_self_pos
      intro e
      apply eR.ne
      have hx := congrArg Vec2.x e; have hy := congrArg Vec2.y e
      simp only [Vec2.sub_x, Vec2.sub_y, Vec2.zero_x, Vec2.zero_y] at hx hy
      ext <;> linarith
    have hπ : 0 < Vec2.dot (V.2 - V.1) (edgeNormal R) := by
      have := eV.turn eR hVR
      rw [twiceArea_cross, hVR] at this
      rw [dot_swap, edgeNormal_dot, hVR]
      exact this
    have hν : Vec2.dot (N.2 - N.1) (edgeNormal R) < 0 := by
      have := eR.turn eN hNR.symm
      rw [twiceArea_cross, ← hNR] at this
      rw [dot_swap, edgeNormal_dot]
      have e : Vec2.cross (N.2 - N.1) (R.2 - R.1) = -Vec2.cross (R.2 - R.1) (N.2 - N.1) := by
        simp only [Vec2.cross]; ring
      rw [e, ← hNR]
      linarith
    have hdn : ∀ v : Vec2 K, Vec2.dot v (edgeNormal R) = k * Vec2.dot U v := by
      intro v
      rw [hn]
      simp only [Vec2.dot_def, Vec2.smul_x, Vec2.smul_y]
      ring
    -- depth of a furthest vertex
    have hdeep : ∀ b, Furthest Q (-μ) b → Vec2.dot U (b - R.1) = -σ := by
      intro b hb
      have := (htouch _ _ hRfar.1 hb).1
      rw [hdotU, hσσ] at this
      have e := mul_left_cancel₀ s2.ne' this
      simp only [Vec2.dot_def, Vec2.sub_x, Vec2.sub_y] at e ⊢
      linarith
    by_cases hfl : Vec2.dot (E.2 - E.1) μ = 0
    · -- the incident edge is along the reference edge
      obtain ⟨p, hp, t, _, _, rfl⟩ := clipInside_spec E V
      have hfar : Vec2.dot U (E.1 - R.1) = -σ ∧ Vec2.dot U (E.2 - E.1) = 0 := by
        have z : Vec2.dot U (E.2 - E.1) = 0 := by
          rw [hdotU] at hfl
          exact (mul_eq_zero.1 hfl).resolve_left s2.ne'
        obtain ⟨b, P', N', hmax, _, _, hb1, hb2, hEe, _⟩ := hE
        rcases hEe with rfl | rfl
        · have hb : Furthest Q (-μ) E.2 := ⟨eE.mem2, by rw [hb1]; exact hmax⟩
          have := hdeep _ hb
          refine ⟨?_, z⟩
          simp only [Vec2.dot_def, Vec2.sub_x, Vec2.sub_y] at this z ⊢
          linarith
        · exact ⟨hdeep _ ⟨eE.mem1, by rw [hb2]; exact hmax⟩, z⟩
      have hval : Vec2.dot U ((1 - t) • E.1 + t • E.2 - R.1) = -σ := by
        have e : Vec2.dot U ((1 - t) • E.1 + t • E.2 - R.1) = Vec2.dot U (E.1 - R.1) + t * Vec2.dot U (E.2 - E.1) := by
          simp only [Vec2.dot_def, Vec2.add_x, Vec2.add_y, Vec2.sub_x, Vec2.sub_y, Vec2.smul_x, Vec2.smul_y]
          ring
        rw [e, hfar.1, hfar.2, mul_zero, add_zero]
      exact ⟨_, Or.inl hp, by rw [hval]; linarith, fun _ => hval⟩
    · -- the deepest vertex is the only one
      have huniq : ∀ a b, Furthest Q (-μ) a → Furthest Q (-μ) b → a = b := by
        intro a b ha hb
        by_contra hab
        have hneg : -μ ≠ 0 := by
          intro e
          apply hμ
          have hx := congrArg Vec2.x e; have hy := congrArg Vec2.y e
          simp only [Vec2.neg_x, Vec2.neg_y, Vec2.zero_x, Vec2.zero_y] at hx hy
          ext
          · exact neg_eq_zero.1 hx
          · exact neg_eq_zero.1 hy
        have e := hE.flat hs hQ hneg ha hb hab
        have e2 := unit_eq hs hu' (-μ) e
        apply hfl
        have e3 := edgeUnitNormal_dot sqrt E
        have hx := congrArg Vec2.x e2; have hy := congrArg Vec2.y e2
        simp only [Vec2.smul_x, Vec2.smul_y, Vec2.neg_x, Vec2.neg_y] at hx hy
        simp only [Vec2.dot_def, Vec2.sub_x, Vec2.sub_y] at e3 ⊢
        linear_combination (E.2.x - E.1.x) * hx + (E.2.y - E.1.y) * hy - sqrt (-μ).normSquared * e3
      -- it is in front of the reference edge
      have hfoot : ∀ b, Furthest Q (-μ) b → 0 ≤ Vec2.dot (b - R.1) (R.2 - R.1) ∧ Vec2.dot (b - R.2) (R.2 - R.1) ≤ 0 := by
        intro b hb
        obtain ⟨_, q, q', hq, hq', e, h1, h2⟩ := htouch _ _ hRfar.1 hb
        have key : ∀ (c p q : Vec2 K) (t : K), 0 ≤ t → t ≤ 1 → p = c → q = c → (1 - t) • p + t • q = c := by
          rintro c p q t _ _ rfl rfl
          ext <;> simp <;> ring
        have eq' : q' = b := (hull_furthest hb.2 (· = b) (fun w hw hw' => huniq w b ⟨hw, fun x hx => (hb.2 x hx).trans hw'.ge⟩ hb) (key b) hq').2 h2
        have hon : OnSegment R.1 R.2 q := (hull_furthest hRfar.1.2 (OnSegment R.1 R.2) (fun w hw hw' => by
          rcases hRfar.2 w hw hw' with e | e
          · exact ⟨0, le_refl _, zero_le_one, by rw [e]; ext <;> simp⟩
          · exact ⟨1, zero_le_one, le_refl _, by rw [e]; ext <;> simp⟩) (fun p q t t0 t1 hp hq => onSegment_segment t0 t1 hp hq) hq).2 h1
        obtain ⟨t, t0, t1, ht⟩ := hon
        have hx : b.x = (1 - t) * R.1.x + t * R.2.x - μ.x := by
          have := congrArg Vec2.x (e.symm.trans ht)
          rw [eq'] at this
          simp only [Vec2.add_x, Vec2.smul_x] at this
          linarith
        have hy : b.y = (1 - t) * R.1.y + t * R.2.y - μ.y := by
          have := congrArg Vec2.y (e.symm.trans ht)
          rw [eq'] at this
          simp only [Vec2.add_y, Vec2.smul_y] at this
          linarith
        have e1 : Vec2.dot (b - R.1) (R.2 - R.1) = t * Vec2.dot (R.2 - R.1) (R.2 - R.1) - Vec2.dot (R.2 - R.1) μ := by
          simp only [Vec2.dot_def, Vec2.sub_x, Vec2.sub_y, hx, hy]
          ring
        have e2 : Vec2.dot (b - R.2) (R.2 - R.1) = -((1 - t) * Vec2.dot (R.2 - R.1) (R.2 - R.1)) - Vec2.dot (R.2 - R.1) μ := by
          simp only [Vec2.dot_def, Vec2.sub_x, Vec2.sub_y, hx, hy]
          ring
        rw [e1, e2, hRμ]
        have := mul_nonneg t0 hL.le
        have := mul_nonneg (show 0 ≤ 1 - t by linarith) hL.le
        exact ⟨by linarith, by linarith⟩
      have hnf : ¬LiesFlat Q (-μ) := fun ⟨a, b, hab, ha, hb⟩ => hab (huniq a b ha hb)
      have hob := hob.resolve_right hnf
      have hob1 := hob.turn hP hV hR.cases hVR
      have hob2 := hob.turn hP hR.cases hN hNR.symm
      have idn : ∀ a b : Vec2 K, Vec2.dot (R.2 - R.1) (R.2 - R.1) * Vec2.cross a b = Vec2.dot a (edgeNormal R) * Vec2.dot b (R.2 - R.1) - Vec2.dot a (R.2 - R.1) * Vec2.dot b (edgeNormal R) := by
        intro a b
        simp only [edgeNormal, edgeDirection, Vec2.perp, if_true, Vec2.dot_def, Vec2.cross, Vec2.neg_x, Vec2.neg_y]
        ring
      obtain ⟨b, P', N', hmax, _, _, hb1, hb2, hEe, _⟩ := hE
      rcases hEe with rfl | rfl
      · have hb : Furthest Q (-μ) E.2 := ⟨eE.mem2, by rw [hb1]; exact hmax⟩
        have hd := hdeep _ hb
        have hY : Vec2.dot (E.2 - E.1) (edgeNormal R) ≤ 0 := by
          have := hb.2 _ eE.mem1
          have h1 : Vec2.dot (E.2 - E.1) μ ≤ 0 := by
            simp only [Vec2.dot_def, Vec2.sub_x, Vec2.sub_y, Vec2.neg_x, Vec2.neg_y] at this ⊢
            linarith
          have h2 := hdotn (E.2 - E.1)
          by_contra hx
          push Not at hx
          have := mul_pos s2 hx
          have := mul_nonpos_of_nonneg_of_nonpos kp.le h1
          linarith
        have hC : 0 < Vec2.cross (E.2 - E.1) (V.2 - V.1) := by
          have e := idn (E.2 - E.1) (V.2 - V.1)
          have a1 := mul_nonneg_of_nonpos_of_nonpos hY hob1
          have a2 := mul_neg_of_neg_of_pos hX hπ
          by_contra hx
          push Not at hx
          have := mul_nonpos_of_nonneg_of_nonpos hL.le hx
          linarith
        obtain ⟨p, hp, hp1, hp2⟩ := incident_last R V E hVR hL hπ hX hY hC (by rw [hdn, hd]; have := mul_pos kp s2; linarith) (hfoot _ hb).1
        refine ⟨p, Or.inl hp, ?_, fun hin => ?_⟩
        · rw [hdn] at hp1
          by_contra hx
          push Not at hx
          have := mul_pos kp hx
          linarith
        · rw [hp2 (hull_left eV (hin.resolve_right hnf _ hb)), hd]
      · have hb : Furthest Q (-μ) E.1 := ⟨eE.mem1, by rw [hb2]; exact hmax⟩
        have hd := hdeep _ hb
        have hR2 : ∀ v : Vec2 K, Vec2.dot U (v - R.2) = Vec2.dot U (v - R.1) := by
          intro v
          have := edgeUnitNormal_dot sqrt R
          rw [← hUdef] at this
          simp only [Vec2.dot_def, Vec2.sub_x, Vec2.sub_y] at this ⊢
          linarith
        have hY : 0 ≤ Vec2.dot (E.2 - E.1) (edgeNormal R) := by
          have := hb.2 _ eE.mem2
          have h1 : 0 ≤ Vec2.dot (E.2 - E.1) μ := by
            simp only [Vec2.dot_def, Vec2.sub_x, Vec2.sub_y, Vec2.neg_x, Vec2.neg_y] at this ⊢
            linarith
          have h2 := hdotn (E.2 - E.1)
          by_contra hx
          push Not at hx
          have := mul_neg_of_pos_of_neg s2 hx
          have := mul_nonneg kp.le h1
          linarith
        have hC : Vec2.cross (E.2 - E.1) (N.2 - N.1) < 0 := by
          have e := idn (E.2 - E.1) (N.2 - N.1)
          have a1 : Vec2.dot (E.2 - E.1) (edgeNormal R) * Vec2.dot (N.2 - N.1) (R.2 - R.1) ≤ 0 :=
            mul_nonpos_of_nonneg_of_nonpos hY (by rw [dot_swap]; exact hob2)
          have a2 := mul_pos_of_neg_of_neg hX hν
          by_contra hx
          push Not at hx
          have := mul_nonneg hL.le hx
          linarith
        obtain ⟨p, hp, hp1, hp2⟩ := incident_first R N E hNR hL hν hX hY hC (by rw [hdn, hR2, hd]; have := mul_pos kp s2; linarith) (hfoot _ hb).2
        refine ⟨p, Or.inr hp, ?_, fun hin => ?_⟩
        · rw [hdn, hR2] at hp1
          by_contra hx
          push Not at hx
          have := mul_pos kp hx
          linarith
        · rw [hp2 (hull_left eN (hin.resolve_right hnf _ hb)), hd]

variable [Trig K] [LawfulTrig K]

/-- The manifold of colliders whose penetration is found. -/
theorem update_full (sqrt : K → K) (pen : List (Vec2 K) → List (Vec2 K) → Vec2 K → Outcome (Vec2 K)) (m : Manifold K)
    (s : Fin 2 → Side K) (hrot : ∀ i, (s i).position.orient.Reachable) (box0 box1 : BoundingBox K) (h0 : (s 0).geom.box = .ok box0) (h1 : (s 1).geom.box = .ok box1)
    (hov : box0.overlaps box1 = true) (hv : ∀ i, (s i).geom.transformed ≠ []) (μ : Vec2 K)
    (hμ : pen (s 0).geom.transformed (s 1).geom.transformed (if m.nContacts = 0 then
      (s 1).position.centroid - (s 0).position.centroid else (s m.refIndex).position.toWorldSpace.r.app m.normal) = .ok μ)
    (hne : μ ≠ 0) (hlen : m.minPen * m.minPen ≤ μ.normSquared) :
    ∃ (m' : Manifold K) (r : Fin 2) (R E V N : Vec2 K × Vec2 K) (l : List (Vec2 K)), m.update sqrt pen s = .ok m' ∧ m'.refIndex = r ∧
      FacingEdge sqrt (s r).geom.transformed (outOf r μ) R ∧ FacingEdge sqrt (s (otherOf r)).geom.transformed (-outOf r μ) E ∧
      LoopEdge (s r).geom.transformed V ∧ LoopEdge (s r).geom.transformed N ∧ V.2 = R.1 ∧ N.1 = R.2 ∧ incidentContacts R V N E (-edgeUnitNormal sqrt R) = .ok l ∧
      Vec2.dot (edgeUnitNormal sqrt E) (-outOf r μ) ≤ Vec2.dot (edgeUnitNormal sqrt R) (outOf r μ) ∧
      ∀ f, f = m'.frame (fun i => (s i).position.toWorldSpace) → f.nContacts = l.length ∧
        f.normal = (if r = 0 then -edgeUnitNormal sqrt R else edgeUnitNormal sqrt R) ∧
        ∀ (c : Fin 2) (hc : c.val < l.length), f.contacts (otherOf r) c = l[c.val] ∧ Vec2.dot f.normal (f.contacts 0 c - f.contacts 1 c) = Vec2.dot (edgeUnitNormal sqrt R) (l[c.val] - R.1) := by
  have hne' : -μ ≠ 0 := by
    intro hz
    apply hne
    have hx := congrArg Vec2.x hz; have hy := congrArg Vec2.y hz
    simp only [Vec2.neg_x, Vec2.neg_y] at hx hy
    ext
    · exact neg_eq_zero.1 hx
    · exact neg_eq_zero.1 hy
  obtain ⟨e0, E0, c0, i0, n0, f0⟩ := computeContactEdge_facing sqrt (s 0).geom.transformed (hv 0) μ hne
  obtain ⟨e1, E1, c1, i1, n1, f1⟩ := computeContactEdge_facing sqrt (s 1).geom.transformed (hv 1) (-μ) hne'
  have hie : ∀ i, IsEdge ((s i).geom.transformed).length (![e0, e1] i) := by
    intro i
    fin_cases i
    · exact i0
    · exact i1
  have hends : ∀ i, (![e0, e1] i).ends (s i).geom.transformed = .ok (![E0, E1] i) := by
    intro i
    fin_cases i
    · exact n0
    · exact n1
  set m1 : Manifold K := if Vec2.dot (edgeUnitNormal sqrt E1) (-μ) < Vec2.dot (edgeUnitNormal sqrt E0) μ then
      { m with nContacts := 0, refIndex := 0, normal := edgeUnitNormal sqrt E0 }
    else { m with nContacts := 0, refIndex := 1, normal := edgeUnitNormal sqrt E1 } with hm1
  obtain ⟨l, V, N, hV, hN, hVR, hNR, hl, hcc⟩ := computeContacts_full m1 (fun i => (s i).geom.transformed) ![e0, e1] hie (hends m1.refIndex) (hends m1.incIndex)
  have hup : m.update sqrt pen s = .ok { m1 with
      nContacts := l.length
      normal := (s m1.refIndex).position.toLocalSpace.r.app m1.normal
      contacts := fun i c => if c.val < l.length then (s i).position.toLocalSpace.app (match l[c.val]? with
          | none => m1.contacts i c
          | some p => if i = m1.incIndex then p else (LineBarycentric.mk' (![E0, E1] m1.refIndex).1 (![E0, E1] m1.refIndex).2 p).closestPoint) else
            (match l[c.val]? with
          | none => m1.contacts i c
          | some p => if i = m1.incIndex then p else (LineBarycentric.mk' (![E0, E1] m1.refIndex).1 (![E0, E1] m1.refIndex).2 p).closestPoint) } := by
    unfold Manifold.update
    simp only [h0, h1, Outcome.bind_ok, hov, Bool.not_true, Bool.false_eq_true, if_false, hμ, if_neg (not_lt.2 hlen), c0, c1, n0, n1]
    rw [← hm1, hcc]
    rfl
  have hr : ∀ i, (s i).position.toWorldSpace.r.Reachable := hrot
  have hnormal : m1.normal = edgeUnitNormal sqrt (![E0, E1] m1.refIndex) := by
    rw [hm1]
    split_ifs <;> rfl
  have hface : FacingEdge sqrt (s m1.refIndex).geom.transformed (outOf m1.refIndex μ) (![E0, E1] m1.refIndex) ∧
      FacingEdge sqrt (s (otherOf m1.refIndex)).geom.transformed (-outOf m1.refIndex μ) (![E0, E1] m1.incIndex) ∧
      Vec2.dot (edgeUnitNormal sqrt (![E0, E1] m1.incIndex)) (-outOf m1.refIndex μ) ≤ Vec2.dot (edgeUnitNormal sqrt (![E0, E1] m1.refIndex)) (outOf m1.refIndex μ) := by
    by_cases hlt : Vec2.dot (edgeUnitNormal sqrt E1) (-μ) < Vec2.dot (edgeUnitNormal sqrt E0) μ
    · rw [hm1, if_pos hlt]
      exact ⟨f0, f1, hlt.le⟩
    · rw [hm1, if_neg hlt]
      have e : -outOf (1 : Fin 2) μ = μ := by
        ext <;> simp [outOf]
      refine ⟨f1, ?_, ?_⟩
      · simp only
        rw [e]
        exact f0
      · simp only
        rw [e]
        exact not_lt.1 hlt
  have hinc : m1.incIndex = otherOf m1.refIndex := rfl
  clear_value m1
  set R := ![E0, E1] m1.refIndex with hRdef
  refine ⟨_, m1.refIndex, R, ![E0, E1] m1.incIndex, V, N, l, hup, rfl, hface.1, hface.2.1, hV, hN, hVR, hNR, by rw [← hnormal]; exact hl, hface.2.2, ?_⟩
  intro f hf
  have hfn : f.nContacts = l.length := by rw [hf]; rfl
  have hfnorm : f.normal = if m1.refIndex = 0 then -edgeUnitNormal sqrt R else edgeUnitNormal sqrt R := by
    have e1 : (s m1.refIndex).position.toWorldSpace.r.app ((s m1.refIndex).position.toLocalSpace.r.app m1.normal) = edgeUnitNormal sqrt R := by
      rw [hnormal]
      exact (C26_inverse (hr m1.refIndex) (hr m1.refIndex) ⟨0⟩ (edgeUnitNormal sqrt R)).2.2.2.1
    rw [hf]
    simp only [Manifold.frame, e1]
  have hfc : ∀ b (c : Fin 2) (hc : c.val < l.length), f.contacts b c =
      if b = m1.incIndex then l[c.val] else (LineBarycentric.mk' R.1 R.2 l[c.val]).closestPoint := by
    intro b c hc
    have e2 := (C26_inverse (hr b) (hrot b) ⟨0⟩ (if b = m1.incIndex then l[c.val] else (LineBarycentric.mk' R.1 R.2 l[c.val]).closestPoint)).2.1
    have e3 : (s b).position.toLocalSpace = (s b).position.toWorldSpace.inverse := rfl
    rw [hf]
    simp only [Manifold.frame, if_pos hc, List.getElem?_eq_getElem hc]
    rw [e3, e2]
  refine ⟨hfn, hfnorm, fun c hc => ⟨by rw [hfc _ c hc, hinc, if_pos rfl], ?_⟩⟩
  obtain ⟨t, _, _, ht⟩ := (C18_closest R.1 R.2 l[c.val]).1
  have hline : Vec2.dot (edgeUnitNormal sqrt R) ((LineBarycentric.mk' R.1 R.2 l[c.val]).closestPoint - R.1) = 0 := by
    rw [ht]
    have : Vec2.dot (edgeUnitNormal sqrt R) ((1 - t) • R.1 + t • R.2 - R.1) = t * Vec2.dot (edgeUnitNormal sqrt R) (R.2 - R.1) := by
      simp [Vec2.dot]; ring
    rw [this, edgeUnitNormal_dot, mul_zero]
  set Q := (LineBarycentric.mk' R.1 R.2 l[c.val]).closestPoint with hQ
  set U := edgeUnitNormal sqrt R with hU
  rw [hfc 0 c hc, hfc 1 c hc, hfnorm, hinc]
  simp only [Vec2.dot_def, Vec2.sub_x, Vec2.sub_y] at hline
  by_cases hz : m1.refIndex = 0
  · simp only [otherOf, hz, if_true, Vec2.dot_def, Vec2.sub_x, Vec2.sub_y, Vec2.neg_x, Vec2.neg_y, show ¬((0 : Fin 2) = 1) by decide, if_false]
    linarith
  · simp only [otherOf, hz, if_false, if_true, Vec2.dot_def, Vec2.sub_x, Vec2.sub_y, show ¬((1 : Fin 2) = 0) by decide]
    linarith

end Simu
