import Verif.Props.Contact
/-
C55: what is kept of a contact from one step to the next.
-/
namespace Simu
open Mat Contact
section
variable {K : Type*} [Field K] [LinearOrder K] [IsStrictOrderedRing K] [Trig K]

/-- Sum of the normal multipliers of the first `n` contact points. -/
def totalNormal (n : Nat) (l : MVec K 2) : K := ∑ c : Fin 2, if c.val < n then l.at_ c else 0

/-- The outward normal of the reference body, and the vertices of the other body nearest to (or furthest inside of) it. -/
def Deepest (verts : List (Vec2 K)) (outward v : Vec2 K) : Prop := v ∈ verts ∧ ∀ w ∈ verts, Vec2.dot v outward ≤ Vec2.dot w outward

omit [Trig K] [IsStrictOrderedRing K] in
theorem carryOver_total (n n' : Nat) (hn : n ≠ 0) (hn2 : n ≤ 2) (hn' : n' ≠ 0) (hn2' : n' ≤ 2) (h2 : (2 : K) ≠ 0) (l : MVec K 2) :
    totalNormal n' (carryOver n n' l) = totalNormal n l := by
  have c1 : n = 1 ∨ n = 2 := by omega
  have c2 : n' = 1 ∨ n' = 2 := by omega
  rcases c1 with rfl | rfl <;> rcases c2 with rfl | rfl <;>
    simp [totalNormal, carryOver, Fin.sum_univ_two, at_setAt, at_ofFn]
  rw [← add_div, ← two_mul, mul_div_cancel_left₀ _ h2]

/-- C55: at the beginning of a step, a contact either is kept as it is, in which case its points still are within the tolerance (along
the tangent and above the surface) and one of them is a vertex of the incident body that is deepest in the reference body; or its
points are recomputed, in which case the friction starts from zero and the total normal multiplier is kept (and is zero if there
was no contact before). -/
theorem C55_persist {sqrt : K → K} {pen : List (Vec2 K) → List (Vec2 K) → Vec2 K → Outcome (Vec2 K)} {e e' : Contact K}
    {sides : Fin 2 → Side K} (h : e.updateContacts sqrt pen sides = .ok e') (hn : e.manifold.nContacts ≤ 2)
    (ht : 0 ≤ e.manifold.minPen) (f : Frame K) (hf : f = e.manifold.frame fun i => (sides i).position.toWorldSpace)
    (gap : Fin 2 → Vec2 K) (hgap : ∀ c, gap c = f.contacts 0 c - f.contacts 1 c) :
    (e'.manifold = e.manifold ∧ e'.frame = f ∧ e'.normalLambda = e.normalLambda ∧ e'.tangentLambda = e.tangentLambda ∧
      f.nContacts ≠ 0 ∧ (∀ c : Fin 2, c.val < f.nContacts → |Vec2.dot (gap c) f.tangent| ≤ e.manifold.minPen ∧
        Vec2.dot (gap c) f.normal ≤ e.manifold.minPen) ∧
      ∃ c : Fin 2, c.val < f.nContacts ∧ Deepest (sides e.manifold.incIndex).geom.transformed
        (if e.manifold.refIndex = 0 then -f.normal else f.normal) (f.contacts e.manifold.incIndex c)) ∨
    (e.manifold.update sqrt pen sides = .ok e'.manifold ∧ e'.frame = e'.manifold.frame (fun i => (sides i).position.toWorldSpace) ∧
      e'.tangentLambda = Mat.zero ∧ (e.manifold.nContacts = 0 → e'.normalLambda = Mat.zero) ∧
      (e.manifold.nContacts ≠ 0 → e'.manifold.nContacts ≠ 0 → e'.manifold.nContacts ≤ 2 →
        totalNormal e'.manifold.nContacts e'.normalLambda = totalNormal e.manifold.nContacts e.normalLambda)) := by
  have hfn : f.nContacts = e.manifold.nContacts := by rw [hf]; rfl
  unfold Contact.updateContacts at h
  dsimp only at h
  rw [← hf] at h
  set e1 : Contact K := { e with frame := f } with he1
  rw [Outcome.bind_eq_ok_iff] at h
  obtain ⟨b, hb, h⟩ := h
  by_cases hbt : b = true
  · right
    rw [if_pos hbt, Outcome.bind_eq_ok_iff] at h
    obtain ⟨m, hm, h⟩ := h
    have he' := (Outcome.ok.inj h).symm
    subst he'
    refine ⟨hm, rfl, rfl, ?_, ?_⟩
    · intro h0
      show carryOver f.nContacts _ _ = _
      rw [hfn, h0]; rfl
    · intro h0 h1 h2
      show totalNormal m.nContacts (carryOver f.nContacts m.nContacts e.normalLambda) = _
      rw [hfn]
      exact carryOver_total _ _ h0 hn h1 h2 two_ne_zero _
  · left
    rw [if_neg hbt] at h
    have he' := (Outcome.ok.inj h).symm
    subst he'
    have hb0 : b = false := by simpa using hbt
    subst hb0
    unfold needsNewManifold at hb
    have hfr : e1.frame = f := rfl
    rw [hfr] at hb
    by_cases h0 : f.nContacts = 0
    · rw [if_pos h0] at hb; simp at hb
    rw [if_neg h0] at hb
    dsimp only at hb
    rw [Outcome.bind_eq_ok_iff] at hb
    obtain ⟨v, hv, hb⟩ := hb
    have hb := Outcome.ok.inj hb
    simp only [Bool.or_eq_false_iff, List.any_eq_false, List.mem_filter, List.mem_finRange, true_and, decide_eq_true_eq, not_lt] at hb
    obtain ⟨⟨hT, hN⟩, hC⟩ := hb
    have hrel : ∀ c, e1.relativePosition c = gap c := fun c => by rw [hgap]; rfl
    refine ⟨rfl, rfl, rfl, rfl, h0, ?_, ?_⟩
    · intro c hc
      have h1 := hT c hc
      have h2 := hN c hc
      rw [hrel] at h1 h2
      exact ⟨abs_le_of_sq_le_sq (by rw [pow_two, pow_two]; exact h1) ht, h2⟩
    · have hout : (if e1.manifold.incIndex = 1 then -f.normal else f.normal) = if e.manifold.refIndex = 0 then -f.normal else f.normal := by
        show (if e.manifold.incIndex = 1 then -f.normal else f.normal) = _
        unfold Manifold.incIndex
        by_cases hr : e.manifold.refIndex = 0 <;> simp [hr]
      rw [hout] at hv
      set out := if e.manifold.refIndex = 0 then -f.normal else f.normal
      have hv' : furthestVertexInDirection (sides e.manifold.incIndex).geom.transformed (-out) = .ok v := hv
      have hdeep : Deepest (sides e.manifold.incIndex).geom.transformed out v := by
        have hne : (sides e.manifold.incIndex).geom.transformed ≠ [] := by
          intro h0
          rw [h0] at hv'
          unfold furthestVertexInDirection at hv'
          revert hv'
          unfold Outcome.check
          split <;> simp
        have hd : -out ≠ 0 := by
          intro h0
          rw [h0, C17_zero_direction] at hv'
          simp at hv'
        obtain ⟨p, hp, hm, hmax⟩ := C17_support _ _ hne hd
        rw [hp] at hv'
        cases Outcome.ok.inj hv'
        refine ⟨hm, fun w hw => ?_⟩
        have := hmax w (.vertex hw)
        simp only [Vec2.dot, Vec2.neg_x, Vec2.neg_y] at this ⊢
        linarith
      have hcase : ∃ c : Fin 2, c.val < f.nContacts ∧ f.contacts e.manifold.incIndex c = v := by
        have hC' : (if f.nContacts = 2 then
            decide (f.contacts e.manifold.incIndex 0 ≠ v) && decide (f.contacts e.manifold.incIndex 1 ≠ v)
          else decide (f.contacts e.manifold.incIndex 0 ≠ v)) = false := hC
        by_cases h2 : f.nContacts = 2
        · rw [if_pos h2] at hC'
          simp only [Bool.and_eq_false_iff, decide_eq_false_iff_not, not_not] at hC'
          rcases hC' with h | h
          · exact ⟨0, by rw [h2]; decide, h⟩
          · exact ⟨1, by rw [h2]; decide, h⟩
        · rw [if_neg h2] at hC'
          simp only [decide_eq_false_iff_not, not_not] at hC'
          exact ⟨0, Nat.pos_of_ne_zero h0, hC'⟩
      obtain ⟨c, hc, hcv⟩ := hcase
      exact ⟨c, hc, by rw [hcv]; exact hdeep⟩

omit [IsStrictOrderedRing K] in
/-- C55: during a step a contact takes part in the solver exactly when it has contact points; asking moves the points and the normal with the
bodies (as they are in the solver) and changes nothing else. -/
theorem C55_active (e : Contact K) (p : Proxies K) (s : SolveState K) :
    ((e.isActive p s).2 = true ↔ 0 < e.manifold.nContacts) ∧ (e.isActive p s).1.manifold = e.manifold ∧
    (e.isActive p s).1.normalLambda = e.normalLambda ∧ (e.isActive p s).1.tangentLambda = e.tangentLambda ∧
    ∀ c : Fin 2, c.val < e.manifold.nContacts →
      (e.isActive p s).1.frame.contacts 0 c = (s.pos p.i0).toWorldSpace.app (e.manifold.contacts 0 c) ∧
      (e.isActive p s).1.frame.contacts 1 c = (s.pos p.i1).toWorldSpace.app (e.manifold.contacts 1 c) := by
  refine ⟨?_, rfl, rfl, rfl, fun c hc => ?_⟩
  · show decide (e.manifold.nContacts ≠ 0) = true ↔ _
    rw [decide_eq_true_eq]
    omega
  · simp [Contact.isActive, Manifold.frame, hc]

/-- C55: what a contact reports after the beginning of a step: as many points as it has; the points attached to the second and to the first
body, where these bodies are. -/
theorem C55_info {sqrt : K → K} {pen : List (Vec2 K) → List (Vec2 K) → Vec2 K → Outcome (Vec2 K)} {e e' : Contact K}
    {sides : Fin 2 → Side K} (h : e.updateContacts sqrt pen sides = .ok e') :
    e'.contactInfo.1 = e'.frame.nContacts ∧ e'.contactInfo.2.2.2 = e'.frame.normal ∧
    ∀ c : Fin 2, c.val < e'.contactInfo.1 →
      e'.contactInfo.2.1 c = (sides 1).position.toWorldSpace.app (e'.manifold.contacts 1 c) ∧
      e'.contactInfo.2.2.1 c = (sides 0).position.toWorldSpace.app (e'.manifold.contacts 0 c) := by
  have hfr : e'.frame = e'.manifold.frame (fun i => (sides i).position.toWorldSpace) := by
    unfold Contact.updateContacts at h
    dsimp only at h
    rw [Outcome.bind_eq_ok_iff] at h
    obtain ⟨b, _, h⟩ := h
    by_cases hb : b = true
    · rw [if_pos hb, Outcome.bind_eq_ok_iff] at h
      obtain ⟨m, _, h⟩ := h
      rw [← Outcome.ok.inj h]
    · rw [if_neg hb] at h
      rw [← Outcome.ok.inj h]
  refine ⟨by rw [hfr]; rfl, rfl, fun c hc => ?_⟩
  have hc' : c.val < e'.manifold.nContacts := hc
  simp [Contact.contactInfo, hfr, Manifold.frame, hc']

/-- C55: the points reported as those of the reference body are those of the second body: if the edge of the first body was taken as the
reference, they are the points of the *incident* body. -/
theorem C55_info_disagreement (e : Contact K) (h : e.manifold.refIndex = 0) :
    e.contactInfo.2.1 = e.frame.contacts e.manifold.incIndex ∧ e.contactInfo.2.2.1 = e.frame.contacts e.manifold.refIndex := by
  simp [Contact.contactInfo, Manifold.incIndex, h]

end

section Samples
attribute [local instance] flatTrig

/-- The contact of the two squares, with multipliers. -/
def restingSample (n : Nat) : Contact ℚ where
  manifold := if n = 0 then emptyManifold else ⟨![![⟨3 / 4, 0⟩, ⟨0, 0⟩], ![⟨1, 1⟩, ⟨1 / 4, 1⟩]], n, ⟨0, 1⟩, 1 / 200, 1⟩
  frame := ⟨0, fun _ _ => 0, 0, 0⟩
  Jf := fun _ => Mat.zero
  Jn := Mat.zero
  invTangentKs := Mat.zero
  normalSolver := .unset
  tangentLambda := Mat.ofFn ![1, 2]
  previousTangentLambda := Mat.zero
  normalLambda := Mat.ofFn ![3, 4]
  previousNormalLambda := Mat.zero
  bounce := Mat.zero
  restitution := 0
  friction := 0

-- C55: the contact of the two resting squares is kept, with its multipliers.
example : ∃ e', (restingSample 2).updateContacts id (fun _ _ _ => .ok ⟨0, -1 / 10⟩) twoSquares = .ok e' ∧
    e'.tangentLambda.at_ 1 = 2 ∧ e'.normalLambda.at_ 0 = 3 := by
  refine ⟨{ restingSample 2 with frame := (restingSample 2).manifold.frame fun i => (twoSquares i).position.toWorldSpace },
    ?_, rfl, rfl⟩
  · unfold Contact.updateContacts
    have : (Contact.needsNewManifold { restingSample 2 with
      frame := (restingSample 2).manifold.frame fun i => (twoSquares i).position.toWorldSpace }
      fun i => (twoSquares i).geom.transformed) = .ok false := by decide +kernel
    dsimp only
    rw [this]
    rfl

-- C55: without former contacts, they are computed anew and the multipliers are dropped.
example : ∃ e', (restingSample 0).updateContacts id (fun _ _ _ => .ok ⟨0, -1 / 10⟩) twoSquares = .ok e' ∧
    e'.manifold.nContacts = 2 ∧ e'.tangentLambda = Mat.zero ∧ e'.normalLambda = Mat.zero := by
  obtain ⟨m', h, hn, _⟩ := twoSquares_update
  have : (Contact.needsNewManifold { restingSample 0 with
      frame := (restingSample 0).manifold.frame fun i => (twoSquares i).position.toWorldSpace }
      fun i => (twoSquares i).geom.transformed) = .ok true := by decide +kernel
  have hup : ∃ e', (restingSample 0).updateContacts id (fun _ _ _ => .ok ⟨0, -1 / 10⟩) twoSquares = .ok e' := by
    unfold Contact.updateContacts
    dsimp only
    rw [this]
    have h' : (restingSample 0).manifold.update id (fun _ _ _ => .ok ⟨0, -1 / 10⟩) twoSquares = .ok m' := h
    simp only [Outcome.bind_ok, if_true, h']
    exact ⟨_, rfl⟩
  obtain ⟨e', he⟩ := hup
  rcases C55_persist he (by decide) (by decide +kernel) _ rfl _ (fun _ => rfl) with h1 | ⟨h1, _, h2, h3, _⟩
  · exact absurd rfl h1.2.2.2.2.1
  · have : emptyManifold.update id (fun _ _ _ => .ok ⟨0, -1 / 10⟩) twoSquares = .ok e'.manifold := h1
    rw [h] at this
    exact ⟨e', he, by rw [← Outcome.ok.inj this]; exact hn, h2, h3 rfl⟩

-- C55: the two resting squares have two contact points, so their contact is active, and reports the corners of the upper square as the incident points.
example : ((restingSample 2).isActive ⟨0, 1, ⟨1, 1, 1, 1⟩⟩ ⟨fun i => if i = 0 then (twoSquares 0).position else (twoSquares 1).position, fun _ => ⟨0, 0⟩⟩).2 = true :=
  (C55_active _ _ _).1.2 (by decide)

example : ∃ e', (restingSample 2).updateContacts id (fun _ _ _ => .ok ⟨0, -1 / 10⟩) twoSquares = .ok e' ∧
    e'.contactInfo.1 = 2 ∧ e'.contactInfo.2.1 0 = ⟨1, 1⟩ ∧ e'.contactInfo.2.2.1 0 = ⟨1, 9 / 10⟩ := by
  refine ⟨{ restingSample 2 with frame := (restingSample 2).manifold.frame fun i => (twoSquares i).position.toWorldSpace },
    ?_, rfl, by decide +kernel, by decide +kernel⟩
  unfold Contact.updateContacts
  have : (Contact.needsNewManifold { restingSample 2 with
    frame := (restingSample 2).manifold.frame fun i => (twoSquares i).position.toWorldSpace }
    fun i => (twoSquares i).geom.transformed) = .ok false := by decide +kernel
  dsimp only
  rw [this]
  rfl

-- C55: a contact whose reference is the first body.
example : ({ restingSample 2 with
    manifold := { (restingSample 2).manifold with refIndex := 0 } } : Contact ℚ).manifold.refIndex = 0 := rfl

end Samples
end Simu
