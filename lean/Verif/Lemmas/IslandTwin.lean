import Verif.Lemmas.IslandEnergy
import Verif.Spec.IslandFrames
/-
Lemmas on a group of bodies seen in two worlds.
-/
namespace Simu.Island
variable {P V S S' : Type*}

/-- The elements of the vectors are the positions of the bodies. -/
def Placed (st0 : St P V S) (isl : Isl P V) : Prop := ∀ b i, isl.bodies[i]? = some b → isl.ps i = (st0.body b).pos

/-- The bodies after those of a constraint are added. -/
def addEnds (bs : List Nat) (e : Nat × Nat) : List Nat :=
  let bs1 := if e.1 ∈ bs then bs else bs ++ [e.1]
  if e.2 ∈ bs1 then bs1 else bs1 ++ [e.2]

theorem get_concat {bs : List Nat} {c b i : Nat} (h : (bs ++ [c])[i]? = some b) : bs[i]? = some b ∨ (i = bs.length ∧ b = c) := by
  rw [List.getElem?_append] at h
  split at h
  · exact Or.inl h
  · rename_i hi
    have : i - bs.length = 0 := by
      by_contra h0
      obtain ⟨k, hk⟩ := Nat.exists_eq_succ_of_ne_zero h0
      rw [hk] at h; simp at h
    rw [this] at h
    refine Or.inr ⟨by omega, by simpa using h.symm⟩

theorem addBody_placed {st0 st : St P V S} {isl : Isl P V} {b : Nat} (h : Indexed st0 st isl.bodies) (hp : Placed st0 isl) : Placed st0 (addBody st isl b).2.1 := by
  unfold addBody
  split
  · intro c i hc
    simp only at hc ⊢
    rcases get_concat hc with hc | ⟨rfl, rfl⟩
    · rw [Function.update_of_ne (by have := lt_of_get hc; omega)]; exact hp c i hc
    · rw [Function.update_self]; exact (h.frame _).1
  · exact hp

/-- The details of `addConstraint` for a constraint that is not yet in the island. -/
theorem addConstraint_detail {N : Net P V S} {st0 st : St P V S} {isl : Isl P V} {l : Link} {y : St P V S × Isl P V} (h : Building N st0 st isl) (hp0 : Placed st0 isl)
    (hl : l ∉ isl.links) (he : addConstraint N st isl l = .ok y) :
    let r := N.isActive l st.s (st0.body (N.ends l).1).pos (st0.body (N.ends l).2).pos;
    y.1.s = r.1 ∧ y.1.evals = st.evals ++ [(l, r.2)] ∧ Placed st0 y.2 ∧ y.2.bodies = (if r.2 then addEnds isl.bodies (N.ends l) else isl.bodies) ∧
      y.2.joints = (if r.2 then (isl.push l).joints else isl.joints) ∧ y.2.contacts = (if r.2 then (isl.push l).contacts else isl.contacts) := by
  have hspec := addConstraint_spec (st' := y.1) (isl' := y.2) h he
  unfold addConstraint at he
  have hpx : ¬ (st.proxies l).isSome = true := fun hs => hl ((h.proxy l).1 hs)
  rw [if_neg hpx] at he
  dsimp only at he
  have hpb : (isl.push l).bodies = isl.bodies := by cases l <;> rfl
  have hix : Indexed st0 st (isl.push l).bodies := by rw [hpb]; exact h.indexed
  have hpl0 : Placed st0 (isl.push l) := by cases l <;> exact hp0
  have hpl1 := addBody_placed (b := (N.ends l).1) hix hpl0
  cases h1 : addBody st (isl.push l) (N.ends l).1 with
  | mk st1 r1 =>
  obtain ⟨isl1, added1⟩ := r1
  rw [h1] at he hpl1
  dsimp only at he hpl1
  obtain ⟨i1, b1, a1, p1, e1, m1, s1, j1, c1, -⟩ := addBody_indexed hix h1
  have hpl2 := addBody_placed (b := (N.ends l).2) i1 hpl1
  cases h2 : addBody st1 isl1 (N.ends l).2 with
  | mk st2 r2 =>
  obtain ⟨isl2, added2⟩ := r2
  rw [h2] at he hpl2
  dsimp only at he hpl2
  obtain ⟨i2, b2, a2, p2, e2, m2, s2, j2, c2, -⟩ := addBody_indexed i1 h2
  rw [hpb] at b1 a1
  rw [bind_ok_iff] at he
  obtain ⟨st3, h3, he⟩ := he
  unfold startSolve at h3
  cases hx0 : (st2.body (N.ends l).1).index with
  | none => rw [hx0] at h3; simp at h3
  | some i0 =>
  cases hx1 : (st2.body (N.ends l).2).index with
  | none => rw [hx0, hx1] at h3; simp at h3
  | some i1' =>
  rw [hx0, hx1] at h3
  dsimp only at h3
  have h3 := (Outcome.ok.inj h3).symm
  subst h3
  simp only [Function.update_self] at he
  rw [hpl2 _ _ ((i2.index _ _).1 hx0), hpl2 _ _ ((i2.index _ _).1 hx1), s2, s1] at he
  dsimp only
  set r := N.isActive l st.s (st0.body (N.ends l).1).pos (st0.body (N.ends l).2).pos with hr
  by_cases hac : r.2 = true
  · rw [if_pos hac] at he
    cases Outcome.ok.inj he
    refine ⟨rfl, by rw [e2, e1], hpl2, ?_, ?_, ?_⟩
    · rw [if_pos hac, b2, b1]; rfl
    · rw [if_pos hac, j2, j1]
    · rw [if_pos hac, c2, c1]
  · rw [if_neg hac] at he
    have hev : y.1.s = r.1 ∧ y.1.evals = st.evals ++ [(l, r.2)] ∧ y.2.ps = isl2.ps ∧ y.2.joints = isl.joints ∧ y.2.contacts = isl.contacts := by
      have hj := Outcome.ok.inj he
      rw [← hj]
      cases added1 <;> cases added2 <;> cases l <;>
        simp [dropBody, Isl.pop, St.setBody, e2, e1, j2, j1, c2, c1, Isl.push]
    obtain ⟨k1, k2, k3, k4, k5⟩ := hev
    have hb : y.2.bodies = isl.bodies := by
      rcases hspec.2.2 with ⟨hm, -⟩ | ⟨hm, -⟩ | ⟨-, -, -, hm⟩
      · exact absurd hm hl
      · rw [k2] at hm
        have := List.append_cancel_left hm
        simp only [List.cons.injEq, Prod.mk.injEq, true_and, and_true] at this
        exact absurd this hac
      · exact hm
    refine ⟨k1, k2, ?_, by rw [if_neg hac, hb], by rw [if_neg hac, k4], by rw [if_neg hac, k5]⟩
    intro b i hbi
    rw [hb] at hbi
    rw [k3]
    refine hpl2 b i ?_
    obtain ⟨n1, hn1⟩ : ∃ n, isl1.bodies = isl.bodies ++ n := by
      rw [b1]; split
      · exact ⟨[], by simp⟩
      · exact ⟨_, rfl⟩
    obtain ⟨n2, hn2⟩ : ∃ n, isl2.bodies = isl1.bodies ++ n := by
      rw [b2]; split
      · exact ⟨[], by simp⟩
      · exact ⟨_, rfl⟩
    rw [hn2, hn1, List.append_assoc, List.getElem?_append_left (lt_of_get hbi)]
    exact hbi

/-- An island built in the same way in two worlds. -/
structure Twin (N : Net P V S) (N' : Net P V S') (known asked : Link → S → S' → Prop) (inner : Link → Prop) (group : Finset Nat) (st0 : St P V S) (st0' : St P V S')
    (x : St P V S × Isl P V) (x' : St P V S' × Isl P V) : Prop where
  left : Building N st0 x.1 x.2
  right : Building N' st0' x'.1 x'.2
  placedL : Placed st0 x.2
  placedR : Placed st0' x'.2
  bodies : x.2.bodies = x'.2.bodies
  joints : x.2.joints = x'.2.joints
  contacts : x.2.contacts = x'.2.contacts
  links : ∀ l ∈ x.2.links, inner l
  inside : ∀ b ∈ x.2.bodies, b ∈ group
  known : ∀ l, inner l → known l x.1.s x'.1.s
  asked : ∀ l ∈ x.2.links, asked l x.1.s x'.1.s

section
variable {N : Net P V S} {N' : Net P V S'} {F : Frames P V} {agree known asked : Link → S → S' → Prop} {inner : Link → Prop} {group : Finset Nat} {st0 : St P V S} {st0' : St P V S'}
  {x : St P V S × Isl P V} {x' : St P V S' × Isl P V}

theorem addEnds_mem {bs : List Nat} {e : Nat × Nat} {b : Nat} (h : b ∈ addEnds bs e) : b ∈ bs ∨ b = e.1 ∨ b = e.2 := by
  unfold addEnds at h
  grind

theorem Twin.skipL (hN : Private N known) (hM : Private N asked) (h : Twin N N' known asked inner group st0 st0' x x') {l : Link} (hl : ¬ inner l) {y : St P V S × Isl P V}
    (he : addConstraint N x.1 x.2 l = .ok y) (hf : ∀ e ∈ y.1.evals, e.1 = l → e.2 = false) : Twin N N' known asked inner group st0 st0' y x' := by
  have hm : l ∉ x.2.links := fun hm => hl (h.links l hm)
  obtain ⟨e1, e2, e3, e4, e5, e6⟩ := addConstraint_detail h.left h.placedL hm he
  have hr : (N.isActive l x.1.s (st0.body (N.ends l).1).pos (st0.body (N.ends l).2).pos).2 = false := hf (l, _) (by rw [e2]; simp) rfl
  rw [hr] at e4 e5 e6
  simp only [Bool.false_eq_true, if_false] at e4 e5 e6
  refine ⟨(addConstraint_spec (st' := y.1) (isl' := y.2) h.left he).1, h.right, e3, h.placedR, e4.trans h.bodies, e5.trans h.joints, e6.trans h.contacts, ?_, ?_, ?_, ?_⟩
  · intro l' hl'
    refine h.links l' ?_
    unfold Isl.links at hl' ⊢
    rw [← e5, ← e6]; exact hl'
  · rw [e4]; exact h.inside
  · intro l' hl'
    rw [e1]
    exact hN.isActive _ _ _ _ _ _ (by rintro rfl; exact hl hl') (h.known l' hl')
  · intro l' hl'
    have hl' : l' ∈ x.2.links := by
      unfold Isl.links at hl' ⊢
      rw [← e5, ← e6]; exact hl'
    rw [e1]
    exact hM.isActive _ _ _ _ _ _ (by rintro rfl; exact hm hl') (h.asked l' hl')

theorem Twin.symm (h : Twin N N' known asked inner group st0 st0' x x') : Twin N' N (fun l s t => known l t s) (fun l s t => asked l t s) inner group st0' st0 x' x where
  left := h.right
  right := h.left
  placedL := h.placedR
  placedR := h.placedL
  bodies := h.bodies.symm
  joints := h.joints.symm
  contacts := h.contacts.symm
  links l hl := h.links l (by unfold Isl.links at hl ⊢; rw [h.joints, h.contacts]; exact hl)
  inside b hb := h.inside b (by rw [h.bodies]; exact hb)
  known := h.known
  asked l hl := h.asked l (by unfold Isl.links at hl ⊢; rw [h.joints, h.contacts]; exact hl)

theorem Twin.both (hN : Private N known) (hN' : Private N' fun l s t => known l t s) (hM : Private N asked) (hM' : Private N' fun l s t => asked l t s) (h : Twin N N' known asked inner group st0 st0' x x') {l : Link} (hl : inner l)
    (ha : Matched N N' F known asked l) (hg : (N.ends l).1 ∈ group ∧ (N.ends l).2 ∈ group)
    (hp : F.before (st0.body (N.ends l).1).pos (st0'.body (N.ends l).1).pos ∧ F.before (st0.body (N.ends l).2).pos (st0'.body (N.ends l).2).pos)
    {y : St P V S × Isl P V} {y' : St P V S' × Isl P V} (he : addConstraint N x.1 x.2 l = .ok y) (he' : addConstraint N' x'.1 x'.2 l = .ok y') :
    Twin N N' known asked inner group st0 st0' y y' := by
  have hlinks : x.2.links = x'.2.links := by unfold Isl.links; rw [h.joints, h.contacts]
  by_cases hm : l ∈ x.2.links
  · rw [addConstraint, if_pos ((h.left.proxy l).2 hm)] at he
    rw [addConstraint, if_pos ((h.right.proxy l).2 (hlinks ▸ hm))] at he'
    cases Outcome.ok.inj he
    cases Outcome.ok.inj he'
    exact h
  · obtain ⟨e1, e2, e3, e4, e5, e6⟩ := addConstraint_detail h.left h.placedL hm he
    obtain ⟨f1, f2, f3, f4, f5, f6⟩ := addConstraint_detail h.right h.placedR (hlinks ▸ hm) he'
    obtain ⟨q1, q2⟩ := ha.isActive x.1.s x'.1.s _ _ _ _ (h.known l hl) hp.1 hp.2
    rw [ha.ends, ← q2] at f4 f5 f6
    rw [ha.ends] at f1
    have hpush : (x.2.push l).joints = (x'.2.push l).joints ∧ (x.2.push l).contacts = (x'.2.push l).contacts := by
      cases l <;> simp [Isl.push, h.joints, h.contacts]
    have hpl : ∀ l' ∈ y.2.links, l' ∈ x.2.links ∨ l' = l := by
      intro l' hl'
      have : l' ∈ (x.2.push l).links := by
        unfold Isl.links at hl' ⊢
        rw [e5, e6] at hl'
        cases hr : (N.isActive l x.1.s (st0.body (N.ends l).1).pos (st0.body (N.ends l).2).pos).2 with
        | true => rw [hr] at hl'; simpa using hl'
        | false =>
          rw [hr] at hl'
          exact (mem_links_push x.2 l l').2 (Or.inl (by unfold Isl.links; simpa using hl'))
      exact (mem_links_push _ _ _).1 this
    refine ⟨(addConstraint_spec (st' := y.1) (isl' := y.2) h.left he).1, (addConstraint_spec (st' := y'.1) (isl' := y'.2) h.right he').1, e3, f3, ?_, ?_, ?_, ?_, ?_, ?_, ?_⟩
    · rw [e4, f4, h.bodies]
    · rw [e5, f5, hpush.1, h.joints]
    · rw [e6, f6, hpush.2, h.contacts]
    · intro l' hl'
      rcases hpl l' hl' with h' | rfl
      · exact h.links l' h'
      · exact hl
    · intro b hb
      rw [e4] at hb
      split at hb
      · rcases addEnds_mem hb with hb | rfl | rfl
        · exact h.inside b hb
        · exact hg.1
        · exact hg.2
      · exact h.inside b hb
    · intro l' hl'
      rw [e1, f1]
      by_cases hll : l' = l
      · rw [hll]; exact ha.weaken _ _ q1
      · exact hN.isActive _ _ _ _ _ _ hll (hN'.isActive _ _ _ _ _ _ hll (h.known l' hl'))
    · intro l' hl'
      rw [e1, f1]
      by_cases hll : l' = l
      · rw [hll]; exact q1
      · exact hM.isActive _ _ _ _ _ _ hll (hM'.isActive _ _ _ _ _ _ hll (h.asked l' ((hpl l' hl').resolve_right hll)))

theorem addConstraints_append {N : Net P V S} (l1 l2 : List Link) (x : St P V S × Isl P V) : addConstraints N (l1 ++ l2) x = (addConstraints N l1 x).bind (addConstraints N l2) := by
  induction l1 generalizing x with
  | nil => rfl
  | cons l l1 ih =>
    simp only [List.cons_append, addConstraints]
    cases addConstraint N x.1 x.2 l with
    | ok z => exact ih z
    | throw => rfl
    | ub => rfl

theorem Twin.skipsL (hN : Private N known) (hM : Private N asked) (ls : List Link) (h : Twin N N' known asked inner group st0 st0' x x') (hl : ∀ l ∈ ls, ¬ inner l) {y : St P V S × Isl P V}
    (he : addConstraints N ls x = .ok y) (hf : ∀ e ∈ y.1.evals, e.1 ∈ ls → e.2 = false) : Twin N N' known asked inner group st0 st0' y x' := by
  induction ls generalizing x with
  | nil => cases Outcome.ok.inj he; exact h
  | cons l ls ih =>
    unfold addConstraints at he
    obtain ⟨z, hz, he⟩ := bind_ok_iff.1 he
    obtain ⟨ev, hev⟩ := addConstraints_evals ls he
    refine ih (h.skipL hN hM (hl l (by simp)) hz ?_) (fun l' h' => hl l' (List.mem_cons_of_mem _ h')) he (fun e hm hmem => hf e hm (List.mem_cons_of_mem _ hmem))
    intro e hm hel
    exact hf e (by rw [hev]; exact List.mem_append_left _ hm) (by rw [hel]; simp)

/-- The constraints of a body are added in the same way. -/
theorem Twin.adds (hN : Private N known) (hN' : Private N' fun l s t => known l t s) (hM : Private N asked) (hM' : Private N' fun l s t => asked l t s) {A A' : Link → Bool} (p : Link → Bool)
    (hinner : ∀ l, inner l → Matched N N' F known asked l ∧ (N.ends l).1 ∈ group ∧ (N.ends l).2 ∈ group) (ls ls' : List Link)
    (hp : ∀ l ∈ ls, inner l → F.before (st0.body (N.ends l).1).pos (st0'.body (N.ends l).1).pos ∧ F.before (st0.body (N.ends l).2).pos (st0'.body (N.ends l).2).pos) (hp1 : ∀ l ∈ ls, inner l ↔ p l = true) (hp2 : ∀ l ∈ ls', inner l ↔ p l = true)
    (hls : ls.filter p = ls'.filter p)
    (hA1 : ∀ l ∈ ls, ¬ inner l → A l = false) (hA2 : ∀ l ∈ ls', ¬ inner l → A' l = false)
    (h : Twin N N' known asked inner group st0 st0' x x') {y : St P V S × Isl P V} {y' : St P V S' × Isl P V} (he : addConstraints N ls x = .ok y) (he' : addConstraints N' ls' x' = .ok y')
    (hA : ∀ e ∈ y.1.evals, e.2 = A e.1) (hA' : ∀ e ∈ y'.1.evals, e.2 = A' e.1) : Twin N N' known asked inner group st0 st0' y y' := by
  induction ls generalizing x x' ls' with
  | nil =>
    cases Outcome.ok.inj he
    have hno : ∀ l ∈ ls', ¬ inner l := by
      intro l hl hi
      have : l ∈ ls'.filter p := List.mem_filter.2 ⟨hl, (hp2 l hl).1 hi⟩
      rw [← hls] at this
      simp at this
    refine (Twin.skipsL (known := fun l s t => known l t s) (asked := fun l s t => asked l t s) hN' hM' ls' h.symm hno he' ?_).symm
    intro e hm hel
    rw [hA' e hm, hA2 _ hel (hno _ hel)]
  | cons l ls ih =>
    unfold addConstraints at he
    obtain ⟨z, hz, he⟩ := bind_ok_iff.1 he
    obtain ⟨ev, hev⟩ := addConstraints_evals ls he
    by_cases hi : inner l
    · rw [List.filter_cons_of_pos ((hp1 l (by simp)).1 hi)] at hls
      obtain ⟨l1, l2, rfl, hl1, hpl, hrest⟩ := List.filter_eq_cons_iff.1 hls.symm
      rw [addConstraints_append] at he'
      obtain ⟨w, hw, he'⟩ := bind_ok_iff.1 he'
      have hev' := addConstraints_evals _ he'
      obtain ⟨ev', hev'⟩ := hev'
      have hno : ∀ l ∈ l1, ¬ inner l := fun l' hl' hi' => hl1 l' hl' ((hp2 l' (by simp [hl'])).1 hi')
      have hw' : Twin N N' known asked inner group st0 st0' x w := by
        refine (Twin.skipsL (known := fun l s t => known l t s) (asked := fun l s t => asked l t s) hN' hM' l1 h.symm hno hw ?_).symm
        intro e hm hel
        rw [hA' e (by rw [hev']; exact List.mem_append_left _ hm), hA2 _ (by simp [hel]) (hno _ hel)]
      unfold addConstraints at he'
      obtain ⟨w', hw2, he'⟩ := bind_ok_iff.1 he'
      exact ih l2 (fun l' h' => hp l' (List.mem_cons_of_mem _ h')) (fun l' h' => hp1 l' (List.mem_cons_of_mem _ h')) (fun l' h' => hp2 l' (by simp [h'])) hrest.symm (fun l' h' => hA1 l' (List.mem_cons_of_mem _ h'))
        (fun l' h' => hA2 l' (by simp [h'])) (hw'.both hN hN' hM hM' hi (hinner l hi).1 (hinner l hi).2 (hp l (by simp) hi) hz hw2) he he'
    · have hpl : ¬ p l = true := fun h => hi ((hp1 l (by simp)).2 h)
      rw [List.filter_cons_of_neg hpl] at hls
      refine ih ls' (fun l' h' => hp l' (List.mem_cons_of_mem _ h')) (fun l' h' => hp1 l' (List.mem_cons_of_mem _ h')) hp2 hls (fun l' h' => hA1 l' (List.mem_cons_of_mem _ h')) hA2 (h.skipL hN hM hi hz ?_) he he'
      intro e hm hel
      rw [hA e (by rw [hev]; exact List.mem_append_left _ hm), hel, hA1 l (by simp) hi]

/-- What is assumed of the two worlds, from the states at the beginning of a step. -/
structure Pair (N : Net P V S) (N' : Net P V S') (F : Frames P V) (known asked : Link → S → S' → Prop) (inner : Link → Prop) (group : Finset Nat) (A A' : Link → Bool) (mv : Nat → Bool) (p : Link → Bool) : Prop where
  left : Private N known
  right : Private N' fun l s t => known l t s
  left' : Private N asked
  right' : Private N' fun l s t => asked l t s
  within : ∀ l, inner l → Matched N N' F known asked l ∧ (N.ends l).1 ∈ group ∧ (N.ends l).2 ∈ group
  memL : ∀ b ∈ group, mv b = true → ∀ l ∈ linksOf N b, inner l ↔ p l = true
  memR : ∀ b ∈ group, mv b = true → ∀ l ∈ linksOf N' b, inner l ↔ p l = true
  filter : ∀ b ∈ group, mv b = true → (linksOf N b).filter p = (linksOf N' b).filter p
  outL : ∀ b ∈ group, mv b = true → ∀ l ∈ linksOf N b, ¬ inner l → A l = false
  outR : ∀ b ∈ group, mv b = true → ∀ l ∈ linksOf N' b, ¬ inner l → A' l = false
  advance : ∀ p q v w, F.before p q → F.vel v w → F.after (N.advance p v) (N'.advance q w)
  displaced : F.before = F.after ∨ ((∀ b ∈ group, mv b = true) ∧ ∀ l, inner l → A l = true)

variable {A A' : Link → Bool} {mv : Nat → Bool} {p : Link → Bool}

theorem Twin.loop (hP : Pair N N' F known asked inner group A A' mv p) (hmv : ∀ b ∈ group, interactsAsStructural N st0 b = !mv b) (hmv' : ∀ b ∈ group, interactsAsStructural N' st0' b = !mv b)
    {world world' : List Nat} (hc : Closed N world) (hc' : Closed N' world') (fuel fuel' current : Nat)
    (h : Twin N N' known asked inner group st0 st0' x x') (hw : ∀ b ∈ x.2.bodies, b ∈ world) (hw' : ∀ b ∈ x.2.bodies, b ∈ world')
    {y : St P V S × Isl P V} {y' : St P V S' × Isl P V} (he : initLoop N fuel current x = some (.ok y)) (he' : initLoop N' fuel' current x' = some (.ok y'))
    (hp : ∀ b ∈ y.2.bodies, b ∈ group → mv b = true → ∀ l ∈ linksOf N b, inner l →
      F.before (st0.body (N.ends l).1).pos (st0'.body (N.ends l).1).pos ∧ F.before (st0.body (N.ends l).2).pos (st0'.body (N.ends l).2).pos)
    (hA : ∀ e ∈ y.1.evals, e.2 = A e.1) (hA' : ∀ e ∈ y'.1.evals, e.2 = A' e.1) : Twin N N' known asked inner group st0 st0' y y' := by
  induction fuel generalizing fuel' current x x' with
  | zero => simp [initLoop] at he
  | succ fuel ih =>
    cases fuel' with
    | zero => simp [initLoop] at he'
    | succ fuel' =>
      rw [initLoop_succ] at he he'
      rw [← h.bodies] at he'
      cases hr : x.2.bodies[current]? with
      | none =>
        rw [hr] at he he'
        simp only [Option.some.injEq] at he he'
        cases Outcome.ok.inj he
        cases Outcome.ok.inj he'
        exact h
      | some root =>
        rw [hr] at he he'
        dsimp only at he he'
        cases hs : initStep N root x with
        | throw => rw [hs] at he; simp at he
        | ub => rw [hs] at he; simp at he
        | ok z =>
        cases hs' : initStep N' root x' with
        | throw => rw [hs'] at he'; simp at he'
        | ub => rw [hs'] at he'; simp at he'
        | ok z' =>
        rw [hs] at he
        rw [hs'] at he'
        dsimp only at he he'
        have hrm := List.mem_of_getElem? hr
        have hrg := h.inside root hrm
        obtain ⟨bz, ⟨n1, hn1, hn1'⟩, -, -⟩ := initStep_building h.left hs
        obtain ⟨bz', ⟨n2, hn2, hn2'⟩, -, -⟩ := initStep_building h.right hs'
        have hzw : ∀ b ∈ z.2.bodies, b ∈ world := by
          intro b hb
          rw [hn1] at hb
          rcases List.mem_append.1 hb with hb | hb
          · exact hw b hb
          · obtain ⟨l, hl, hb | hb⟩ := hn1' b hb
            · rw [hb]; exact (hc root (hw root hrm) l hl).1
            · rw [hb]; exact (hc root (hw root hrm) l hl).2
        have hzw' : ∀ b ∈ z'.2.bodies, b ∈ world' := by
          intro b hb
          rw [hn2] at hb
          rcases List.mem_append.1 hb with hb | hb
          · exact hw' b (h.bodies ▸ hb)
          · obtain ⟨l, hl, hb | hb⟩ := hn2' b hb
            · rw [hb]; exact (hc' root (hw' root hrm) l hl).1
            · rw [hb]; exact (hc' root (hw' root hrm) l hl).2
        obtain ⟨-, ⟨n3, hn3⟩, -, -, ev, hev⟩ := initLoop_building hc fuel _ bz hzw he
        have hry : root ∈ y.2.bodies := by rw [hn3, hn1]; exact List.mem_append_left _ (List.mem_append_left _ hrm)
        obtain ⟨-, -, -, -, ev', hev'⟩ := initLoop_building hc' fuel' _ bz' hzw' he'
        have key : Twin N N' known asked inner group st0 st0' z z' := by
          unfold initStep at hs hs'
          rw [structural_frame h.left.indexed, hmv root hrg] at hs
          rw [structural_frame h.right.indexed, hmv' root hrg] at hs'
          cases hm : mv root with
          | false =>
            rw [hm] at hs hs'
            simp only [Bool.not_false, if_true] at hs hs'
            cases Outcome.ok.inj hs
            cases Outcome.ok.inj hs'
            exact h
          | true =>
            rw [hm] at hs hs'
            simp only [Bool.not_true, Bool.false_eq_true, if_false] at hs hs'
            exact Twin.adds hP.left hP.right hP.left' hP.right' p hP.within _ _ (hp root hry hrg hm) (hP.memL root hrg hm) (hP.memR root hrg hm) (hP.filter root hrg hm) (hP.outL root hrg hm) (hP.outR root hrg hm) h hs hs'
              (fun e hm => hA e (by rw [hev]; exact List.mem_append_left _ hm)) (fun e hm => hA' e (by rw [hev']; exact List.mem_append_left _ hm))
        exact ih fuel' (current + 1) key hzw (by rw [key.bodies]; exact hzw') he he'

/-- The vectors of an island in the two worlds. -/
structure Vectors (agree : Link → S → S' → Prop) (pos : P → P → Prop) (vel : V → V → Prop) (N : Net P V S) (N' : Net P V S') (x : St P V S × Isl P V) (x' : St P V S' × Isl P V) : Prop where
  left : Linked N x.1 x.2
  right : Linked N' x'.1 x'.2
  nodup : x.2.bodies.Nodup
  bodies : x.2.bodies = x'.2.bodies
  links : x.2.links = x'.2.links
  values : ∀ i < x.2.bodies.length, pos (x.2.ps i) (x'.2.ps i) ∧ vel (x.2.vs i) (x'.2.vs i)
  agree : ∀ l ∈ x.2.links, agree l x.1.s x'.1.s

theorem index_unique {bs : List Nat} (h : bs.Nodup) {i j b : Nat} (hi : bs[i]? = some b) (hj : bs[j]? = some b) : i = j := by
  have hi' := lt_of_get hi
  have hj' := lt_of_get hj
  rw [List.getElem?_eq_getElem hi'] at hi
  rw [List.getElem?_eq_getElem hj'] at hj
  exact (List.Nodup.getElem_inj_iff h).1 (by simpa using hi.trans hj.symm)

theorem Vectors.actAll {pos : P → P → Prop} {vel : V → V → Prop} (hL : Lawful N) (hL' : Lawful N') (hN : Private N agree) (hN' : Private N' fun l s t => agree l t s) {ph : Phase} (ls : List Link)
    (h : Vectors agree pos vel N N' x x') (hls : ∀ l ∈ ls, l ∈ x.2.links) (hal : ∀ l ∈ ls, N'.ends l = N.ends l ∧ ActsAlike N N' agree pos vel ph l)
    {y : St P V S × Isl P V} {y' : St P V S' × Isl P V}
    (he : actAll N ph ls x = .ok y) (he' : Island.actAll N' ph ls x' = .ok y') : Vectors agree pos vel N N' y y' := by
  induction ls generalizing x x' with
  | nil => obtain ⟨st, isl⟩ := x; obtain ⟨st', isl'⟩ := x'; cases Outcome.ok.inj he; cases Outcome.ok.inj he'; exact h
  | cons l ls ih =>
    have hm := hls l (by simp)
    obtain ⟨i0, i1, s, ps, vs, hpr, h0, h1, ha, he⟩ := actAll_cons h.left hm he
    obtain ⟨j0, j1, t, qs, ws, hpr', h0', h1', ha', he'⟩ := actAll_cons h.right (h.links ▸ hm) he'
    obtain ⟨hends, hact⟩ := hal l (by simp)
    rw [← h.bodies, hends] at h0' h1'
    obtain rfl := index_unique h.nodup h0 h0'
    obtain rfl := index_unique h.nodup h1 h1'
    obtain ⟨v0, w0⟩ := h.values i0 (lt_of_get h0)
    obtain ⟨v1, w1⟩ := h.values i1 (lt_of_get h1)
    obtain ⟨q, p0, p1, u0, u1⟩ := hact i0 i1 _ _ _ _ _ _ _ _ _ _ _ _ (h.agree l hm) v0 v1 w0 w1 ha ha'
    refine ih (x := ({ x.1 with s := s }, { x.2 with ps := ps, vs := vs })) (x' := ({ x'.1 with s := t }, { x'.2 with ps := qs, vs := ws }))
      ⟨h.left, h.right, h.nodup, h.bodies, h.links, ?_, ?_⟩ (fun l' h' => hls l' (List.mem_cons_of_mem _ h')) (fun l' h' => hal l' (List.mem_cons_of_mem _ h')) he he'
    · intro k hk
      show pos (ps k) (qs k) ∧ vel (vs k) (ws k)
      by_cases k0 : k = i0
      · subst k0; exact ⟨p0, u0⟩
      by_cases k1 : k = i1
      · subst k1; exact ⟨p1, u1⟩
      obtain ⟨a, b⟩ := hL.act ph l i0 i1 _ _ _ _ _ _ ha k (fun h => absurd h k0) (fun h => absurd h k1)
      obtain ⟨a', b'⟩ := hL'.act ph l i0 i1 _ _ _ _ _ _ ha' k (fun h => absurd h k0) (fun h => absurd h k1)
      rw [a, a', b, b']
      exact h.values k hk
    · intro l' hl'
      by_cases hll : l' = l
      · rw [hll]; exact q
      · exact hN.act _ _ _ _ _ _ _ _ _ _ ha l' _ hll (hN'.act _ _ _ _ _ _ _ _ _ _ ha' l' _ hll (h.agree l' hl'))

theorem Vectors.actRounds {pos : P → P → Prop} {vel : V → V → Prop} (hL : Lawful N) (hL' : Lawful N') (hN : Private N agree) (hN' : Private N' fun l s t => agree l t s) {ph : Phase} (ls : List Link)
    (n : Nat) (h : Vectors agree pos vel N N' x x') (hls : ∀ l ∈ ls, l ∈ x.2.links) (hal : ∀ l ∈ ls, N'.ends l = N.ends l ∧ ActsAlike N N' agree pos vel ph l)
    {y : St P V S × Isl P V} {y' : St P V S' × Isl P V}
    (he : actRounds N ph ls n x = .ok y) (he' : Island.actRounds N' ph ls n x' = .ok y') : Vectors agree pos vel N N' y y' := by
  induction n generalizing x x' with
  | zero => cases Outcome.ok.inj he; cases Outcome.ok.inj he'; exact h
  | succ n ih =>
    unfold Island.actRounds at he he'
    obtain ⟨z, hz, he⟩ := bind_ok_iff.1 he
    obtain ⟨z', hz', he'⟩ := bind_ok_iff.1 he'
    have hf := (actAll_run (Q := fun _ => True) trivial ls hls hz).frame.2.2.2
    exact ih (Vectors.actAll hL hL' hN hN' ls h hls hal hz hz') (fun l hl => by rw [hf]; exact hls l hl) he he'

/-- An island built in the same way in two worlds is solved in the same way. -/
theorem Twin.solve (hP : Pair N N' F known asked inner group A A' mv p) (hL : Lawful N) (hL' : Lawful N') (cfg : Settings)
    (hp : ∀ b ∈ x.2.bodies, F.before (st0.body b).pos (st0'.body b).pos ∧ F.vel (st0.body b).vel (st0'.body b).vel) (h : Twin N N' known asked inner group st0 st0' x x')
    {y : St P V S × Isl P V} {y' : St P V S' × Isl P V} (he : solveIsland N cfg x.1 x.2 = .ok y) (he' : solveIsland N' cfg x'.1 x'.2 = .ok y') :
    (∀ b ∈ x.2.bodies, F.after (y.1.body b).pos (y'.1.body b).pos ∧ F.vel (y.1.body b).vel (y'.1.body b).vel) ∧ ∀ l ∈ x.2.links, known l y.1.s y'.1.s := by
  obtain ⟨a, x1, x2, z, w, h1, h2, h3, h4, h5, e1, e2, e3, e4, h8, h9⟩ := solveIsland_phases (st' := y.1) (isl' := y.2) cfg h.left he
  obtain ⟨a', x1', x2', z', w', h1', h2', h3', h4', h5', e1', e2', e3', e4', h8', h9'⟩ := solveIsland_phases (st' := y'.1) (isl' := y'.2) cfg h.right he'
  have hlinks : x.2.links = x'.2.links := by unfold Isl.links; rw [h.joints, h.contacts]
  rw [← hlinks] at e1' e2' e3' e4'
  have hin : ∀ ph, ph ≠ .solvePositions → ∀ l ∈ x.2.links, N'.ends l = N.ends l ∧ ActsAlike N N' asked F.before F.vel ph l :=
    fun ph hph l hl => ⟨(hP.within l (h.links l hl)).1.ends, (hP.within l (h.links l hl)).1.velocities ph hph⟩
  have va : Vectors asked F.before F.vel N N' a a' := by
    refine ⟨h1, h1', by rw [h2]; exact h.left.indexed.nodup, by rw [h2, h2', h.bodies], by rw [h3, h3', hlinks], ?_, ?_⟩
    · intro i hi
      rw [h2] at hi
      have hb : x.2.bodies[i]? = some x.2.bodies[i] := List.getElem?_eq_getElem hi
      obtain ⟨p1, p2⟩ := h5 _ i hb
      obtain ⟨q1, q2⟩ := h5' _ i (by rw [← h.bodies]; exact hb)
      rw [p1, p2, q1, q2]
      exact hp _ (List.mem_of_getElem? hb)
    · intro l hl
      rw [h4, h4']; exact h.asked l (h3 ▸ hl)
  have hm0 : ∀ l ∈ x.2.links, l ∈ a.2.links := fun l hl => by rw [h3]; exact hl
  have v1 := va.actAll hL hL' hP.left' hP.right' _ hm0 (hin _ (by simp)) e1 e1'
  have f1 := (actAll_run (Q := fun _ => True) trivial _ hm0 e1).frame.2.2.2
  have hm1 : ∀ l ∈ x.2.links, l ∈ x1.2.links := fun l hl => by rw [f1]; exact hm0 l hl
  have v2 : Vectors asked F.before F.vel N N' x2 x2' ∧ x2.2.links = x1.2.links := by
    split at e2
    · rename_i hc
      rw [if_pos hc] at e2'
      exact ⟨v1.actAll hL hL' hP.left' hP.right' _ hm1 (hin _ (by simp)) e2 e2', (actAll_run (Q := fun _ => True) trivial _ hm1 e2).frame.2.2.2⟩
    · rename_i hc
      rw [if_neg hc] at e2'
      cases Outcome.ok.inj e2; cases Outcome.ok.inj e2'
      exact ⟨v1, rfl⟩
  obtain ⟨v2, f2⟩ := v2
  have hm2 : ∀ l ∈ x.2.links, l ∈ x2.2.links := fun l hl => by rw [f2]; exact hm1 l hl
  have vz := v2.actRounds hL hL' hP.left' hP.right' _ _ hm2 (hin _ (by simp)) e3 e3'
  have f3 := (actRounds_run (Q := fun _ => True) trivial _ _ hm2 e3).frame.2.2
  have hzl : ∀ l ∈ z.2.links, l ∈ x.2.links := fun l hl => by rw [f3.2, f2, f1, h3] at hl; exact hl
  have vi : Vectors known F.after F.vel N N' (integrate N z) (integrate N' z') := by
    refine ⟨vz.left, vz.right, vz.nodup, vz.bodies, vz.links, ?_, fun l hl => (hP.within l (h.links l (hzl l hl))).1.weaken _ _ (vz.agree l hl)⟩
    intro i hi
    have hi : i < z.2.bodies.length := hi
    obtain ⟨p1, p2⟩ := vz.values i hi
    refine ⟨?_, p2⟩
    show F.after (if i < z.2.bodies.length then N.advance (z.2.ps i) (z.2.vs i) else z.2.ps i) (if i < z'.2.bodies.length then N'.advance (z'.2.ps i) (z'.2.vs i) else z'.2.ps i)
    rw [if_pos hi, if_pos (by rw [← vz.bodies]; exact hi)]
    exact hP.advance _ _ _ _ p1 p2
  have hm3 : ∀ l ∈ x.2.links, l ∈ (integrate N z).2.links := fun l hl => by show l ∈ z.2.links; rw [f3.2]; exact hm2 l hl
  have vw := vi.actRounds hL hL' hP.left hP.right _ _ hm3 (fun l hl => ⟨(hP.within l (h.links l hl)).1.ends, (hP.within l (h.links l hl)).1.positions⟩) e4 e4'
  have f4 := (actRounds_run (Q := fun _ => True) trivial _ _ hm3 e4).frame.2.2
  have hwb : w.2.bodies = x.2.bodies := by
    have k2 : w.2.bodies = z.2.bodies := f4.1
    rw [k2, f3.1]
    have k3 : x2.2.bodies = x1.2.bodies := by
      split at e2
      · exact (actAll_run (Q := fun _ => True) trivial _ hm1 e2).frame.2.2.1
      · cases Outcome.ok.inj e2; rfl
    rw [k3, (actAll_run (Q := fun _ => True) trivial _ hm0 e1).frame.2.2.1, h2]
  refine ⟨fun b hb => ?_, fun l hl => by rw [h8, h8']; exact vw.agree l (by rw [f4.2]; exact hm3 l hl)⟩
  obtain ⟨i, hi⟩ := List.getElem?_of_mem hb
  obtain ⟨p1, p2⟩ := h9 b i hi
  obtain ⟨q1, q2⟩ := h9' b i (by rw [← h.bodies]; exact hi)
  rw [p1, p2, q1, q2]
  exact vw.values i (by rw [hwb]; exact lt_of_get hi)

/-- Asking constraints other than `l0` does not change what is known of `l0`. -/
theorem addConstraints_other {N : Net P V S} {st0 : St P V S} {good : S → Prop} (ls : List Link) (hg : ∀ l ∈ ls, ∀ s p q, good s → good (N.isActive l s p q).1)
    {x y : St P V S × Isl P V} (h : Building N st0 x.1 x.2) (hp : Placed st0 x.2) (he : addConstraints N ls x = .ok y) (hs : good x.1.s) : good y.1.s ∧ Placed st0 y.2 := by
  induction ls generalizing x with
  | nil => cases Outcome.ok.inj he; exact ⟨hs, hp⟩
  | cons l ls ih =>
    unfold addConstraints at he
    obtain ⟨z, hz, he⟩ := bind_ok_iff.1 he
    have hb := (addConstraint_spec (st' := z.1) (isl' := z.2) h hz).1
    have : good z.1.s ∧ Placed st0 z.2 := by
      by_cases hm : l ∈ x.2.links
      · rw [addConstraint, if_pos ((h.proxy l).2 hm)] at hz
        cases Outcome.ok.inj hz
        exact ⟨hs, hp⟩
      · obtain ⟨e1, -, e3, -⟩ := addConstraint_detail h hp hm hz
        exact ⟨by rw [e1]; exact hg l (by simp) _ _ _ hs, e3⟩
    exact ih (fun l' h' => hg l' (List.mem_cons_of_mem _ h')) hb this.2 he this.1

theorem initLoop_other {N : Net P V S} {st0 : St P V S} {good : S → Prop} {world : List Nat} (hc : Closed N world) (fuel current : Nat) {x y : St P V S × Isl P V}
    (h : Building N st0 x.1 x.2) (hp : Placed st0 x.2) (hw : ∀ b ∈ x.2.bodies, b ∈ world) (he : initLoop N fuel current x = some (.ok y))
    (hg : ∀ b ∈ y.2.bodies, interactsAsStructural N st0 b = false → ∀ l ∈ linksOf N b, ∀ s p q, good s → good (N.isActive l s p q).1) (hs : good x.1.s) : good y.1.s := by
  induction fuel generalizing current x with
  | zero => simp [initLoop] at he
  | succ fuel ih =>
    rw [initLoop_succ] at he
    cases hr : x.2.bodies[current]? with
    | none =>
      rw [hr] at he
      simp only [Option.some.injEq] at he
      cases Outcome.ok.inj he
      exact hs
    | some root =>
      rw [hr] at he
      dsimp only at he
      cases hst : initStep N root x with
      | throw => rw [hst] at he; simp at he
      | ub => rw [hst] at he; simp at he
      | ok z =>
        rw [hst] at he
        dsimp only at he
        have hrm := List.mem_of_getElem? hr
        obtain ⟨bz, ⟨n1, hn1, hn1'⟩, -, -⟩ := initStep_building h hst
        have hzw : ∀ b ∈ z.2.bodies, b ∈ world := by
          intro b hb
          rw [hn1] at hb
          rcases List.mem_append.1 hb with hb | hb
          · exact hw b hb
          · obtain ⟨l, hl, hb | hb⟩ := hn1' b hb
            · rw [hb]; exact (hc root (hw root hrm) l hl).1
            · rw [hb]; exact (hc root (hw root hrm) l hl).2
        obtain ⟨-, ⟨n2, hn2⟩, -⟩ := initLoop_building hc fuel _ bz hzw he
        have hry : root ∈ y.2.bodies := by rw [hn2, hn1]; exact List.mem_append_left _ (List.mem_append_left _ hrm)
        have hz : good z.1.s ∧ Placed st0 z.2 := by
          unfold initStep at hst
          rw [structural_frame h.indexed] at hst
          cases hm : interactsAsStructural N st0 root with
          | true =>
            rw [hm] at hst
            simp only [if_true] at hst
            cases Outcome.ok.inj hst
            exact ⟨hs, hp⟩
          | false =>
            rw [hm] at hst
            simp only [Bool.false_eq_true, if_false] at hst
            exact addConstraints_other _ (hg root hry hm) h hp hst hs
        exact ih (current + 1) bz hz.2 hzw he hz.1

theorem addBody_start {st : St P V S} {isl : Isl P V} (h0 : Idle st) (hz : isl.Empty) (root : Nat) :
    Placed st (addBody st isl root).2.1 ∧ (addBody st isl root).1.s = st.s ∧ (addBody st isl root).2.1.joints = [] ∧ (addBody st isl root).2.1.contacts = [] := by
  refine ⟨addBody_placed ⟨by rw [hz.bodies]; simp, fun b i => by rw [h0.index, hz.bodies]; simp, fun b => ⟨rfl, rfl, rfl⟩⟩ ?_, ?_, ?_, ?_⟩
  · intro b i hb
    rw [hz.bodies] at hb; simp at hb
  all_goals
    unfold addBody; split <;> simp [St.setBody, hz.joints, hz.contacts]

theorem init_other {N : Net P V S} {good : S → Prop} {world : List Nat} (hc : Closed N world) {st : St P V S} {isl : Isl P V} {root fuel : Nat} {y : St P V S × Isl P V}
    (hroot : root ∈ world) (h0 : Idle st) (hz : isl.Empty) (he : init N fuel st isl root = some (.ok y))
    (hg : ∀ b ∈ y.2.bodies, interactsAsStructural N st b = false → ∀ l ∈ linksOf N b, ∀ s p q, good s → good (N.isActive l s p q).1) (hs : good st.s) : good y.1.s := by
  obtain ⟨hb, hbs, -⟩ := addBody_building (N := N) h0 hz root
  obtain ⟨k1, k2, -⟩ := addBody_start h0 hz root
  unfold init at he
  dsimp only at he
  exact initLoop_other (x := ((addBody st isl root).1, (addBody st isl root).2.1)) hc fuel 0 hb k1 (by
    intro b hb'
    rw [show ((addBody st isl root).1, (addBody st isl root).2.1).2.bodies = [root] from hbs] at hb'
    rw [List.mem_singleton.1 hb']; exact hroot) he hg (by show good (addBody st isl root).1.s; rw [k2]; exact hs)

theorem Run.other {N : Net P V S} {Q : Phase → Prop} (hN : Private N agree) {l : Link} {t : S'} {x y : St P V S × Isl P V} (hl : l ∉ x.2.links) (hs : agree l x.1.s t) (h : Run N Q x y) : agree l y.1.s t := by
  induction h with
  | refl => exact hs
  | tail hr hc ih =>
    obtain ⟨ph, l', i0, i1, s, ps, vs, -, hm, hp, hact, rfl⟩ := hc
    exact hN.act _ _ _ _ _ _ _ _ _ _ hact l t (by rintro rfl; rw [Run.frame hr |>.2.2.2] at hm; exact hl hm) ih

theorem solveIsland_other (hN : Private N agree) (cfg : Settings) {st0 st st' : St P V S} {isl isl' : Isl P V} (h : Building N st0 st isl) {l : Link} {t : S'} (hl : l ∉ isl.links)
    (hs : agree l st.s t) (he : solveIsland N cfg st isl = .ok (st', isl')) : agree l st'.s t := by
  obtain ⟨a, x, y, -, -, h3, h4, -, h6, h7, h8, -⟩ := solveIsland_runs cfg h he
  rw [h8]
  have h1 : agree l x.1.s t := Run.other (x := a) hN (by rw [h3]; exact hl) (by rw [h4]; exact hs) h6
  replace h1 : agree l (integrate N x).1.s t := h1
  refine Run.other hN ?_ h1 h7
  show l ∉ x.2.links
  rw [h6.frame.2.2.2, h3]; exact hl

/-- The state of the group in the two worlds while islands are solved; the bodies `todo` are still to be moved. -/
structure Same (F : Frames P V) (known : Link → S → S' → Prop) (inner : Link → Prop) (group : Finset Nat) (mv : Nat → Bool) (todo : List Nat) (st : St P V S) (st' : St P V S') : Prop where
  vel : ∀ b ∈ group, F.vel (st.body b).vel (st'.body b).vel
  waiting : ∀ b ∈ group, (mv b = true → b ∈ todo) → F.before (st.body b).pos (st'.body b).pos
  moved : ∀ b ∈ group, mv b = true → b ∉ todo → F.after (st.body b).pos (st'.body b).pos
  links : ∀ l, inner l → known l st.s st'.s

theorem Same.congr {st : St P V S} {st' : St P V S'} {todo todo' : List Nat} (h : Same F known inner group mv todo st st') (ht : ∀ b ∈ group, mv b = true → (b ∈ todo ↔ b ∈ todo')) :
    Same F known inner group mv todo' st st' :=
  ⟨h.vel, fun b hb k => h.waiting b hb fun hm => (ht b hb hm).2 (k hm), fun b hb hm k => h.moved b hb hm fun hi => k ((ht b hb hm).1 hi), h.links⟩

/-- The two worlds exchanged. -/
def Frames.flip (F : Frames P V) : Frames P V := ⟨fun p q => F.before q p, fun p q => F.after q p, fun v w => F.vel w v⟩

theorem Same.flip {st : St P V S} {st' : St P V S'} {todo : List Nat} (h : Same F known inner group mv todo st st') : Same F.flip (fun l s t => known l t s) inner group mv todo st' st :=
  ⟨h.vel, h.waiting, h.moved, h.links⟩

/-- What is assumed of one world. -/
structure Side (N : Net P V S) (A : Link → Bool) (inner : Link → Prop) (group : Finset Nat) (mv : Nat → Bool) (world : List Nat) (st0 : St P V S) : Prop where
  lawful : Lawful N
  consistent : Consistent N world
  moves : ∀ b ∈ group, interactsAsStructural N st0 b = !mv b
  within : ∀ l, inner l → (N.ends l).1 ∈ group ∧ (N.ends l).2 ∈ group
  out : ∀ b ∈ group, mv b = true → ∀ l ∈ linksOf N b, ¬ inner l → A l = false

/-- An island that does not start in the group leaves it alone. -/
theorem Same.skip {world : List Nat} {st0 st : St P V S} {st' : St P V S'} {toProcess : List Nat} {done : List Record} (hS : Side N A inner group mv world st0) (hN : Private N known)
    (h : Progress N A world st0 st toProcess done) {todo : List Nat} (k : Same F known inner group mv todo st st') {isl : Isl P V} (hz : isl.Empty) {root fuel : Nat}
    (hroot : root ∈ toProcess) (hnot : ¬ (root ∈ group ∧ mv root = true)) {x : St P V S × Isl P V} (hi : init N fuel st isl root = some (.ok x)) (cfg : Settings)
    {y : St P V S × Isl P V} (hs : solveIsland N cfg x.1 x.2 = .ok y) (hA : ∀ e ∈ y.1.evals, e.2 = A e.1) :
    Same F known inner group mv todo y.1 st' ∧ ∀ b ∈ x.2.bodies, ¬ (b ∈ group ∧ mv b = true) := by
  obtain ⟨hN', hc, hmv, hwi, hout⟩ := hS
  obtain ⟨hrw, hrd⟩ := (h.remaining root).1 hroot
  obtain ⟨hb, ⟨ev, hev⟩, hrb, hbw, _, _⟩ := init_evals hc.closed hrw h.idle hz hi
  obtain ⟨q1, q2, q3, q4, q5, q6, q7, q8, q9⟩ := solveIsland_spec (st' := y.1) (isl' := y.2) hN' cfg h.idle hb hs
  have hAx : ∀ e ∈ x.1.evals, e.2 = A e.1 := by rw [← q5]; exact hA
  obtain ⟨i1, i2⟩ := init_spec (A := A) hc.closed hrw h.idle hz hi hAx
  rw [touches_congr h.structural] at i1
  simp only [h.structural] at i2
  have hstep := (Progress.step hN' hc h hz hroot hi cfg hs hA).1
  have hno : ∀ b ∈ x.2.bodies, ¬ (b ∈ group ∧ mv b = true) := by
    rintro b hbx ⟨hbg, hbm⟩
    have hbf : interactsAsStructural N st0 b = false := by rw [hmv b hbg, hbm]; rfl
    have hr := (i1 b).1 hbx
    have hrf := reach_free hr hbf
    have hback := reach_symm hc hrw hr hbf
    have hall : ∀ c, Relation.ReflTransGen (Touches N A st0) b c → c ∈ group := by
      intro c hbc
      induction hbc with
      | refl => exact hbg
      | @tail d e _ ht ih =>
        obtain ⟨hf, l, hl, ha, hor⟩ := ht
        have hin : inner l := by
          by_contra hin
          have hm : mv d = true := by
            have := hmv d ih
            rw [hf] at this
            simpa using this
          rw [hout d ih hm l hl hin] at ha
          simp at ha
        rcases hor with rfl | rfl
        · exact (hwi l hin).1
        · exact (hwi l hin).2
    have := hall root hback
    refine hnot ⟨this, ?_⟩
    have := hmv _ this
    rw [hrf] at this
    simpa using this
  have hli : ∀ b ∈ x.2.bodies, interactsAsStructural N st0 b = false → ∀ l ∈ linksOf N b, ¬ inner l := by
    intro b hbx hbf l hl hin
    have hbg : b ∈ group := by
      rcases hc.isEnd b (hbw b hbx) l hl with e | e <;> rw [e]
      · exact (hwi l hin).1
      · exact (hwi l hin).2
    refine hno b hbx ⟨hbg, ?_⟩
    have := hmv _ hbg
    rw [hbf] at this
    simpa using this
  have hsame : ∀ b ∈ group, (y.1.body b).pos = (st.body b).pos ∧ (y.1.body b).vel = (st.body b).vel := by
      intro b hbg
      by_cases hm : b ∈ x.2.bodies
      · have hbf : interactsAsStructural N st0 b = true := by
          have h1 := hno b hm
          have h2 := hmv b hbg
          cases hmb : mv b with
          | true => exact absurd ⟨hbg, hmb⟩ h1
          | false => rw [hmb] at h2; exact h2
        obtain ⟨a1, a2⟩ := hstep.fixed b hbf
        obtain ⟨b1, b2⟩ := h.fixed b hbf
        exact ⟨a1.trans b1.symm, a2.trans b2.symm⟩
      · rw [q7 b hm]; exact ⟨rfl, rfl⟩
  refine ⟨⟨fun b hbg => ?_, fun b hbg hb' => ?_, fun b hbg hb' hb'' => ?_, fun l hl => ?_⟩, hno⟩
  · rw [(hsame b hbg).2]; exact k.vel b hbg
  · rw [(hsame b hbg).1]; exact k.waiting b hbg hb'
  · rw [(hsame b hbg).1]; exact k.moved b hbg hb' hb''
  · refine solveIsland_other (st' := y.1) (isl' := y.2) hN cfg hb (t := st'.s) ?_ ?_ hs
    · intro hm
      obtain ⟨-, b, hbx, hbf, hbl⟩ := (i2 l).1 hm
      exact hli b hbx hbf l hbl hl
    · refine init_other (good := fun s => known l s st'.s) hc.closed hrw h.idle hz hi ?_ (k.links l hl)
      intro b hbx hbf l' hl' s p q hg
      rw [h.structural] at hbf
      exact hN.isActive l' l s p q st'.s (by rintro rfl; exact hli b hbx hbf _ hl' hl) hg

/-- What happens in one iteration of the loop, with the body it starts from. -/
theorem solveLoop_last {N : Net P V S} {cfg : Settings} {fuel : Nat} {toProcess : List Nat} {st st' : St P V S} {isl : Isl P V} {done log : List Record}
    (he : solveLoop N cfg fuel toProcess st isl done = some (.ok (st', log))) :
    (toProcess = [] ∧ st' = st ∧ log = done) ∨
    ∃ n root x y, fuel = n + 1 ∧ toProcess.getLast? = some root ∧ init N (n + 1) st isl root = some (.ok x) ∧ solveIsland N cfg x.1 x.2 = .ok y ∧
      solveLoop N cfg n (toProcess.filter fun b => decide (b ∉ x.2.bodies)) y.1 y.2.clear (done ++ [⟨y.2.bodies, y.2.links, y.2.awake⟩]) = some (.ok (st', log)) := by
  cases fuel with
  | zero => simp [solveLoop] at he
  | succ n =>
    rw [solveLoop] at he
    cases hl : toProcess.getLast? with
    | none =>
      rw [hl] at he
      simp only [Option.some.injEq, Outcome.ok.injEq, Prod.mk.injEq] at he
      exact Or.inl ⟨List.getLast?_eq_none_iff.1 hl, he.1.symm, he.2.symm⟩
    | some root =>
      rw [hl] at he
      dsimp only at he
      cases hi : init N (n + 1) st isl root with
      | none => rw [hi] at he; simp at he
      | some o =>
        rw [hi] at he
        cases o with
        | throw => simp at he
        | ub => simp at he
        | ok x =>
          obtain ⟨st1, isl1⟩ := x
          dsimp only at he
          cases hs : solveIsland N cfg st1 isl1 with
          | throw => rw [hs] at he; simp at he
          | ub => rw [hs] at he; simp at he
          | ok y =>
            rw [hs] at he
            exact Or.inr ⟨n, root, (st1, isl1), y, rfl, rfl, hi, hs, he⟩

theorem getLast_filter {l : List Nat} {p : Nat → Bool} {r : Nat} (h : l.getLast? = some r) (hp : p r = true) : (l.filter p).getLast? = some r := by
  obtain ⟨ys, rfl⟩ := List.getLast?_eq_some_iff.1 h
  rw [List.filter_append]
  simp [hp]

theorem filter_skip {l bs : List Nat} {m : Nat → Bool} (h : ∀ b ∈ bs, ¬ m b = true) : (l.filter fun b => decide (b ∉ bs)).filter m = l.filter m := by
  rw [List.filter_filter]
  refine List.filter_congr fun b _ => ?_
  cases hm : m b with
  | false => simp
  | true =>
    have : b ∉ bs := fun hb => h b hb hm
    simp [this]

theorem Progress.next {world : List Nat} {st0 st st1 : St P V S} {toProcess : List Nat} {done log : List Record} (hL : Lawful N) (hc : Consistent N world)
    (h : Progress N A world st0 st toProcess done) {isl : Isl P V} (hz : isl.Empty) {root n : Nat} {cfg : Settings}
    (hroot : root ∈ toProcess) {x y : St P V S × Isl P V} (hi : init N (n + 1) st isl root = some (.ok x)) (hs : solveIsland N cfg x.1 x.2 = .ok y)
    (he : solveLoop N cfg n (toProcess.filter fun b => decide (b ∉ x.2.bodies)) y.1 y.2.clear (done ++ [⟨y.2.bodies, y.2.links, y.2.awake⟩]) = some (.ok (st1, log)))
    (hA : ∀ e ∈ st1.evals, e.2 = A e.1) : (∀ e ∈ y.1.evals, e.2 = A e.1) ∧
      Progress N A world st0 y.1 (toProcess.filter fun b => decide (b ∉ x.2.bodies)) (done ++ [⟨y.2.bodies, y.2.links, y.2.awake⟩]) := by
  have hb := (init_evals hc.closed ((h.remaining root).1 hroot).1 h.idle hz hi).1
  have q1 := (solveIsland_spec (st' := y.1) (isl' := y.2) hL cfg h.idle hb hs).1
  have hAy : ∀ e ∈ y.1.evals, e.2 = A e.1 := by
    obtain ⟨⟨ev, hev⟩, -⟩ := solveLoop_evals hL hc.closed n (fun b hb => ((h.remaining b).1 (List.mem_filter.1 hb).1).1) q1 (Isl.clear_empty _) he
    intro e hm
    exact hA e (by rw [hev]; exact List.mem_append_left _ hm)
  exact ⟨hAy, (h.step hL hc hz hroot hi cfg hs hAy).1⟩

/-- The group goes through the same states in both worlds. -/
theorem solveLoop_same {world world' : List Nat} {st0 : St P V S} {st0' : St P V S'} (hP : Pair N N' F known asked inner group A A' mv p)
    (hS : Side N A inner group mv world st0) (hS' : Side N' A' inner group mv world' st0') (cfg : Settings) (m : Nat) :
    ∀ {fuel fuel' : Nat} {toProcess toProcess' : List Nat} {st st1 : St P V S} {st' st1' : St P V S'} {isl isl' : Isl P V} {done log done' log' : List Record}, fuel + fuel' ≤ m →
    Progress N A world st0 st toProcess done → Progress N' A' world' st0' st' toProcess' done' →
    Same F known inner group mv toProcess st st' → isl.Empty → isl'.Empty →
    toProcess.filter (fun b => decide (b ∈ group) && mv b) = toProcess'.filter (fun b => decide (b ∈ group) && mv b) →
    solveLoop N cfg fuel toProcess st isl done = some (.ok (st1, log)) → solveLoop N' cfg fuel' toProcess' st' isl' done' = some (.ok (st1', log')) →
    (∀ e ∈ st1.evals, e.2 = A e.1) → (∀ e ∈ st1'.evals, e.2 = A' e.1) → Same F known inner group mv [] st1 st1' := by
  induction m with
  | zero =>
    intro fuel fuel' _ _ _ _ _ _ _ _ _ _ _ _ hm _ _ _ _ _ _ he
    obtain rfl : fuel = 0 := by omega
    simp [solveLoop] at he
  | succ m ih =>
    intro fuel fuel' toProcess toProcess' st st1 st' st1' isl isl' done log done' log' hm h h' k hz hz' hf he he' hA hA'
    have skipL : ∀ n root x y, fuel = n + 1 → toProcess.getLast? = some root → init N (n + 1) st isl root = some (.ok x) → solveIsland N cfg x.1 x.2 = .ok y →
        solveLoop N cfg n (toProcess.filter fun b => decide (b ∉ x.2.bodies)) y.1 y.2.clear (done ++ [⟨y.2.bodies, y.2.links, y.2.awake⟩]) = some (.ok (st1, log)) →
        ¬ (root ∈ group ∧ mv root = true) → Same F known inner group mv [] st1 st1' := by
      intro n root x y hn hl hi hs hr hnot
      have hroot := List.mem_of_getLast? hl
      obtain ⟨hAy, hpr⟩ := h.next hS.lawful hS.consistent hz hroot hi hs hr hA
      obtain ⟨k1, k2⟩ := k.skip hS hP.left h hz hroot hnot hi cfg hs hAy
      refine ih (by omega) hpr h' (k1.congr fun b hb hm => ⟨fun hi => List.mem_filter.2 ⟨hi, by simpa using fun hx => k2 b hx ⟨hb, hm⟩⟩, fun hi => (List.mem_filter.1 hi).1⟩) (Isl.clear_empty _) hz' ?_ hr he' hA hA'
      rw [filter_skip fun b hb hm => k2 b hb (by simpa using hm)]; exact hf
    have skipR : ∀ n root x y, fuel' = n + 1 → toProcess'.getLast? = some root → init N' (n + 1) st' isl' root = some (.ok x) → solveIsland N' cfg x.1 x.2 = .ok y →
        solveLoop N' cfg n (toProcess'.filter fun b => decide (b ∉ x.2.bodies)) y.1 y.2.clear (done' ++ [⟨y.2.bodies, y.2.links, y.2.awake⟩]) = some (.ok (st1', log')) →
        ¬ (root ∈ group ∧ mv root = true) → Same F known inner group mv [] st1 st1' := by
      intro n root x y hn hl hi hs hr hnot
      have hroot := List.mem_of_getLast? hl
      obtain ⟨hAy, hpr⟩ := h'.next hS'.lawful hS'.consistent hz' hroot hi hs hr hA'
      obtain ⟨k1, k2⟩ := Same.skip (known := fun l s t => known l t s) (st' := st) hS' hP.right h' k.flip hz' hroot hnot hi cfg hs hAy
      refine ih (by omega) h hpr k1.flip hz (Isl.clear_empty _) ?_ he hr hA hA'
      rw [filter_skip fun b hb hm => k2 b hb (by simpa using hm)]; exact hf
    rcases solveLoop_last he with ⟨e1, e2, -⟩ | ⟨n, root, x, y, hn, hl, hi, hs, hr⟩ <;>
      rcases solveLoop_last he' with ⟨e1', e2', -⟩ | ⟨n', root', x', y', hn', hl', hi', hs', hr'⟩
    · rw [e2, e2', ← e1]; exact k
    · refine skipR n' root' x' y' hn' hl' hi' hs' hr' ?_
      rintro ⟨a, b⟩
      have : root' ∈ toProcess'.filter (fun b => decide (b ∈ group) && mv b) := List.mem_filter.2 ⟨List.mem_of_getLast? hl', by simp [a, b]⟩
      rw [← hf, e1] at this
      simp at this
    · refine skipL n root x y hn hl hi hs hr ?_
      rintro ⟨a, b⟩
      have : root ∈ toProcess.filter (fun b => decide (b ∈ group) && mv b) := List.mem_filter.2 ⟨List.mem_of_getLast? hl, by simp [a, b]⟩
      rw [hf, e1'] at this
      simp at this
    · by_cases h1 : root ∈ group ∧ mv root = true
      swap
      · exact skipL n root x y hn hl hi hs hr h1
      by_cases h2 : root' ∈ group ∧ mv root' = true
      swap
      · exact skipR n' root' x' y' hn' hl' hi' hs' hr' h2
      have hrr : root = root' := by
        have g1 := getLast_filter (p := fun b => decide (b ∈ group) && mv b) hl (by simp [h1])
        have g2 := getLast_filter (p := fun b => decide (b ∈ group) && mv b) hl' (by simp [h2])
        rw [hf, g2] at g1
        exact (Option.some.inj g1).symm
      subst hrr
      have hroot := List.mem_of_getLast? hl
      have hroot' := List.mem_of_getLast? hl'
      obtain ⟨hAy, hpr⟩ := h.next hS.lawful hS.consistent hz hroot hi hs hr hA
      obtain ⟨hAy', hpr'⟩ := h'.next hS'.lawful hS'.consistent hz' hroot' hi' hs' hr' hA'
      have hrw := ((h.remaining root).1 hroot).1
      have hrw' := ((h'.remaining root).1 hroot').1
      have hbx := (init_evals hS.consistent.closed hrw h.idle hz hi).1
      have hbx' := (init_evals hS'.consistent.closed hrw' h'.idle hz' hi').1
      have qx := solveIsland_spec (st' := y.1) (isl' := y.2) hS.lawful cfg h.idle hbx hs
      have qx' := solveIsland_spec (st' := y'.1) (isl' := y'.2) hS'.lawful cfg h'.idle hbx' hs'
      have hAx : ∀ e ∈ x.1.evals, e.2 = A e.1 := by rw [← qx.2.2.2.2.1]; exact hAy
      obtain ⟨i1, -⟩ := init_spec (A := A) hS.consistent.closed hrw h.idle hz hi hAx
      rw [touches_congr h.structural] at i1
      have hxw : ∀ b ∈ x.2.bodies, b ∈ world := (init_evals hS.consistent.closed hrw h.idle hz hi).2.2.2.1
      have hfree : ∀ b ∈ group, mv b = true → interactsAsStructural N st0 b = false := fun b hb hm => by rw [hS.moves b hb, hm]; rfl
      have htodo : ∀ b ∈ x.2.bodies, b ∈ group → mv b = true → b ∈ toProcess := by
        intro b hb hbg hm
        refine (h.remaining b).2 ⟨hxw b hb, fun D hD hbD => ?_⟩
        have := (List.pairwise_append.1 hpr.disjoint).2.2 D hD ⟨y.2.bodies, y.2.links, y.2.awake⟩ (by simp) b hbD (by show b ∈ y.2.bodies; rw [qx.2.1]; exact hb)
        rw [hfree b hbg hm] at this
        cases this
      have hbefore : ∀ b ∈ x.2.bodies, b ∈ group → F.before (st.body b).pos (st'.body b).pos := fun b hb hbg => k.waiting b hbg (htodo b hb hbg)
      have hends : ∀ b ∈ x.2.bodies, b ∈ group → mv b = true → ∀ l ∈ linksOf N b, inner l →
          F.before (st.body (N.ends l).1).pos (st'.body (N.ends l).1).pos ∧ F.before (st.body (N.ends l).2).pos (st'.body (N.ends l).2).pos := by
        intro b hb hbg hm l hl hin
        obtain ⟨g1, g2⟩ := hS.within l hin
        rcases hP.displaced with hd | ⟨-, hd⟩
        · have : ∀ c ∈ group, F.before (st.body c).pos (st'.body c).pos := fun c hc => by
            by_cases hct : mv c = true ∧ c ∉ toProcess
            · rw [hd]; exact k.moved c hc hct.1 hct.2
            · push Not at hct; exact k.waiting c hc hct
          exact ⟨this _ g1, this _ g2⟩
        · exact ⟨hbefore _ ((i1 _).2 (.tail ((i1 b).1 hb) ⟨hfree b hbg hm, l, hl, hd l hin, Or.inl rfl⟩)) g1,
            hbefore _ ((i1 _).2 (.tail ((i1 b).1 hb) ⟨hfree b hbg hm, l, hl, hd l hin, Or.inr rfl⟩)) g2⟩
      have ht : Twin N N' known asked inner group st st' x x' := by
        obtain ⟨a1, a2, a3, -⟩ := addBody_building (N := N) h.idle hz root
        obtain ⟨b1, b2, b3, -⟩ := addBody_building (N := N') h'.idle hz' root
        obtain ⟨c1, c2, c3, c4⟩ := addBody_start h.idle hz root
        obtain ⟨d1, d2, d3, d4⟩ := addBody_start h'.idle hz' root
        unfold init at hi hi'
        dsimp only at hi hi'
        refine Twin.loop (x := ((addBody st isl root).1, (addBody st isl root).2.1)) (x' := ((addBody st' isl' root).1, (addBody st' isl' root).2.1)) hP
          (fun b hb => by rw [h.structural]; exact hS.moves b hb) (fun b hb => by rw [h'.structural]; exact hS'.moves b hb)
          hS.consistent.closed hS'.consistent.closed _ _ 0 ⟨a1, b1, c1, d1, a2.trans b2.symm, c3.trans d3.symm, c4.trans d4.symm, ?_, ?_, ?_, ?_⟩ ?_ ?_ hi hi' hends
          (by rw [← qx.2.2.2.2.1]; exact hAy) (by rw [← qx'.2.2.2.2.1]; exact hAy')
        · intro l hl
          rw [show ((addBody st isl root).1, (addBody st isl root).2.1).2.links = [] from a3] at hl
          simp at hl
        · intro b hb
          rw [show ((addBody st isl root).1, (addBody st isl root).2.1).2.bodies = [root] from a2] at hb
          rw [List.mem_singleton.1 hb]; exact h1.1
        · intro l hl
          show known l (addBody st isl root).1.s (addBody st' isl' root).1.s
          rw [c2, d2]; exact k.links l hl
        · intro l hl
          rw [show ((addBody st isl root).1, (addBody st isl root).2.1).2.links = [] from a3] at hl
          simp at hl
        · intro b hb
          rw [show ((addBody st isl root).1, (addBody st isl root).2.1).2.bodies = [root] from a2] at hb
          rw [List.mem_singleton.1 hb]; exact hrw
        · intro b hb
          rw [show ((addBody st isl root).1, (addBody st isl root).2.1).2.bodies = [root] from a2] at hb
          rw [List.mem_singleton.1 hb]; exact hrw'
      obtain ⟨r1, r2⟩ := ht.solve hP hS.lawful hS'.lawful cfg (fun b hb => ⟨hbefore b hb (ht.inside b hb), k.vel b (ht.inside b hb)⟩) hs hs'
      have hout : ∀ b ∉ x.2.bodies, y.1.body b = st.body b ∧ y'.1.body b = st'.body b := fun b hm =>
        ⟨qx.2.2.2.2.2.2.1 b hm, qx'.2.2.2.2.2.2.1 b (by rw [← ht.bodies]; exact hm)⟩
      have r3 : ∀ l, inner l → known l y.1.s y'.1.s := by
        intro l hl
        by_cases hm : l ∈ x.2.links
        · exact r2 l hm
        · have hm' : l ∉ x'.2.links := by unfold Isl.links at hm ⊢; rw [← ht.joints, ← ht.contacts]; exact hm
          exact solveIsland_other (st' := y.1) (isl' := y.2) hP.left cfg hbx hm
            (solveIsland_other (agree := fun l s t => known l t s) (st' := y'.1) (isl' := y'.2) hP.right cfg hbx' hm' (ht.known l hl) hs') hs
      refine ih (by omega) hpr hpr' ⟨fun b hb => ?_, fun b hb hw => ?_, fun b hb hm hw => ?_, r3⟩ (Isl.clear_empty _) (Isl.clear_empty _) ?_ hr hr' hA hA'
      · by_cases hm : b ∈ x.2.bodies
        · exact (r1 b hm).2
        · rw [(hout b hm).1, (hout b hm).2]; exact k.vel b hb
      · by_cases hm : b ∈ x.2.bodies
        · have hmb : mv b = false := by
            cases hmb : mv b with
            | false => rfl
            | true => exact absurd hm (by simpa using (List.mem_filter.1 (hw hmb)).2)
          rcases hP.displaced with hd | ⟨hd, -⟩
          · rw [hd]; exact (r1 b hm).1
          · rw [hd b hb] at hmb; cases hmb
        · rw [(hout b hm).1, (hout b hm).2]; exact k.waiting b hb fun hmb => (List.mem_filter.1 (hw hmb)).1
      · by_cases hx : b ∈ x.2.bodies
        · exact (r1 b hx).1
        · rw [(hout b hx).1, (hout b hx).2]; exact k.moved b hb hm fun hi => hw (List.mem_filter.2 ⟨hi, by simpa using hx⟩)
      · rw [← ht.bodies, List.filter_filter, List.filter_filter]
        have e1 : ∀ l : List Nat, l.filter (fun b => (decide (b ∈ group) && mv b) && decide (b ∉ x.2.bodies)) = (l.filter fun b => decide (b ∈ group) && mv b).filter fun b => decide (b ∉ x.2.bodies) := by
          intro l
          rw [List.filter_filter]
          exact List.filter_congr fun b _ => Bool.and_comm _ _
        rw [e1, e1, hf]

end

end Simu.Island
