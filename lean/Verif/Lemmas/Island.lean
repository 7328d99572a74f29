import Verif.Model.Island
import Mathlib.Data.List.Nodup
import Mathlib.Data.List.Basic
import Mathlib.Data.List.Perm.Subperm
import Mathlib.Logic.Relation
import Mathlib.Tactic.ByContra
import Mathlib.Tactic.Push
/-
Lemmas on the construction and the solution of islands.
-/
namespace Simu.Island
variable {P V S : Type*}

theorem bind_ok_iff {α β : Type*} {x : Outcome α} {f : α → Outcome β} {y : β} : x.bind f = .ok y ↔ ∃ a, x = .ok a ∧ f a = .ok y := by
  cases x <;> simp [Outcome.bind]

@[simp] theorem setBody_same (st : St P V S) (b : Nat) (x : BodyState P V) : (st.setBody b x).body b = x := by simp [St.setBody]

theorem setBody_ne (st : St P V S) {b c : Nat} (x : BodyState P V) (h : c ≠ b) : (st.setBody b x).body c = st.body c := by
  simp [St.setBody, h]

@[simp] theorem setBody_proxies (st : St P V S) (b : Nat) (x : BodyState P V) : (st.setBody b x).proxies = st.proxies := rfl
@[simp] theorem setBody_evals (st : St P V S) (b : Nat) (x : BodyState P V) : (st.setBody b x).evals = st.evals := rfl
@[simp] theorem setBody_moved (st : St P V S) (b : Nat) (x : BodyState P V) : (st.setBody b x).moved = st.moved := rfl

/-- The part of the state that building an island keeps coherent. -/
structure Indexed (st0 st : St P V S) (bodies : List Nat) : Prop where
  nodup : bodies.Nodup
  index : ∀ b i, (st.body b).index = some i ↔ bodies[i]? = some b
  frame : ∀ b, (st.body b).pos = (st0.body b).pos ∧ (st.body b).vel = (st0.body b).vel ∧ (st.body b).asleep = (st0.body b).asleep

theorem Indexed.none_iff {st0 st : St P V S} {bs : List Nat} (h : Indexed st0 st bs) (b : Nat) : (st.body b).index = none ↔ b ∉ bs := by
  constructor
  · intro hn hb
    obtain ⟨i, hi, he⟩ := List.mem_iff_getElem.1 hb
    have := (h.index b i).2 (by rw [List.getElem?_eq_getElem hi, he])
    rw [hn] at this
    exact absurd this (by simp)
  · intro hb
    rcases Option.eq_none_or_eq_some (st.body b).index with hn | ⟨i, hi⟩
    · exact hn
    · exact absurd (List.mem_of_getElem? ((h.index b i).1 hi)) hb

/-- `addBody` keeps the indices coherent. -/
theorem addBody_indexed {st0 st st' : St P V S} {isl isl' : Isl P V} {b : Nat} {r : Bool} (h : Indexed st0 st isl.bodies)
    (he : addBody st isl b = (st', isl', r)) :
    Indexed st0 st' isl'.bodies ∧ isl'.bodies = (if b ∈ isl.bodies then isl.bodies else isl.bodies ++ [b]) ∧ r = decide (b ∉ isl.bodies) ∧
      st'.proxies = st.proxies ∧ st'.evals = st.evals ∧ st'.moved = st.moved ∧ st'.s = st.s ∧
      isl'.joints = isl.joints ∧ isl'.contacts = isl.contacts ∧
      isl'.awake = (isl.awake || (decide (b ∉ isl.bodies) && !(st0.body b).asleep)) := by
  unfold addBody at he
  by_cases hn : (st.body b).index = none
  · rw [if_pos hn] at he
    have hb := (h.none_iff b).1 hn
    simp only [Prod.mk.injEq] at he
    obtain ⟨rfl, rfl, rfl⟩ := he
    refine ⟨⟨?_, ?_, ?_⟩, by simp [hb], by simp [hb], rfl, rfl, rfl, rfl, rfl, rfl, by simp [hb, (h.frame b).2.2]⟩
    · exact List.nodup_append.2 ⟨h.nodup, by simp, by intro x hx y hy; simp at hy; subst hy; rintro rfl; exact hb hx⟩
    · intro c i
      by_cases hc : c = b
      · subst hc
        simp only [setBody_same, Option.some.injEq]
        constructor
        · rintro rfl; simp
        · intro hi
          rw [List.getElem?_append] at hi
          split at hi
          · exact absurd (List.mem_of_getElem? hi) hb
          · rename_i h1
            by_contra h2
            have : i - isl.bodies.length ≠ 0 := by omega
            obtain ⟨k, hk⟩ := Nat.exists_eq_succ_of_ne_zero this
            rw [hk] at hi
            simp at hi
      · rw [setBody_ne _ _ hc, h.index c i, List.getElem?_append]
        split
        · rfl
        · rename_i h1
          rw [List.getElem?_eq_none (by omega)]
          rcases Nat.eq_zero_or_pos (i - isl.bodies.length) with h0 | h0
          · rw [h0]; simp [Ne.symm hc]
          · obtain ⟨k, hk⟩ := Nat.exists_eq_succ_of_ne_zero (Nat.pos_iff_ne_zero.1 h0)
            rw [hk]; simp
    · intro c
      by_cases hc : c = b
      · subst hc; simpa using h.frame c
      · rw [setBody_ne _ _ hc]; exact h.frame c
  · rw [if_neg hn] at he
    have hb : b ∈ isl.bodies := by
      by_contra hb
      exact hn ((h.none_iff b).2 hb)
    simp only [Prod.mk.injEq] at he
    obtain ⟨rfl, rfl, rfl⟩ := he
    exact ⟨h, by simp [hb], by simp [hb], rfl, rfl, rfl, rfl, rfl, rfl, by simp [hb]⟩

/-- `dropBody` undoes `addBody`. -/
theorem dropBody_indexed {st0 st : St P V S} {isl : Isl P V} {bs : List Nat} {b : Nat} (h : Indexed st0 st (bs ++ [b])) (hi : isl.bodies = bs ++ [b]) :
    Indexed st0 (dropBody st isl b none).1 (dropBody st isl b none).2.bodies ∧ (dropBody st isl b none).2.bodies = bs := by
  have hb : b ∉ bs := by
    intro hb
    have := (List.nodup_append.1 h.nodup).2.2 b hb b (by simp)
    exact this rfl
  have hd : (dropBody st isl b none).2.bodies = bs := by simp [dropBody, hi]
  refine ⟨?_, hd⟩
  rw [hd]
  refine ⟨(List.nodup_append.1 h.nodup).1, ?_, ?_⟩
  · intro c i
    by_cases hc : c = b
    · subst hc
      simp only [dropBody, setBody_same]
      constructor
      · intro h0; simp at h0
      · intro h0; exact absurd (List.mem_of_getElem? h0) hb
    · simp only [dropBody]
      rw [setBody_ne _ _ hc, h.index c i, List.getElem?_append]
      split
      · rfl
      · rename_i h1
        rw [List.getElem?_eq_none (by omega : bs.length ≤ i)]
        rcases Nat.eq_zero_or_pos (i - bs.length) with h0 | h0
        · rw [h0]; simp [Ne.symm hc]
        · obtain ⟨k, hk⟩ := Nat.exists_eq_succ_of_ne_zero (Nat.pos_iff_ne_zero.1 h0)
          rw [hk]; simp
  · intro c
    by_cases hc : c = b
    · subst hc; simpa [dropBody] using h.frame c
    · simp only [dropBody]; rw [setBody_ne _ _ hc]; exact h.frame c

theorem mem_links_push (isl : Isl P V) (l l' : Link) : l' ∈ (isl.push l).links ↔ l' ∈ isl.links ∨ l' = l := by
  cases l <;> simp [Isl.push, Isl.links] <;> grind

theorem links_push_nodup (isl : Isl P V) (l : Link) (h : isl.links.Nodup) (hl : l ∉ isl.links) : (isl.push l).links.Nodup := by
  cases l with
  | joint n =>
    simp only [Isl.push, Isl.links, List.map_append, List.map_cons, List.map_nil] at *
    simp only [List.nodup_append, List.mem_append, List.mem_map, List.mem_singleton, List.nodup_cons, List.not_mem_nil, not_false_eq_true,
      List.nodup_nil, and_self, true_and] at *
    refine ⟨⟨h.1, ?_⟩, h.2.1, ?_⟩
    · rintro a ⟨x, hx, rfl⟩ _ rfl heq
      exact hl (Or.inl ⟨x, hx, heq⟩)
    · rintro a (⟨x, hx, rfl⟩ | rfl) c ⟨y, hy, rfl⟩ <;> simp
  | contact n =>
    simp only [Isl.push, Isl.links, List.map_append, List.map_cons, List.map_nil] at *
    simp only [List.nodup_append, List.mem_append, List.mem_map, List.mem_singleton, List.nodup_cons, List.not_mem_nil, not_false_eq_true,
      List.nodup_nil, and_self, true_and] at *
    refine ⟨h.1, ⟨h.2.1, ?_⟩, ?_⟩
    · rintro a ⟨x, hx, rfl⟩ _ rfl heq
      exact hl (Or.inr ⟨x, hx, heq⟩)
    · rintro a ⟨x, hx, rfl⟩ c (⟨y, hy, rfl⟩ | rfl) <;> simp

/-- The invariant of the construction of an island. -/
structure Building (N : Net P V S) (st0 st : St P V S) (isl : Isl P V) : Prop where
  indexed : Indexed st0 st isl.bodies
  proxy : ∀ l, (st.proxies l).isSome = true ↔ l ∈ isl.links
  moved : st.moved = st0.moved
  nodup : isl.links.Nodup
  ends : ∀ l ∈ isl.links, (N.ends l).1 ∈ isl.bodies ∧ (N.ends l).2 ∈ isl.bodies
  awake : ∀ b ∈ isl.bodies, (st0.body b).asleep = false → isl.awake = true

theorem addBody_evals (st : St P V S) (isl : Isl P V) (b : Nat) : (addBody st isl b).1.evals = st.evals := by
  unfold addBody; split <;> rfl

/-- `addConstraint` only adds to the recorded answers. -/
theorem addConstraint_evals {N : Net P V S} {st : St P V S} {isl : Isl P V} {l : Link} {y : St P V S × Isl P V}
    (he : addConstraint N st isl l = .ok y) : ∃ ev, y.1.evals = st.evals ++ ev := by
  unfold addConstraint at he
  by_cases hp : (st.proxies l).isSome = true
  · rw [if_pos hp] at he
    cases Outcome.ok.inj he
    exact ⟨[], by simp⟩
  rw [if_neg hp] at he
  dsimp only at he
  have q1 := addBody_evals st (isl.push l) (N.ends l).1
  cases h1 : addBody st (isl.push l) (N.ends l).1 with
  | mk st1 r1 =>
  obtain ⟨isl1, added1⟩ := r1
  rw [h1] at he q1
  dsimp only at he q1
  have q2 := addBody_evals st1 isl1 (N.ends l).2
  cases h2 : addBody st1 isl1 (N.ends l).2 with
  | mk st2 r2 =>
  obtain ⟨isl2, added2⟩ := r2
  rw [h2] at he q2
  dsimp only at he q2
  rw [bind_ok_iff] at he
  obtain ⟨st3, h3, he⟩ := he
  have q3 : st3.evals = st2.evals := by
    unfold startSolve at h3
    split at h3
    · cases Outcome.ok.inj h3; rfl
    · simp at h3
  cases hpr : st3.proxies l with
  | none => rw [hpr] at he; simp at he
  | some ij =>
    obtain ⟨i0, i1⟩ := ij
    rw [hpr] at he
    dsimp only at he
    split at he
    · cases Outcome.ok.inj he
      exact ⟨[(l, (N.isActive l st3.s (isl2.ps i0) (isl2.ps i1)).2)], by simp only; rw [q3, q2, q1]⟩
    · cases Outcome.ok.inj he
      refine ⟨[(l, (N.isActive l st3.s (isl2.ps i0) (isl2.ps i1)).2)], ?_⟩
      have hd : ∀ (b : Bool) (x : St P V S × Isl P V) (c : Nat) (o : Option Nat),
          (if b = true then dropBody x.1 x.2 c o else x).1.evals = x.1.evals := by
        intro b x c o; cases b <;> rfl
      cases added1 <;> cases added2 <;> simp [dropBody, q3, q2, q1]

theorem addConstraints_evals {N : Net P V S} (ls : List Link) {x y : St P V S × Isl P V} (he : addConstraints N ls x = .ok y) :
    ∃ ev, y.1.evals = x.1.evals ++ ev := by
  induction ls generalizing x with
  | nil => cases Outcome.ok.inj he; exact ⟨[], by simp⟩
  | cons l ls ih =>
    unfold addConstraints at he
    rw [bind_ok_iff] at he
    obtain ⟨z, hz, he⟩ := he
    obtain ⟨e1, h1⟩ := addConstraint_evals hz
    obtain ⟨e2, h2⟩ := ih he
    exact ⟨e1 ++ e2, by rw [h2, h1, List.append_assoc]⟩

/-- What `addConstraint` does. -/
theorem addConstraint_spec {N : Net P V S} {st0 st st' : St P V S} {isl isl' : Isl P V} {l : Link} (h : Building N st0 st isl)
    (he : addConstraint N st isl l = .ok (st', isl')) :
    Building N st0 st' isl' ∧
      (isl'.awake = true → isl.awake = true ∨ (st0.body (N.ends l).1).asleep = false ∨ (st0.body (N.ends l).2).asleep = false) ∧
      (l ∈ isl.links ∧ st' = st ∧ isl' = isl ∨
       st'.evals = st.evals ++ [(l, true)] ∧ (∀ l', l' ∈ isl'.links ↔ l' ∈ isl.links ∨ l' = l) ∧
         (∃ new, isl'.bodies = isl.bodies ++ new ∧ ∀ b ∈ new, b = (N.ends l).1 ∨ b = (N.ends l).2) ∨
       st'.evals = st.evals ++ [(l, false)] ∧ l ∉ isl.links ∧ isl'.links = isl.links ∧ isl'.bodies = isl.bodies) := by
  unfold addConstraint at he
  by_cases hp : (st.proxies l).isSome = true
  · rw [if_pos hp] at he
    cases Outcome.ok.inj he
    exact ⟨h, Or.inl, Or.inl ⟨(h.proxy _).1 hp, rfl, rfl⟩⟩
  rw [if_neg hp] at he
  have hl : l ∉ isl.links := fun hl => hp ((h.proxy l).2 hl)
  dsimp only at he
  cases h1 : addBody st (isl.push l) (N.ends l).1 with
  | mk st1 r1 =>
  obtain ⟨isl1, added1⟩ := r1
  rw [h1] at he
  dsimp only at he
  cases h2 : addBody st1 isl1 (N.ends l).2 with
  | mk st2 r2 =>
  obtain ⟨isl2, added2⟩ := r2
  rw [h2] at he
  dsimp only at he
  have hpb : (isl.push l).bodies = isl.bodies := by cases l <;> rfl
  have hix : Indexed st0 st (isl.push l).bodies := by rw [hpb]; exact h.indexed
  obtain ⟨i1, b1, a1, p1, e1, m1, s1, j1, c1, w1⟩ := addBody_indexed hix h1
  obtain ⟨i2, b2, a2, p2, e2, m2, s2, j2, c2, w2⟩ := addBody_indexed i1 h2
  rw [hpb] at b1 a1 w1
  have hpw : (isl.push l).awake = isl.awake := by cases l <;> rfl
  rw [hpw] at w1
  have haw : isl2.awake = true → isl.awake = true ∨ (st0.body (N.ends l).1).asleep = false ∨ (st0.body (N.ends l).2).asleep = false := by
    rw [w2, w1]; simp only [Bool.or_eq_true, Bool.and_eq_true, decide_eq_true_eq, Bool.not_eq_true']
    rintro ((h | h) | h)
    · exact Or.inl h
    · exact Or.inr (Or.inl h.2)
    · exact Or.inr (Or.inr h.2)
  have hmono : isl.awake = true → isl2.awake = true := by intro h; rw [w2, w1, h]; simp
  rw [bind_ok_iff] at he
  obtain ⟨st3, h3, he⟩ := he
  unfold startSolve at h3
  cases hx0 : (st2.body (N.ends l).1).index with
  | none => rw [hx0] at h3; simp at h3
  | some i0 =>
  cases hx1 : (st2.body (N.ends l).2).index with
  | none => rw [hx0, hx1] at h3; simp at h3
  | some i1' =>
  rw [hx0, hx1] at h3
  dsimp only at h3
  have h3 := (Outcome.ok.inj h3).symm
  subst h3
  simp only [Function.update_self] at he
  set answer := N.isActive l st2.s (isl2.ps i0) (isl2.ps i1') with hanswer
  obtain ⟨s', active⟩ := answer
  dsimp only at he
  have hm0 : (N.ends l).1 ∈ isl2.bodies := List.mem_of_getElem? ((i2.index _ _).1 hx0)
  have hm1 : (N.ends l).2 ∈ isl2.bodies := List.mem_of_getElem? ((i2.index _ _).1 hx1)
  have hlinks2 : isl2.links = (isl.push l).links := by unfold Isl.links; rw [j2, j1, c2, c1]
  have hsub1 : ∃ new, isl1.bodies = isl.bodies ++ new ∧ ∀ b ∈ new, b = (N.ends l).1 ∨ b = (N.ends l).2 := by
    rw [b1]; split
    · exact ⟨[], by simp, by simp⟩
    · exact ⟨[_], rfl, by simp⟩
  have hsub : ∃ new, isl2.bodies = isl.bodies ++ new ∧ ∀ b ∈ new, b = (N.ends l).1 ∨ b = (N.ends l).2 := by
    obtain ⟨n1, hn1, hn1'⟩ := hsub1
    rw [b2]; split
    · exact ⟨n1, hn1, hn1'⟩
    · refine ⟨n1 ++ [(N.ends l).2], by rw [hn1, List.append_assoc], ?_⟩
      intro b hb
      rcases List.mem_append.1 hb with hb | hb
      · exact hn1' b hb
      · simp at hb; exact Or.inr hb
  by_cases hac : active = true
  · rw [if_pos hac] at he
    cases Outcome.ok.inj he
    refine ⟨⟨⟨i2.nodup, i2.index, i2.frame⟩, ?_, ?_, ?_, ?_, ?_⟩, haw, Or.inr (Or.inl ⟨by simp [e2, e1, hac], ?_, hsub⟩)⟩
    · intro l'
      rw [hlinks2, mem_links_push]
      by_cases hll : l' = l
      · subst hll; simp
      · simp only [Function.update_of_ne hll, hll, or_false]
        rw [p2, p1]; exact h.proxy l'
    · show st2.moved = _
      rw [m2, m1, h.moved]
    · rw [hlinks2]; exact links_push_nodup _ _ h.nodup hl
    · intro l' hl'
      rw [hlinks2, mem_links_push] at hl'
      rcases hl' with hl' | rfl
      · obtain ⟨hb0, hb1⟩ := h.ends l' hl'
        obtain ⟨nw, hnw, _⟩ := hsub
        rw [hnw]
        exact ⟨List.mem_append_left _ hb0, List.mem_append_left _ hb1⟩
      · exact ⟨hm0, hm1⟩
    · intro b hb hs
      by_cases hbi : b ∈ isl.bodies
      · exact hmono (h.awake b hbi hs)
      · rw [w2, w1]
        by_cases hb1 : b ∈ isl1.bodies
        · have : b = (N.ends l).1 := by
            rw [b1] at hb1
            split at hb1
            · exact absurd hb1 hbi
            · rcases List.mem_append.1 hb1 with h' | h'
              · exact absurd h' hbi
              · simpa using h'
          subst this
          simp [hbi, hs]
        · have : b = (N.ends l).2 := by
            rw [b2] at hb
            split at hb
            · exact absurd hb hb1
            · rcases List.mem_append.1 hb with h' | h'
              · exact absurd h' hb1
              · simpa using h'
          subst this
          simp [hb1, hs]
    · intro l'
      rw [hlinks2, mem_links_push]
  · rw [if_neg hac] at he
    have hac : active = false := by simpa using hac
    subst hac
    -- taking back the second body
    set stA : St P V S := { st2 with proxies := Function.update st2.proxies l (some (i0, i1')), s := s', evals := st2.evals ++ [(l, false)] } with hstA
    have iA : Indexed st0 stA isl2.bodies := ⟨i2.nodup, i2.index, i2.frame⟩
    have hidx2 : (N.ends l).2 ∉ isl1.bodies → (st.body (N.ends l).2).index = none := by
      intro hnm
      refine (h.indexed.none_iff _).2 fun hm => hnm ?_
      obtain ⟨n1, hn1, _⟩ := hsub1
      rw [hn1]; exact List.mem_append_left _ hm
    have hidx1 : (N.ends l).1 ∉ isl.bodies → (st.body (N.ends l).1).index = none := (h.indexed.none_iff _).2
    have hstep2 : ∃ stB islB, (if added2 = true then dropBody stA isl2 (N.ends l).2 (st.body (N.ends l).2).index else (stA, isl2)) = (stB, islB) ∧
        Indexed st0 stB islB.bodies ∧ islB.bodies = isl1.bodies ∧ stB.proxies = stA.proxies ∧ stB.evals = stA.evals ∧ stB.moved = stA.moved ∧
        islB.joints = isl2.joints ∧ islB.contacts = isl2.contacts ∧ islB.awake = isl2.awake := by
      by_cases hnm : (N.ends l).2 ∈ isl1.bodies
      · have : added2 = false := by rw [a2]; simp [hnm]
        rw [this]
        refine ⟨stA, isl2, rfl, iA, by rw [b2]; simp [hnm], rfl, rfl, rfl, rfl, rfl, rfl⟩
      · have : added2 = true := by rw [a2]; simp [hnm]
        rw [this, hidx2 hnm]
        have hb : isl2.bodies = isl1.bodies ++ [(N.ends l).2] := by rw [b2]; simp [hnm]
        obtain ⟨x1, x2⟩ := dropBody_indexed (isl := isl2) (hb ▸ iA) hb
        exact ⟨_, _, rfl, x1, x2, rfl, rfl, rfl, rfl, rfl, rfl⟩
    obtain ⟨stB, islB, hB, iB, bB, pB, eB, mB, jB, cB, wB⟩ := hstep2
    have hstep1 : ∃ stC islC, (if added1 = true then dropBody stB islB (N.ends l).1 (st.body (N.ends l).1).index else (stB, islB)) = (stC, islC) ∧
        Indexed st0 stC islC.bodies ∧ islC.bodies = isl.bodies ∧ stC.proxies = stB.proxies ∧ stC.evals = stB.evals ∧ stC.moved = stB.moved ∧
        islC.joints = islB.joints ∧ islC.contacts = islB.contacts ∧ islC.awake = islB.awake := by
      by_cases hnm : (N.ends l).1 ∈ isl.bodies
      · have : added1 = false := by rw [a1]; simp [hnm]
        rw [this]
        exact ⟨stB, islB, rfl, iB, by rw [bB, b1]; simp [hnm], rfl, rfl, rfl, rfl, rfl, rfl⟩
      · have : added1 = true := by rw [a1]; simp [hnm]
        rw [this, hidx1 hnm]
        have hb : islB.bodies = isl.bodies ++ [(N.ends l).1] := by rw [bB, b1]; simp [hnm]
        obtain ⟨x1, x2⟩ := dropBody_indexed (isl := islB) (hb ▸ iB) hb
        exact ⟨_, _, rfl, x1, x2, rfl, rfl, rfl, rfl, rfl, rfl⟩
    obtain ⟨stC, islC, hC, iC, bC, pC, eC, mC, jC, cC, wC⟩ := hstep1
    rw [hB] at he
    dsimp only at he
    rw [hC] at he
    cases Outcome.ok.inj he
    have hlinksC : (islC.pop l).links = isl.links := by
      cases l with
      | joint n =>
        simp only [Isl.pop, Isl.links, jC, jB, j2, j1, cC, cB, c2, c1, Isl.push, List.dropLast_concat]
      | contact n =>
        simp only [Isl.pop, Isl.links, jC, jB, j2, j1, cC, cB, c2, c1, Isl.push, List.dropLast_concat]
    have hpop : (islC.pop l).bodies = isl.bodies := by rw [← bC]; cases l <;> rfl
    have hpa : (islC.pop l).awake = isl2.awake := by rw [← wB, ← wC]; cases l <;> rfl
    refine ⟨⟨?_, ?_, ?_, ?_, ?_, ?_⟩, by rw [hpa]; exact haw, Or.inr (Or.inr ⟨?_, hl, hlinksC, hpop⟩)⟩
    · rw [hpop, ← bC]; exact ⟨iC.nodup, iC.index, iC.frame⟩
    · intro l'
      rw [hlinksC]
      by_cases hll : l' = l
      · subst hll; simp [hl]
      · simp only [Function.update_of_ne hll]
        rw [pC, pB, hstA]
        simp only [Function.update_of_ne hll]
        rw [p2, p1]; exact h.proxy l'
    · show stC.moved = _
      rw [mC, mB]; show st2.moved = _; rw [m2, m1, h.moved]
    · rw [hlinksC]; exact h.nodup
    · rw [hlinksC, hpop]; exact h.ends
    · rw [hpop, hpa]; intro b hb hs; exact hmono (h.awake b hb hs)
    · show stC.evals = _; rw [eC, eB, ← e1, ← e2]

/-- What the loops over the constraints of a body do, whatever the answers. -/
theorem addConstraints_building {N : Net P V S} {st0 : St P V S} (ls : List Link) {x x' : St P V S × Isl P V}
    (h : Building N st0 x.1 x.2) (he : addConstraints N ls x = .ok x') :
    Building N st0 x'.1 x'.2 ∧ (∃ new, x'.2.bodies = x.2.bodies ++ new ∧ ∀ b ∈ new, ∃ l ∈ ls, b = (N.ends l).1 ∨ b = (N.ends l).2) ∧
      (x'.2.awake = true → x.2.awake = true ∨ ∃ l ∈ ls, (st0.body (N.ends l).1).asleep = false ∨ (st0.body (N.ends l).2).asleep = false) := by
  induction ls generalizing x with
  | nil =>
    cases Outcome.ok.inj he
    exact ⟨h, ⟨[], by simp, by simp⟩, Or.inl⟩
  | cons l ls ih =>
    unfold addConstraints at he
    rw [bind_ok_iff] at he
    obtain ⟨y, hy, he⟩ := he
    obtain ⟨hb, hw, hcase⟩ := addConstraint_spec (st' := y.1) (isl' := y.2) h hy
    obtain ⟨hb2, ⟨n2, hn2, hn2'⟩, hw2⟩ := ih hb he
    have hnew : ∃ n1, y.2.bodies = x.2.bodies ++ n1 ∧ ∀ b ∈ n1, b = (N.ends l).1 ∨ b = (N.ends l).2 := by
      rcases hcase with ⟨_, _, hi⟩ | ⟨_, _, hn⟩ | ⟨_, _, _, hi⟩
      · exact ⟨[], by rw [hi]; simp, by simp⟩
      · exact hn
      · exact ⟨[], by rw [hi]; simp, by simp⟩
    obtain ⟨n1, hn1, hn1'⟩ := hnew
    refine ⟨hb2, ⟨n1 ++ n2, by rw [hn2, hn1, List.append_assoc], ?_⟩, ?_⟩
    · intro b hbm
      rcases List.mem_append.1 hbm with hbm | hbm
      · exact ⟨l, by simp, hn1' b hbm⟩
      · obtain ⟨l', hl', h'⟩ := hn2' b hbm
        exact ⟨l', List.mem_cons_of_mem _ hl', h'⟩
    · intro ha
      rcases hw2 ha with ha | ⟨l', hl', h'⟩
      · rcases hw ha with ha | ha
        · exact Or.inl ha
        · exact Or.inr ⟨l, by simp, ha⟩
      · exact Or.inr ⟨l', List.mem_cons_of_mem _ hl', h'⟩

/-- What the loops over the constraints of a body do when the answers are those of `A`. -/
theorem addConstraints_spec {N : Net P V S} {A : Link → Bool} {st0 : St P V S} (ls : List Link) {x x' : St P V S × Isl P V}
    (h : Building N st0 x.1 x.2) (hx : ∀ l ∈ x.2.links, A l = true) (he : addConstraints N ls x = .ok x') (hA : ∀ e ∈ x'.1.evals, e.2 = A e.1) :
    (∃ new, x'.2.bodies = x.2.bodies ++ new ∧ ∀ b ∈ new, ∃ l ∈ ls, A l = true ∧ (b = (N.ends l).1 ∨ b = (N.ends l).2)) ∧
      (∀ l, l ∈ x'.2.links ↔ l ∈ x.2.links ∨ (l ∈ ls ∧ A l = true)) := by
  induction ls generalizing x with
  | nil =>
    cases Outcome.ok.inj he
    exact ⟨⟨[], by simp, by simp⟩, by simp⟩
  | cons l ls ih =>
    unfold addConstraints at he
    rw [bind_ok_iff] at he
    obtain ⟨y, hy, he⟩ := he
    obtain ⟨ev, hev⟩ := addConstraints_evals ls he
    have hAy : ∀ e ∈ y.1.evals, e.2 = A e.1 := fun e hm => hA e (by rw [hev]; exact List.mem_append_left _ hm)
    obtain ⟨hb, _, hcase⟩ := addConstraint_spec (st' := y.1) (isl' := y.2) h hy
    have hcase' : (∃ n1, y.2.bodies = x.2.bodies ++ n1 ∧ ∀ b ∈ n1, A l = true ∧ (b = (N.ends l).1 ∨ b = (N.ends l).2)) ∧
        (∀ l', l' ∈ y.2.links ↔ l' ∈ x.2.links ∨ (l' = l ∧ A l = true)) := by
      rcases hcase with ⟨hm, _, hi⟩ | ⟨h1, h2, n1, hn, hn'⟩ | ⟨h1, _, h3, hi⟩
      · refine ⟨⟨[], by rw [hi]; simp, by simp⟩, fun l' => ?_⟩
        rw [hi]
        constructor
        · exact Or.inl
        · rintro (h' | ⟨rfl, _⟩)
          · exact h'
          · exact hm
      · have hAl : A l = true := by
          have := hAy (l, true) (by rw [h1]; simp)
          exact this.symm
        exact ⟨⟨n1, hn, fun b hb => ⟨hAl, hn' b hb⟩⟩, fun l' => by rw [h2]; simp [hAl]⟩
      · have hAl : A l = false := by
          have := hAy (l, false) (by rw [h1]; simp)
          exact this.symm
        exact ⟨⟨[], by rw [hi]; simp, by simp⟩, fun l' => by rw [h3]; simp [hAl]⟩
    obtain ⟨⟨n1, hn1, hn1'⟩, hl1⟩ := hcase'
    have hy' : ∀ l' ∈ y.2.links, A l' = true := by
      intro l' hl'
      rcases (hl1 l').1 hl' with h' | ⟨rfl, h'⟩
      · exact hx l' h'
      · exact h'
    obtain ⟨⟨n2, hn2, hn2'⟩, hl2⟩ := ih hb hy' he
    refine ⟨⟨n1 ++ n2, by rw [hn2, hn1, List.append_assoc], ?_⟩, ?_⟩
    · intro b hbm
      rcases List.mem_append.1 hbm with hbm | hbm
      · exact ⟨l, by simp, hn1' b hbm⟩
      · obtain ⟨l', hl', h'⟩ := hn2' b hbm
        exact ⟨l', List.mem_cons_of_mem _ hl', h'⟩
    · intro l'
      rw [hl2, hl1, List.mem_cons]
      grind

theorem structural_frame {N : Net P V S} {st0 st : St P V S} {bs : List Nat} (h : Indexed st0 st bs) (b : Nat) :
    interactsAsStructural N st b = interactsAsStructural N st0 b := by
  unfold interactsAsStructural; rw [(h.frame b).2.1]

/-- Everything a body of `world` is constrained to is in `world`. -/
def Closed (N : Net P V S) (world : List Nat) : Prop := ∀ b ∈ world, ∀ l ∈ linksOf N b, (N.ends l).1 ∈ world ∧ (N.ends l).2 ∈ world

/-- One iteration of the loop of `init`. -/
def initStep (N : Net P V S) (root : Nat) (x : St P V S × Isl P V) : Outcome (St P V S × Isl P V) :=
  if interactsAsStructural N x.1 root then .ok x else addConstraints N (linksOf N root) x

theorem initLoop_succ (N : Net P V S) (fuel current : Nat) (x : St P V S × Isl P V) :
    initLoop N (fuel + 1) current x = match x.2.bodies[current]? with
    | none => some (.ok x)
    | some root =>
      match initStep N root x with
      | .ok x => initLoop N fuel (current + 1) x
      | .throw => some .throw
      | .ub => some .ub := rfl

theorem initStep_building {N : Net P V S} {st0 : St P V S} {root : Nat} {x x' : St P V S × Isl P V} (h : Building N st0 x.1 x.2)
    (he : initStep N root x = .ok x') : Building N st0 x'.1 x'.2 ∧
      (∃ new, x'.2.bodies = x.2.bodies ++ new ∧ ∀ b ∈ new, ∃ l ∈ linksOf N root, b = (N.ends l).1 ∨ b = (N.ends l).2) ∧
      (x'.2.awake = true → x.2.awake = true ∨ interactsAsStructural N st0 root = false ∧
        ∃ l ∈ linksOf N root, (st0.body (N.ends l).1).asleep = false ∨ (st0.body (N.ends l).2).asleep = false) ∧
      ∃ ev, x'.1.evals = x.1.evals ++ ev := by
  unfold initStep at he
  by_cases hs : interactsAsStructural N x.1 root = true
  · rw [if_pos hs] at he
    cases Outcome.ok.inj he
    exact ⟨h, ⟨[], by simp, by simp⟩, Or.inl, [], by simp⟩
  · rw [if_neg hs] at he
    obtain ⟨h1, h2, h3⟩ := addConstraints_building _ h he
    refine ⟨h1, h2, fun ha => ?_, addConstraints_evals _ he⟩
    rcases h3 ha with h3 | h3
    · exact Or.inl h3
    · refine Or.inr ⟨?_, h3⟩
      rw [← structural_frame h.indexed]
      simpa using hs

/-- The loop of `init`, whatever the answers. -/
theorem initLoop_building {N : Net P V S} {st0 : St P V S} {world : List Nat} (hc : Closed N world) (fuel current : Nat)
    {x x' : St P V S × Isl P V} (h : Building N st0 x.1 x.2) (hw : ∀ b ∈ x.2.bodies, b ∈ world) (he : initLoop N fuel current x = some (.ok x')) :
    Building N st0 x'.1 x'.2 ∧ (∃ new, x'.2.bodies = x.2.bodies ++ new) ∧ (∀ b ∈ x'.2.bodies, b ∈ world) ∧
      (x'.2.awake = true → x.2.awake = true ∨ ∃ b ∈ x'.2.bodies, interactsAsStructural N st0 b = false ∧
        ∃ l ∈ linksOf N b, (st0.body (N.ends l).1).asleep = false ∨ (st0.body (N.ends l).2).asleep = false) ∧
      ∃ ev, x'.1.evals = x.1.evals ++ ev := by
  induction fuel generalizing current x with
  | zero => simp [initLoop] at he
  | succ fuel ih =>
    rw [initLoop_succ] at he
    cases hr : x.2.bodies[current]? with
    | none =>
      rw [hr] at he
      simp only [Option.some.injEq] at he
      cases Outcome.ok.inj he
      exact ⟨h, ⟨[], by simp⟩, hw, Or.inl, [], by simp⟩
    | some root =>
      rw [hr] at he
      dsimp only at he
      cases hs : initStep N root x with
      | throw => rw [hs] at he; simp at he
      | ub => rw [hs] at he; simp at he
      | ok y =>
        rw [hs] at he
        dsimp only at he
        have hroot := List.mem_of_getElem? hr
        obtain ⟨h1, ⟨n1, hn1, hn1'⟩, h3, ev1, hev1⟩ := initStep_building h hs
        have hw' : ∀ b ∈ y.2.bodies, b ∈ world := by
          intro b hb
          rw [hn1] at hb
          rcases List.mem_append.1 hb with hb | hb
          · exact hw b hb
          · obtain ⟨l, hl, hb | hb⟩ := hn1' b hb
            · rw [hb]; exact (hc root (hw root hroot) l hl).1
            · rw [hb]; exact (hc root (hw root hroot) l hl).2
        obtain ⟨g1, ⟨n2, hn2⟩, g3, g4, ev2, hev2⟩ := ih (current + 1) h1 hw' he
        refine ⟨g1, ⟨n1 ++ n2, by rw [hn2, hn1, List.append_assoc]⟩, g3, fun ha => ?_, ev1 ++ ev2, by rw [hev2, hev1, List.append_assoc]⟩
        rcases g4 ha with ha | ha
        · rcases h3 ha with ha | ha
          · exact Or.inl ha
          · refine Or.inr ⟨root, ?_, ha⟩
            rw [hn2, hn1]
            exact List.mem_append_left _ (List.mem_append_left _ hroot)
        · exact Or.inr ha

/-- The loop of `init` ends. -/
theorem initLoop_ends {N : Net P V S} {st0 : St P V S} {world : List Nat} (hc : Closed N world) (fuel current : Nat)
    {x : St P V S × Isl P V} (h : Building N st0 x.1 x.2) (hw : ∀ b ∈ x.2.bodies, b ∈ world) (hf : world.length < fuel + current)
    (hcur : current ≤ x.2.bodies.length) :
    initLoop N fuel current x ≠ none := by
  have hlen : x.2.bodies.length ≤ world.length := (List.subperm_of_subset h.indexed.nodup hw).length_le
  induction fuel generalizing current x with
  | zero => omega
  | succ fuel ih =>
    rw [initLoop_succ]
    cases hr : x.2.bodies[current]? with
    | none => simp
    | some root =>
      dsimp only
      cases hs : initStep N root x with
      | throw => simp
      | ub => simp
      | ok y =>
        dsimp only
        have hroot := List.mem_of_getElem? hr
        obtain ⟨h1, ⟨n1, hn1, hn1'⟩, _, _⟩ := initStep_building h hs
        have hw' : ∀ b ∈ y.2.bodies, b ∈ world := by
          intro b hb
          rw [hn1] at hb
          rcases List.mem_append.1 hb with hb | hb
          · exact hw b hb
          · obtain ⟨l, hl, hb | hb⟩ := hn1' b hb
            · rw [hb]; exact (hc root (hw root hroot) l hl).1
            · rw [hb]; exact (hc root (hw root hroot) l hl).2
        have hcl : current < x.2.bodies.length := by
          rw [List.getElem?_eq_some_iff] at hr; exact hr.1
        exact ih (current + 1) h1 hw' (by omega) (by rw [hn1, List.length_append]; omega) (List.subperm_of_subset h1.indexed.nodup hw').length_le

/-- `y` is an end of an active constraint of the non-structural body `x`. -/
def Touches (N : Net P V S) (A : Link → Bool) (st0 : St P V S) (x y : Nat) : Prop :=
  interactsAsStructural N st0 x = false ∧ ∃ l ∈ linksOf N x, A l = true ∧ (y = (N.ends l).1 ∨ y = (N.ends l).2)

/-- The loop of `init` when the answers are those of `A`: it computes what can be reached from the first body. -/
theorem initLoop_spec {N : Net P V S} {A : Link → Bool} {st0 : St P V S} {r : Nat} {world : List Nat} (hc : Closed N world) (fuel current : Nat)
    {x x' : St P V S × Isl P V} (h : Building N st0 x.1 x.2) (hw : ∀ b ∈ x.2.bodies, b ∈ world)
    (hx : ∀ l ∈ x.2.links, A l = true ∧ ∃ b ∈ x.2.bodies, interactsAsStructural N st0 b = false ∧ l ∈ linksOf N b)
    (hreach : ∀ b ∈ x.2.bodies, Relation.ReflTransGen (Touches N A st0) r b)
    (hproc : ∀ i < current, ∀ b, x.2.bodies[i]? = some b → interactsAsStructural N st0 b = false → ∀ l ∈ linksOf N b, A l = true → l ∈ x.2.links)
    (he : initLoop N fuel current x = some (.ok x')) (hA : ∀ e ∈ x'.1.evals, e.2 = A e.1) :
    (∀ l ∈ x'.2.links, A l = true ∧ ∃ b ∈ x'.2.bodies, interactsAsStructural N st0 b = false ∧ l ∈ linksOf N b) ∧
      (∀ b ∈ x'.2.bodies, Relation.ReflTransGen (Touches N A st0) r b) ∧
      (∀ b ∈ x'.2.bodies, interactsAsStructural N st0 b = false → ∀ l ∈ linksOf N b, A l = true → l ∈ x'.2.links) := by
  induction fuel generalizing current x with
  | zero => simp [initLoop] at he
  | succ fuel ih =>
    rw [initLoop_succ] at he
    cases hr : x.2.bodies[current]? with
    | none =>
      rw [hr] at he
      simp only [Option.some.injEq] at he
      cases Outcome.ok.inj he
      refine ⟨hx, hreach, fun b hb => ?_⟩
      obtain ⟨i, hi, hbi⟩ := List.mem_iff_getElem.1 hb
      have hlen : x'.2.bodies.length ≤ current := by simpa using hr
      exact hproc i (by omega) b (by rw [List.getElem?_eq_getElem hi, hbi])
    | some root =>
      rw [hr] at he
      dsimp only at he
      cases hs : initStep N root x with
      | throw => rw [hs] at he; simp at he
      | ub => rw [hs] at he; simp at he
      | ok y =>
        rw [hs] at he
        dsimp only at he
        have hroot := List.mem_of_getElem? hr
        obtain ⟨h1, ⟨n1, hn1, hn1'⟩, h3, ev1, hev1⟩ := initStep_building h hs
        have hw' : ∀ b ∈ y.2.bodies, b ∈ world := by
          intro b hb
          rw [hn1] at hb
          rcases List.mem_append.1 hb with hb | hb
          · exact hw b hb
          · obtain ⟨l, hl, hb | hb⟩ := hn1' b hb
            · rw [hb]; exact (hc root (hw root hroot) l hl).1
            · rw [hb]; exact (hc root (hw root hroot) l hl).2
        obtain ⟨ev2, hev2⟩ := (initLoop_building hc fuel (current + 1) h1 hw' he).2.2.2.2
        have hAy : ∀ e ∈ y.1.evals, e.2 = A e.1 := fun e hm => hA e (by rw [hev2]; exact List.mem_append_left _ hm)
        have hst := structural_frame (N := N) h.indexed root
        have hstep : (∃ new, y.2.bodies = x.2.bodies ++ new ∧ ∀ b ∈ new, Touches N A st0 root b) ∧
            (∀ l, l ∈ y.2.links ↔ l ∈ x.2.links ∨ (interactsAsStructural N st0 root = false ∧ l ∈ linksOf N root ∧ A l = true)) := by
          unfold initStep at hs
          by_cases hsr : interactsAsStructural N x.1 root = true
          · rw [if_pos hsr] at hs
            cases Outcome.ok.inj hs
            rw [hst] at hsr
            exact ⟨⟨[], by simp, by simp⟩, by simp [hsr]⟩
          · rw [if_neg hsr] at hs
            rw [hst] at hsr
            have hsr : interactsAsStructural N st0 root = false := by simpa using hsr
            obtain ⟨⟨nw, q1, q2⟩, q3⟩ := addConstraints_spec _ h (fun l hl => (hx l hl).1) hs hAy
            exact ⟨⟨nw, q1, fun b hb => ⟨hsr, q2 b hb⟩⟩, fun l => by rw [q3]; simp [hsr]⟩
        obtain ⟨⟨nw, q1, q2⟩, q3⟩ := hstep
        refine ih (current + 1) h1 hw' ?_ ?_ ?_ he
        · intro l hl
          rcases (q3 l).1 hl with hl | ⟨hsr, hl, hal⟩
          · obtain ⟨ha, b, hb, hb'⟩ := hx l hl
            exact ⟨ha, b, by rw [q1]; exact List.mem_append_left _ hb, hb'⟩
          · exact ⟨hal, root, by rw [q1]; exact List.mem_append_left _ hroot, hsr, hl⟩
        · intro b hb
          rw [q1] at hb
          rcases List.mem_append.1 hb with hb | hb
          · exact hreach b hb
          · exact (hreach root hroot).tail (q2 b hb)
        · intro i hi b hb hsb l hl hal
          rw [q3]
          have hcl : current < x.2.bodies.length := by
            rw [List.getElem?_eq_some_iff] at hr; exact hr.1
          rw [q1, List.getElem?_append_left (by omega)] at hb
          rcases Nat.lt_or_ge i current with hi' | hi'
          · exact Or.inl (hproc i hi' b hb hsb l hl hal)
          · have : i = current := by omega
            subst this
            rw [hr] at hb
            cases Option.some.inj hb
            exact Or.inr ⟨hsb, hl, hal⟩

/-- A state in which nothing is being solved. -/
structure Idle (st : St P V S) : Prop where
  index : ∀ b, (st.body b).index = none
  proxies : ∀ l, st.proxies l = none

/-- An island that holds nothing. -/
structure Isl.Empty (isl : Isl P V) : Prop where
  bodies : isl.bodies = []
  joints : isl.joints = []
  contacts : isl.contacts = []

theorem addBody_building {N : Net P V S} {st : St P V S} {isl : Isl P V} (hi : Idle st) (hz : isl.Empty) (root : Nat) :
    Building N st (addBody st isl root).1 (addBody st isl root).2.1 ∧ (addBody st isl root).2.1.bodies = [root] ∧
      (addBody st isl root).2.1.links = [] ∧ (addBody st isl root).1.evals = st.evals ∧
      (addBody st isl root).2.1.awake = (isl.awake || !(st.body root).asleep) := by
  have h0 : Indexed st st isl.bodies := by
    rw [hz.bodies]
    exact ⟨by simp, fun b i => by rw [hi.index]; simp, fun b => ⟨rfl, rfl, rfl⟩⟩
  cases he : addBody st isl root with
  | mk st1 r1 =>
  obtain ⟨isl1, a⟩ := r1
  obtain ⟨i1, b1, _, p1, e1, m1, _, j1, c1, w1⟩ := addBody_indexed h0 he
  rw [hz.bodies] at b1 w1
  have hb : isl1.bodies = [root] := by rw [b1]; simp
  have hl : isl1.links = [] := by unfold Isl.links; rw [j1, c1, hz.joints, hz.contacts]; rfl
  refine ⟨⟨i1, fun l => ?_, m1, by simp [hl], by simp [hl], ?_⟩, hb, hl, e1, by simpa using w1⟩
  · rw [p1, hi.proxies, hl]; simp
  · intro b hb' hs
    dsimp only at hb'
    rw [hb] at hb'
    have : b = root := by simpa using hb'
    subst this
    dsimp only
    rw [w1]; simp [hs]

/-- `init` builds the island of what can be reached. -/
theorem init_spec {N : Net P V S} {A : Link → Bool} {st : St P V S} {isl : Isl P V} {root fuel : Nat} {x' : St P V S × Isl P V} {world : List Nat}
    (hc : Closed N world) (hroot : root ∈ world) (hi : Idle st) (hz : isl.Empty)
    (he : init N fuel st isl root = some (.ok x')) (hA : ∀ e ∈ x'.1.evals, e.2 = A e.1) :
    (∀ b, b ∈ x'.2.bodies ↔ Relation.ReflTransGen (Touches N A st) root b) ∧
      (∀ l, l ∈ x'.2.links ↔ A l = true ∧ ∃ b ∈ x'.2.bodies, interactsAsStructural N st b = false ∧ l ∈ linksOf N b) := by
  obtain ⟨hb, hbs, hls, _, _⟩ := addBody_building (N := N) hi hz root
  unfold init at he
  dsimp only at he
  set y := addBody st isl root
  obtain ⟨g1, ⟨nw, hnw⟩, g3, _⟩ := initLoop_building (x := (y.1, y.2.1)) hc fuel 0 hb (by rw [show (y.1, y.2.1).2.bodies = [root] from hbs]; simpa) he
  obtain ⟨q1, q2, q3⟩ := initLoop_spec (A := A) (r := root) (x := (y.1, y.2.1)) hc fuel 0 hb
    (by rw [show (y.1, y.2.1).2.bodies = [root] from hbs]; simpa)
    (by rw [show (y.1, y.2.1).2.links = [] from hls]; simp) (by
      rw [show (y.1, y.2.1).2.bodies = [root] from hbs]
      intro b hb
      have : b = root := by simpa using hb
      rw [this]) (by omega) he hA
  refine ⟨fun b => ⟨q2 b, fun hr => ?_⟩, fun l => ⟨q1 l, fun ⟨ha, b, hb, hs, hl⟩ => q3 b hb hs l hl ha⟩⟩
  induction hr with
  | refl => rw [hnw, show (y.1, y.2.1).2.bodies = [root] from hbs]; simp
  | tail _ hstep ih =>
    obtain ⟨hs, l, hl, ha, hy⟩ := hstep
    have := g1.ends l (q3 _ ih hs l hl ha)
    rcases hy with rfl | rfl
    · exact this.1
    · exact this.2

end Simu.Island
