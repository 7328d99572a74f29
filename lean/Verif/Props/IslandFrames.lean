import Verif.Lemmas.IslandTwin
import Verif.Props.IslandMomentum
/-
A group of bodies that is in corresponding states in two worlds, seen from two frames of reference, is in corresponding states after they are solved.
-/
namespace Simu.Island
variable {P V S S' : Type*} {N : Net P V S} {N' : Net P V S'} {F : Frames P V} {A A' : Link → Bool} {world world' : List Nat} {st st1 : St P V S} {st' st1' : St P V S'}
  {log log' : List Record} {known asked : Link → S → S' → Prop} {group : Finset Nat}

theorem filter_sub {α : Type*} {l : List α} {p q : α → Bool} (h : ∀ a ∈ l, q a = true → p a = true) : (l.filter p).filter q = l.filter q := by
  rw [List.filter_filter]
  refine List.filter_congr fun a ha => ?_
  cases hq : q a
  · simp
  · simp [h a ha hq]

/-- Two worlds in which the same enclosed group of bodies is in corresponding states are solved with the same settings. Afterwards the states of the group correspond again, whatever else is in the
two worlds. -/
theorem corresponding_group (h : Solved N A world st st1 log) (h' : Solved N' A' world' st' st1' log') {cfg : Settings} {fuel fuel' : Nat} {p q : P} {v w : V}
    (hr : solveIslands N cfg fuel p v world st = some (.ok (st1, log))) (hr' : solveIslands N' cfg fuel' q w world' st' = some (.ok (st1', log')))
    (hP : Private N known) (hP' : Private N' fun l s t => known l t s) (hQ : Private N asked) (hQ' : Private N' fun l s t => asked l t s)
    (hE : Enclosed N A st group) (hE' : Enclosed N' A' st' group)
    (hG : Mirrored N N' F known asked A A' world world' st st' group) (hS : Corresponds N F.before F.vel known st group st st') : Corresponds N F.after F.vel known st group st1 st1' := by
  classical
  have hmv : ∀ b, (!interactsAsStructural N st b) = true ↔ ¬ Fixed N st b := by
    intro b; rw [← not_fixed_iff]; simp
  -- the constraints listed by a body of the group which are between bodies of the group
  have hin : ∀ b ∈ group, ¬ Fixed N st b → ∀ l ∈ linksOf N b, Inner N st group l ↔ (N.ends l).1 ∈ group ∧ (N.ends l).2 ∈ group :=
    fun b hb hf l hl => ⟨fun k => k.2, fun k => ⟨⟨b, hb, hf, hl⟩, k⟩⟩
  have hin' : ∀ b ∈ group, ¬ Fixed N st b → ∀ l ∈ linksOf N' b, ((N'.ends l).1 ∈ group ∧ (N'.ends l).2 ∈ group) → l ∈ linksOf N b ∧ Inner N st group l := by
    intro b hb hf l hl k
    have : l ∈ (linksOf N' b).filter (fun l => (N'.ends l).1 ∈ group ∧ (N'.ends l).2 ∈ group) := List.mem_filter.2 ⟨hl, by simpa using k⟩
    rw [← hG.links b hb hf] at this
    obtain ⟨k1, k2⟩ := List.mem_filter.1 this
    exact ⟨k1, ⟨b, hb, hf, k1⟩, by simpa using k2⟩
  have hfilter : ∀ b ∈ group, ¬ Fixed N st b → (linksOf N b).filter (fun l => decide (Inner N st group l)) = (linksOf N' b).filter fun l => decide (Inner N st group l) := by
    intro b hb hf
    have e1 := filter_sub (l := linksOf N b) (p := fun l => decide ((N.ends l).1 ∈ group ∧ (N.ends l).2 ∈ group)) (q := fun l => decide (Inner N st group l))
      (fun l _ k => by simpa using (of_decide_eq_true k).2)
    have e2 := filter_sub (l := linksOf N' b) (p := fun l => decide ((N'.ends l).1 ∈ group ∧ (N'.ends l).2 ∈ group)) (q := fun l => decide (Inner N st group l))
      (fun l _ k => by
        have k := of_decide_eq_true k
        rw [(hG.matched l k).ends]; simpa using k.2)
    rw [← e1, ← e2, hG.links b hb hf]
  have hPair : Pair N N' F known asked (Inner N st group) group A A' (fun b => !interactsAsStructural N st b) (fun l => decide (Inner N st group l)) := by
    refine ⟨hP, hP', hQ, hQ', fun l hl => ⟨hG.matched l hl, hl.2⟩, fun _ _ _ _ _ => by simp, fun _ _ _ _ _ => by simp, fun b hb hm => hfilter b hb ((hmv b).1 hm), ?_, ?_, hG.advance, hG.displaced.imp_right fun k => ⟨fun b hb => (hmv b).2 (k.1 b hb).2, k.2⟩⟩
    · intro b hb hm l hl hn
      by_contra hA
      exact hn ((hin b hb ((hmv b).1 hm) l hl).2 (hE b hb ((hmv b).1 hm) l hl (by simpa using hA)))
    · intro b hb hm l hl hn
      by_contra hA
      have hf := (hmv b).1 hm
      exact hn (hin' b hb hf l hl (hE' b hb (fun k => hf ((hG.fixed b hb).2 k)) l hl (by simpa using hA))).2
  have hSide : Side N A (Inner N st group) group (fun b => !interactsAsStructural N st b) world st :=
    ⟨h.behaved.lawful, h.graph.consistent, fun b _ => by simp, fun l hl => hl.2, hPair.outL⟩
  have hSide' : Side N' A' (Inner N st group) group (fun b => !interactsAsStructural N st b) world' st' := by
    refine ⟨h'.behaved.lawful, h'.graph.consistent, fun b hb => ?_, fun l hl => ?_, hPair.outR⟩
    · have := hG.fixed b hb
      rw [← fixed_iff, ← fixed_iff] at this
      rw [Bool.not_not, Bool.eq_iff_iff]; exact this.symm
    · rw [(hG.matched l hl).ends]; exact hl.2
  have hord : world.filter (fun b => decide (b ∈ group) && !interactsAsStructural N st b) = world'.filter fun b => decide (b ∈ group) && !interactsAsStructural N st b := by
    have := congrArg (List.filter fun b => !interactsAsStructural N st b) hG.order
    rw [List.filter_filter, List.filter_filter] at this
    simpa only [Bool.and_comm] using this
  have hstart : Same F known (Inner N st group) group (fun b => !interactsAsStructural N st b) world st st' := by
    refine ⟨fun b hb => (hS.bodies b hb).2, fun b hb _ => (hS.bodies b hb).1, fun b hb _ hn => ?_, hS.links⟩
    rcases hG.displaced with hd | hd
    · rw [← hd]; exact (hS.bodies b hb).1
    · exact absurd (hd.1 b hb).1 hn
  have hend := solveLoop_same hPair hSide hSide' cfg (fuel + fuel') le_rfl (progress_start h.ready.idle) (progress_start h'.ready.idle) hstart ⟨rfl, rfl, rfl⟩
    ⟨rfl, rfl, rfl⟩ hord hr hr' h.stable h'.stable
  refine ⟨fun b hb => ⟨?_, hend.vel b hb⟩, hend.links⟩
  by_cases hm : (!interactsAsStructural N st b) = true
  · exact hend.moved b hb hm (by simp)
  · rcases hG.displaced with hd | hd
    · rw [← hd]; exact hend.waiting b hb fun k => absurd k hm
    · exact absurd ((hmv b).2 (hd.1 b hb).2) hm

end Simu.Island
