import Verif.Lemmas.WorldLog
import Verif.Props.World
/-
C67: each object is made once, destroyed at most once, and told of its destruction.
-/
namespace Simu.World
open World

/-- **C67.** In every history each object was constructed at most once and destroyed at most once; it belongs to the world exactly if it was constructed and not destroyed; it is
told of its destruction at most once, and never while it belongs to the world. -/
theorem C67_once {cfg : Cfg} {w : World} (h : Reachable cfg w) (o : Obj) :
    w.log.count (.constructed o) ≤ 1 ∧ w.log.count (.freed o) ≤ w.log.count (.constructed o) ∧
    (Alive w o ↔ w.log.count (.constructed o) = 1 ∧ w.log.count (.freed o) = 0) ∧
    w.log.count (.notified o) ≤ w.log.count (.freed o) := by
  have l := h.logInv
  have m := l.made o
  by_cases ho : Alive w o
  · obtain ⟨a1, a2, a3⟩ := l.alive o ho
    refine ⟨m, by omega, ⟨fun _ => ⟨a1, a2⟩, fun _ => ho⟩, by omega⟩
  · obtain ⟨a1, a2⟩ := l.gone o ho
    refine ⟨m, by omega, ⟨fun hh => absurd hh ho, fun hh => by omega⟩, by omega⟩

/-- **C67, partial.** Missing: contacts and `clear` (see the disagreements). A body, constraint or force field that another operation removes is told so exactly once, before it is destroyed exactly
once; one that stays is not told. -/
theorem C67_told_partial {cfg : Cfg} {w : World} (h : Reachable cfg w) (o : Op) (ha : o.Allowed w) (hd : o.DestroysSafely cfg w) (hc : o ≠ .clear) :
    ∃ s1 s2, (w.apply cfg o).1.log = w.log ++ (s1 ++ s2) ∧ ∀ x, (∀ n, x ≠ .contact n) →
      (Alive w x → ¬Alive (w.apply cfg o).1 x → s1.count (.freed x) = 0 ∧ s2.count (.freed x) = 1 ∧ (s1 ++ s2).count (.notified x) = 1) ∧
      (Alive (w.apply cfg o).1 x → (s1 ++ s2).count (.freed x) = 0 ∧ (s1 ++ s2).count (.notified x) = 0) := by
  obtain ⟨s1, s2, S, k1, -, -⟩ := segment_apply h.inv h.logInv o ha hd
  refine ⟨s1, s2, S.log, fun x hx => ⟨fun hw hw' => ?_, fun hw' => ?_⟩⟩
  · obtain ⟨a1, a2⟩ := k1 hc x hx
    have := S.died x
    rw [if_pos ⟨hw, hw'⟩] at this
    have e := List.count_append (a := Event.freed x) (l₁ := s1) (l₂ := s2)
    omega
  · obtain ⟨a1, a2⟩ := k1 hc x hx
    have := S.died x
    rw [if_neg (fun hh => hh.2 hw')] at this
    omega

/-- **C67, disagreement.** A contact is never told of its destruction. -/
theorem C67_contact_disagreement {cfg : Cfg} {w : World} (h : Reachable cfg w) (n : Nat) : Event.notified (.contact n) ∉ w.log := by
  induction h with
  | init => simp [init]
  | op hr o ha hd ih =>
    obtain ⟨s1, s2, S, -, -, k⟩ := segment_apply hr.inv hr.logInv o ha hd
    rw [S.log, List.mem_append]
    rintro (a | a)
    · exact ih a
    · exact absurd (k n) (Nat.pos_iff_ne_zero.1 (List.count_pos_iff.2 a))

/-- **C67, disagreement.** `clear` tells no object of its destruction, although it destroys all of them. -/
theorem C67_clear_disagreement {cfg : Cfg} {w : World} (h : Reachable cfg w) (hd : Op.DestroysSafely cfg w .clear) (o : Obj) :
    (w.clear cfg).1.log.count (.notified o) = w.log.count (.notified o) ∧ (Alive w o → (w.clear cfg).1.log.count (.freed o) = 1 ∧ (w.clear cfg).1.log.count (.notified o) = 0) := by
  obtain ⟨s1, s2, S, -, k, -⟩ := segment_apply h.inv h.logInv .clear trivial hd
  have hl : (w.clear cfg).1.log = w.log ++ (s1 ++ s2) := S.log
  have e : (w.clear cfg).1.log.count (.notified o) = w.log.count (.notified o) := by
    rw [hl, List.count_append, k rfl o, Nat.add_zero]
  refine ⟨e, fun ho => ?_⟩
  obtain ⟨a1, a2, a3⟩ := h.logInv.alive o ho
  refine ⟨?_, by rw [e, a3]⟩
  have hdead : ¬Alive (w.clear cfg).1 o := by
    obtain ⟨-, -, c1, c2, c3, c4, -⟩ := (h.inv.clear (cfg := cfg)).1 hd
    cases o <;> simp [Alive, c1, c2, c3, c4]
  have hs := S.died o
  rw [if_pos ⟨ho, hdead⟩] at hs
  rw [hl, List.count_append, a2, hs]

/-- The log of the world where two colliders touch, after its second body was killed and a step. -/
example : ((touching.killBody 1).1.step ⟨true⟩ true allPairs none).1.log =
    [.constructed (.body 0), .constructed (.body 1), .constructed (.contact 4), .freed (.contact 4), .notified (.body 1), .freed (.body 1)] := by decide

/-- The same world after `clear`. -/
example : (touching.clear ⟨true⟩).1.log =
    [.constructed (.body 0), .constructed (.body 1), .constructed (.contact 4), .freed (.body 0), .freed (.body 1), .freed (.contact 4)] := by decide

end Simu.World
