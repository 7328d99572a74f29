import Verif.Lemmas.IslandMomentum
import Mathlib.Algebra.Group.Hom.Instances
/-
C72: what constraints only exchange between their bodies is kept by an isolated group of bodies, whatever else is in the world.
-/
namespace Simu.Island
open Finset
variable {P V S M : Type*} [AddCommGroup M] {N : Net P V S} {A : Link → Bool} {world : List Nat} {st st' : St P V S} {log : List Record}

/-- C72: through a whole `solveIslands` the total of `qv` of an isolated group stays, and the total of `qp` changes only by moving the bodies with their
velocities (`τ` of the total of `qv`), however many iterations are made, whether warmstarting or not, and into however many islands the group falls. -/
theorem C72_group (h : Solved N A world st st' log) {good : S → Prop} (hg : Steady N good) (hs : good st.s) {qv : Nat → V → M} {qp : Nat → P → M}
    {group : Finset Nat} (hsub : ∀ b ∈ group, b ∈ world) (hiso : Isolated N A group)
    (hx : ∀ b ∈ group, ∀ l ∈ linksOf N b, A l = true → Exchanges N good qv qp l) (τ : M →+ M)
    (hadv : ∀ b p v, qp b (N.advance p v) = qp b p + τ (qv b v)) :
    ∑ b ∈ group, qv b (st'.body b).vel = ∑ b ∈ group, qv b (st.body b).vel ∧
    ∑ b ∈ group, qp b (st'.body b).pos = ∑ b ∈ group, qp b (st.body b).pos + τ (∑ b ∈ group, qv b (st.body b).vel) := by
  have hp := h.progress
  obtain ⟨cfg, fuel, p, v, he⟩ := h.ran
  have h0 : GroupKept good qv qp τ group st st [] := ⟨hs, rfl, by simp [doneIn]⟩
  obtain ⟨-, k1, k2⟩ := solveLoop_group h.behaved.lawful hg h.graph.consistent hiso hx hadv fuel (progress_start h.ready.idle) h0 ⟨rfl, rfl, rfl⟩ he h.stable
  have hall : doneIn group log = group := by
    refine Finset.filter_true_of_mem fun b hb => ?_
    by_contra hne
    have : b ∈ ([] : List Nat) := (hp.remaining b).2 ⟨hsub b hb, fun D hD hbD => hne ⟨D, hD, hbD⟩⟩
    simp at this
  rw [hall, k1] at k2
  exact ⟨k1, k2⟩

/-! ### A concrete world: 1, 2 and 3 are in a chain, 4 hangs on the ground 0 -/

/-- A constraint moves one unit of velocity, then one of position, from its first body to its second; body 4 is pulled up. -/
def tradeNet : Net Int Int Unit where
  ends := fun
    | .joint 0 => (1, 2)
    | .joint 1 => (2, 3)
    | _ => (4, 0)
  joints := fun
    | 0 => [2]
    | 1 => [0]
    | 2 => [0, 1]
    | 3 => [1]
    | 4 => [2]
    | _ => []
  contacts := fun _ => []
  structuralIn := fun _ b => b == 0
  isRest := fun v => v == 0
  isActive := fun _ _ _ _ => ((), true)
  act := fun ph l i0 i1 s ps vs =>
    if l = .joint 0 ∨ l = .joint 1 then
      if ph = .solvePositions then .ok (s, fun i => ps i + (if i = i1 then 1 else 0) - (if i = i0 then 1 else 0), vs)
      else .ok (s, ps, fun i => vs i + (if i = i1 then 1 else 0) - (if i = i0 then 1 else 0))
    else .ok (s, ps, fun i => if i = i0 ∧ i ≠ i1 then vs i + 3 else vs i)
  advance := fun p v => p + 2 * v

def tradeState : St Int Int Unit where
  body := fun b => ⟨10 * b, b, false, none⟩
  proxies := fun _ => none
  s := ()
  evals := []
  moved := []

theorem trade_behaved : WellBehaved tradeNet := by
  constructor
  · intro ph l i0 i1 s ps vs s' ps' vs' h i h0 h1
    simp only [tradeNet] at h h0 h1
    split at h
    · rename_i hl
      have n0 : i ≠ i0 := by
        intro hi
        rcases hl with rfl | rfl <;> simpa using h0 hi
      have n1 : i ≠ i1 := by
        intro hi
        rcases hl with rfl | rfl <;> simpa using h1 hi
      split at h <;> cases Outcome.ok.inj h <;> simp [n0, n1]
    · rename_i hl
      push Not at hl
      have n0 : i ≠ i0 := by
        intro hi
        have := h0 hi
        match l with
        | .joint 0 => exact hl.1 rfl
        | .joint 1 => exact hl.2 rfl
        | .joint (n + 2) => simp at this
        | .contact n => simp at this
      cases Outcome.ok.inj h
      exact ⟨rfl, if_neg fun h => n0 h.1⟩
  · intro p v h
    have : v = 0 := by simpa [tradeNet] using h
    subst this
    show p + 2 * 0 = p
    simp

theorem trade_graph : WellFormed tradeNet [0, 1, 2, 3, 4] := ⟨by decide, by decide, by decide, by decide⟩

theorem trade_exchanges (l : Link) (hl : l = .joint 0 ∨ l = .joint 1) : Exchanges tradeNet (fun _ => True) (fun _ v => v) (fun _ p => p) l := by
  refine ⟨by rcases hl with rfl | rfl <;> decide, ?_⟩
  intro ph i0 i1 s ps vs s' ps' vs' hne _ h
  simp only [tradeNet, if_pos hl] at h
  split at h <;> cases Outcome.ok.inj h <;> simp [hne, hne.symm]

/-- The hypotheses of `C72_group` are met by 1, 2 and 3 in this world: their velocities are 1, 2, 3 before and -3, 2, 7 after two iterations with
warmstarting, while 4 (not in the group) is pulled up; their positions 10, 20, 30 become 3, 24, 45. -/
example : ∃ st' log, Solved tradeNet (fun _ => true) [0, 1, 2, 3, 4] tradeState st' log ∧ Steady tradeNet (fun _ => True) ∧
    Isolated tradeNet (fun _ => true) {1, 2, 3} ∧
    (∀ b ∈ ({1, 2, 3} : Finset Nat), ∀ l ∈ linksOf tradeNet b, Exchanges tradeNet (fun _ => True) (fun _ v => v) (fun _ p => p) l) ∧
    (∀ p v : Int, tradeNet.advance p v = p + (AddMonoidHom.mulLeft (2 : Int)) v) ∧
    [1, 2, 3, 4].map (fun b => ((st'.body b).pos, (st'.body b).vel)) = [(3, -3), (24, 2), (45, 7), (72, 19)] := by
  have hr : Ready tradeState := ⟨fun _ => rfl, fun _ => rfl⟩
  obtain ⟨st', log, h⟩ := C37_completes trade_behaved trade_graph hr (by
    intro ph l i0 i1 s ps vs
    simp only [tradeNet]
    split
    · split <;> exact ⟨_, rfl⟩
    · exact ⟨_, rfl⟩) ⟨2, 1, true⟩ 0 0 (fuel := 11) (by decide)
  have hv : view [1, 2, 3, 4] (solveIslands tradeNet ⟨2, 1, true⟩ 11 0 0 [0, 1, 2, 3, 4] tradeState) =
      some ([(.joint 2, true), (.joint 1, true), (.joint 0, true)], [([4, 0], [.joint 2]), ([3, 2, 1], [.joint 1, .joint 0])], [4, 0, 3, 2, 1],
        [(3, -3, false), (24, 2, false), (45, 7, false), (72, 19, false)]) := rfl
  rw [h] at hv
  simp only [view, Option.some.injEq, Prod.mk.injEq] at hv
  refine ⟨st', log, ⟨trade_behaved, trade_graph, hr, ⟨_, _, _, _, h⟩, ?_⟩, ⟨fun _ _ _ _ _ _ _ _ _ _ _ _ => trivial, fun _ _ _ _ _ => trivial⟩, ?_, ?_,
    fun _ _ => rfl, ?_⟩
  · rw [hv.1]; decide
  · unfold Isolated; decide
  · intro b hb l hl
    refine trade_exchanges l ?_
    revert b l
    decide
  · have := congrArg (fun y => y.map fun z => (z.1, z.2.1)) hv.2.2.2
    simpa using this

end Simu.Island
