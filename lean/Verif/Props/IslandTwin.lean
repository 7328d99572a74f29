import Verif.Props.IslandFrames
/-
C79: what happens to a group of bodies depends on the group only.
-/
namespace Simu.Island
variable {P V S S' : Type*} {N : Net P V S} {N' : Net P V S'} {A A' : Link → Bool} {world world' : List Nat} {st st1 : St P V S} {st' st1' : St P V S'}
  {log log' : List Record} {agree : Link → S → S' → Prop} {group : Finset Nat}

/-- The same positions and velocities in both worlds. -/
def Frames.same : Frames P V := ⟨Eq, Eq, Eq⟩

theorem Alike.matched {l : Link} (h : Alike N N' agree l) : Matched N N' .same agree agree l := by
  refine ⟨h.ends, ?_, fun _ _ k => k, fun ph _ => ?_, ?_⟩
  · rintro s t p q p' q' k ⟨⟩ ⟨⟩
    exact h.isActive s t p q k
  · exact h.act ph
  · exact h.act _

/-- C79: two worlds in which the same enclosed group of bodies is in the same state are solved with the same settings. Afterwards the group is in the same state again (positions, velocities, internal
states of its constraints), whatever else is in the two worlds. The group may stand on bodies (fixed ones) that others stand on as well. -/
theorem C79_group (h : Solved N A world st st1 log) (h' : Solved N' A' world' st' st1' log') {cfg : Settings} {fuel fuel' : Nat} {p q : P} {v w : V}
    (hr : solveIslands N cfg fuel p v world st = some (.ok (st1, log))) (hr' : solveIslands N' cfg fuel' q w world' st' = some (.ok (st1', log')))
    (hP : Private N agree) (hP' : Private N' fun l s t => agree l t s) (hE : Enclosed N A st group) (hE' : Enclosed N' A' st' group)
    (hG : SameGroup N N' agree world world' st st' group) (hS : SameState N agree st group st st') : SameState N agree st group st1 st1' := by
  have := corresponding_group h h' hr hr' hP hP' hP hP' hE hE' (F := .same) (known := agree) (asked := agree)
    ⟨hG.order, hG.fixed, hG.links, fun l hl => (hG.alike l hl).matched, by rintro p q v w ⟨⟩ ⟨⟩; rw [hG.advance]; rfl, Or.inl rfl⟩ ⟨hS.bodies, hS.links⟩
  exact ⟨this.bodies, this.links⟩

/-! ### A concrete case: 1, 2 and 3 are in a chain, 4 hangs on the ground 0; in a second world 4 is elsewhere, pulled up harder, and comes first -/

/-- As `tradeNet`, but body 4 is pulled up harder, and the internal state of its constraint counts the calls. -/
def tradeNet' : Net Int Int Nat where
  ends := tradeNet.ends
  joints := tradeNet.joints
  contacts := tradeNet.contacts
  structuralIn := tradeNet.structuralIn
  isRest := tradeNet.isRest
  isActive := fun _ s _ _ => (s, true)
  act := fun ph l i0 i1 s ps vs =>
    if l = .joint 0 ∨ l = .joint 1 then (tradeNet.act ph l i0 i1 () ps vs).bind fun r => .ok (s, r.2)
    else .ok (s + 1, ps, fun i => if i = i0 ∧ i ≠ i1 then vs i + 8 else vs i)
  advance := tradeNet.advance

def tradeState' : St Int Int Nat where
  body := fun b => if b = 4 then ⟨7, -7, true, none⟩ else ⟨10 * b, b, false, none⟩
  proxies := fun _ => none
  s := 0
  evals := []
  moved := []

theorem trade_behaved' : WellBehaved tradeNet' := by
  refine ⟨?_, trade_behaved.rest⟩
  intro ph l i0 i1 s ps vs s' ps' vs' h i h0 h1
  simp only [tradeNet'] at h
  split at h
  · obtain ⟨⟨r0, r1, r2⟩, hr, h⟩ := bind_ok_iff.1 h
    cases Outcome.ok.inj h
    exact trade_behaved.act ph l i0 i1 () ps vs _ _ _ hr i h0 h1
  · rename_i hl
    push Not at hl
    have n0 : i ≠ i0 := by
      intro hi
      have := h0 hi
      match l with
      | .joint 0 => exact hl.1 rfl
      | .joint 1 => exact hl.2 rfl
      | .joint (n + 2) => simp [tradeNet', tradeNet] at this
      | .contact n => simp [tradeNet', tradeNet] at this
    cases Outcome.ok.inj h
    exact ⟨rfl, if_neg fun h => n0 h.1⟩

theorem trade_graph' : WellFormed tradeNet' [4, 0, 1, 2, 3] := ⟨by decide, by decide, by decide, by decide⟩

/-- The hypotheses of `C79_group` are met by the group 0, 1, 2, 3 in the two worlds; body 4 ends differently. -/
example : ∃ st1 log st1' log', Solved tradeNet (fun _ => true) [0, 1, 2, 3, 4] tradeState st1 log ∧ Solved tradeNet' (fun _ => true) [4, 0, 1, 2, 3] tradeState' st1' log' ∧
    solveIslands tradeNet ⟨2, 1, true⟩ 11 0 0 [0, 1, 2, 3, 4] tradeState = some (.ok (st1, log)) ∧
    solveIslands tradeNet' ⟨2, 1, true⟩ 11 0 0 [4, 0, 1, 2, 3] tradeState' = some (.ok (st1', log')) ∧
    Private tradeNet (fun _ _ (_ : Nat) => True) ∧ Private tradeNet' (fun _ _ (_ : Unit) => True) ∧
    Enclosed tradeNet (fun _ => true) tradeState {0, 1, 2, 3} ∧ Enclosed tradeNet' (fun _ => true) tradeState' {0, 1, 2, 3} ∧
    SameGroup tradeNet tradeNet' (fun _ _ _ => True) [0, 1, 2, 3, 4] [4, 0, 1, 2, 3] tradeState tradeState' {0, 1, 2, 3} ∧
    SameState tradeNet (fun _ _ (_ : Nat) => True) tradeState {0, 1, 2, 3} tradeState tradeState' ∧
    (st1.body 3).pos = 45 ∧ (st1'.body 3).pos = 45 ∧ (st1.body 4).pos = 72 ∧ (st1'.body 4).pos = 57 := by
  have hr : Ready tradeState := ⟨fun _ => rfl, fun _ => rfl⟩
  have hr' : Ready tradeState' := by
    refine ⟨fun b => ?_, fun _ => rfl⟩
    unfold tradeState'; dsimp only; split <;> rfl
  obtain ⟨st1, log, h⟩ := C37_completes trade_behaved trade_graph hr (by
    intro ph l i0 i1 s ps vs
    simp only [tradeNet]
    split
    · split <;> exact ⟨_, rfl⟩
    · exact ⟨_, rfl⟩) ⟨2, 1, true⟩ 0 0 (fuel := 11) (by decide)
  obtain ⟨st1', log', h'⟩ := C37_completes trade_behaved' trade_graph' hr' (by
    intro ph l i0 i1 s ps vs
    simp only [tradeNet', tradeNet]
    split
    · split <;> exact ⟨_, rfl⟩
    · exact ⟨_, rfl⟩) ⟨2, 1, true⟩ 0 0 (fuel := 11) (by decide)
  have hv : view [3, 4] (solveIslands tradeNet ⟨2, 1, true⟩ 11 0 0 [0, 1, 2, 3, 4] tradeState) =
      some ([(.joint 2, true), (.joint 1, true), (.joint 0, true)], [([4, 0], [.joint 2]), ([3, 2, 1], [.joint 1, .joint 0])], [4, 0, 3, 2, 1],
        [(45, 7, false), (72, 19, false)]) := rfl
  have hv' : (solveIslands tradeNet' ⟨2, 1, true⟩ 11 0 0 [4, 0, 1, 2, 3] tradeState').map (fun r => match r with
      | .ok r => (r.1.evals, (r.1.body 3).pos, (r.1.body 4).pos)
      | _ => ([], 0, 0)) = some ([(.joint 1, true), (.joint 0, true), (.joint 2, true)], 45, 57) := rfl
  rw [h] at hv
  rw [h'] at hv'
  simp only [view, Option.some.injEq, Prod.mk.injEq, Option.map_some] at hv hv'
  have hx := hv.2.2.2
  simp only [List.map_cons, List.map_nil, List.cons.injEq, Prod.mk.injEq, and_true] at hx
  refine ⟨st1, log, st1', log', ⟨trade_behaved, trade_graph, hr, ⟨_, _, _, _, h⟩, ?_⟩, ⟨trade_behaved', trade_graph', hr', ⟨_, _, _, _, h'⟩, ?_⟩, h, h',
    ⟨fun _ _ _ _ _ _ _ _ _ _ _ _ _ _ _ => trivial, fun _ _ _ _ _ _ _ _ => trivial⟩, ⟨fun _ _ _ _ _ _ _ _ _ _ _ _ _ _ _ => trivial, fun _ _ _ _ _ _ _ _ => trivial⟩,
    ?_, ?_, ?_, ?_, hx.1.1, hv'.2.1, hx.2.1, hv'.2.2⟩
  · rw [hv.1]; decide
  · rw [hv'.1]; decide
  · unfold Enclosed Fixed; decide
  · unfold Enclosed Fixed; decide
  · refine ⟨by decide, by unfold Fixed; decide, fun _ _ _ => rfl, fun l hl => ?_, rfl⟩
    have hl : l = .joint 0 ∨ l = .joint 1 := by
      obtain ⟨⟨b, hb, hf, hl⟩, h1, -⟩ := hl
      have key : ∀ b ∈ ({0, 1, 2, 3} : Finset Nat), ¬ (tradeNet.isRest (tradeState.body b).vel = true ∧ ∀ l ∈ linksOf tradeNet b, tradeNet.structuralIn l b = true) →
          ∀ l ∈ linksOf tradeNet b, l = .joint 0 ∨ l = .joint 1 := by decide
      exact key b hb hf l hl
    refine ⟨rfl, fun _ _ _ _ _ => ⟨trivial, rfl⟩, ?_⟩
    intro ph i0 i1 s ps vs s' ps' vs' t qs ws t' qs' ws' _ e1 e2 e3 e4 k k'
    simp only [tradeNet', tradeNet, if_pos hl] at k k'
    split at k
    · rename_i hp
      simp only [if_pos hp] at k'
      cases Outcome.ok.inj k; cases Outcome.ok.inj k'
      simp [e1, e2, e3, e4]
    · rename_i hp
      simp only [if_neg hp] at k'
      cases Outcome.ok.inj k; cases Outcome.ok.inj k'
      simp [e1, e2, e3, e4]
  · exact ⟨by decide, fun _ _ => trivial⟩

/-! ### Sleeping groups are not left alone -/

/-- All bodies are asleep, except body 4 if `z` is true. -/
def dozeState (z : Bool) : St Int Int Unit where
  body := fun b => ⟨10 * b, 0, !(z && b == 4), none⟩
  proxies := fun _ => none
  s := ()
  evals := []
  moved := []

/-- C79 does not extend to sleeping: two worlds with the same group 1, 2, 3 of sleeping bodies at rest, joined to nothing else, differ by another body only, which is asleep in one and awake in the other. The
group sleeps on in the first; in the second it is woken (Island.hpp:78-85 does not reset `isAwake_`). -/
theorem C79_sleep_disagreement : ∃ st1 log st1' log', Solved tradeNet (fun _ => true) [0, 1, 2, 3, 4] (dozeState false) st1 log ∧
    Solved tradeNet (fun _ => true) [0, 1, 2, 3, 4] (dozeState true) st1' log' ∧ Isolated tradeNet (fun _ => true) {1, 2, 3} ∧
    (∀ b, b ≠ 4 → (dozeState false).body b = (dozeState true).body b) ∧
    (∀ b ∈ ({1, 2, 3} : Finset Nat), ((dozeState true).body b).asleep = true ∧ (st1.body b).asleep = true ∧ (st1'.body b).asleep = false) := by
  have hr : ∀ z, Ready (dozeState z) := fun z => ⟨fun _ => rfl, fun _ => rfl⟩
  have run := fun z => C37_completes trade_behaved trade_graph (hr z) (by
    intro ph l i0 i1 s ps vs
    simp only [tradeNet]
    split
    · split <;> exact ⟨_, rfl⟩
    · exact ⟨_, rfl⟩) ⟨2, 1, true⟩ 0 0 (fuel := 11) (by decide)
  obtain ⟨st1, log, h⟩ := run false
  obtain ⟨st1', log', h'⟩ := run true
  let seen : Option (Outcome (St Int Int Unit × List Record)) → Option (List (Link × Bool) × List Bool) := fun r => r.bind fun r => match r with
    | .ok r => some (r.1.evals, [1, 2, 3].map fun b => (r.1.body b).asleep)
    | _ => none
  have hv : seen (solveIslands tradeNet ⟨2, 1, true⟩ 11 0 0 [0, 1, 2, 3, 4] (dozeState false)) =
      some ([(.joint 2, true), (.joint 1, true), (.joint 0, true)], [true, true, true]) := rfl
  have hv' : seen (solveIslands tradeNet ⟨2, 1, true⟩ 11 0 0 [0, 1, 2, 3, 4] (dozeState true)) =
      some ([(.joint 2, true), (.joint 1, true), (.joint 0, true)], [false, false, false]) := rfl
  rw [h] at hv
  rw [h'] at hv'
  simp only [seen, Option.bind_some, Option.some.injEq, Prod.mk.injEq, List.map_cons, List.map_nil, List.cons.injEq, and_true] at hv hv'
  refine ⟨st1, log, st1', log', ⟨trade_behaved, trade_graph, hr _, ⟨_, _, _, _, h⟩, ?_⟩, ⟨trade_behaved, trade_graph, hr _, ⟨_, _, _, _, h'⟩, ?_⟩, by unfold Isolated; decide, ?_, ?_⟩
  · rw [hv.1]; decide
  · rw [hv'.1]; decide
  · intro b hb
    have : (b == 4) = false := by simpa using hb
    simp [dozeState, this]
  · intro b hb
    have hb : b = 1 ∨ b = 2 ∨ b = 3 := by simpa using hb
    rcases hb with rfl | rfl | rfl
    · exact ⟨rfl, hv.2.1, hv'.2.1⟩
    · exact ⟨rfl, hv.2.2.1, hv'.2.2.1⟩
    · exact ⟨rfl, hv.2.2.2, hv'.2.2.2⟩

end Simu.Island
