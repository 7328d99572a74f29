import Verif.Lemmas.WorldOrder
import Verif.Props.World
/-
C90: a program gives the same simulation in every run, although the order of the contacts in their hash table depends on addresses.
-/
namespace Simu.World
open World

theorem ProperRun.runs {cfg : Cfg} {ops : List Op} {w : World} {rs : List (Outcome Unit)} (h : ProperRun cfg ops w rs) : Runs cfg ops w rs := by
  induction h with
  | init => exact .init
  | op _ order hp o _ _ ih => exact .op ih order hp o

/-- C90: two runs of the same program, the operations of one being allowed: they are in the other one as well, each of them returns or throws alike, and the worlds they leave differ at most in the
order of the elements of the hash table and of the events. In particular every body lists its constraints and contacts in the same order, which is that of the solver. -/
theorem C90_runs {cfg : Cfg} {ops : List Op} {w w' : World} {rs rs' : List (Outcome Unit)} (h : ProperRun cfg ops w rs) (h' : Runs cfg ops w' rs') :
    SameUpToOrder w w' ∧ rs' = rs ∧ ProperRun cfg ops w' rs' := by
  have key : ∀ {ops w rs}, ProperRun cfg ops w rs → Inv w ∧ ∀ {w' rs'}, Runs cfg ops w' rs' → SameUpToOrder w w' ∧ rs' = rs ∧ ProperRun cfg ops w' rs' := by
    intro ops w rs h
    induction h with
    | init =>
      refine ⟨inv_init, fun {w' rs'} h' => ?_⟩
      generalize e : ([] : List Op) = l at h'
      cases h' with
      | init => exact ⟨.refl _, rfl, .init⟩
      | op _ _ _ _ => simp at e
    | @op ops w rs _ order hp o ha hd ih =>
      obtain ⟨hi, ih⟩ := ih
      have hs : SameUpToOrder w { w with contacts := order } := ⟨rfl, rfl, rfl, rfl, hp, rfl, rfl, rfl, rfl, rfl, rfl, .refl _⟩
      refine ⟨(inv_apply (same_inv hs hi) o (same_allowed hs o ha) (same_safe hs o hd)).1, fun {w' rs'} h' => ?_⟩
      generalize e : ops ++ [o] = l at h'
      cases h' with
      | init => simp at e
      | @op ops' u rs'' h'' order' hp' o' =>
        obtain ⟨rfl, e2⟩ := List.append_inj' e rfl
        obtain rfl : o = o' := by simpa using e2
        obtain ⟨a1, rfl, a3⟩ := ih h''
        have hs' : SameUpToOrder u { u with contacts := order' } := ⟨rfl, rfl, rfl, rfl, hp', rfl, rfl, rfl, rfl, rfl, rfl, .refl _⟩
        have ha' := same_allowed a1 o ha
        have hd' := same_safe a1 o hd
        obtain ⟨b1, b2⟩ := same_apply cfg (hs.symm.trans (a1.trans hs')) (same_inv hs hi) o (same_allowed hs o ha) (same_safe hs o hd)
        exact ⟨b1, by rw [b2], .op a3 order' hp' o ha' hd'⟩
  exact (key h).2 h'

/-- C90: what `solveIslands` gets to see is the same. -/
theorem C90_solver {cfg : Cfg} {ops : List Op} {w w' : World} {rs rs' : List (Outcome Unit)} (h : ProperRun cfg ops w rs) (h' : Runs cfg ops w' rs') :
    w'.bodies = w.bodies ∧ (∀ b, (w'.body b).map (fun r => (r.joints, r.contacts)) = (w.body b).map fun r => (r.joints, r.contacts)) ∧ w'.tree = w.tree := by
  obtain ⟨a, -⟩ := C90_runs h h'
  exact ⟨a.bodies, fun b => by rw [a.body], a.tree⟩

theorem ProperRun.inv {cfg : Cfg} {ops : List Op} {w : World} {rs : List (Outcome Unit)} (h : ProperRun cfg ops w rs) : Inv w := by
  induction h with
  | init => exact inv_init
  | @op _ w _ _ order hp o ha hd ih =>
    have hs : SameUpToOrder w { w with contacts := order } := ⟨rfl, rfl, rfl, rfl, hp, rfl, rfl, rfl, rfl, rfl, rfl, .refl _⟩
    exact (inv_apply (same_inv hs ih) o (same_allowed hs o ha) (same_safe hs o hd)).1

/-- The world in which two boxes (1 and 2) and a floor (0), with a collider each (3, 4, 5), were made. -/
def floorAndBoxes : World := (((((init.makeBody true).makeBody false).makeBody false).addCollider 0 true).1.addCollider 1 true).1.addCollider 2 true |>.1

/-- The calls made so far, and a step in which all touch. -/
def floorAndBoxesOps : List Op := [.makeBody true, .makeBody false, .makeBody false, .addCollider 0 true, .addCollider 1 true, .addCollider 2 true]

theorem floorAndBoxes_run : ProperRun ⟨true⟩ floorAndBoxesOps floorAndBoxes [.ok (), .ok (), .ok (), .ok (), .ok (), .ok ()] := by
  have h1 := ProperRun.op (cfg := ⟨true⟩) .init [] (.refl _) (.makeBody true) trivial trivial
  have h2 := h1.op [] (.refl _) (.makeBody false) trivial trivial
  have h3 := h2.op [] (.refl _) (.makeBody false) trivial trivial
  have h4 := h3.op [] (.refl _) (.addCollider 0 true) (show 0 ∈ [0, 1, 2] by decide) trivial
  have h5 := h4.op [] (.refl _) (.addCollider 1 true) (show 1 ∈ [0, 1, 2] by decide) trivial
  exact h5.op [] (.refl _) (.addCollider 2 true) (show 2 ∈ [0, 1, 2] by decide) trivial

theorem step_allowed {w : World} (ht : w.tree = [3, 4, 5]) (hb : w.bodies = [0, 1, 2]) (hi : Inv w)
    (hs : (w.body (w.owner 3)).any (·.structural) = true ∧ (w.body (w.owner 4)).any (·.structural) = false ∧ (w.body (w.owner 5)).any (·.structural) = false)
    (hk : ∀ b ∈ [0, 1, 2], (w.body b).any (·.killed) = false) : Op.Allowed w (.step true allPairs none) ∧ Op.DestroysSafely ⟨true⟩ w (.step true allPairs none) := by
  refine ⟨⟨_, allPairs_reports, fun k0 h0 k1 h1 _ hne hh => ?_⟩, ?_⟩
  · rw [ht] at h0 h1
    simp only [List.mem_cons, List.not_mem_nil, or_false] at h0 h1
    rcases h0 with rfl | rfl | rfl <;> rcases h1 with rfl | rfl | rfl <;> simp_all
  · rintro b ⟨r, hr, hkr⟩
    have hm := (hi.bodies_iff b).2 (by simp [hr])
    rw [hb] at hm
    have := hk b hm
    rw [hr] at this
    simp only [Option.any_some] at this
    rw [this] at hkr
    cases hkr

/-- A step gives three contacts; before the next step a hash table holds them in the order of insertion in one run, and in the reverse order in another one. -/
example : ∃ w w' rs rs', ProperRun ⟨true⟩ (floorAndBoxesOps ++ [.step true allPairs none] ++ [.step true allPairs none]) w rs ∧
    Runs ⟨true⟩ (floorAndBoxesOps ++ [.step true allPairs none] ++ [.step true allPairs none]) w' rs' ∧
    w.contacts = [6, 7, 8] ∧ w'.contacts = [8, 7, 6] ∧ SameUpToOrder w w' ∧ rs' = rs := by
  obtain ⟨a1, a2⟩ := step_allowed rfl rfl floorAndBoxes_run.inv (by decide) (by decide)
  have h1 := floorAndBoxes_run.op [] (.refl _) (.step true allPairs none) a1 a2
  obtain ⟨b1, b2⟩ := step_allowed (by decide) (by decide) h1.inv (by decide) (by decide)
  have h2 := h1.op [6, 7, 8] (by decide) (.step true allPairs none) b1 b2
  have h3 := h1.runs.op [8, 7, 6] (by decide) (.step true allPairs none)
  obtain ⟨c1, c2, -⟩ := C90_runs h2 h3
  exact ⟨_, _, _, _, h2, h3, by decide, by decide, c1, c2⟩

end Simu.World
