import Verif.Lemmas.Grabber
import Verif.Props.World
/-
C66: grabbing bodies with the mouse.
-/
namespace Simu.World
open World

/-- **C66, partial.** Missing: what is held may be destroyed (see the disagreements). If what is held is spared, the events of the mouse are defined and do not throw;
of all the constraints the tool made at most one is alive, the one it holds; after a release none is. -/
theorem C66_grab_partial {cfg : Cfg} {g : Grab} (h : GReachable cfg g) :
    g.move.2 = .ok () ∧ g.release.2 = .ok () ∧ (∀ bs, (∀ b ∈ bs, b ∈ g.w.bodies ∧ ¬DeadBody g.w b) → (g.press bs).2 = .ok ()) ∧
    (∀ m ∈ g.made, ∀ n ∈ g.made, LiveJoint g.w m → LiveJoint g.w n → m = n ∧ g.mc = some m) ∧ (∀ n, g.mc = some n → LiveJoint g.w n ∧ ∃ b, Holds g b) ∧
    (∀ n ∈ g.release.1.made, ¬LiveJoint g.release.1.w n) ∧ ∀ b, ¬Holds g.release.1 b := by
  have i := h.ginv
  obtain ⟨r1, r2⟩ := release_spec i
  have hmc : g.release.1.mc = none := by
    obtain ⟨k1, -⟩ := killHeld_spec i
    unfold Grab.release
    generalize g.killHeld = q at *
    obtain ⟨g', o⟩ := q
    simp only at k1
    subst k1
    rfl
  refine ⟨?_, r1, fun bs hb => (press_spec bs i hb).1, fun m hm n hn lm ln => ?_, fun n hn => ?_, fun n hn hl => ?_, ?_⟩
  · unfold Grab.move
    cases hm : g.mc with
    | none => rfl
    | some n =>
      obtain ⟨J, hJ, -⟩ := i.held n hm
      simp [hJ]
  · have a := i.only m hm lm
    have b := i.only n hn ln
    rw [a, Option.some.injEq] at b
    exact ⟨b, a⟩
  · obtain ⟨J, hJ, a1, a2, -⟩ := i.held n hn
    exact ⟨⟨J, hJ, a1⟩, J.b0, n, J, hn, hJ, a1, rfl, a2.symm⟩
  · have := r2.only n hn hl
    rw [hmc] at this
    exact absurd this (by simp)
  · rintro b ⟨n, J, hn, -⟩
    rw [hmc] at hn
    exact absurd hn (by simp)

/-- The last of the bodies under the mouse that are not structural. -/
def lastMovable (w : World) (bs : List Nat) : Option Nat := (bs.filter fun b => (w.body b).any fun r => !r.structural).getLast?

theorem holds_unique {g : Grab} {a b : Nat} (h : Holds g a) (h' : Holds g b) : a = b := by
  obtain ⟨n, J, h1, h2, -, h3, -⟩ := h
  obtain ⟨m, K, k1, k2, -, k3, -⟩ := h'
  rw [h1, Option.some.injEq] at k1
  subst k1
  rw [h2, Option.some.injEq] at k2
  subst k2
  exact h3.symm.trans k3

/-- One body under the mouse. -/
theorem grab_holds {g : Grab} (h : GInv g) {b : Nat} (hb : b ∈ g.w.bodies) :
    (∀ x, ((g.grab b).1.w.body x).any (fun r => !r.structural) = (g.w.body x).any fun r => !r.structural) ∧
    if (g.w.body b).any fun r => !r.structural then Holds (g.grab b).1 b else (g.grab b).1 = g := by
  obtain ⟨r, hr⟩ := Option.isSome_iff_exists.1 ((h.inv.bodies_iff b).1 hb)
  unfold Grab.grab
  rw [hr]
  simp only [Option.any_some]
  by_cases hs : r.structural = true
  · simp [hs]
  · obtain ⟨k1, k2, k3, k4, k5, k6, k7⟩ := killHeld_spec h
    generalize hg' : g.killHeld = q at *
    obtain ⟨g', o⟩ := q
    simp only at k1 k2 k3 k4 k5 k6 k7
    subst k1
    rw [if_neg hs, if_pos (by simpa using hs)]
    simp only
    have hb' : b ∈ g'.w.bodies := by rw [k5]; exact hb
    rw [makeConstraint_eq k2.toInv0 false hb' hb']
    refine ⟨fun x => ?_, g'.w.next, ⟨b, b, false, false⟩, rfl, Function.update_self .., rfl, rfl, rfl⟩
    simp only [addJoint, k4]
    cases g.w.body x with
    | none => rfl
    | some r => simp only [Option.map_some, Option.any_some]; split_ifs <;> rfl

theorem lastMovable_congr {w w' : World} (e : ∀ x, (w'.body x).any (fun r => !r.structural) = (w.body x).any fun r => !r.structural) (bs : List Nat) :
    lastMovable w' bs = lastMovable w bs := by
  unfold lastMovable
  simp only [e]

theorem lastMovable_cons {w : World} (b : Nat) (bs : List Nat) :
    lastMovable w (b :: bs) = (lastMovable w bs).or (if (w.body b).any fun r => !r.structural then some b else none) := by
  unfold lastMovable
  rw [List.filter_cons]
  split_ifs with h
  · rw [List.getLast?_cons]
    cases (List.filter _ bs).getLast? <;> rfl
  · cases (List.filter _ bs).getLast? <;> rfl

/-- **C66.** Pressing the button grabs the last body that is not structural; if there is none nothing changes. -/
theorem C66_press {cfg : Cfg} {g : Grab} (h : GReachable cfg g) (bs : List Nat) (hb : ∀ b ∈ bs, b ∈ g.w.bodies ∧ ¬DeadBody g.w b) :
    (∀ b, lastMovable g.w bs = some b → ∀ x, Holds (g.press bs).1 x ↔ x = b) ∧ (lastMovable g.w bs = none → (g.press bs).1 = g) := by
  have i := h.ginv
  clear h
  have main : (∀ b, lastMovable g.w bs = some b → Holds (g.press bs).1 b) ∧ (lastMovable g.w bs = none → (g.press bs).1 = g) := by
    induction bs generalizing g with
    | nil => exact ⟨by simp [lastMovable], fun _ => rfl⟩
    | cons b bs ih =>
      obtain ⟨a1, a2, a3, a4⟩ := grab_spec i (hb b (by simp)).1 (hb b (by simp)).2
      obtain ⟨s1, s2⟩ := grab_holds i (hb b (by simp)).1
      rw [Grab.press, lastMovable_cons]
      generalize hg' : g.grab b = q at *
      obtain ⟨g', o⟩ := q
      simp only at a1 a2 a3 a4 s1 s2
      subst a1
      simp only
      obtain ⟨i1, i2⟩ := ih (fun x hx => ⟨(a3 x).2 (hb x (by simp [hx])).1, fun hd => (hb x (by simp [hx])).2 (a4 x hd)⟩) a2
      rw [lastMovable_congr s1] at i1 i2
      cases hl : lastMovable g.w bs with
      | some y => exact ⟨fun c hc => i1 c (hl.trans hc), by simp⟩
      | none =>
        rw [i2 hl]
        split_ifs at s2 ⊢ with hm
        · exact ⟨fun c hc => by rw [Option.none_or, Option.some.injEq] at hc; rw [← hc]; exact s2, by simp⟩
        · exact ⟨by simp, fun _ => s2⟩
  exact ⟨fun b hb' x => ⟨fun hx => holds_unique hx (main.1 b hb'), fun e => e ▸ main.1 b hb'⟩, main.2⟩

/-! ### A history -/

/-- The world where the colliders of bodies 0 (structural) and 1 touch, and the mouse is pressed over both. -/
def grabbed : Grab := ((⟨touching, none, []⟩ : Grab).press [0, 1, 1]).1

/-- Body 1 is held, by the second constraint that was made. -/
example : grabbed.mc = some 6 ∧ grabbed.made = [5, 6] ∧ grabbed.w.joint 5 = some ⟨1, 1, false, true⟩ ∧ grabbed.w.joint 6 = some ⟨1, 1, false, false⟩ := by decide

/-- After a step and a release the constraints are gone with the next step. -/
example : (grabbed.apply ⟨true⟩ (.step true allPairs none)).1.w.joints = [6] ∧
    ((grabbed.apply ⟨true⟩ (.step true allPairs none)).1.release.1.apply ⟨true⟩ (.step true allPairs none)).1.w.joints = [] := by decide

/-- A history of the tool ends there. -/
theorem grabbed_reachable : GReachable ⟨true⟩ grabbed := by
  have lift : ∀ w, Reachable ⟨true⟩ w → GReachable ⟨true⟩ ⟨w, none, []⟩ := by
    intro w h
    induction h with
    | init => exact .init
    | op _ o ha hd ih =>
      refine .op ih o ha hd ?_
      cases o <;> simp [Op.Spares]
  refine .press (lift _ touching_reachable) [0, 1, 1] fun b hb => ?_
  have hb' : b = 0 ∨ b = 1 := by
    simp only [List.mem_cons, List.not_mem_nil, or_false] at hb
    tauto
  rcases hb' with rfl | rfl
  · exact ⟨show 0 ∈ [0, 1] by decide, fun ⟨r, hr, hk⟩ => by
      rw [show touching.body 0 = some ⟨true, false, [2], [], [4]⟩ by decide, Option.some.injEq] at hr
      rw [← hr] at hk; exact absurd hk (by simp)⟩
  · exact ⟨show 1 ∈ [0, 1] by decide, fun ⟨r, hr, hk⟩ => by
      rw [show touching.body 1 = some ⟨false, false, [3], [], [4]⟩ by decide, Option.some.injEq] at hr
      rw [← hr] at hk; exact absurd hk (by simp)⟩

/-- `C66_grab_partial` applies to it. -/
example : grabbed.move.2 = .ok () := (C66_grab_partial grabbed_reachable).1

/-! ### What is held may be destroyed -/

/-- **C66, disagreement.** If the body that is held is killed, then after a step the events of the mouse use a constraint that was destroyed. The same happens when
the world is cleared (the scene is reset) while a body is held. -/
theorem C66_dangling_disagreement : ∃ g b, GReachable ⟨true⟩ g ∧ Holds g b ∧ b ∈ g.w.bodies ∧
    let g1 := ((g.apply ⟨true⟩ (.killBody b)).1.apply ⟨true⟩ (.step true allPairs none)).1;
    let g2 := (g.apply ⟨true⟩ .clear).1;
    (g.apply ⟨true⟩ (.killBody b)).2 = .ok () ∧ ((g.apply ⟨true⟩ (.killBody b)).1.apply ⟨true⟩ (.step true allPairs none)).2 = .ok () ∧
    g1.move.2 = .ub ∧ g1.release.2 = .ub ∧ (g.apply ⟨true⟩ .clear).2 = .ok () ∧ g2.move.2 = .ub ∧ g2.release.2 = .ub := by
  refine ⟨grabbed, 1, grabbed_reachable, ⟨6, ⟨1, 1, false, false⟩, ?_⟩, ?_, ?_⟩ <;> decide

end Simu.World
