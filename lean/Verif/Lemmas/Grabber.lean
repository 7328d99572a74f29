import Verif.Spec.Grabber
import Verif.Lemmas.WorldReach
/-
Lemmas about the grabbing tool.
-/
namespace Simu.World
open World

/-- The invariant. -/
structure GInv (g : Grab) : Prop where
  inv : Inv g.w
  held : ∀ n, g.mc = some n → ∃ J, g.w.joint n = some J ∧ J.killed = false ∧ J.b0 = J.b1 ∧ ¬DeadBody g.w J.b0
  made : ∀ n ∈ g.made, n < g.w.next
  only : ∀ n ∈ g.made, LiveJoint g.w n → g.mc = some n

theorem killJoint_other {w : World} {n m : Nat} (h : m ≠ n) : (w.killJoint n).1.joint m = w.joint m := by
  unfold killJoint
  cases w.joint n with
  | none => rfl
  | some J => simp [Function.update_of_ne h]

theorem killJoint_self {w : World} {n : Nat} : ¬LiveJoint (w.killJoint n).1 n := by
  rintro ⟨J, hJ, hk⟩
  unfold killJoint at hJ
  cases h : w.joint n with
  | none => simp [h] at hJ
  | some J' =>
    simp only [h, Function.update_self, Option.some.injEq] at hJ
    rw [← hJ] at hk
    exact absurd hk (by simp)

theorem killJoint_rest {w : World} (n : Nat) : (w.killJoint n).1.body = w.body ∧ (w.killJoint n).1.bodies = w.bodies ∧ (w.killJoint n).1.next = w.next := by
  unfold killJoint
  cases w.joint n <;> simp

theorem killHeld_spec {g : Grab} (h : GInv g) : g.killHeld.2 = .ok () ∧ Inv g.killHeld.1.w ∧ g.killHeld.1.made = g.made ∧ g.killHeld.1.w.body = g.w.body ∧
    g.killHeld.1.w.bodies = g.w.bodies ∧ g.killHeld.1.w.next = g.w.next ∧ ∀ n ∈ g.made, ¬LiveJoint g.killHeld.1.w n := by
  unfold Grab.killHeld
  cases hm : g.mc with
  | none =>
    refine ⟨rfl, h.inv, rfl, rfl, rfl, rfl, fun n hn hl => ?_⟩
    have := h.only n hn hl
    rw [hm] at this
    exact absurd this (by simp)
  | some m =>
    obtain ⟨J, hJ, -⟩ := h.held m hm
    obtain ⟨r1, r2, r3⟩ := killJoint_rest (w := g.w) m
    refine ⟨by simp [killJoint, hJ], h.inv.killJoint m, rfl, r1, r2, r3, fun n hn hl => ?_⟩
    by_cases e : n = m
    · subst e; exact killJoint_self hl
    · obtain ⟨J', hJ', hk⟩ := hl
      simp only at hJ'
      rw [killJoint_other e] at hJ'
      have := h.only n hn ⟨J', hJ', hk⟩
      rw [hm, Option.some.injEq] at this
      exact e this.symm

theorem grab_spec {g : Grab} (h : GInv g) {b : Nat} (hb : b ∈ g.w.bodies) (hd : ¬DeadBody g.w b) :
    (g.grab b).2 = .ok () ∧ GInv (g.grab b).1 ∧ (∀ x, x ∈ (g.grab b).1.w.bodies ↔ x ∈ g.w.bodies) ∧ ∀ x, DeadBody (g.grab b).1.w x → DeadBody g.w x := by
  obtain ⟨r, hr⟩ := Option.isSome_iff_exists.1 ((h.inv.bodies_iff b).1 hb)
  unfold Grab.grab
  rw [hr]
  simp only
  split_ifs
  · exact ⟨rfl, h, fun x => Iff.rfl, fun x hx => hx⟩
  · obtain ⟨k1, k2, k3, k4, k5, k6, k7⟩ := killHeld_spec h
    generalize hg' : g.killHeld = q at *
    obtain ⟨g', o⟩ := q
    simp only at k1 k2 k3 k4 k5 k6 k7
    subst k1
    simp only
    have hb' : b ∈ g'.w.bodies := by rw [k5]; exact hb
    rw [makeConstraint_eq k2.toInv0 false hb' hb']
    have hi := k2.addJoint false hb' hb'
    have hbody : ∀ x, DeadBody (addJoint g'.w b b false) x → DeadBody g.w x := by
      rintro x ⟨rx, hx, hk⟩
      obtain ⟨r', hr', rfl⟩ := Option.map_eq_some_iff.1 hx
      rw [k4] at hr'
      refine ⟨r', hr', ?_⟩
      split_ifs at hk <;> exact hk
    refine ⟨rfl, ⟨hi, fun n hn => ?_, fun n hn => ?_, fun n hn hl => ?_⟩, fun x => ?_, hbody⟩
    · simp only [Option.some.injEq] at hn
      subst hn
      exact ⟨_, Function.update_self .., rfl, rfl, fun hdd => hd (hbody _ hdd)⟩
    · rw [List.mem_append, List.mem_singleton] at hn
      rcases hn with hn | rfl
      · have := h.made n (k3 ▸ hn)
        show n < g'.w.next + 1
        rw [k6]; omega
      · exact Nat.lt_succ_self _
    · rw [List.mem_append, List.mem_singleton] at hn
      rcases hn with hn | rfl
      · exfalso
        have hlt := h.made n (k3 ▸ hn)
        obtain ⟨J, hJ, hk⟩ := hl
        have hne : n ≠ g'.w.next := by rw [k6]; omega
        simp only [addJoint, Function.update_of_ne hne] at hJ
        exact k7 n (k3 ▸ hn) ⟨J, hJ, hk⟩
      · rfl
    · show x ∈ g'.w.bodies ↔ _
      rw [k5]

theorem press_spec (bs : List Nat) : ∀ {g : Grab}, GInv g → (∀ b ∈ bs, b ∈ g.w.bodies ∧ ¬DeadBody g.w b) → (g.press bs).2 = .ok () ∧ GInv (g.press bs).1 := by
  induction bs with
  | nil => intro g h _; exact ⟨rfl, h⟩
  | cons b bs ih =>
    intro g h hb
    obtain ⟨a1, a2, a3, a4⟩ := grab_spec h (hb b (by simp)).1 (hb b (by simp)).2
    rw [Grab.press]
    generalize hg' : g.grab b = q at *
    obtain ⟨g', o⟩ := q
    simp only at a1 a2 a3 a4
    subst a1
    exact ih a2 fun x hx => ⟨(a3 x).2 (hb x (by simp [hx])).1, fun hd => (hb x (by simp [hx])).2 (a4 x hd)⟩

theorem release_spec {g : Grab} (h : GInv g) : g.release.2 = .ok () ∧ GInv g.release.1 := by
  obtain ⟨k1, k2, k3, k4, k5, k6, k7⟩ := killHeld_spec h
  unfold Grab.release
  generalize hg' : g.killHeld = q at *
  obtain ⟨g', o⟩ := q
  simp only at k1 k2 k3 k4 k5 k6 k7
  subst k1
  refine ⟨rfl, k2, by simp, fun n hn => ?_, fun n hn hl => absurd hl (k7 n (k3 ▸ hn))⟩
  show n < g'.w.next
  rw [k6]
  exact h.made n (k3 ▸ hn)

/-- An operation that leaves the constraints there were, and the killed bodies. -/
structure Calm (w w' : World) : Prop where
  next : w.next ≤ w'.next
  joint : ∀ n, n < w.next → w'.joint n = w.joint n
  dead : ∀ b, DeadBody w' b → DeadBody w b

theorem DeadBody.map {w w' : World} (f : Nat → BodyRec → BodyRec) (hf : ∀ b r, (f b r).killed = r.killed) (e : ∀ b, w'.body b = (w.body b).map (f b)) (b : Nat)
    (h : DeadBody w' b) : DeadBody w b := by
  obtain ⟨r, hr, hk⟩ := h
  rw [e, Option.map_eq_some_iff] at hr
  obtain ⟨r', hr', rfl⟩ := hr
  exact ⟨r', hr', by rw [← hf b r']; exact hk⟩

theorem Calm.ginv {g : Grab} (h : GInv g) {w' : World} (hi : Inv w') (c : Calm g.w w') : GInv { g with w := w' } where
  inv := hi
  held n hn := by
    obtain ⟨J, hJ, a1, a2, a3⟩ := h.held n hn
    exact ⟨J, (c.joint n (h.inv.fresh_joint n J hJ)).trans hJ, a1, a2, fun hd => a3 (c.dead _ hd)⟩
  made n hn := lt_of_lt_of_le (h.made n hn) c.next
  only n hn hl := by
    obtain ⟨J, hJ, hk⟩ := hl
    exact h.only n hn ⟨J, (c.joint n (h.made n hn)) ▸ hJ, hk⟩

theorem update_dead {w w' : World} {b : Nat} {r r' : BodyRec} (hr : w.body b = some r) (hk : r'.killed = r.killed) (e : w'.body = Function.update w.body b (some r')) (x : Nat)
    (h : DeadBody w' x) : DeadBody w x := by
  obtain ⟨q, hq, hqk⟩ := h
  rw [e] at hq
  by_cases hx : x = b
  · subst hx
    rw [Function.update_self, Option.some.injEq] at hq
    exact ⟨r, hr, by rw [← hk, hq]; exact hqk⟩
  · rw [Function.update_of_ne hx] at hq
    exact ⟨q, hq, hqk⟩

/-- What stays true of the tool when the world changes. -/
theorem held_apply {cfg : Cfg} {g : Grab} (h : GInv g) (o : Op) (ha : o.Allowed g.w) (hd : o.DestroysSafely cfg g.w) (hs : o.Spares g) : GInv (g.apply cfg o).1 := by
  have hi := (inv_apply h.inv o ha hd).1
  have calm : Calm g.w (g.w.apply cfg o).1 → GInv (g.apply cfg o).1 := fun c => c.ginv h hi
  cases o with
  | makeBody s =>
    refine calm ⟨Nat.le_succ _, fun _ _ => rfl, ?_⟩
    rintro b ⟨r, hr, hk⟩
    simp only [World.apply, World.makeBody] at hr
    by_cases e : b = g.w.next
    · subst e
      rw [Function.update_self, Option.some.injEq] at hr
      rw [← hr] at hk
      exact absurd hk (by simp)
    · rw [Function.update_of_ne e] at hr
      exact ⟨r, hr, hk⟩
  | makeConstraint b0 b1 d f =>
    obtain ⟨h0, h1⟩ := ha
    cases f with
    | true =>
      refine calm ?_
      have : (g.w.makeConstraint b0 b1 d true).1 = g.w := by
        obtain ⟨r0, h0⟩ := Option.isSome_iff_exists.1 ((h.inv.bodies_iff b0).1 h0)
        obtain ⟨r1, h1⟩ := Option.isSome_iff_exists.1 ((h.inv.bodies_iff b1).1 h1)
        simp [World.makeConstraint, h0, h1]
      simp only [World.apply, this]
      exact ⟨le_rfl, fun _ _ => rfl, fun _ hb => hb⟩
    | false =>
      refine calm ?_
      simp only [World.apply]
      rw [makeConstraint_eq h.inv.toInv0 d h0 h1]
      refine ⟨Nat.le_succ _, fun n hn => Function.update_of_ne (ne_of_lt hn) .., fun b hb => ?_⟩
      obtain ⟨r, hr, hk⟩ := hb
      obtain ⟨r', hr', rfl⟩ := Option.map_eq_some_iff.1 hr
      refine ⟨r', hr', ?_⟩
      split_ifs at hk <;> exact hk
  | makeForce => exact calm ⟨Nat.le_succ _, fun _ _ => rfl, fun _ hb => hb⟩
  | addCollider b v =>
    refine calm ?_
    obtain ⟨r, hr⟩ := Option.isSome_iff_exists.1 ((h.inv.bodies_iff b).1 ha)
    simp only [World.apply, World.addCollider, hr]
    split_ifs
    all_goals exact ⟨Nat.le_succ _, fun _ _ => rfl, fun x hx => update_dead (r' := { r with colliders := r.colliders ++ [g.w.next] }) hr rfl rfl x hx⟩
  | removeCollider k =>
    refine calm ?_
    obtain ⟨r, hr, hkr⟩ := h.inv.tree_owned k ha
    simp only [World.apply]
    rw [removeCollider_eq h.inv.toInv0.weak ha hr]
    exact ⟨le_rfl, fun _ _ => rfl, fun x hx => update_dead (r' := { r with colliders := r.colliders.filter (· ≠ k) }) hr rfl rfl x hx⟩
  | killBody b =>
    obtain ⟨r, hr⟩ := Option.isSome_iff_exists.1 ((h.inv.bodies_iff b).1 ha)
    have e : (g.w.killBody b).1 = g.w.setBody b { r with killed := true } := by simp [World.killBody, hr]
    refine ⟨hi, fun n hn => ?_, fun n hn => ?_, fun n hn hl => ?_⟩
    · obtain ⟨J, hJ, a1, a2, a3⟩ := h.held n hn
      refine ⟨J, ?_, a1, a2, ?_⟩
      · show (g.w.killBody b).1.joint n = _
        rw [e]; exact hJ
      · rintro ⟨q, hq, hk⟩
        have hne : J.b0 ≠ b := fun e' => hs n J hn hJ e'.symm
        have : (g.w.killBody b).1.body J.b0 = g.w.body J.b0 := by
          rw [e]; exact Function.update_of_ne hne ..
        exact a3 ⟨q, this ▸ hq, hk⟩
    · show n < (g.w.killBody b).1.next
      rw [e]; exact h.made n hn
    · refine h.only n hn ?_
      obtain ⟨J, hJ, hk⟩ := hl
      have hJ' : (g.w.killBody b).1.joint n = some J := hJ
      rw [e] at hJ'
      exact ⟨J, hJ', hk⟩
  | killJoint m =>
    obtain ⟨r1, r2, r3⟩ := killJoint_rest (w := g.w) m
    refine ⟨hi, fun n hn => ?_, fun n hn => ?_, fun n hn hl => ?_⟩
    · obtain ⟨J, hJ, a1, a2, a3⟩ := h.held n hn
      have hne : n ≠ m := fun e => hs (e ▸ hn)
      refine ⟨J, (killJoint_other hne).trans hJ, a1, a2, ?_⟩
      rintro ⟨q, hq, hk⟩
      have hq' : (g.w.killJoint m).1.body J.b0 = some q := hq
      rw [r1] at hq'
      exact a3 ⟨q, hq', hk⟩
    · show n < (g.w.killJoint m).1.next
      rw [r3]; exact h.made n hn
    · refine h.only n hn ?_
      by_cases e : n = m
      · subst e; exact absurd hl killJoint_self
      · obtain ⟨J, hJ, hk⟩ := hl
        exact ⟨J, (killJoint_other e) ▸ hJ, hk⟩
  | killContact n =>
    refine calm ?_
    simp only [World.apply, World.killContact]
    cases g.w.contact n
    all_goals exact ⟨le_rfl, fun _ _ => rfl, fun _ hb => hb⟩
  | killForce n =>
    refine calm ?_
    simp only [World.apply, World.killForce]
    split_ifs
    all_goals exact ⟨le_rfl, fun _ _ => rfl, fun _ hb => hb⟩
  | step p c f =>
    have cl : (∀ n J, g.w.joint n = some J → J.killed = false → J.b0 = J.b1 → ¬DeadBody g.w J.b0 → (cleaned g.w).joint n = some J) ∧
        (∀ n J, (cleaned g.w).joint n = some J → g.w.joint n = some J) ∧ (∀ b, ¬DeadBody (cleaned g.w) b) ∧ (cleaned g.w).next = g.w.next := by
      refine ⟨fun n J hJ a1 a2 a3 => cleaned_joint.2 ⟨?_, hJ⟩, fun n J hJ => (cleaned_joint.1 hJ).2, ?_, rfl⟩
      · have k : killedB g.w J.b0 = false := by
          unfold killedB
          cases hb : g.w.body J.b0 with
          | none => rfl
          | some r =>
            simp only [Option.any_some]
            by_contra hk
            exact a3 ⟨r, hb, by simpa using hk⟩
        simp [deadJ, hJ, a1, k, ← a2]
      · rintro b ⟨r, hr, hk⟩
        obtain ⟨r', hr', hk', e⟩ := cleaned_body.1 hr
        rw [e] at hk
        rw [hk'] at hk
        exact absurd hk (by simp)
    obtain ⟨c1, c2, c3, c4⟩ := cl
    have fin : ∀ w', w' = (g.w.step cfg p c f).1 → w'.joint = (cleaned g.w).joint → (∀ b, DeadBody w' b → DeadBody (cleaned g.w) b) → g.w.next ≤ w'.next → GInv (g.apply cfg (.step p c f)).1 := by
      intro w' e ej ed en
      subst e
      refine ⟨hi, fun n hn => ?_, fun n hn => lt_of_lt_of_le (h.made n hn) en, fun n hn hl => ?_⟩
      · obtain ⟨J, hJ, a1, a2, a3⟩ := h.held n hn
        refine ⟨J, ?_, a1, a2, fun hd => c3 _ (ed _ hd)⟩
        show (g.w.step cfg p c f).1.joint n = _
        rw [ej]; exact c1 n J hJ a1 a2 a3
      · refine h.only n hn ?_
        obtain ⟨J, hJ, hk⟩ := hl
        have hJ' : (g.w.step cfg p c f).1.joint n = some J := hJ
        rw [ej] at hJ'
        exact ⟨J, c2 n J hJ', hk⟩
    rcases step_ok h.inv ha hd with ⟨-, e, -⟩ | ⟨-, -, -, w1, R, e⟩
    · exact fin _ e.symm rfl (fun _ hb => hb) le_rfl
    · refine fin w1.settle e.symm R.joint (fun b hb => ?_) R.next
      obtain ⟨r, hr, hk⟩ := hb
      have hr' : w1.body b = some r := hr
      have := R.body b
      rw [hr', Option.map_some] at this
      obtain ⟨r', hr'', e'⟩ := Option.map_eq_some_iff.1 this.symm
      simp only [Prod.mk.injEq] at e'
      exact ⟨r', hr'', e'.2.1.trans hk⟩
  | clear =>
    have hn : g.mc = none := hs
    obtain ⟨ct, e, -, -⟩ := destroyBodies_ok cfg g.w.bodies h.inv.toInv0.weak h.inv.bodies_nodup (fun _ hb => hb) hd
    have e1 : (g.w.clear cfg).1.joint = fun _ => none := by
      unfold World.clear
      rw [e]
      simp [h.inv.broken]
    have e2 : (g.w.clear cfg).1.next = g.w.next := by
      unfold World.clear
      rw [e]
      simp [h.inv.broken]
    refine ⟨hi, fun n hn' => ?_, fun n hn => ?_, fun n _ hl => ?_⟩
    · have : g.mc = some n := hn'
      rw [hn] at this
      exact absurd this (by simp)
    · show n < (g.w.clear cfg).1.next
      rw [e2]; exact h.made n hn
    · obtain ⟨J, hJ, -⟩ := hl
      have hJ' : (g.w.clear cfg).1.joint n = some J := hJ
      rw [e1] at hJ'
      exact absurd hJ' (by simp)
  | setContactFactory => exact calm ⟨le_rfl, fun _ _ => rfl, fun _ hb => hb⟩

theorem GReachable.ginv {cfg : Cfg} {g : Grab} (h : GReachable cfg g) : GInv g := by
  induction h with
  | init => exact ⟨inv_init, by simp, by simp, by simp⟩
  | op _ o ha hd hs ih => exact held_apply ih o ha hd hs
  | press _ bs hb ih => exact (press_spec bs ih hb).2
  | release _ ih => exact (release_spec ih).2
  | move _ ih =>
    unfold Grab.move
    split
    · exact ih
    · split_ifs <;> exact ih

end Simu.World
