import Verif.Lemmas.WorldStep
/-
Steps of a world, and the invariant of every world that can be reached.
-/
namespace Simu.World
open World

theorem Inv.cleaned {w : World} (h : Inv w) : Inv (cleaned w) :=
  h.toInv0.cleaned.inv fun n C hC => h.hits n C (cleaned_contact.1 hC).2

/-- What a step does, by cases. -/
theorem step_cases {cfg : Cfg} {w : World} (h : Inv w) {p : Bool} {c : List Nat → List (Nat × Nat)} {f : Option Stage} (hd : ∀ b, DeadBody w b → Destructible cfg w b) :
    w.step cfg p c f =
      if f = some .preStep then (cleaned w, .throw)
      else if p = false then (cleaned w, .ok ())
      else if f = some .solve then (cleaned w, .throw)
      else
        match registerAll (c (cleaned w).tree) (cleaned w) with
        | (w, .ok ()) => (w.settle, .ok ())
        | (w, .throw) => ({ w with broken := true }, .throw)
        | (w, .ub) => (w, .ub) := by
  have hi := h.cleaned.toInv0
  unfold step
  rw [(cleanup_eq h.toInv0).1 hd]
  simp only
  rw [contactsReadable_of_inv hi (fun n C hC => cleaned_live hC), treeReadable_of_inv hi, graphReadable_of_inv hi]
  generalize registerAll (c (cleaned w).tree) (cleaned w) = x
  obtain ⟨a, b⟩ := x
  cases p <;> cases b <;> simp

/-- The pairs reported are pairs of colliders in the tree, and two structural bodies do not meet. -/
theorem pairs_ok {w : World} (h : Inv w) {c : List Nat → List (Nat × Nat)} {ov : Nat → Nat → Prop} (hr : Reports ov c)
    (hs : ∀ k0 ∈ w.tree, ∀ k1 ∈ w.tree, ov k0 k1 → w.owner k0 ≠ w.owner k1 → ¬((w.body (w.owner k0)).any (·.structural) ∧ (w.body (w.owner k1)).any (·.structural))) :
    (∀ p ∈ c (cleaned w).tree, p.1 ∈ (cleaned w).tree ∧ p.2 ∈ (cleaned w).tree) ∧
    ∀ p ∈ c (cleaned w).tree, (cleaned w).owner p.1 ≠ (cleaned w).owner p.2 → ¬BothStructural (cleaned w) p := by
  obtain ⟨h1, -⟩ := hr (cleaned w).tree h.cleaned.tree_nodup
  refine ⟨fun p hp => ⟨(h1 p hp).1, (h1 p hp).2.1⟩, fun p hp hne hb => ?_⟩
  obtain ⟨a1, a2, -, a4⟩ := h1 p hp
  have hsub : ∀ b, ((cleaned w).body b).any (·.structural) = true → (w.body b).any (·.structural) = true := by
    intro b hb
    cases hr : (cleaned w).body b with
    | none => simp [hr] at hb
    | some r =>
      obtain ⟨r', hr', -, e⟩ := cleaned_body.1 hr
      rw [hr] at hb
      rw [hr']
      simp only [Option.any_some] at hb ⊢
      rw [e] at hb
      exact hb
  exact hs p.1 ((cleaned_tree h.toInv0).1 a1).1 p.2 ((cleaned_tree h.toInv0).1 a2).1 a4 hne ⟨hsub _ hb.1, hsub _ hb.2⟩

/-- An allowed step that destroys safely: its outcome and the world it leaves. -/
theorem step_ok {cfg : Cfg} {w : World} (h : Inv w) {p : Bool} {c : List Nat → List (Nat × Nat)} {f : Option Stage} (ha : Op.Allowed w (.step p c f))
    (hd : ∀ b, DeadBody w b → Destructible cfg w b) :
    ((f = some .preStep ∨ p = false ∨ f = some .solve) ∧ (w.step cfg p c f).1 = cleaned w ∧ (w.step cfg p c f).2 = if f = some .preStep ∨ p = true then .throw else .ok ()) ∨
    (p = true ∧ f = none ∧ (w.step cfg p c f).2 = .ok () ∧ ∃ w', Registered (cleaned w) (c (cleaned w).tree) w' ∧ (w.step cfg p c f).1 = w'.settle) := by
  obtain ⟨ov, hr, hs⟩ := ha
  obtain ⟨q1, q2⟩ := pairs_ok h hr hs
  obtain ⟨w', e, R⟩ := registerAll_ok _ h.cleaned.toInv0 q1 q2
  rw [step_cases h hd]
  by_cases h1 : f = some .preStep
  · left; subst h1; simp
  · rw [if_neg h1]
    cases p with
    | false => left; simp [h1]
    | true =>
      rw [if_neg (by simp)]
      by_cases h2 : f = some .solve
      · left; subst h2; simp
      · right
        rw [if_neg h2, e]
        refine ⟨rfl, ?_, rfl, w', R, rfl⟩
        cases f with
        | none => rfl
        | some s => cases s <;> simp_all

theorem inv_apply {cfg : Cfg} {w : World} (h : Inv w) (o : Op) (ha : o.Allowed w) (hd : o.DestroysSafely cfg w) :
    Inv (w.apply cfg o).1 ∧ (w.apply cfg o).2 ≠ .ub := by
  cases o with
  | makeBody s => exact ⟨h.makeBody s, by simp [World.apply]⟩
  | makeConstraint b0 b1 d f =>
    obtain ⟨a, e⟩ := h.makeConstraint d f ha.1 ha.2
    refine ⟨a, ?_⟩
    show (w.makeConstraint b0 b1 d f).2 ≠ .ub
    rw [e]
    split_ifs <;> simp
  | makeForce => exact ⟨h.makeForce, by simp [World.apply]⟩
  | addCollider b v =>
    obtain ⟨a, e⟩ := h.addCollider b v
    refine ⟨a, ?_⟩
    show (w.addCollider b v).2 ≠ .ub
    rw [e ha]
    split_ifs <;> simp
  | removeCollider k => exact h.removeCollider ha
  | killBody b =>
    refine ⟨h.killBody b, ?_⟩
    obtain ⟨r, hr⟩ := Option.isSome_iff_exists.1 ((h.bodies_iff b).1 ha)
    simp [World.apply, World.killBody, hr]
  | killJoint b =>
    refine ⟨h.killJoint b, ?_⟩
    obtain ⟨r, hr⟩ := Option.isSome_iff_exists.1 ((h.joints_iff b).1 ha)
    simp [World.apply, World.killJoint, hr]
  | killContact b =>
    refine ⟨h.killContact b, ?_⟩
    obtain ⟨r, hr⟩ := Option.isSome_iff_exists.1 ((h.contacts_iff b).1 ha)
    simp [World.apply, World.killContact, hr]
  | killForce n =>
    refine ⟨h.killForce n, ?_⟩
    show (w.killForce n).2 ≠ .ub
    unfold World.killForce
    rw [if_pos (show n ∈ w.forces.map (·.1) from ha)]
    simp
  | step p c f =>
    show Inv (w.step cfg p c f).1 ∧ (w.step cfg p c f).2 ≠ .ub
    rcases step_ok h ha hd with ⟨-, e1, e2⟩ | ⟨-, -, e2, w', R, e1⟩
    · rw [e1, e2]
      exact ⟨h.cleaned, by split_ifs <;> simp⟩
    · rw [e1, e2]
      exact ⟨settle_inv R.inv, by simp⟩
  | clear =>
    obtain ⟨a, e, -⟩ := (h.clear (cfg := cfg)).1 hd
    refine ⟨a, ?_⟩
    show (w.clear cfg).2 ≠ .ub
    rw [e]
    simp
  | setContactFactory => exact ⟨h.setContactFactory ha, by simp [World.apply]⟩

theorem Reachable.inv {cfg : Cfg} {w : World} (h : Reachable cfg w) : Inv w := by
  induction h with
  | init => exact inv_init
  | op _ o ha hd ih => exact (inv_apply ih o ha hd).1

end Simu.World
