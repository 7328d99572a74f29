import Verif.Spec.World
import Mathlib.Data.List.Count
import Mathlib.Data.List.Nodup
import Mathlib.Tactic.Tauto
/-
Invariant of the objects of a world, and the effect of the loops of the code on all objects at once.
-/
namespace Simu.World
open World

/-- The body exists and lists the constraint once. -/
def ListsJoint (w : World) (b n : Nat) : Prop := ∃ r, w.body b = some r ∧ r.joints.count n = 1

/-- The body exists and lists the contact once. -/
def ListsContact (w : World) (b n : Nat) : Prop := ∃ r, w.body b = some r ∧ r.contacts.count n = 1

/-- The invariant, also in the middle of a step. -/
structure Inv0 (w : World) : Prop where
  bodies_iff : ∀ b, b ∈ w.bodies ↔ (w.body b).isSome
  bodies_nodup : w.bodies.Nodup
  joints_iff : ∀ n, n ∈ w.joints ↔ (w.joint n).isSome
  joints_nodup : w.joints.Nodup
  contacts_iff : ∀ n, n ∈ w.contacts ↔ (w.contact n).isSome
  contacts_nodup : w.contacts.Nodup
  fresh_body : ∀ b r, w.body b = some r → b < w.next ∧ ∀ k ∈ r.colliders, k < w.next
  fresh_joint : ∀ n J, w.joint n = some J → n < w.next
  fresh_contact : ∀ n C, w.contact n = some C → n < w.next
  joint_ends : ∀ n J, w.joint n = some J → ListsJoint w J.b0 n ∧ ListsJoint w J.b1 n
  joint_listed : ∀ b r, w.body b = some r → ∀ n ∈ r.joints, ∃ J, w.joint n = some J ∧ (J.b0 = b ∨ J.b1 = b)
  contact_ends : ∀ n C, w.contact n = some C → C.b0 ≠ C.b1 ∧ ListsContact w C.b0 n ∧ ListsContact w C.b1 n
  contact_listed : ∀ b r, w.body b = some r → ∀ n ∈ r.contacts, ∃ C, w.contact n = some C ∧ (C.b0 = b ∨ C.b1 = b)
  contact_key : ∀ n C, w.contact n = some C → w.owner C.key.1 = C.b0 ∧ w.owner C.key.2 = C.b1 ∧ C.key.1 < w.next ∧ C.key.2 < w.next ∧
    (C.killed = false → C.key.1 ∈ w.tree ∧ C.key.2 ∈ w.tree)
  keys : ∀ m n C D, w.contact m = some C → w.contact n = some D → SamePair C.key D.key → m = n
  colliders : ∀ b r, w.body b = some r → r.colliders.Nodup ∧ ∀ k ∈ r.colliders, w.owner k = b
  tree_nodup : w.tree.Nodup
  tree_owned : ∀ k ∈ w.tree, ∃ r, w.body (w.owner k) = some r ∧ k ∈ r.colliders
  broken : w.broken = false

/-- The invariant between operations. -/
structure Inv (w : World) : Prop extends Inv0 w where
  hits : ∀ n C, w.contact n = some C → C.hit = false

theorem ListsContact.some {w : World} {b n : Nat} (h : ListsContact w b n) : (w.body b).isSome := by
  obtain ⟨r, h, _⟩ := h; simp [h]

theorem ListsJoint.some {w : World} {b n : Nat} (h : ListsJoint w b n) : (w.body b).isSome := by
  obtain ⟨r, h, _⟩ := h; simp [h]

/-- The log does not matter. -/
theorem Inv0.log {w : World} (h : Inv0 w) (l : List Event) : Inv0 { w with log := l } := by
  cases h; constructor <;> assumption

theorem inv0_log {w : World} {l : List Event} (h : Inv0 { w with log := l }) : Inv0 w := by
  have := h.log w.log
  exact this

/-! ### Removing contacts -/

/-- The world without some contacts. -/
def dropContacts (w : World) (p : Nat → Bool) (log : List Event) : World :=
  { w with
    contacts := w.contacts.filter fun n => !p n
    contact := fun n => if p n then none else w.contact n
    body := fun b => (w.body b).map fun r => { r with contacts := r.contacts.filter fun n => !p n }
    log := log }

theorem dropContacts_body {w : World} {p : Nat → Bool} {log : List Event} {b : Nat} {r : BodyRec} :
    (dropContacts w p log).body b = some r ↔ ∃ r', w.body b = some r' ∧ r = { r' with contacts := r'.contacts.filter fun n => !p n } := by
  simp only [dropContacts, Option.map_eq_some_iff]
  constructor
  · rintro ⟨r', h1, h2⟩; exact ⟨r', h1, h2.symm⟩
  · rintro ⟨r', h1, h2⟩; exact ⟨r', h1, h2.symm⟩

theorem dropContacts_contact {w : World} {p : Nat → Bool} {log : List Event} {n : Nat} {C : ContactRec} :
    (dropContacts w p log).contact n = some C ↔ p n = false ∧ w.contact n = some C := by
  simp only [dropContacts]
  cases hp : p n <;> simp

theorem Inv0.dropContacts {w : World} (h : Inv0 w) (p : Nat → Bool) (log : List Event) : Inv0 (dropContacts w p log) where
  bodies_iff b := by rw [show (World.dropContacts w p log).bodies = w.bodies from rfl, h.bodies_iff]; simp [World.dropContacts]
  bodies_nodup := h.bodies_nodup
  joints_iff := h.joints_iff
  joints_nodup := h.joints_nodup
  contacts_iff n := by
    simp only [World.dropContacts, List.mem_filter, h.contacts_iff]
    cases hp : p n <;> simp
  contacts_nodup := h.contacts_nodup.filter _
  fresh_body b r hr := by
    obtain ⟨r', h1, rfl⟩ := dropContacts_body.1 hr
    exact h.fresh_body b r' h1
  fresh_joint := h.fresh_joint
  fresh_contact n C hc := h.fresh_contact n C (dropContacts_contact.1 hc).2
  joint_ends n J hJ := by
    obtain ⟨⟨r0, a1, a2⟩, r1, a3, a4⟩ := h.joint_ends n J hJ
    exact ⟨⟨_, dropContacts_body.2 ⟨r0, a1, rfl⟩, a2⟩, ⟨_, dropContacts_body.2 ⟨r1, a3, rfl⟩, a4⟩⟩
  joint_listed b r hr n hn := by
    obtain ⟨r', h1, rfl⟩ := dropContacts_body.1 hr
    exact h.joint_listed b r' h1 n hn
  contact_ends n C hc := by
    obtain ⟨hp, hc⟩ := dropContacts_contact.1 hc
    obtain ⟨hne, ⟨r0, a1, a2⟩, r1, a3, a4⟩ := h.contact_ends n C hc
    refine ⟨hne, ⟨_, dropContacts_body.2 ⟨r0, a1, rfl⟩, ?_⟩, ⟨_, dropContacts_body.2 ⟨r1, a3, rfl⟩, ?_⟩⟩
    · rw [List.count_filter (by simp [hp])]; exact a2
    · rw [List.count_filter (by simp [hp])]; exact a4
  contact_listed b r hr n hn := by
    obtain ⟨r', h1, rfl⟩ := dropContacts_body.1 hr
    rw [List.mem_filter] at hn
    obtain ⟨C, hC, hb⟩ := h.contact_listed b r' h1 n hn.1
    exact ⟨C, dropContacts_contact.2 ⟨by simpa using hn.2, hC⟩, hb⟩
  contact_key n C hc := h.contact_key n C (dropContacts_contact.1 hc).2
  keys m n C D hm hn := h.keys m n C D (dropContacts_contact.1 hm).2 (dropContacts_contact.1 hn).2
  colliders b r hr := by
    obtain ⟨r', h1, rfl⟩ := dropContacts_body.1 hr
    exact h.colliders b r' h1
  tree_nodup := h.tree_nodup
  tree_owned k hk := by
    obtain ⟨r, a1, a2⟩ := h.tree_owned k hk
    exact ⟨_, dropContacts_body.2 ⟨r, a1, rfl⟩, a2⟩
  broken := h.broken

theorem dropContacts_dropContacts (w : World) (p q : Nat → Bool) (l l' : List Event) :
    dropContacts (dropContacts w p l) q l' = dropContacts w (fun n => p n || q n) l' := by
  ext1
  · rfl
  · funext b
    simp only [dropContacts, Option.map_map]
    congr 1
    funext r
    simp only [Function.comp, List.filter_filter, BodyRec.mk.injEq, true_and]
    congr 1
    funext n
    rw [Bool.not_or, Bool.and_comm]
  · rfl
  · rfl
  · simp only [dropContacts, List.filter_filter]
    congr 1
    funext n
    rw [Bool.not_or, Bool.and_comm]
  · funext n
    simp only [dropContacts]
    by_cases hp : p n = true <;> by_cases hq : q n = true <;> simp [hp, hq]
  all_goals rfl

/-! ### Deadness -/

/-- A body that is killed. -/
def killedB (w : World) (b : Nat) : Bool := (w.body b).any (·.killed)

/-- A dead contact. -/
def deadC (w : World) (n : Nat) : Bool := (w.contact n).any fun c => c.killed || killedB w c.b0 || killedB w c.b1

/-- A dead constraint. -/
def deadJ (w : World) (n : Nat) : Bool := (w.joint n).any fun j => j.killed || killedB w j.b0 || killedB w j.b1

theorem bodyDead_eq {w : World} {b : Nat} (h : (w.body b).isSome) : w.bodyDead b = .ok (killedB w b) := by
  obtain ⟨r, hr⟩ := Option.isSome_iff_exists.1 h
  simp [bodyDead, killedB, hr]

theorem anyDead_eq {w : World} {b0 b1 : Nat} (h0 : (w.body b0).isSome) (h1 : (w.body b1).isSome) :
    w.anyDead b0 b1 = .ok (killedB w b0 || killedB w b1) := by
  unfold anyDead
  rw [bodyDead_eq h0]
  show (if killedB w b0 then _ else _) = _
  cases hk : killedB w b0
  · by_cases e : b0 = b1
    · subst e; simp [hk]
    · simp [e, bodyDead_eq h1]
  · simp

theorem contactDead_eq {w : World} (h : Inv0 w) {n : Nat} (hn : (w.contact n).isSome) : w.contactDead n = .ok (deadC w n) := by
  obtain ⟨C, hC⟩ := Option.isSome_iff_exists.1 hn
  obtain ⟨_, h0, h1⟩ := h.contact_ends n C hC
  unfold contactDead deadC
  rw [hC]
  simp only [Option.any_some]
  cases hk : C.killed
  · rw [if_neg (by simp), anyDead_eq h0.some h1.some]; simp
  · simp

theorem jointDead_eq {w : World} (h : Inv0 w) {n : Nat} (hn : (w.joint n).isSome) : w.jointDead n = .ok (deadJ w n) := by
  obtain ⟨J, hJ⟩ := Option.isSome_iff_exists.1 hn
  obtain ⟨h0, h1⟩ := h.joint_ends n J hJ
  unfold jointDead deadJ
  rw [hJ]
  simp only [Option.any_some]
  cases hk : J.killed
  · rw [if_neg (by simp), anyDead_eq h0.some h1.some]; simp
  · simp

theorem killedB_dropContacts (w : World) (p : Nat → Bool) (l : List Event) (b : Nat) : killedB (dropContacts w p l) b = killedB w b := by
  simp [killedB, dropContacts]
  cases w.body b <;> simp

theorem filter_ne_of_not_mem {l : List Nat} {n : Nat} (h : n ∉ l) : l.filter (fun m => decide (m ≠ n)) = l := by
  rw [List.filter_eq_self]
  intro a ha
  simp only [decide_eq_true_eq]
  rintro rfl
  exact h ha

/-- World.cpp:231-237: one dead contact. -/
theorem clean_one {w : World} (h : Inv0 w) {n : Nat} {C : ContactRec} (hC : w.contact n = some C) :
    ((w.unlistContact n C.b0).bind fun w =>
      (if C.b0 = C.b1 then .ok w else w.unlistContact n C.b1).bind fun w =>
        .ok { w with
              contacts := w.contacts.filter (· ≠ n)
              contact := Function.update w.contact n none
              log := w.log ++ [.freed (.contact n)] }) =
      .ok (dropContacts w (fun m => decide (m = n)) (w.log ++ [.freed (.contact n)])) := by
  obtain ⟨hne, ⟨r0, a1, a2⟩, r1, a3, a4⟩ := h.contact_ends n C hC
  have e1 : w.unlistContact n C.b0 = .ok (w.setBody C.b0 { r0 with contacts := r0.contacts.filter (· ≠ n) }) := by
    simp [unlistContact, a1]
  rw [e1]
  simp only [Outcome.bind, if_neg hne]
  have e2 : (w.setBody C.b0 { r0 with contacts := r0.contacts.filter (· ≠ n) }).unlistContact n C.b1 =
      .ok ((w.setBody C.b0 { r0 with contacts := r0.contacts.filter (· ≠ n) }).setBody C.b1 { r1 with contacts := r1.contacts.filter (· ≠ n) }) := by
    simp [unlistContact, setBody, Function.update_of_ne (Ne.symm hne), a3]
  rw [e2]
  simp only [Outcome.ok.injEq]
  ext1
  · rfl
  · funext b
    simp only [setBody, dropContacts]
    by_cases hb1 : b = C.b1
    · subst hb1
      rw [Function.update_self, a3]
      simp
    · rw [Function.update_of_ne hb1]
      by_cases hb0 : b = C.b0
      · subst hb0
        rw [Function.update_self, a1]
        simp
      · rw [Function.update_of_ne hb0]
        cases hr : w.body b with
        | none => rfl
        | some r =>
          have hn : n ∉ r.contacts := by
            intro hn
            obtain ⟨C', hC', hb⟩ := h.contact_listed b r hr n hn
            rw [hC] at hC'
            injection hC' with hC'
            subst hC'
            rcases hb with hb | hb
            · exact hb0 hb.symm
            · exact hb1 hb.symm
          have := filter_ne_of_not_mem hn
          simp only [Option.map_some, Option.some.injEq]
          simp only [decide_not] at this
          rw [this]
  · rfl
  · rfl
  · simp [setBody, dropContacts]
  · funext m
    simp only [setBody, dropContacts]
    by_cases hm : m = n
    · subst hm; simp
    · rw [Function.update_of_ne hm]; simp [hm]
  all_goals rfl

/-- World.cpp:226-243: all dead contacts are removed. -/
theorem cleanContacts_eq (ns : List Nat) : ∀ {w : World}, Inv0 w → ns.Nodup → (∀ n ∈ ns, (w.contact n).isSome) →
    cleanContacts ns w = .ok (dropContacts w (fun n => decide (n ∈ ns) && deadC w n)
      (w.log ++ (ns.filter (deadC w)).map fun n => .freed (.contact n))) := by
  induction ns with
  | nil =>
    intro w h _ _
    simp only [cleanContacts, Outcome.ok.injEq]
    ext1 <;> simp [dropContacts]
    all_goals
      funext b
      cases w.body b <;> simp
  | cons n ns ih =>
    intro w h hnd hsome
    have hn := hsome n (by simp)
    obtain ⟨C, hC⟩ := Option.isSome_iff_exists.1 hn
    rw [cleanContacts, contactDead_eq h hn]
    show (if deadC w n then _ else _) = _
    have hnd' := List.nodup_cons.1 hnd
    cases hd : deadC w n
    · rw [if_neg (by simp), ih h hnd'.2 (fun m hm => hsome m (by simp [hm]))]
      rw [List.filter_cons_of_neg (by simp [hd])]
      congr 2
      funext m
      by_cases hm : m = n
      · subst hm; simp [hd]
      · simp [hm]
    · rw [if_pos rfl, hC]
      have h1 := clean_one h hC
      simp only at h1 ⊢
      cases hu : w.unlistContact n C.b0 with
      | throw => rw [hu] at h1; simp [Outcome.bind] at h1
      | ub => rw [hu] at h1; simp [Outcome.bind] at h1
      | ok w1 =>
        rw [hu] at h1
        simp only [Outcome.bind] at h1 ⊢
        cases hu2 : (if C.b0 = C.b1 then Outcome.ok w1 else w1.unlistContact n C.b1) with
        | throw => rw [hu2] at h1; simp at h1
        | ub => rw [hu2] at h1; simp at h1
        | ok w2 =>
          rw [hu2] at h1
          simp only [Outcome.ok.injEq] at h1 ⊢
          rw [h1]
          have hdead : ∀ m, m ≠ n → deadC (dropContacts w (fun m => decide (m = n)) (w.log ++ [.freed (.contact n)])) m = deadC w m := by
            intro m hm
            simp only [deadC, killedB_dropContacts]
            simp [dropContacts, hm]
          rw [ih (h.dropContacts _ _) hnd'.2 (fun m hm => by
            have : m ≠ n := fun e => hnd'.1 (e ▸ hm)
            simp only [dropContacts, this, decide_false, Bool.false_eq_true, if_false]
            exact hsome m (by simp [hm])), dropContacts_dropContacts]
          congr 1
          have hf : List.filter (deadC (dropContacts w (fun m => decide (m = n)) (w.log ++ [.freed (.contact n)]))) ns = ns.filter (deadC w) := by
            apply List.filter_congr
            intro m hm
            exact hdead m (fun e => hnd'.1 (e ▸ hm))
          rw [hf, List.filter_cons_of_pos hd]
          have hp : (fun m => decide (m = n) || (decide (m ∈ ns) &&
              deadC (dropContacts w (fun m => decide (m = n)) (w.log ++ [.freed (.contact n)])) m)) =
              fun m => decide (m ∈ n :: ns) && deadC w m := by
            funext m
            by_cases hm : m = n
            · subst hm; simp [hd]
            · rw [hdead m hm]; simp [hm]
          rw [hp]
          congr 1
          simp [dropContacts]

/-! ### Removing colliders and bodies -/

/-- What is needed to destroy bodies. -/
structure Weak (w : World) : Prop where
  bodies_iff : ∀ b, b ∈ w.bodies ↔ (w.body b).isSome
  bodies_nodup : w.bodies.Nodup
  listed : ∀ b r, w.body b = some r → ∀ n ∈ r.contacts, (w.contact n).isSome
  colliders : ∀ b r, w.body b = some r → r.colliders.Nodup ∧ ∀ k ∈ r.colliders, w.owner k = b
  tree_owned : ∀ k ∈ w.tree, ∃ r, w.body (w.owner k) = some r ∧ k ∈ r.colliders
  broken : w.broken = false

theorem Inv0.weak {w : World} (h : Inv0 w) : Weak w where
  bodies_iff := h.bodies_iff
  bodies_nodup := h.bodies_nodup
  listed b r hr n hn := by
    obtain ⟨C, hC, _⟩ := h.contact_listed b r hr n hn
    simp [hC]
  colliders := h.colliders
  tree_owned := h.tree_owned
  broken := h.broken

/-- A contact after its collider `k` was removed. -/
def mark (k : Nat) (C : ContactRec) : ContactRec := if C.key.1 = k ∨ C.key.2 = k then { C with killed := true } else C

theorem mark_mark (k : Nat) (C : ContactRec) : mark k (mark k C) = mark k C := by
  unfold mark
  split_ifs <;> simp_all

theorem killContactsOf_eq (k : Nat) (ns : List Nat) : ∀ {w : World}, (∀ n ∈ ns, (w.contact n).isSome) →
    killContactsOf k ns w = .ok { w with contact := fun n => if n ∈ ns then (w.contact n).map (mark k) else w.contact n } := by
  induction ns with
  | nil => intro w _; simp [killContactsOf]
  | cons n ns ih =>
    intro w h
    obtain ⟨C, hC⟩ := Option.isSome_iff_exists.1 (h n (by simp))
    have e : (if C.key.1 = k ∨ C.key.2 = k then w.setContact n { C with killed := true } else w) =
        { w with contact := Function.update w.contact n (some (mark k C)) } := by
      unfold mark
      split_ifs
      · rfl
      · rw [← hC, Function.update_eq_self]
    rw [killContactsOf, hC]
    simp only
    rw [e, ih]
    · congr 2
      funext m
      by_cases hm : m = n
      · subst hm
        by_cases hm' : m ∈ ns
        · simp [hm', hC, mark_mark]
        · simp [hm', hC]
      · simp [hm]
    · intro m hm
      by_cases hmn : m = n
      · subst hmn; simp
      · simp only [Function.update_of_ne hmn]
        exact h m (by simp [hm])

/-- The world after a collider was removed from its body, whose record was `r`. -/
def dropCollider (w : World) (k : Nat) (r : BodyRec) : World :=
  { w with
    tree := w.tree.filter (· ≠ k)
    contact := fun n => if n ∈ r.contacts then (w.contact n).map (mark k) else w.contact n
    body := Function.update w.body (w.owner k) (some { r with colliders := r.colliders.filter (· ≠ k) }) }

theorem removeCollider_eq {w : World} (h : Weak w) {k : Nat} {r : BodyRec} (hk : k ∈ w.tree) (hr : w.body (w.owner k) = some r) :
    w.removeCollider k =
      (dropCollider w k r, if (r.colliders.filter (· ≠ k)).all (· ∈ w.tree.filter (· ≠ k)) then .ok () else .throw) := by
  unfold removeCollider untree
  rw [if_neg (by simp [h.broken, hk])]
  simp only [hr]
  rw [killContactsOf_eq (w := { w with tree := w.tree.filter (· ≠ k) }) k r.contacts (fun n hn => h.listed _ r hr n hn)]
  simp only [Outcome.bind, unlistCollider, hr, setBody, Function.update_self]
  rfl

theorem removeCollider_ub {w : World} {k : Nat} (hk : k ∉ w.tree) : (w.removeCollider k).2 = .ub := by
  unfold removeCollider untree
  rw [if_pos (by simp [hk])]
  rfl

theorem Weak.dropCollider {w : World} (h : Weak w) {k : Nat} {r : BodyRec} (hr : w.body (w.owner k) = some r) :
    Weak (dropCollider w k r) where
  bodies_iff b := by
    simp only [World.dropCollider, h.bodies_iff]
    by_cases hb : b = w.owner k
    · subst hb; simp [hr]
    · rw [Function.update_of_ne hb]
  bodies_nodup := h.bodies_nodup
  listed b r' hr' n hn := by
    have hsome : (w.contact n).isSome := by
      simp only [World.dropCollider] at hr'
      by_cases hb : b = w.owner k
      · subst hb
        rw [Function.update_self, Option.some.injEq] at hr'
        subst hr'
        exact h.listed _ r hr n hn
      · rw [Function.update_of_ne hb] at hr'
        exact h.listed b r' hr' n hn
    simp only [World.dropCollider]
    split_ifs
    · simpa using hsome
    · exact hsome
  colliders b r' hr' := by
    simp only [World.dropCollider] at hr' ⊢
    by_cases hb : b = w.owner k
    · subst hb
      rw [Function.update_self, Option.some.injEq] at hr'
      subst hr'
      obtain ⟨a1, a2⟩ := h.colliders _ r hr
      exact ⟨a1.filter _, fun x hx => a2 x (List.mem_of_mem_filter hx)⟩
    · rw [Function.update_of_ne hb] at hr'
      exact h.colliders b r' hr'
  tree_owned x hx := by
    simp only [World.dropCollider, List.mem_filter] at hx ⊢
    obtain ⟨r', a1, a2⟩ := h.tree_owned x hx.1
    by_cases hb : w.owner x = w.owner k
    · rw [hb, hr, Option.some.injEq] at a1
      subst a1
      rw [hb, Function.update_self]
      exact ⟨_, rfl, List.mem_filter.2 ⟨a2, hx.2⟩⟩
    · rw [Function.update_of_ne hb]
      exact ⟨r', a1, a2⟩
  broken := h.broken

/-- Body.hpp:219-220, repaired: all colliders are removed. -/
theorem removeColliders_ok (b : Nat) (ks : List Nat) : ∀ {w : World} {r : BodyRec}, Weak w → w.body b = some r → r.colliders = ks → (∀ k ∈ ks, k ∈ w.tree) →
    ∃ ct, removeColliders ks w = .ok
        { w with
          tree := w.tree.filter (· ∉ ks)
          contact := ct
          body := Function.update w.body b (some { r with colliders := [] }) } ∧
      (r.contacts = [] → ct = w.contact) ∧ ∀ n, (ct n).isSome = (w.contact n).isSome := by
  induction ks with
  | nil =>
    intro w r h hr hc _
    refine ⟨w.contact, ?_, fun _ => rfl, fun _ => rfl⟩
    simp only [removeColliders, Outcome.ok.injEq]
    ext1
    · rfl
    · have : ({ r with colliders := [] } : BodyRec) = r := by rw [← hc]
      rw [this, ← hr, Function.update_eq_self]
    all_goals first | rfl | simp
  | cons k ks ih =>
    intro w r h hr hc ht
    obtain ⟨a1, a2⟩ := h.colliders b r hr
    have hown : w.owner k = b := a2 k (by simp [hc])
    have hr' : w.body (w.owner k) = some r := by rw [hown]; exact hr
    have hnd : k ∉ ks ∧ ks.Nodup := by rw [hc] at a1; exact List.nodup_cons.1 a1
    have hfil : r.colliders.filter (· ≠ k) = ks := by
      rw [hc]
      have := filter_ne_of_not_mem hnd.1
      simp only [ne_eq, decide_not] at this ⊢
      simp [this]
    have hall : ks.all (· ∈ w.tree.filter (· ≠ k)) = true := by
      rw [List.all_eq_true]
      intro x hx
      simp only [decide_eq_true_eq, List.mem_filter]
      exact ⟨ht x (by simp [hx]), fun e => hnd.1 (e ▸ hx)⟩
    rw [removeColliders, removeCollider_eq h (ht k (by simp)) hr', hfil, if_pos hall]
    simp only
    have hb' : (dropCollider w k r).body b = some { r with colliders := ks } := by
      simp only [dropCollider, hown, Function.update_self, hfil]
    obtain ⟨ct, e1, e2, e3⟩ := ih (h.dropCollider hr') hb' rfl (fun x hx => by
      simp only [dropCollider, List.mem_filter, decide_eq_true_eq]
      exact ⟨ht x (by simp [hx]), fun e => hnd.1 (e ▸ hx)⟩)
    refine ⟨ct, ?_, ?_, ?_⟩
    · rw [e1, Outcome.ok.injEq]
      ext1
      · rfl
      · simp only [dropCollider, hown, Function.update_idem]
      · rfl
      · rfl
      · rfl
      · rfl
      · rfl
      · simp only [dropCollider, List.filter_filter, List.mem_cons, not_or]
        apply List.filter_congr
        intro x _
        rw [Bool.and_comm]
        simp
      all_goals rfl
    · intro hcn
      rw [e2 hcn]
      simp [dropCollider, hcn]
    · intro n
      rw [e3]
      simp only [dropCollider]
      split_ifs <;> simp

theorem destroyBody_ok {cfg : Cfg} {w : World} (h : Weak w) {b : Nat} {r : BodyRec} (hr : w.body b = some r) (hd : Destructible cfg w b) :
    ∃ ct, w.destroyBody cfg b = .ok
        { w with
          bodies := w.bodies.filter (· ≠ b)
          body := Function.update w.body b none
          tree := w.tree.filter (w.owner · ≠ b)
          contact := ct
          log := w.log ++ [.freed (.body b)] } ∧
      (r.contacts = [] → ct = w.contact) ∧ ∀ n, (ct n).isSome = (w.contact n).isSome := by
  have htree : ∀ k ∈ w.tree, w.owner k = b ↔ k ∈ r.colliders := by
    intro k hk
    constructor
    · intro e
      obtain ⟨r', a1, a2⟩ := h.tree_owned k hk
      rw [e, hr, Option.some.injEq] at a1
      rw [a1]; exact a2
    · intro hc
      exact (h.colliders b r hr).2 k hc
  unfold destroyBody
  rw [hr]
  simp only
  rcases hd r hr with hd | ⟨hcfg, hd⟩
  · refine ⟨w.contact, ?_, fun _ => rfl, fun _ => rfl⟩
    rw [if_pos hd]
    simp only [Outcome.bind, Outcome.ok.injEq]
    ext1
    all_goals try rfl
    symm
    rw [List.filter_eq_self]
    intro k hk
    simp [htree k hk, hd]
  · by_cases hc : r.colliders = []
    · refine ⟨w.contact, ?_, fun _ => rfl, fun _ => rfl⟩
      rw [if_pos hc]
      simp only [Outcome.bind, Outcome.ok.injEq]
      ext1
      all_goals try rfl
      symm
      rw [List.filter_eq_self]
      intro k hk
      simp [htree k hk, hc]
    · obtain ⟨ct, e1, e2, e3⟩ := removeColliders_ok b r.colliders h hr rfl hd
      refine ⟨ct, ?_, e2, e3⟩
      rw [if_neg hc, if_pos hcfg, e1]
      simp only [Outcome.bind, Outcome.ok.injEq]
      ext1
      · rfl
      · simp only [Function.update_idem]
      all_goals try rfl
      apply List.filter_congr
      intro k hk
      simp [htree k hk]

/-- Otherwise the destruction is undefined. -/
theorem destroyBody_ub {cfg : Cfg} {w : World} (h : Weak w) {b : Nat} (hd : ¬Destructible cfg w b) : w.destroyBody cfg b = .ub := by
  unfold Destructible at hd
  push Not at hd
  obtain ⟨r, hr, hne, hd⟩ := hd
  unfold destroyBody
  rw [hr]
  simp only [if_neg hne]
  by_cases hcfg : cfg.repairedDestructor = true
  · rw [if_pos hcfg]
    obtain ⟨k, hk, hkt⟩ := hd hcfg
    have : removeColliders r.colliders w = .ub := by
      cases hc : r.colliders with
      | nil => exact absurd hc hne
      | cons x xs =>
        rw [removeColliders]
        by_cases hx : x ∈ w.tree
        · have hown : w.owner x = b := (h.colliders b r hr).2 x (by simp [hc])
          rw [removeCollider_eq h hx (by rw [hown]; exact hr), if_neg]
          intro hall
          rw [List.all_eq_true] at hall
          have hkx : k ≠ x := fun e => hkt (e ▸ hx)
          have := hall k (List.mem_filter.2 ⟨hk, by simpa using hkx⟩)
          simp only [decide_eq_true_eq, List.mem_filter] at this
          exact hkt this.1
        · have := removeCollider_ub hx
          cases hres : w.removeCollider x with
          | mk w' o =>
            rw [hres] at this
            simp only at this
            rw [this]
    rw [this]
    rfl
  · rw [if_neg hcfg]
    rfl

theorem Weak.dropBody {w : World} (h : Weak w) (b : Nat) (ct : Nat → Option ContactRec) (hct : ∀ n, (ct n).isSome = (w.contact n).isSome) (log : List Event) :
    Weak { w with
           bodies := w.bodies.filter (· ≠ b)
           body := Function.update w.body b none
           tree := w.tree.filter (w.owner · ≠ b)
           contact := ct
           log := log } where
  bodies_iff x := by
    simp only [List.mem_filter, h.bodies_iff]
    by_cases hx : x = b
    · subst hx; simp
    · rw [Function.update_of_ne hx]; simp [hx]
  bodies_nodup := h.bodies_nodup.filter _
  listed x r hr n hn := by
    simp only at hr ⊢
    by_cases hx : x = b
    · subst hx; simp at hr
    · rw [Function.update_of_ne hx] at hr
      rw [hct]
      exact h.listed x r hr n hn
  colliders x r hr := by
    simp only at hr ⊢
    by_cases hx : x = b
    · subst hx; simp at hr
    · rw [Function.update_of_ne hx] at hr
      exact h.colliders x r hr
  tree_owned k hk := by
    simp only [List.mem_filter, decide_eq_true_eq] at hk ⊢
    rw [Function.update_of_ne hk.2]
    exact h.tree_owned k hk.1
  broken := h.broken

/-- Destroying several bodies. -/
theorem destroyBodies_ok (cfg : Cfg) (bs : List Nat) : ∀ {w : World}, Weak w → bs.Nodup → (∀ b ∈ bs, b ∈ w.bodies) → (∀ b ∈ bs, Destructible cfg w b) →
    ∃ ct, destroyBodies cfg bs w = .ok
        { w with
          bodies := w.bodies.filter (· ∉ bs)
          body := fun b => if b ∈ bs then none else w.body b
          tree := w.tree.filter (w.owner · ∉ bs)
          contact := ct
          log := w.log ++ bs.map fun b => .freed (.body b) } ∧
      ((∀ b ∈ bs, ∀ r, w.body b = some r → r.contacts = []) → ct = w.contact) ∧ ∀ n, (ct n).isSome = (w.contact n).isSome := by
  induction bs with
  | nil =>
    intro w h _ _ _
    refine ⟨w.contact, ?_, fun _ => rfl, fun _ => rfl⟩
    simp [destroyBodies]
  | cons b bs ih =>
    intro w h hnd hmem hdes
    obtain ⟨hb, hnd⟩ := List.nodup_cons.1 hnd
    obtain ⟨r, hr⟩ := Option.isSome_iff_exists.1 ((h.bodies_iff b).1 (hmem b (by simp)))
    obtain ⟨ct, e1, e2, e3⟩ := destroyBody_ok h hr (hdes b (by simp))
    rw [destroyBodies, e1]
    simp only [Outcome.bind]
    have hne : ∀ x ∈ bs, x ≠ b := fun x hx e => hb (e ▸ hx)
    obtain ⟨ct', f1, f2, f3⟩ := ih (h.dropBody b ct e3 (w.log ++ [.freed (.body b)])) hnd
      (fun x hx => List.mem_filter.2 ⟨hmem x (by simp [hx]), by simpa using hne x hx⟩)
      (fun x hx => by
        intro r' hr'
        simp only [Function.update_of_ne (hne x hx)] at hr'
        rcases hdes x (by simp [hx]) r' hr' with hh | ⟨hh, hh'⟩
        · exact Or.inl hh
        · refine Or.inr ⟨hh, fun k hk => ?_⟩
          simp only [List.mem_filter, decide_eq_true_eq]
          refine ⟨hh' k hk, ?_⟩
          rw [(h.colliders x r' hr').2 k hk]
          exact hne x hx)
    refine ⟨ct', ?_, ?_, ?_⟩
    · rw [f1, Outcome.ok.injEq]
      ext1
      · simp only [List.filter_filter, List.mem_cons, not_or]
        apply List.filter_congr
        intro x _
        rw [Bool.and_comm]; simp
      · funext x
        simp only [List.mem_cons]
        by_cases hx : x = b
        · subst hx; simp
        · simp [hx]
      · rfl
      · rfl
      · rfl
      · rfl
      · rfl
      · simp only [List.filter_filter, List.mem_cons, not_or]
        apply List.filter_congr
        intro x _
        rw [Bool.and_comm]; simp
      · rfl
      · rfl
      · rfl
      · simp
    · intro hcn
      rw [f2, e2 (hcn b (by simp) r hr)]
      intro x hx r' hr'
      simp only [Function.update_of_ne (hne x hx)] at hr'
      exact hcn x (by simp [hx]) r' hr'
    · intro n
      rw [f3, e3]

/-- If the destructor of one of them is not defined, the destruction is undefined. -/
theorem destroyBodies_ub (cfg : Cfg) (bs : List Nat) : ∀ {w : World}, Weak w → bs.Nodup → (∀ b ∈ bs, b ∈ w.bodies) → (∃ b ∈ bs, ¬Destructible cfg w b) →
    destroyBodies cfg bs w = .ub := by
  induction bs with
  | nil => rintro w h _ _ ⟨b, hb, _⟩; simp at hb
  | cons b bs ih =>
    rintro w h hnd hmem ⟨x, hx, hdx⟩
    obtain ⟨hb, hnd⟩ := List.nodup_cons.1 hnd
    rw [destroyBodies]
    by_cases hd : Destructible cfg w b
    · obtain ⟨r, hr⟩ := Option.isSome_iff_exists.1 ((h.bodies_iff b).1 (hmem b (by simp)))
      obtain ⟨ct, e1, e2, e3⟩ := destroyBody_ok h hr hd
      have hne : ∀ x ∈ bs, x ≠ b := fun x hx e => hb (e ▸ hx)
      rw [e1]
      simp only [Outcome.bind]
      have hxb : x ≠ b := fun e => hdx (e ▸ hd)
      have hxs : x ∈ bs := by simpa [hxb] using hx
      refine ih (h.dropBody b ct e3 _) hnd (fun y hy => List.mem_filter.2 ⟨hmem y (by simp [hy]), by simpa using hne y hy⟩) ⟨x, hxs, ?_⟩
      intro hh
      apply hdx
      intro r' hr'
      have hr2 : (Function.update w.body b none) x = some r' := by rw [Function.update_of_ne hxb]; exact hr'
      rcases hh r' hr2 with hh | ⟨hh, hh'⟩
      · exact Or.inl hh
      · exact Or.inr ⟨hh, fun k hk => List.mem_of_mem_filter (hh' k hk)⟩
    · rw [destroyBody_ub h hd]
      rfl

end Simu.World
