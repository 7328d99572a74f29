import Verif.Lemmas.WorldOps
/-
The contacts made and found by a step.
-/
namespace Simu.World
open World

/-- A pair of colliders that may be in contact. -/
def Elig (w : World) (p : Nat × Nat) : Prop := w.owner p.1 ≠ w.owner p.2 ∧ ¬Forbidden w (w.owner p.1) (w.owner p.2)

theorem SamePair.symm {p q : Nat × Nat} (h : SamePair p q) : SamePair q p := by
  rcases h with h | h <;> subst h
  · exact Or.inl rfl
  · exact Or.inr rfl

theorem SamePair.trans {p q r : Nat × Nat} (h : SamePair p q) (h' : SamePair q r) : SamePair p r := by
  rcases h with h | h <;> rcases h' with h' | h' <;> subst h <;> subst h'
  · exact Or.inl rfl
  · exact Or.inr rfl
  · exact Or.inr rfl
  · exact Or.inl rfl

theorem Elig.swap {w : World} {p q : Nat × Nat} (h : Elig w p) (hs : SamePair q p) : Elig w q := by
  rcases hs with e | e <;> subst e
  · exact h
  · refine ⟨h.1.symm, ?_⟩
    rintro ⟨n, J, hJ, hd, hs⟩
    exact h.2 ⟨n, J, hJ, hd, hs.trans (Or.inr rfl)⟩

theorem disabled_eq {w : World} (b1 : Nat) (ns : List Nat) (h : ∀ n ∈ ns, (w.joint n).isSome) :
    ∃ d, w.disabled b1 ns = .ok d ∧ (d = true ↔ ∃ n ∈ ns, ∃ J, w.joint n = some J ∧ J.disables = true ∧ (J.b0 = b1 ∨ J.b1 = b1)) := by
  induction ns with
  | nil => exact ⟨false, rfl, by simp⟩
  | cons n ns ih =>
    obtain ⟨d, e, hd⟩ := ih (fun m hm => h m (by simp [hm]))
    obtain ⟨J, hJ⟩ := Option.isSome_iff_exists.1 (h n (by simp))
    rw [disabled, hJ]
    simp only
    by_cases hc : (J.disables && (J.b0 == b1 || J.b1 == b1)) = true
    · rw [if_pos hc]
      refine ⟨true, rfl, ?_⟩
      simp only [true_iff]
      simp only [Bool.and_eq_true, Bool.or_eq_true, beq_iff_eq] at hc
      exact ⟨n, by simp, J, hJ, hc.1, hc.2⟩
    · rw [if_neg hc]
      refine ⟨d, e, hd.trans ?_⟩
      simp only [Bool.and_eq_true, Bool.or_eq_true, beq_iff_eq] at hc
      constructor
      · rintro ⟨m, hm, hh⟩
        exact ⟨m, by simp [hm], hh⟩
      · rintro ⟨m, hm, J', hJ', hh⟩
        rcases List.mem_cons.1 hm with rfl | hm
        · rw [hJ, Option.some.injEq] at hJ'
          subst hJ'
          exact absurd hh hc
        · exact ⟨m, hm, J', hJ', hh⟩

theorem forbidden_iff {w : World} (h : Inv0 w) {b0 b1 : Nat} {r : BodyRec} (hr : w.body b0 = some r) (hne : b0 ≠ b1) :
    Forbidden w b0 b1 ↔ ∃ n ∈ r.joints, ∃ J, w.joint n = some J ∧ J.disables = true ∧ (J.b0 = b1 ∨ J.b1 = b1) := by
  constructor
  · rintro ⟨n, J, hJ, hd, hs⟩
    have hb : (J.b0 = b0 ∨ J.b1 = b0) ∧ (J.b0 = b1 ∨ J.b1 = b1) := by
      rcases hs with e | e <;> simp only [Prod.mk.injEq] at e
      · exact ⟨Or.inl e.1, Or.inr e.2⟩
      · exact ⟨Or.inr e.2, Or.inl e.1⟩
    refine ⟨n, ?_, J, hJ, hd, hb.2⟩
    obtain ⟨⟨r0, a1, a2⟩, r1, a3, a4⟩ := h.joint_ends n J hJ
    rcases hb.1 with e | e
    · rw [e, hr, Option.some.injEq] at a1
      subst a1
      exact List.count_pos_iff.1 (by omega)
    · rw [e, hr, Option.some.injEq] at a3
      subst a3
      exact List.count_pos_iff.1 (by omega)
  · rintro ⟨n, hn, J, hJ, hd, hb⟩
    refine ⟨n, J, hJ, hd, ?_⟩
    obtain ⟨J', hJ', hb'⟩ := h.joint_listed b0 r hr n hn
    rw [hJ, Option.some.injEq] at hJ'
    subst hJ'
    unfold SamePair
    simp only [Prod.mk.injEq]
    rcases hb with hb | hb <;> rcases hb' with hb' | hb'
    · exact absurd (hb'.symm.trans hb) hne
    · exact Or.inr ⟨hb, hb'⟩
    · exact Or.inl ⟨hb', hb⟩
    · exact absurd (hb'.symm.trans hb) hne

theorem inContacts_some {w : World} (h : Inv0 w) {k0 k1 n : Nat} (he : w.inContacts k0 k1 = some n) :
    ∃ C, w.contact n = some C ∧ SamePair C.key (k0, k1) := by
  unfold inContacts at he
  have g : ∀ (q : Nat × Nat) m, w.contacts.find? (fun n => (w.contact n).any fun c => decide (c.key = q)) = some m → ∃ C, w.contact m = some C ∧ C.key = q := by
    intro q m hm
    have := List.find?_some hm
    cases hC : w.contact m with
    | none => simp [hC] at this
    | some C => exact ⟨C, rfl, by simpa [hC] using this⟩
  split at he
  · rename_i m hm
    injection he with e
    subst e
    obtain ⟨C, hC, hk⟩ := g _ _ hm
    exact ⟨C, hC, Or.inl hk⟩
  · obtain ⟨C, hC, hk⟩ := g _ _ he
    exact ⟨C, hC, Or.inr hk⟩

theorem inContacts_none {w : World} (h : Inv0 w) {k0 k1 : Nat} (he : w.inContacts k0 k1 = none) :
    ∀ n C, w.contact n = some C → ¬SamePair C.key (k0, k1) := by
  unfold inContacts at he
  intro n C hC hs
  have hn : n ∈ w.contacts := (h.contacts_iff n).2 (by simp [hC])
  split at he
  · exact absurd he (by simp)
  · rename_i hm
    rw [List.find?_eq_none] at hm he
    rcases hs with e | e
    · exact hm n hn (by simp [hC, e])
    · exact he n hn (by simp [hC, e])

/-- The world with a new contact. -/
def addContact (w : World) (p : Nat × Nat) : World :=
  { w with
    next := w.next + 1
    contacts := w.contacts ++ [w.next]
    contact := Function.update w.contact w.next (some ⟨p, w.owner p.1, w.owner p.2, false, true⟩)
    body := fun b => (w.body b).map fun r => if b = w.owner p.1 ∨ b = w.owner p.2 then { r with contacts := r.contacts ++ [w.next] } else r
    log := w.log ++ [.constructed (.contact w.next)] }

theorem makeContact_eq {w : World} {k0 k1 : Nat} {r0 r1 : BodyRec} (h0 : w.body (w.owner k0) = some r0) (h1 : w.body (w.owner k1) = some r1)
    (hne : w.owner k0 ≠ w.owner k1) :
    w.makeContact k0 k1 = if r0.structural && r1.structural then .throw else .ok (addContact w (k0, k1)) := by
  unfold makeContact
  rw [h0, h1]
  simp only
  split_ifs
  · rfl
  · set w' : World := { w with log := w.log ++ [.constructed (.contact w.next)] } with hw'
    have e1 : w'.listContact w.next (w.owner k0) = .ok (w'.setBody (w.owner k0) { r0 with contacts := r0.contacts ++ [w.next] }) := by
      simp only [listContact, show w'.body (w.owner k0) = some r0 from h0]
    rw [e1, Outcome.bind_ok]
    have e2 : (w'.setBody (w.owner k0) { r0 with contacts := r0.contacts ++ [w.next] }).listContact w.next (w.owner k1) =
        .ok ((w'.setBody (w.owner k0) { r0 with contacts := r0.contacts ++ [w.next] }).setBody (w.owner k1) { r1 with contacts := r1.contacts ++ [w.next] }) := by
      simp only [listContact, setBody, hw', Function.update_of_ne (Ne.symm hne), h1]
    rw [show (w'.setBody (w.owner k0) { r0 with contacts := r0.contacts ++ [w.next] }).owner k1 = w.owner k1 from rfl, e2, Outcome.bind_ok, Outcome.ok.injEq]
    ext1
    all_goals try rfl
    funext b
    simp only [setBody, addContact, hw']
    by_cases hb1 : b = w.owner k1
    · subst hb1; rw [Function.update_self, h1]; simp
    · rw [Function.update_of_ne hb1]
      by_cases hb0 : b = w.owner k0
      · subst hb0; rw [Function.update_self, h0]; simp
      · rw [Function.update_of_ne hb0]; simp [hb0, hb1]

theorem Inv0.addContact {w : World} (h : Inv0 w) {p : Nat × Nat} (h0 : p.1 ∈ w.tree) (h1 : p.2 ∈ w.tree) (hne : w.owner p.1 ≠ w.owner p.2)
    (hnew : ∀ n C, w.contact n = some C → ¬SamePair C.key p) : Inv0 (addContact w p) := by
  obtain ⟨r0, b0, c0⟩ := h.tree_owned p.1 h0
  obtain ⟨r1, b1, c1⟩ := h.tree_owned p.2 h1
  have hj := h.next_contact
  have hnl : ∀ b r, w.body b = some r → w.next ∉ r.contacts := by
    intro b r hr hn
    obtain ⟨J, hJ, _⟩ := h.contact_listed b r hr _ hn
    rw [hj] at hJ
    exact absurd hJ (by simp)
  have key : ∀ b r', (World.addContact w p).body b = some r' → ∃ r, w.body b = some r ∧
      r' = { r with contacts := if b = w.owner p.1 ∨ b = w.owner p.2 then r.contacts ++ [w.next] else r.contacts } := by
    intro b r' hr'
    obtain ⟨r, a, rfl⟩ := Option.map_eq_some_iff.1 hr'
    refine ⟨r, a, ?_⟩
    split_ifs <;> rfl
  have key' : ∀ b r, w.body b = some r → (World.addContact w p).body b =
      some { r with contacts := if b = w.owner p.1 ∨ b = w.owner p.2 then r.contacts ++ [w.next] else r.contacts } := by
    intro b r hr
    simp only [World.addContact, hr, Option.map_some]
    split_ifs <;> rfl
  have hjn : ∀ n J, w.contact n = some J → n ≠ w.next := fun n J hJ e => by rw [e, hj] at hJ; exact absurd hJ (by simp)
  have old : ∀ b n, n ≠ w.next → ListsContact w b n → ListsContact (World.addContact w p) b n := by
    rintro b n hn ⟨r, a1, a2⟩
    refine ⟨_, key' b r a1, ?_⟩
    simp only
    split_ifs
    · rw [List.count_append, a2, List.count_singleton, if_neg (by simpa using Ne.symm hn)]
    · exact a2
  have new : ∀ b r, w.body b = some r → (b = w.owner p.1 ∨ b = w.owner p.2) → ListsContact (World.addContact w p) b w.next := by
    intro b r hr hb
    refine ⟨_, key' b r hr, ?_⟩
    simp only
    rw [if_pos hb, List.count_append, List.count_eq_zero.2 (hnl b r hr), List.count_singleton, if_pos (by simp)]
  have jkey : ∀ n C, (World.addContact w p).contact n = some C → (n = w.next ∧ C = ⟨p, w.owner p.1, w.owner p.2, false, true⟩) ∨ w.contact n = some C := by
    intro n J hJ
    simp only [World.addContact] at hJ
    by_cases hn : n = w.next
    · subst hn
      rw [Function.update_self, Option.some.injEq] at hJ
      exact Or.inl ⟨rfl, hJ.symm⟩
    · rw [Function.update_of_ne hn] at hJ
      exact Or.inr hJ
  exact {
    bodies_iff := fun b => by
      show b ∈ w.bodies ↔ _
      rw [h.bodies_iff]
      simp [World.addContact]
    bodies_nodup := h.bodies_nodup
    contacts_iff := fun n => by
      show n ∈ w.contacts ++ [w.next] ↔ (Function.update w.contact w.next _ n).isSome
      rw [List.mem_append, h.contacts_iff, List.mem_singleton]
      by_cases hn : n = w.next
      · subst hn; simp
      · rw [Function.update_of_ne hn]; simp [hn]
    contacts_nodup := by
      show (w.contacts ++ [w.next]).Nodup
      rw [List.nodup_append]
      refine ⟨h.contacts_nodup, by simp, ?_⟩
      intro a ha c hc
      rw [List.mem_singleton] at hc
      subst hc
      obtain ⟨r, hr⟩ := Option.isSome_iff_exists.1 ((h.contacts_iff a).1 ha)
      exact hjn a r hr
    joints_iff := h.joints_iff
    joints_nodup := h.joints_nodup
    fresh_body := fun b r' hr' => by
      obtain ⟨r, a, rfl⟩ := key b r' hr'
      obtain ⟨a1, a2⟩ := h.fresh_body b r a
      exact ⟨Nat.lt_succ_of_lt a1, fun k hk => Nat.lt_succ_of_lt (a2 k hk)⟩
    fresh_contact := fun n J hJ => by
      rcases jkey n J hJ with ⟨rfl, rfl⟩ | hJ
      · exact Nat.lt_succ_self _
      · exact Nat.lt_succ_of_lt (h.fresh_contact n J hJ)
    fresh_joint := fun n J hJ => Nat.lt_succ_of_lt (h.fresh_joint n J hJ)
    contact_ends := fun n J hJ => by
      rcases jkey n J hJ with ⟨rfl, rfl⟩ | hJ
      · exact ⟨hne, new _ r0 b0 (Or.inl rfl), new _ r1 b1 (Or.inr rfl)⟩
      · obtain ⟨e, a, c⟩ := h.contact_ends n J hJ
        exact ⟨e, old _ _ (hjn n J hJ) a, old _ _ (hjn n J hJ) c⟩
    contact_listed := fun b r' hr' n hn => by
      obtain ⟨r, a, rfl⟩ := key b r' hr'
      have oldc : n ∈ r.contacts → ∃ J, (World.addContact w p).contact n = some J ∧ (J.b0 = b ∨ J.b1 = b) := by
        intro hn
        obtain ⟨J, hJ, hb⟩ := h.contact_listed b r a n hn
        refine ⟨J, ?_, hb⟩
        simp only [World.addContact]
        rw [Function.update_of_ne (hjn n J hJ)]
        exact hJ
      simp only at hn
      split_ifs at hn with hb
      · rw [List.mem_append, List.mem_singleton] at hn
        rcases hn with hn | rfl
        · exact oldc hn
        · exact ⟨_, Function.update_self .., hb.imp Eq.symm Eq.symm⟩
      · exact oldc hn
    joint_ends := fun n J hJ => by
      obtain ⟨⟨r0, a1, a2⟩, r1, a3, a4⟩ := h.joint_ends n J hJ
      exact ⟨⟨_, key' _ _ a1, a2⟩, ⟨_, key' _ _ a3, a4⟩⟩
    joint_listed := fun x r' hr' n hn => by
      obtain ⟨r'', a, rfl⟩ := key x r' hr'
      exact h.joint_listed x r'' a n hn
    contact_key := fun n C hC => by
      have lt : ∀ k ∈ w.tree, k < w.next + 1 := fun k hk => by
        obtain ⟨r, a1, a2⟩ := h.tree_owned k hk
        exact Nat.lt_succ_of_lt ((h.fresh_body _ r a1).2 k a2)
      rcases jkey n C hC with ⟨rfl, rfl⟩ | hC
      · exact ⟨rfl, rfl, lt _ h0, lt _ h1, fun _ => ⟨h0, h1⟩⟩
      · obtain ⟨a1, a2, a3, a4, a5⟩ := h.contact_key n C hC
        exact ⟨a1, a2, Nat.lt_succ_of_lt a3, Nat.lt_succ_of_lt a4, a5⟩
    keys := fun m n C D hC hD hs => by
      rcases jkey m C hC with ⟨rfl, rfl⟩ | hC <;> rcases jkey n D hD with ⟨rfl, rfl⟩ | hD
      · rfl
      · exact absurd hs.symm (hnew n D hD)
      · exact absurd hs (hnew m C hC)
      · exact h.keys m n C D hC hD hs
    colliders := fun b r' hr' => by
      obtain ⟨r, a, rfl⟩ := key b r' hr'
      exact h.colliders b r a
    tree_nodup := h.tree_nodup
    tree_owned := fun k hk => by
      obtain ⟨r, a1, a2⟩ := h.tree_owned k hk
      exact ⟨_, key' _ _ a1, a2⟩
    broken := h.broken }

/-- What the calls of `registerContact` for some pairs did. -/
structure Registered (w : World) (ps : List (Nat × Nat)) (w' : World) : Prop where
  inv : Inv0 w'
  bodies : w'.bodies = w.bodies
  joints : w'.joints = w.joints
  joint : w'.joint = w.joint
  forces : w'.forces = w.forces
  tree : w'.tree = w.tree
  owner : w'.owner = w.owner
  body : ∀ b, (w'.body b).map (fun r => (r.structural, r.killed, r.colliders, r.joints)) = (w.body b).map fun r => (r.structural, r.killed, r.colliders, r.joints)
  next : w.next ≤ w'.next
  old : ∀ n C, w.contact n = some C → ∃ C', w'.contact n = some C' ∧ C' = { C with hit := C'.hit } ∧
    (C'.hit = true ↔ C.hit = true ∨ ∃ p ∈ ps, Elig w p ∧ SamePair C.key p)
  new : ∀ n C', w'.contact n = some C' → w.contact n = none → C'.hit = true ∧ C'.killed = false ∧ C'.key ∈ ps ∧ Elig w C'.key ∧ w.next ≤ n
  cover : ∀ p ∈ ps, Elig w p → ∃ n C', w'.contact n = some C' ∧ SamePair C'.key p
  log : ∃ ns, w'.log = w.log ++ ns.map (fun n => .constructed (.contact n)) ∧ w'.contacts = w.contacts ++ ns

theorem Registered.nil {w : World} (h : Inv0 w) : Registered w [] w where
  inv := h
  bodies := rfl
  joints := rfl
  joint := rfl
  forces := rfl
  tree := rfl
  owner := rfl
  body _ := rfl
  next := le_rfl
  old n C hC := ⟨C, hC, rfl, by simp⟩
  new n C hC hn := by rw [hC] at hn; exact absurd hn (by simp)
  cover := by simp
  log := ⟨[], by simp, by simp⟩

theorem Registered.trans {w w1 w2 : World} {ps qs : List (Nat × Nat)} (h : Registered w ps w1) (h' : Registered w1 qs w2) : Registered w (ps ++ qs) w2 := by
  have el : ∀ p, Elig w1 p ↔ Elig w p := by
    intro p
    unfold Elig Forbidden
    rw [h.owner, h.joint]
  exact {
    inv := h'.inv
    bodies := h'.bodies.trans h.bodies
    joints := h'.joints.trans h.joints
    joint := h'.joint.trans h.joint
    forces := h'.forces.trans h.forces
    tree := h'.tree.trans h.tree
    owner := h'.owner.trans h.owner
    body := fun b => (h'.body b).trans (h.body b)
    next := h.next.trans h'.next
    old := fun n C hC => by
      obtain ⟨C1, hC1, e1, i1⟩ := h.old n C hC
      obtain ⟨C2, hC2, e2, i2⟩ := h'.old n C1 hC1
      refine ⟨C2, hC2, by rw [e2, e1], ?_⟩
      have ek : C1.key = C.key := by rw [e1]
      rw [i2, i1, ek]
      simp only [List.mem_append, el]
      constructor
      · rintro ((a | ⟨p, hp, a⟩) | ⟨p, hp, a⟩)
        · exact Or.inl a
        · exact Or.inr ⟨p, Or.inl hp, a⟩
        · exact Or.inr ⟨p, Or.inr hp, a⟩
      · rintro (a | ⟨p, hp | hp, a⟩)
        · exact Or.inl (Or.inl a)
        · exact Or.inl (Or.inr ⟨p, hp, a⟩)
        · exact Or.inr ⟨p, hp, a⟩
    new := fun n C2 hC2 hn => by
      cases hC1 : w1.contact n with
      | none =>
        obtain ⟨a1, a2, a3, a4, a5⟩ := h'.new n C2 hC2 hC1
        exact ⟨a1, a2, by simp [a3], (el _).1 a4, h.next.trans a5⟩
      | some C1 =>
        obtain ⟨a1, a2, a3, a4, a5⟩ := h.new n C1 hC1 hn
        obtain ⟨C2', hC2', e2, i2⟩ := h'.old n C1 hC1
        rw [hC2, Option.some.injEq] at hC2'
        subst hC2'
        have ek : C2.key = C1.key := by rw [e2]
        have ekl : C2.killed = C1.killed := by rw [e2]
        rw [ek, ekl]
        exact ⟨i2.2 (Or.inl a1), a2, by simp [a3], a4, a5⟩
    cover := fun p hp hel => by
      rcases List.mem_append.1 hp with hp | hp
      · obtain ⟨n, C1, hC1, hs⟩ := h.cover p hp hel
        obtain ⟨C2, hC2, e2, -⟩ := h'.old n C1 hC1
        refine ⟨n, C2, hC2, ?_⟩
        rw [e2]
        exact hs
      · exact h'.cover p hp ((el p).2 hel)
    log := by
      obtain ⟨n1, a1, b1⟩ := h.log
      obtain ⟨n2, a2, b2⟩ := h'.log
      exact ⟨n1 ++ n2, by rw [a2, a1]; simp, by rw [b2, b1]; simp⟩ }

/-- Both bodies are structural. -/
def BothStructural (w : World) (p : Nat × Nat) : Prop := (w.body (w.owner p.1)).any (·.structural) = true ∧ (w.body (w.owner p.2)).any (·.structural) = true

theorem registerContact_spec {w : World} (h : Inv0 w) {p : Nat × Nat} (h0 : p.1 ∈ w.tree) (h1 : p.2 ∈ w.tree) :
    (¬(Elig w p ∧ BothStructural w p ∧ ∀ n C, w.contact n = some C → ¬SamePair C.key p) → ∃ w', w.registerContact p.1 p.2 = .ok w' ∧ Registered w [p] w') ∧
    ((Elig w p ∧ BothStructural w p ∧ ∀ n C, w.contact n = some C → ¬SamePair C.key p) → w.registerContact p.1 p.2 = .throw) := by
  obtain ⟨r0, b0, c0⟩ := h.tree_owned p.1 h0
  obtain ⟨r1, b1, c1⟩ := h.tree_owned p.2 h1
  have triv : ¬Elig w p → Registered w [p] w := by
    intro hne
    refine { Registered.nil h with old := fun n C hC => ⟨C, hC, rfl, ?_⟩, new := fun n C hC hn => ?_, cover := fun q hq hel => ?_ }
    · constructor
      · exact Or.inl
      · rintro (a | ⟨q, hq, hel, _⟩)
        · exact a
        · rw [List.mem_singleton] at hq
          subst hq
          exact absurd hel hne
    · rw [hC] at hn; exact absurd hn (by simp)
    · rw [List.mem_singleton] at hq
      subst hq
      exact absurd hel hne
  unfold registerContact
  by_cases hown : w.owner p.1 = w.owner p.2
  · rw [if_pos hown]
    have hne : ¬Elig w p := fun hel => hel.1 hown
    exact ⟨fun _ => ⟨w, rfl, triv hne⟩, fun hc => absurd hc.1 hne⟩
  · rw [if_neg hown, b0]
    simp only
    obtain ⟨d, ed, hd⟩ := disabled_eq (w := w) (w.owner p.2) r0.joints (fun n hn => by
      obtain ⟨J, hJ, _⟩ := h.joint_listed _ r0 b0 n hn
      simp [hJ])
    rw [← forbidden_iff h b0 hown] at hd
    rw [ed, Outcome.bind_ok]
    cases d with
    | true =>
      have hne : ¬Elig w p := fun hel => hel.2 (hd.1 rfl)
      rw [if_pos rfl]
      exact ⟨fun _ => ⟨w, rfl, triv hne⟩, fun hc => absurd hc.1 hne⟩
    | false =>
      have hel : Elig w p := ⟨hown, fun hf => absurd (hd.2 hf) (by simp)⟩
      rw [if_neg (by simp)]
      cases hin : w.inContacts p.1 p.2 with
      | some n =>
        obtain ⟨C, hC, hs⟩ := inContacts_some h hin
        simp only [hC]
        refine ⟨fun _ => ⟨_, rfl, ?_⟩, fun hc => absurd hs (hc.2.2 n C hC)⟩
        have e := update_eq_map w.contact n C (fun C => { C with hit := true }) hC
        have hkey : ∀ m D, w.contact m = some D → (∃ q ∈ [p], Elig w q ∧ SamePair D.key q) → m = n := by
          rintro m D hD ⟨q, hq, -, hsq⟩
          rw [List.mem_singleton] at hq
          subst hq
          exact h.keys m n D C hD hC (hsq.trans hs.symm)
        refine { Registered.nil h with inv := ?_, old := fun m D hD => ?_, new := fun m D hD hm => ?_, cover := fun q hq _ => ?_ }
        · refine (h.mapContact (fun x r => if x = n then { r with hit := true } else r) (fun x r => by split_ifs <;> simp)).congr rfl rfl rfl rfl rfl ?_ rfl rfl rfl le_rfl
          exact e
        · by_cases hm : m = n
          · subst hm
            rw [hC, Option.some.injEq] at hD
            subst hD
            exact ⟨_, Function.update_self .., rfl, by simp; exact Or.inr ⟨hel, hs⟩⟩
          · refine ⟨D, by simp only [setContact, Function.update_of_ne hm]; exact hD, rfl, ?_⟩
            constructor
            · exact Or.inl
            · rintro (a | a)
              · exact a
              · exact absurd (hkey m D hD a) hm
        · simp only [setContact] at hD
          by_cases hmn : m = n
          · subst hmn
            rw [hC] at hm
            exact absurd hm (by simp)
          · rw [Function.update_of_ne hmn, hm] at hD
            exact absurd hD (by simp)
        · rw [List.mem_singleton] at hq
          subst hq
          exact ⟨n, _, Function.update_self .., hs⟩
      | none =>
        have hnew := inContacts_none h hin
        simp only
        rw [makeContact_eq b0 b1 hown]
        have hst : BothStructural w p ↔ (r0.structural && r1.structural) = true := by
          simp [BothStructural, b0, b1]
        refine ⟨fun hc => ?_, fun hc => by rw [if_pos (hst.1 hc.2.1)]⟩
        have hns : ¬(r0.structural && r1.structural) = true := fun hs => hc ⟨hel, hst.2 hs, hnew⟩
        rw [if_neg hns]
        refine ⟨_, rfl, ?_⟩
        have hi := h.addContact h0 h1 hown hnew
        exact {
          inv := hi
          bodies := rfl
          joints := rfl
          joint := rfl
          forces := rfl
          tree := rfl
          owner := rfl
          body := fun b => by
            simp only [addContact, Option.map_map]
            congr 1
            funext r
            simp only [Function.comp]
            split_ifs <;> rfl
          next := Nat.le_succ _
          old := fun n C hC => by
            have hn : n ≠ w.next := fun e => by rw [e, h.next_contact] at hC; exact absurd hC (by simp)
            refine ⟨C, by simp only [addContact, Function.update_of_ne hn]; exact hC, rfl, ?_⟩
            constructor
            · exact Or.inl
            · rintro (a | ⟨q, hq, -, hs⟩)
              · exact a
              · rw [List.mem_singleton] at hq
                subst hq
                exact absurd hs (hnew n C hC)
          new := fun n C hC hn => by
            simp only [addContact] at hC
            by_cases hnn : n = w.next
            · subst hnn
              rw [Function.update_self, Option.some.injEq] at hC
              subst hC
              exact ⟨rfl, rfl, by simp, hel, le_rfl⟩
            · rw [Function.update_of_ne hnn, hn] at hC
              exact absurd hC (by simp)
          cover := fun q hq _ => by
            rw [List.mem_singleton] at hq
            subst hq
            exact ⟨w.next, _, Function.update_self .., Or.inl rfl⟩
          log := ⟨[w.next], rfl, rfl⟩ }

theorem structural_registered {w w' : World} {ps : List (Nat × Nat)} (h : Registered w ps w') (b : Nat) :
    (w'.body b).any (·.structural) = (w.body b).any (·.structural) := by
  have := congrArg (fun o => o.any (·.1)) (h.body b)
  simpa [Option.any_map, Function.comp_def] using this

theorem registerAll_ok (ps : List (Nat × Nat)) : ∀ {w : World}, Inv0 w → (∀ p ∈ ps, p.1 ∈ w.tree ∧ p.2 ∈ w.tree) →
    (∀ p ∈ ps, w.owner p.1 ≠ w.owner p.2 → ¬BothStructural w p) → ∃ w', registerAll ps w = (w', .ok ()) ∧ Registered w ps w' := by
  induction ps with
  | nil => intro w h _ _; exact ⟨w, rfl, Registered.nil h⟩
  | cons p ps ih =>
    intro w h ht hs
    obtain ⟨w1, e1, R1⟩ := (registerContact_spec h (ht p (by simp)).1 (ht p (by simp)).2).1 (fun hc => hs p (by simp) hc.1.1 hc.2.1)
    obtain ⟨w2, e2, R2⟩ := ih R1.inv (fun q hq => by rw [R1.tree]; exact ht q (by simp [hq])) (fun q hq hne hb => by
      rw [R1.owner] at hne
      refine hs q (by simp [hq]) hne ?_
      unfold BothStructural at hb ⊢
      rw [R1.owner, structural_registered R1, structural_registered R1] at hb
      exact hb)
    refine ⟨w2, ?_, R1.trans R2⟩
    rw [registerAll, e1]
    exact e2

theorem registerAll_throw (ps : List (Nat × Nat)) : ∀ {w : World}, Inv0 w → (∀ p ∈ ps, p.1 ∈ w.tree ∧ p.2 ∈ w.tree) →
    (∃ p ∈ ps, Elig w p ∧ BothStructural w p ∧ ∀ n C, w.contact n = some C → ¬SamePair C.key p) → ∃ w', registerAll ps w = (w', .throw) := by
  induction ps with
  | nil => rintro w h _ ⟨p, hp, _⟩; simp at hp
  | cons p ps ih =>
    rintro w h ht ⟨q, hq, hel, hbs, hnc⟩
    have S := registerContact_spec h (ht p (by simp)).1 (ht p (by simp)).2
    by_cases hc : Elig w p ∧ BothStructural w p ∧ ∀ n C, w.contact n = some C → ¬SamePair C.key p
    · exact ⟨w, by rw [registerAll, S.2 hc]⟩
    · obtain ⟨w1, e1, R1⟩ := S.1 hc
      have hqp : q ∈ ps := by
        rcases List.mem_cons.1 hq with e | hq
        · exact absurd (e ▸ ⟨hel, hbs, hnc⟩) hc
        · exact hq
      have hel1 : Elig w1 q := by
        unfold Elig Forbidden at hel ⊢
        rw [R1.owner, R1.joint]; exact hel
      obtain ⟨w2, e2⟩ := ih R1.inv (fun q hq => by rw [R1.tree]; exact ht q (by simp [hq])) ⟨q, hqp, hel1, by
        unfold BothStructural at hbs ⊢
        rw [R1.owner, structural_registered R1, structural_registered R1]
        exact hbs, by
        intro n C hC hs
        cases hn : w.contact n with
        | some C' =>
          obtain ⟨C'', a, e, _⟩ := R1.old n C' hn
          rw [hC, Option.some.injEq] at a
          subst a
          have ek : C.key = C'.key := by rw [e]
          rw [ek] at hs
          exact hnc n C' hn hs
        | none =>
          obtain ⟨_, _, a3, a4, _⟩ := R1.new n C hC hn
          rw [List.mem_singleton] at a3
          -- the contact made for `p` joins the same bodies
          apply hc
          rw [a3] at a4 hs
          refine ⟨a4, ?_, fun m D hD hs' => hnc m D hD (hs'.trans hs)⟩
          unfold BothStructural at hbs ⊢
          rcases hs with e | e <;> rw [e]
          · exact hbs
          · exact ⟨hbs.2, hbs.1⟩⟩
      exact ⟨w2, by rw [registerAll, e1]; exact e2⟩

theorem settle_inv {w : World} (h : Inv0 w) : Inv w.settle := by
  have e : w.settle.contact = fun n => (w.contact n).map fun c => { c with killed := c.killed || !c.hit, hit := false } := by
    funext n
    simp only [settle]
    split_ifs with hn
    · rfl
    · rw [h.contacts_iff] at hn
      have : w.contact n = none := by simpa using hn
      rw [this]; rfl
  refine ((h.mapContact (fun _ c => { c with killed := c.killed || !c.hit, hit := false }) (fun n C => ⟨rfl, rfl, rfl, fun hk => by simp [hk]⟩)).congr (w' := w.settle)
    rfl rfl rfl rfl rfl e rfl rfl rfl le_rfl).inv ?_
  intro n C hC
  rw [e] at hC
  obtain ⟨C', _, rfl⟩ := Option.map_eq_some_iff.1 hC
  rfl

theorem settle_contact {w : World} (h : Inv0 w) {n : Nat} : w.settle.contact n = (w.contact n).map fun c => { c with killed := c.killed || !c.hit, hit := false } := by
  simp only [settle]
  split_ifs with hn
  · rfl
  · rw [h.contacts_iff] at hn
    have : w.contact n = none := by simpa using hn
    rw [this]; rfl

theorem colliderAlive_of_tree {w : World} (h : Inv0 w) {k : Nat} (hk : k ∈ w.tree) : w.colliderAlive k = true := by
  obtain ⟨r, a1, a2⟩ := h.tree_owned k hk
  simp [colliderAlive, a1, a2]

theorem treeReadable_of_inv {w : World} (h : Inv0 w) : w.treeReadable = true := by
  simp only [treeReadable, h.broken, Bool.not_false, Bool.true_and, List.all_eq_true]
  exact fun k hk => colliderAlive_of_tree h hk

theorem contactsReadable_of_inv {w : World} (h : Inv0 w) (hk : ∀ n C, w.contact n = some C → C.killed = false) : w.contactsReadable = true := by
  simp only [contactsReadable, List.all_eq_true]
  intro n hn
  obtain ⟨C, hC⟩ := Option.isSome_iff_exists.1 ((h.contacts_iff n).1 hn)
  obtain ⟨t0, t1⟩ := (h.contact_key n C hC).2.2.2.2 (hk n C hC)
  simp [hC, colliderAlive_of_tree h t0, colliderAlive_of_tree h t1]

theorem graphReadable_of_inv {w : World} (h : Inv0 w) : w.graphReadable = true := by
  simp only [graphReadable, List.all_eq_true]
  intro b hb
  obtain ⟨r, hr⟩ := Option.isSome_iff_exists.1 ((h.bodies_iff b).1 hb)
  simp only [hr, Option.any_some, Bool.and_eq_true, List.all_eq_true]
  refine ⟨fun n hn => ?_, fun n hn => ?_⟩
  · obtain ⟨J, hJ, _⟩ := h.joint_listed b r hr n hn
    obtain ⟨a, c⟩ := h.joint_ends n J hJ
    simp [hJ, a.some, c.some]
  · obtain ⟨J, hJ, _⟩ := h.contact_listed b r hr n hn
    obtain ⟨-, a, c⟩ := h.contact_ends n J hJ
    simp [hJ, a.some, c.some]

theorem cleaned_contact {w : World} {n : Nat} {C : ContactRec} : (cleaned w).contact n = some C ↔ deadC w n = false ∧ w.contact n = some C := by
  exact dropContacts_contact (w := w) (p := deadC w) (log := w.log)

theorem cleaned_joint {w : World} {n : Nat} {J : JointRec} : (cleaned w).joint n = some J ↔ deadJ w n = false ∧ w.joint n = some J :=
  dropJoints_joint (w := dropContacts w (deadC w) w.log) (p := deadJ w)

theorem cleaned_body {w : World} {b : Nat} {r : BodyRec} : (cleaned w).body b = some r ↔ ∃ r', w.body b = some r' ∧ r'.killed = false ∧
    r = { r' with joints := r'.joints.filter (fun n => !deadJ w n), contacts := r'.contacts.filter (fun n => !deadC w n) } := by
  have e1 : (cleaned w).body b = some r ↔ _ := dropBodies_body (w := dropJoints (dropContacts w (deadC w) w.log) (deadJ w)) (p := killedB w)
  rw [e1, dropJoints_body]
  constructor
  · rintro ⟨hk, r1, h1, rfl⟩
    obtain ⟨r2, h2, rfl⟩ := dropContacts_body.1 h1
    exact ⟨r2, h2, by simpa [killedB, h2] using hk, rfl⟩
  · rintro ⟨r2, h2, hk, rfl⟩
    exact ⟨by simpa [killedB, h2] using hk, _, dropContacts_body.2 ⟨r2, h2, rfl⟩, rfl⟩

theorem cleaned_tree {w : World} (h : Inv0 w) {k : Nat} : k ∈ (cleaned w).tree ↔ k ∈ w.tree ∧ ¬DeadBody w (w.owner k) := by
  show k ∈ List.filter _ _ ↔ _
  rw [List.mem_filter]
  refine and_congr_right fun hk => ?_
  obtain ⟨r, a1, a2⟩ := h.tree_owned k hk
  unfold DeadBody
  show (!killedB w (w.owner k)) = true ↔ _
  simp [killedB, a1]

theorem cleaned_live {w : World} {n : Nat} {C : ContactRec} (h : (cleaned w).contact n = some C) : C.killed = false := by
  obtain ⟨hd, hC⟩ := cleaned_contact.1 h
  exact (deadC_ends hC hd).1

end Simu.World
