import Verif.Lemmas.WorldReach
import Verif.Lemmas.WorldBroken
/-
C39, C40 and C68: the objects of a world, its contacts, and steps that throw.
-/
namespace Simu.World
open World

/-- A constraint is dead: it was killed, or one of its bodies was. -/
def DeadJoint (w : World) (n : Nat) : Prop := ∃ J, w.joint n = some J ∧ (J.killed = true ∨ DeadBody w J.b0 ∨ DeadBody w J.b1)

/-- A contact is dead: it was killed, or one of its bodies was. -/
def DeadContact (w : World) (n : Nat) : Prop := ∃ C, w.contact n = some C ∧ (C.killed = true ∨ DeadBody w C.b0 ∨ DeadBody w C.b1)

theorem killedB_iff (w : World) (b : Nat) : killedB w b = true ↔ DeadBody w b := by
  unfold killedB DeadBody
  cases w.body b <;> simp

theorem deadJ_iff (w : World) (n : Nat) : deadJ w n = true ↔ DeadJoint w n := by
  unfold deadJ DeadJoint
  cases w.joint n <;> simp [killedB_iff, or_assoc]

theorem deadC_iff (w : World) (n : Nat) : deadC w n = true ↔ DeadContact w n := by
  unfold deadC DeadContact
  cases w.contact n <;> simp [killedB_iff, or_assoc]

/-- **C39.** In every world reached by operations that do what a caller must ensure, no pointer between objects dangles. -/
theorem C39_no_dangling {cfg : Cfg} {w : World} (h : Reachable cfg w) : NoDangling w := by
  have i := h.inv
  exact {
    joints_of_body := i.joint_listed
    contacts_of_body := i.contact_listed
    bodies_of_joint := fun n J hJ b hb => by
      rcases hb with rfl | rfl
      · exact (i.joint_ends n J hJ).1
      · exact (i.joint_ends n J hJ).2
    bodies_of_contact := fun n C hC b hb => by
      rcases hb with rfl | rfl
      · exact (i.contact_ends n C hC).2.1
      · exact (i.contact_ends n C hC).2.2
    tree := i.tree_owned
    colliders_of_contact := fun n C hC hk k hkk => by
      obtain ⟨t0, t1⟩ := (i.contact_key n C hC).2.2.2.2 hk
      rcases hkk with rfl | rfl
      · exact i.tree_owned _ t0
      · exact i.tree_owned _ t1 }

/-- **C39.** An operation is undefined exactly if it destroys a body whose destructor is. Missing for the full claim: such
bodies exist (`C39_destructor_disagreement`). -/
theorem C39_defined_partial {cfg : Cfg} {w : World} (h : Reachable cfg w) (o : Op) (ha : o.Allowed w) : (w.apply cfg o).2 = .ub ↔ ¬o.DestroysSafely cfg w := by
  constructor
  · intro hub hd
    exact (inv_apply h.inv o ha hd).2 hub
  · intro hd
    cases o with
    | step p c f =>
      simp only [Op.DestroysSafely] at hd
      push Not at hd
      show (w.step cfg p c f).2 = .ub
      unfold World.step
      rw [(cleanup_eq h.inv.toInv0).2 hd]
    | clear =>
      simp only [Op.DestroysSafely] at hd
      push Not at hd
      exact (h.inv.clear (cfg := cfg)).2 hd
    | _ => exact absurd trivial hd

/-- **C39.** After a step, also one that throws, exactly the objects that were dead before are gone. -/
theorem C39_dead_gone {cfg : Cfg} {w : World} (h : Reachable cfg w) {p : Bool} {c : List Nat → List (Nat × Nat)} {f : Option Stage}
    (ha : Op.Allowed w (.step p c f)) (hd : Op.DestroysSafely cfg w (.step p c f)) :
    let w' := (w.step cfg p c f).1;
    (∀ b, b ∈ w'.bodies ↔ b ∈ w.bodies ∧ ¬DeadBody w b) ∧ (∀ n, n ∈ w'.joints ↔ n ∈ w.joints ∧ ¬DeadJoint w n) ∧
    (∀ n, n ∈ w'.contacts ∧ n < w.next ↔ n ∈ w.contacts ∧ ¬DeadContact w n) ∧ (w'.forces = w.forces.filter fun x => !x.2) ∧
    ∀ k, k ∈ w'.tree ↔ k ∈ w.tree ∧ ¬DeadBody w (w.owner k) := by
  intro w'
  have i := h.inv
  have base : (∀ b, b ∈ (cleaned w).bodies ↔ b ∈ w.bodies ∧ ¬DeadBody w b) ∧ (∀ n, n ∈ (cleaned w).joints ↔ n ∈ w.joints ∧ ¬DeadJoint w n) ∧
      (∀ n, n ∈ (cleaned w).contacts ↔ n ∈ w.contacts ∧ ¬DeadContact w n) := by
    refine ⟨fun b => ?_, fun n => ?_, fun n => ?_⟩
    · show b ∈ w.bodies.filter _ ↔ _
      rw [List.mem_filter, ← killedB_iff]; simp
    · show n ∈ w.joints.filter _ ↔ _
      rw [List.mem_filter, ← deadJ_iff]; simp
    · show n ∈ w.contacts.filter _ ↔ _
      rw [List.mem_filter, ← deadC_iff]; simp
  have lt : ∀ n ∈ (cleaned w).contacts, n < w.next := by
    intro n hn
    obtain ⟨C, hC⟩ := Option.isSome_iff_exists.1 ((i.contacts_iff n).1 ((base.2.2 n).1 hn).1)
    exact i.fresh_contact n C hC
  rcases step_ok i ha hd with ⟨-, e, -⟩ | ⟨-, -, -, w1, R, e⟩
  · rw [show w' = cleaned w from e]
    refine ⟨base.1, base.2.1, fun n => ?_, rfl, fun k => cleaned_tree i.toInv0⟩
    rw [← base.2.2 n]
    exact ⟨fun hn => hn.1, fun hn => ⟨hn, lt n hn⟩⟩
  · rw [show w' = w1.settle from e]
    refine ⟨fun b => ?_, fun n => ?_, fun n => ?_, ?_, fun k => ?_⟩
    · show b ∈ w1.bodies ↔ _
      rw [R.bodies]; exact base.1 b
    · show n ∈ w1.joints ↔ _
      rw [R.joints]; exact base.2.1 n
    · show n ∈ w1.contacts ∧ _ ↔ _
      rw [← base.2.2 n]
      constructor
      · rintro ⟨hn, hlt⟩
        obtain ⟨C, hC⟩ := Option.isSome_iff_exists.1 ((R.inv.contacts_iff n).1 hn)
        cases hc : (cleaned w).contact n with
        | none => exact absurd ((R.new n C hC hc).2.2.2.2) (not_le.2 hlt)
        | some D => exact (i.cleaned.contacts_iff n).2 (by simp [hc])
      · intro hn
        refine ⟨?_, lt n hn⟩
        obtain ⟨ns, -, e⟩ := R.log
        rw [e]
        exact List.mem_append_left _ hn
    · show w1.forces = _
      rw [R.forces]; rfl
    · show k ∈ w1.tree ↔ _
      rw [R.tree]; exact cleaned_tree i.toInv0

/-- **C39, disagreement.** As the destructor of `Body` is written, a step (and `clear`) with a dead body that has a collider is undefined. -/
theorem C39_destructor_disagreement {w : World} (h : Reachable ⟨false⟩ w) {b : Nat} {r : BodyRec} (hb : w.body b = some r) (hk : r.killed = true)
    (hc : r.colliders ≠ []) {p : Bool} {c : List Nat → List (Nat × Nat)} {f : Option Stage} (ha : Op.Allowed w (.step p c f)) :
    (w.step ⟨false⟩ p c f).2 = .ub := by
  refine (C39_defined_partial h (.step p c f) ha).2 fun hd => ?_
  rcases hd b ⟨r, hb, hk⟩ r hb with e | ⟨e, -⟩
  · exact hc e
  · exact absurd e (by simp)

/-! ### A history -/

/-- Reports every pair of different elements. -/
def allPairs : List Nat → List (Nat × Nat)
  | [] => []
  | a :: l => l.map (fun b => (b, a)) ++ allPairs l

theorem mem_allPairs (l : List Nat) (p : Nat × Nat) (hp : p ∈ allPairs l) : p.1 ∈ l ∧ p.2 ∈ l := by
  induction l with
  | nil => simp [allPairs] at hp
  | cons a l ih =>
    simp only [allPairs, List.mem_append, List.mem_map] at hp
    rcases hp with ⟨b, hb, rfl⟩ | hp
    · simp [hb]
    · obtain ⟨h1, h2⟩ := ih hp
      simp [h1, h2]

theorem allPairs_reports : Reports (fun _ _ => True) allPairs := by
  intro l hl
  induction l with
  | nil => simp [allPairs]
  | cons a l ih =>
    obtain ⟨ha, hl⟩ := List.nodup_cons.1 hl
    obtain ⟨i1, i2⟩ := ih hl
    refine ⟨fun p hp => ?_, fun x hx y hy hne _ => ?_⟩
    · simp only [allPairs, List.mem_append, List.mem_map] at hp
      rcases hp with ⟨b, hb, rfl⟩ | hp
      · exact ⟨by simp [hb], by simp, fun e => ha ((show b = a from e) ▸ hb), trivial⟩
      · obtain ⟨a1, a2, a3, a4⟩ := i1 p hp
        exact ⟨by simp [a1], by simp [a2], a3, a4⟩
    · simp only [allPairs, List.mem_append, List.mem_map]
      rcases List.mem_cons.1 hx with ex | hx <;> rcases List.mem_cons.1 hy with ey | hy
      · exact absurd (ex.trans ey.symm) hne
      · exact Or.inr (Or.inl ⟨y, hy, by rw [ex]⟩)
      · exact Or.inl (Or.inl ⟨x, hx, by rw [ey]⟩)
      · exact (i2 x hx y hy hne trivial).imp Or.inr Or.inr

/-- Two bodies (0 and 1, the first structural) with a collider each (2 and 3), after a step in which they touch: there is a contact, 4. -/
def touching : World := ((((init.makeBody true).makeBody false).addCollider 0 true).1.addCollider 1 true).1.step ⟨true⟩ true allPairs none |>.1

theorem touching_reachable : Reachable ⟨true⟩ touching := by
  have h1 : Reachable ⟨true⟩ (init.makeBody true) := .op .init (.makeBody true) trivial trivial
  have h2 : Reachable ⟨true⟩ ((init.makeBody true).makeBody false) := .op h1 (.makeBody false) trivial trivial
  have h3 : Reachable ⟨true⟩ (((init.makeBody true).makeBody false).addCollider 0 true).1 := .op h2 (.addCollider 0 true) (show 0 ∈ [0, 1] by decide) trivial
  have h4 : Reachable ⟨true⟩ ((((init.makeBody true).makeBody false).addCollider 0 true).1.addCollider 1 true).1 := .op h3 (.addCollider 1 true) (show 1 ∈ [0, 1] by decide) trivial
  refine .op h4 (.step true allPairs none) ⟨_, allPairs_reports, ?_⟩ ?_
  · intro k0 h0 k1 h1 _ hne
    have t : ((((init.makeBody true).makeBody false).addCollider 0 true).1.addCollider 1 true).1.tree = [2, 3] := rfl
    rw [t] at h0 h1
    simp only [List.mem_cons, List.not_mem_nil, or_false] at h0 h1
    rcases h0 with rfl | rfl <;> rcases h1 with rfl | rfl
    · exact absurd rfl hne
    · decide
    · decide
    · exact absurd rfl hne
  · rintro b ⟨r, hr, hk⟩
    have : ∀ b r, ((((init.makeBody true).makeBody false).addCollider 0 true).1.addCollider 1 true).1.body b = some r → r.killed = false := by
      intro b r hr
      simp only [World.addCollider, World.makeBody, init, setBody] at hr
      by_cases h1 : b = 1
      · subst h1
        have : r = ⟨false, false, [3], [], []⟩ := (Option.some.injEq _ _ ▸ hr.symm)
        rw [this]
      · by_cases h0 : b = 0
        · subst h0
          have : r = ⟨true, false, [2], [], []⟩ := (Option.some.injEq _ _ ▸ hr.symm)
          rw [this]
        · simp [Function.update, h0, h1] at hr
    rw [this b r hr] at hk
    exact absurd hk (by simp)

/-- There is a contact in this world. -/
example : touching.contacts = [4] ∧ touching.contact 4 = some ⟨(3, 2), 1, 0, false, false⟩ ∧ touching.body 0 = some ⟨true, false, [2], [], [4]⟩ ∧
    touching.body 1 = some ⟨false, false, [3], [], [4]⟩ := by decide

/-- `C39_no_dangling` applies to it. -/
example : NoDangling touching := C39_no_dangling touching_reachable

/-- Killing the second body and stepping again destroys it and the contact. -/
example : let w := ((touching.killBody 1).1.step ⟨true⟩ true allPairs none); w.2 = .ok () ∧ w.1.bodies = [0] ∧ w.1.contacts = [] ∧ w.1.tree = [2] ∧
    w.1.body 0 = some ⟨true, false, [2], [], []⟩ := by decide

/-- As the destructor is written, this is undefined. -/
example : ((touching.killBody 1).1.step ⟨false⟩ true allPairs none).2 = .ub := by decide

/-- Refusing a collider leaves it in the list of the body, whose destructor then throws: the program ends. -/
example : ((((init.makeBody false).addCollider 0 false).1.killBody 0).1.step ⟨true⟩ true allPairs none).2 = .ub := by decide

/-- **C39.** Killing an object makes it dead, with the constraints and contacts of a body, and no other object. -/
theorem C39_kill {cfg : Cfg} {w : World} (h : Reachable cfg w) (n : Nat) :
    (n ∈ w.bodies → (w.killBody n).2 = .ok () ∧ (∀ b, DeadBody (w.killBody n).1 b ↔ DeadBody w b ∨ b = n) ∧
      (∀ m, DeadJoint (w.killBody n).1 m ↔ DeadJoint w m ∨ ∃ J, w.joint m = some J ∧ (J.b0 = n ∨ J.b1 = n)) ∧
      ∀ m, DeadContact (w.killBody n).1 m ↔ DeadContact w m ∨ ∃ C, w.contact m = some C ∧ (C.b0 = n ∨ C.b1 = n)) ∧
    (n ∈ w.joints → (w.killJoint n).2 = .ok () ∧ ∀ m, DeadJoint (w.killJoint n).1 m ↔ DeadJoint w m ∨ m = n) ∧
    (n ∈ w.contacts → (w.killContact n).2 = .ok () ∧ ∀ m, DeadContact (w.killContact n).1 m ↔ DeadContact w m ∨ m = n) ∧
    (n ∈ w.forces.map (·.1) → (w.killForce n).2 = .ok () ∧ ∀ m, (m, false) ∈ (w.killForce n).1.forces ↔ (m, false) ∈ w.forces ∧ m ≠ n) := by
  have i := h.inv
  refine ⟨fun hn => ?_, fun hn => ?_, fun hn => ?_, fun hn => ?_⟩
  · obtain ⟨r, hr⟩ := Option.isSome_iff_exists.1 ((i.bodies_iff n).1 hn)
    have e : w.killBody n = (w.setBody n { r with killed := true }, .ok ()) := by simp [World.killBody, hr]
    have db : ∀ b, DeadBody (w.killBody n).1 b ↔ DeadBody w b ∨ b = n := by
      intro b
      rw [e]
      unfold DeadBody setBody
      by_cases hb : b = n
      · subst hb; simp
      · simp [Function.update_of_ne hb, hb]
    refine ⟨by rw [e], db, fun m => ?_, fun m => ?_⟩
    · unfold DeadJoint
      simp only [db]
      rw [show (w.killBody n).1.joint = w.joint by rw [e]; rfl]
      constructor
      · rintro ⟨J, hJ, a | (a | a) | (a | a)⟩
        · exact Or.inl ⟨J, hJ, Or.inl a⟩
        · exact Or.inl ⟨J, hJ, Or.inr (Or.inl a)⟩
        · exact Or.inr ⟨J, hJ, Or.inl a⟩
        · exact Or.inl ⟨J, hJ, Or.inr (Or.inr a)⟩
        · exact Or.inr ⟨J, hJ, Or.inr a⟩
      · rintro (⟨J, hJ, a⟩ | ⟨J, hJ, a⟩)
        · exact ⟨J, hJ, by tauto⟩
        · exact ⟨J, hJ, by tauto⟩
    · unfold DeadContact
      simp only [db]
      rw [show (w.killBody n).1.contact = w.contact by rw [e]; rfl]
      constructor
      · rintro ⟨J, hJ, a | (a | a) | (a | a)⟩
        · exact Or.inl ⟨J, hJ, Or.inl a⟩
        · exact Or.inl ⟨J, hJ, Or.inr (Or.inl a)⟩
        · exact Or.inr ⟨J, hJ, Or.inl a⟩
        · exact Or.inl ⟨J, hJ, Or.inr (Or.inr a)⟩
        · exact Or.inr ⟨J, hJ, Or.inr a⟩
      · rintro (⟨J, hJ, a⟩ | ⟨J, hJ, a⟩)
        · exact ⟨J, hJ, by tauto⟩
        · exact ⟨J, hJ, by tauto⟩
  · obtain ⟨J, hJ⟩ := Option.isSome_iff_exists.1 ((i.joints_iff n).1 hn)
    have e : w.killJoint n = ({ w with joint := Function.update w.joint n (some { J with killed := true }) }, .ok ()) := by simp [World.killJoint, hJ]
    refine ⟨by rw [e], fun m => ?_⟩
    rw [e]
    have db : ∀ b, DeadBody ({ w with joint := Function.update w.joint n (some { J with killed := true }) } : World) b ↔ DeadBody w b := fun b => Iff.rfl
    unfold DeadJoint
    simp only [db]
    by_cases hm : m = n
    · subst hm; simp
    · simp [Function.update_of_ne hm, hm]
  · obtain ⟨C, hC⟩ := Option.isSome_iff_exists.1 ((i.contacts_iff n).1 hn)
    have e : w.killContact n = (w.setContact n { C with killed := true }, .ok ()) := by simp [World.killContact, hC]
    refine ⟨by rw [e], fun m => ?_⟩
    rw [e]
    have db : ∀ b, DeadBody (w.setContact n { C with killed := true }) b ↔ DeadBody w b := fun b => Iff.rfl
    unfold DeadContact
    simp only [db]
    by_cases hm : m = n
    · subst hm; simp [setContact]
    · simp [setContact, Function.update_of_ne hm, hm]
  · unfold World.killForce
    rw [if_pos hn]
    refine ⟨rfl, fun m => ?_⟩
    simp only [List.mem_map]
    constructor
    · rintro ⟨x, hx, e⟩
      split_ifs at e with hxn
      · simp at e
      · subst e
        exact ⟨hx, hxn⟩
    · rintro ⟨hm, hne⟩
      exact ⟨_, hm, by simp [hne]⟩

/-- Killing the second body also makes the contact dead. -/
example : DeadContact (touching.killBody 1).1 4 := by
  refine (((C39_kill touching_reachable 1).1 (show 1 ∈ [0, 1] by decide)).2.2.2 4).2 (Or.inr ⟨⟨(3, 2), 1, 0, false, false⟩, by decide, Or.inl rfl⟩)

/-- **C39, disagreement.** `setContactFactory` frees the contacts that bodies still list: the world is left with dangling pointers, and the next
step with `dt > 0`, or the removal of a collider, is undefined. -/
theorem C39_factory_disagreement : ∃ w, Reachable ⟨true⟩ w ∧ ¬NoDangling w.setContactFactory ∧ (w.setContactFactory.step ⟨true⟩ true allPairs none).2 = .ub ∧
    (w.setContactFactory.removeCollider 2).2 = .ub := by
  refine ⟨touching, touching_reachable, fun h => ?_, by decide, by decide⟩
  obtain ⟨C, hC, -⟩ := h.contacts_of_body 0 ⟨true, false, [2], [], [4]⟩ (by decide) 4 (by decide)
  exact absurd hC (by simp [setContactFactory])

/-! ### Contacts -/

/-- **C40.** After a step with `dt > 0` two colliders are in contact exactly if they overlap, belong to different bodies and no constraint of the world forbids contacts
between the bodies. No two contacts are for the same colliders in either order, and a contact whose colliders go on overlapping is the same as before. -/
theorem C40_contacts {cfg : Cfg} {w : World} (h : Reachable cfg w) {c : List Nat → List (Nat × Nat)} {ov : Nat → Nat → Prop} (hr : Reports ov c)
    (hsym : ∀ a b, ov a b → ov b a) (hs : ∀ k0 ∈ w.tree, ∀ k1 ∈ w.tree, ov k0 k1 → w.owner k0 ≠ w.owner k1 →
      ¬((w.body (w.owner k0)).any (·.structural) ∧ (w.body (w.owner k1)).any (·.structural))) (hd : Op.DestroysSafely cfg w (.step true c none)) :
    let w' := (w.step cfg true c none).1;
    (w.step cfg true c none).2 = .ok () ∧
    (∀ a b, InContact w' (a, b) ↔ a ∈ w'.tree ∧ b ∈ w'.tree ∧ ov a b ∧ w'.owner a ≠ w'.owner b ∧ ¬Forbidden w' (w'.owner a) (w'.owner b)) ∧
    (∀ m n C D, w'.contact m = some C → w'.contact n = some D → SamePair C.key D.key → m = n) ∧
    ∀ n C, w.contact n = some C → C.killed = false → InContact w' C.key → w'.contact n = some C := by
  intro w'
  have i := h.inv
  rcases step_ok (cfg := cfg) (p := true) (c := c) (f := none) i ⟨ov, hr, hs⟩ hd with ⟨a, -⟩ | ⟨-, -, e2, w1, R, e⟩
  · rcases a with a | a | a <;> exact absurd a (by decide)
  · refine ⟨e2, ?_⟩
    rw [show w' = w1.settle from e]
    have si := settle_inv R.inv
    obtain ⟨q1, q2⟩ := hr (cleaned w).tree i.cleaned.tree_nodup
    -- the contacts that live after the step
    have live : ∀ n C, w1.settle.contact n = some C → (C.killed = false ↔ ∃ p ∈ c (cleaned w).tree, Elig (cleaned w) p ∧ SamePair C.key p) := by
      intro n C hC
      rw [settle_contact R.inv] at hC
      obtain ⟨C1, hC1, rfl⟩ := Option.map_eq_some_iff.1 hC
      simp only [Bool.or_eq_false_iff, Bool.not_eq_false']
      cases h0 : (cleaned w).contact n with
      | none =>
        obtain ⟨a1, a2, a3, a4, -⟩ := R.new n C1 hC1 h0
        exact ⟨fun _ => ⟨C1.key, a3, a4, Or.inl rfl⟩, fun _ => ⟨a2, a1⟩⟩
      | some C0 =>
        obtain ⟨C1', b1, b2, b3⟩ := R.old n C0 h0
        rw [hC1, Option.some.injEq] at b1
        subst b1
        have hk : C1.killed = false := by
          have := cleaned_live h0
          rw [b2]; exact this
        have hh : C0.hit = false := i.cleaned.hits n C0 h0
        have ek : C1.key = C0.key := by rw [b2]
        rw [hk, b3, hh, ek]
        simp
    have elig : ∀ p, Elig (cleaned w) p ↔ w1.settle.owner p.1 ≠ w1.settle.owner p.2 ∧ ¬Forbidden w1.settle (w1.settle.owner p.1) (w1.settle.owner p.2) := by
      intro p
      unfold Elig Forbidden
      rw [show w1.settle.owner = (cleaned w).owner from R.owner, show w1.settle.joint = (cleaned w).joint from R.joint]
    have tr : w1.settle.tree = (cleaned w).tree := R.tree
    have main : ∀ a b, InContact w1.settle (a, b) ↔ a ∈ w1.settle.tree ∧ b ∈ w1.settle.tree ∧ ov a b ∧ w1.settle.owner a ≠ w1.settle.owner b ∧
        ¬Forbidden w1.settle (w1.settle.owner a) (w1.settle.owner b) := by
      intro a b
      constructor
      · rintro ⟨n, C, hC, hk, hsp⟩
        obtain ⟨p, hp, hel, hsp'⟩ := (live n C hC).1 hk
        obtain ⟨t0, t1, -, o⟩ := q1 p hp
        have hpab := hsp.symm.trans hsp'
        have hel' : w1.settle.owner a ≠ w1.settle.owner b ∧ ¬Forbidden w1.settle (w1.settle.owner a) (w1.settle.owner b) := (elig (a, b)).1 (hel.swap hpab)
        rw [tr]
        rcases hpab with e' | e'
        · subst e'
          exact ⟨t0, t1, o, hel'⟩
        · rw [Prod.mk.injEq] at e'
          obtain ⟨rfl, rfl⟩ := e'
          exact ⟨t1, t0, hsym _ _ o, hel'⟩
      · rintro ⟨ta, tb, o, hel⟩
        rw [tr] at ta tb
        have hel' : Elig (cleaned w) (a, b) := (elig (a, b)).2 hel
        have hab : a ≠ b := fun e' => hel.1 (by rw [e'])
        obtain ⟨p, hp, hsp⟩ : ∃ p ∈ c (cleaned w).tree, SamePair p (a, b) := by
          rcases q2 a ta b tb hab o with hp | hp
          · exact ⟨_, hp, Or.inl rfl⟩
          · exact ⟨_, hp, Or.inr rfl⟩
        obtain ⟨n, C1, hC1, hs1⟩ := R.cover p hp (hel'.swap hsp)
        have hC : w1.settle.contact n = some { C1 with killed := C1.killed || !C1.hit, hit := false } := by rw [settle_contact R.inv, hC1]; rfl
        exact ⟨n, _, hC, (live n _ hC).2 ⟨p, hp, hel'.swap hsp, hs1⟩, hs1.trans hsp⟩
    refine ⟨main, si.keys, fun n C hC hk hin => ?_⟩
    -- a contact that goes on
    obtain ⟨t0, t1, -⟩ := (main C.key.1 C.key.2).1 hin
    rw [tr, cleaned_tree i.toInv0] at t0 t1
    obtain ⟨k0, k1, -⟩ := i.contact_key n C hC
    rw [k0] at t0
    rw [k1] at t1
    have hnd : deadC w n = false := by
      rw [Bool.eq_false_iff, ne_eq, deadC_iff]
      rintro ⟨C', hC', hd'⟩
      rw [hC, Option.some.injEq] at hC'
      subst hC'
      rcases hd' with hd' | hd' | hd'
      · rw [hk] at hd'; exact absurd hd' (by simp)
      · exact t0.2 hd'
      · exact t1.2 hd'
    have h0 : (cleaned w).contact n = some C := cleaned_contact.2 ⟨hnd, hC⟩
    obtain ⟨C1, b1, b2, -⟩ := R.old n C h0
    have hset : w1.settle.contact n = some { C1 with killed := C1.killed || !C1.hit, hit := false } := by rw [settle_contact R.inv, b1]; rfl
    obtain ⟨m, D, hD, hDk, hDs⟩ := hin
    have ek : C1.key = C.key := by rw [b2]
    have hmn : m = n := si.keys m n D _ hD hset (by rw [show ({ C1 with killed := C1.killed || !C1.hit, hit := false } : ContactRec).key = C.key from ek]; exact hDs)
    subst hmn
    rw [hset, Option.some.injEq] at hD
    subst hD
    rw [hset]
    have hh := i.hits m C hC
    simp only at hDk
    rw [b2] at hDk ⊢
    simp only [Option.some.injEq]
    cases C
    simp only [ContactRec.mk.injEq, true_and] at *
    exact ⟨hDk.trans hk.symm, hh.symm⟩

/-- The two colliders stay in contact, and the contact is the same. -/
example : let w := (touching.step ⟨true⟩ true allPairs none).1; w.contacts = [4] ∧ (w.contact 4).any (!·.killed) := by decide

/-- When they separate the contact is killed; it is gone after another step. -/
example : let w := (touching.step ⟨true⟩ true (fun _ => []) none).1; w.contacts = [4] ∧ (w.contact 4).any (·.killed) ∧
    (w.step ⟨true⟩ true (fun _ => []) none).1.contacts = [] := by decide

/-- A constraint that forbids contacts ends the contact, although the colliders overlap. -/
example : let w := ((touching.makeConstraint 0 1 true false).1.step ⟨true⟩ true allPairs none).1; (w.contact 4).any (·.killed) := by decide

/-! ### Steps that throw -/

/-- **C68, partial.** If a `preStep` or solving throws, the world is left in order: the next operation is defined, and it can be stepped again. -/
theorem C68_recovers_partial {cfg : Cfg} {w : World} (h : Reachable cfg w) {p : Bool} {c : List Nat → List (Nat × Nat)} {f : Option Stage}
    (ha : Op.Allowed w (.step p c f)) (hd : Op.DestroysSafely cfg w (.step p c f)) (_ht : (w.step cfg p c f).2 = .throw) :
    let w' := (w.step cfg p c f).1;
    NoDangling w' ∧ (∀ o : Op, o.Allowed w' → o.DestroysSafely cfg w' → (w'.apply cfg o).2 ≠ .ub) ∧
    ∀ p' c' f', Op.Allowed w' (.step p' c' f') → (w'.step cfg p' c' f').2 ≠ .ub := by
  intro w'
  have r : Reachable cfg w' := .op h (.step p c f) ha hd
  refine ⟨C39_no_dangling r, fun o ho hdo => (inv_apply r.inv o ho hdo).2, fun p' c' f' ha' => ?_⟩
  refine (inv_apply (cfg := cfg) r.inv (.step p' c' f') ha' ?_).2
  rintro b ⟨rb, hb, hk⟩
  exfalso
  obtain ⟨g, -⟩ := C39_dead_gone h ha hd
  have hb' : b ∈ w'.bodies := (r.inv.bodies_iff b).2 (by simp [hb])
  obtain ⟨hbw, hnd⟩ := (g b).1 hb'
  rcases step_ok h.inv ha hd with ⟨-, e, -⟩ | ⟨-, -, e, -⟩
  · rw [show w' = cleaned w from e] at hb
    obtain ⟨r', hr', hk', e'⟩ := cleaned_body.1 hb
    rw [e'] at hk
    rw [hk'] at hk
    exact absurd hk (by simp)
  · rw [e] at _ht
    exact absurd _ht (by simp)

/-- It does throw. -/
example : (touching.step ⟨true⟩ true allPairs (some .preStep)).2 = .throw ∧ (touching.step ⟨true⟩ true allPairs (some .solve)).2 = .throw := by decide

/-- **C68, disagreement.** If the colliders of two structural bodies overlap, the step throws in the middle of the update of the tree (making their contact is refused). Afterwards
every step with `dt > 0`, every removal of a collider and every successful addition of one is undefined. -/
theorem C68_structural_disagreement {cfg : Cfg} {w : World} (h : Reachable cfg w) {c : List Nat → List (Nat × Nat)} {ov : Nat → Nat → Prop} (hr : Reports ov c)
    (hd : Op.DestroysSafely cfg w (.step true c none)) {a b : Nat} (ta : a ∈ w.tree) (tb : b ∈ w.tree) (hov : ov a b) (hne : w.owner a ≠ w.owner b)
    (da : ¬DeadBody w (w.owner a)) (db : ¬DeadBody w (w.owner b)) (hf : ¬Forbidden w (w.owner a) (w.owner b))
    (sa : (w.body (w.owner a)).any (·.structural)) (sb : (w.body (w.owner b)).any (·.structural))
    (hnc : ∀ n C, w.contact n = some C → ¬SamePair C.key (a, b)) :
    let w' := (w.step cfg true c none).1;
    (w.step cfg true c none).2 = .throw ∧ (∀ c' f', f' ≠ some .preStep → (w'.step cfg true c' f').2 = .ub) ∧
    (∀ k, (w'.removeCollider k).2 = .ub) ∧ ∀ x, (w'.addCollider x true).2 = .ub := by
  intro w'
  have i := h.inv
  have hi := i.cleaned
  obtain ⟨q1, q2⟩ := hr (cleaned w).tree hi.tree_nodup
  have ta' : a ∈ (cleaned w).tree := (cleaned_tree i.toInv0).2 ⟨ta, da⟩
  have tb' : b ∈ (cleaned w).tree := (cleaned_tree i.toInv0).2 ⟨tb, db⟩
  have hab : a ≠ b := fun e => hne (by rw [e])
  have hel : Elig (cleaned w) (a, b) := by
    refine ⟨hne, fun ⟨n, J, hJ, hdis, hsp⟩ => hf ⟨n, J, (cleaned_joint.1 hJ).2, hdis, hsp⟩⟩
  have hst : ∀ x, x ∈ (cleaned w).tree → (w.body (w.owner x)).any (·.structural) → ((cleaned w).body (w.owner x)).any (·.structural) := by
    intro x hx hs
    obtain ⟨r, hr, -⟩ := hi.tree_owned x hx
    rw [show (cleaned w).owner x = w.owner x from rfl] at hr
    obtain ⟨r', hr', -, e⟩ := cleaned_body.1 hr
    rw [hr']  at hs
    rw [hr]
    simp only [Option.any_some] at hs ⊢
    rw [e]
    exact hs
  have hbs : BothStructural (cleaned w) (a, b) := ⟨hst a ta' sa, hst b tb' sb⟩
  obtain ⟨p, hp, hsp⟩ : ∃ p ∈ c (cleaned w).tree, SamePair p (a, b) := by
    rcases q2 a ta' b tb' hab hov with hp | hp
    · exact ⟨_, hp, Or.inl rfl⟩
    · exact ⟨_, hp, Or.inr rfl⟩
  obtain ⟨w1, e1⟩ := registerAll_throw (c (cleaned w).tree) hi.toInv0 (fun q hq => ⟨(q1 q hq).1, (q1 q hq).2.1⟩) ⟨p, hp, hel.swap hsp, by
    rcases hsp with e | e <;> rw [e]
    · exact hbs
    · exact ⟨hbs.2, hbs.1⟩, fun n C hC hs => hnc n C (cleaned_contact.1 hC).2 (hs.trans hsp)⟩
  have e : w.step cfg true c none = ({ w1 with broken := true }, .throw) := by
    rw [step_cases i hd, if_neg (by simp), if_neg (by simp), if_neg (by simp), e1]
  have hw' : w' = { w1 with broken := true } := by show (w.step cfg true c none).1 = _; rw [e]
  refine ⟨by rw [e], fun c' f' hf' => step_broken (by rw [hw']) hf', fun k => ?_, fun x => ?_⟩
  · unfold removeCollider untree
    rw [if_pos (by simp [hw'])]
    rfl
  · unfold addCollider
    cases hb : w'.body x with
    | none => rfl
    | some r =>
      simp only [Bool.not_true, Bool.false_eq_true, if_false]
      rw [if_pos (by simp [hw', setBody])]

/-- Two structural bodies whose colliders overlap. -/
example : let w := ((((init.makeBody true).makeBody true).addCollider 0 true).1.addCollider 1 true).1.step ⟨true⟩ true allPairs none;
    w.2 = .throw ∧ (w.1.step ⟨true⟩ true allPairs none).2 = .ub ∧ (w.1.removeCollider 2).2 = .ub := by decide

end Simu.World
