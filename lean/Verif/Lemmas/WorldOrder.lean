import Verif.Spec.WorldOrder
import Verif.Lemmas.WorldReach
/-
The order of the elements of the hash table of contacts does not matter.
-/
namespace Simu.World
open World

theorem SameUpToOrder.refl (w : World) : SameUpToOrder w w := ⟨rfl, rfl, rfl, rfl, .refl _, rfl, rfl, rfl, rfl, rfl, rfl, .refl _⟩

theorem SameUpToOrder.trans {w w' w'' : World} (h : SameUpToOrder w w') (h' : SameUpToOrder w' w'') : SameUpToOrder w w'' :=
  ⟨h'.bodies.trans h.bodies, h'.body.trans h.body, h'.joints.trans h.joints, h'.joint.trans h.joint, h'.contacts.trans h.contacts, h'.contact.trans h.contact, h'.forces.trans h.forces,
    h'.tree.trans h.tree, h'.broken.trans h.broken, h'.owner.trans h.owner, h'.next.trans h.next, h'.log.trans h.log⟩

theorem SameUpToOrder.symm {w w' : World} (h : SameUpToOrder w w') : SameUpToOrder w' w :=
  ⟨h.bodies.symm, h.body.symm, h.joints.symm, h.joint.symm, h.contacts.symm, h.contact.symm, h.forces.symm, h.tree.symm, h.broken.symm, h.owner.symm, h.next.symm, h.log.symm⟩

/-- Another order of contacts and events. -/
def relist (w : World) (l : List Nat) (lg : List Event) : World := { w with contacts := l, log := lg }

theorem SameUpToOrder.relist {w w' : World} (h : SameUpToOrder w w') : w' = relist w w'.contacts w'.log := by
  cases h
  cases w
  cases w'
  simp only at *
  subst_vars
  rfl

theorem relist_same {w : World} {l : List Nat} {lg : List Event} (hl : l.Perm w.contacts) (hg : lg.Perm w.log) : SameUpToOrder w (relist w l lg) :=
  ⟨rfl, rfl, rfl, rfl, hl, rfl, rfl, rfl, rfl, rfl, rfl, hg⟩

/-- The same for what a function returns. -/
def SameO : Outcome World → Outcome World → Prop
  | .ok w, .ok w' => SameUpToOrder w w'
  | .throw, .throw => True
  | .ub, .ub => True
  | _, _ => False

theorem SameO.bind {o o' : Outcome World} {f g : World → Outcome World} (h : SameO o o') (hf : ∀ w w', SameUpToOrder w w' → SameO (f w) (g w')) : SameO (o.bind f) (o'.bind g) := by
  cases o <;> cases o' <;> simp only [SameO] at h
  · exact hf _ _ h
  all_goals trivial

/-- And for an operation. -/
def SameR (x y : World × Outcome Unit) : Prop := SameUpToOrder x.1 y.1 ∧ y.2 = x.2

theorem same_setBody {w w' : World} (h : SameUpToOrder w w') (b : Nat) (r : BodyRec) : SameUpToOrder (w.setBody b r) (w'.setBody b r) := by
  obtain ⟨h1, h2, h3, h4, h5, h6, h7, h8, h9, h10, h11, h12⟩ := h
  refine ⟨h1, ?_, h3, h4, h5, h6, h7, h8, h9, h10, h11, h12⟩
  simp only [setBody, h2]

theorem same_setContact {w w' : World} (h : SameUpToOrder w w') (n : Nat) (c : ContactRec) : SameUpToOrder (w.setContact n c) (w'.setContact n c) := by
  obtain ⟨h1, h2, h3, h4, h5, h6, h7, h8, h9, h10, h11, h12⟩ := h
  refine ⟨h1, h2, h3, h4, h5, ?_, h7, h8, h9, h10, h11, h12⟩
  simp only [setContact, h6]

theorem same_listJoint {w w' : World} (h : SameUpToOrder w w') (n b : Nat) : SameO (w.listJoint n b) (w'.listJoint n b) := by
  unfold listJoint
  rw [h.body]
  cases w.body b with
  | none => trivial
  | some r => exact same_setBody h _ _

theorem same_listContact {w w' : World} (h : SameUpToOrder w w') (n b : Nat) : SameO (w.listContact n b) (w'.listContact n b) := by
  unfold listContact
  rw [h.body]
  cases w.body b with
  | none => trivial
  | some r => exact same_setBody h _ _

theorem same_killContactsOf (k : Nat) (ns : List Nat) : ∀ {w w' : World}, SameUpToOrder w w' → SameO (killContactsOf k ns w) (killContactsOf k ns w') := by
  induction ns with
  | nil => exact fun h => h
  | cons n ns ih =>
    intro w w' h
    simp only [killContactsOf]
    rw [h.contact]
    cases w.contact n with
    | none => trivial
    | some c =>
      simp only
      split_ifs
      · exact ih (same_setContact h _ _)
      · exact ih h

theorem same_untree {w w' : World} (h : SameUpToOrder w w') (k : Nat) : SameO (w.untree k) (w'.untree k) := by
  unfold untree
  rw [h.broken, h.tree]
  split_ifs
  · trivial
  · simp only [h.owner, h.body]
    cases w.body (w.owner k) with
    | none => trivial
    | some r =>
      exact same_killContactsOf k _ ⟨h.bodies, rfl, h.joints, h.joint, h.contacts, h.contact, h.forces, rfl, rfl, rfl, h.next, h.log⟩

theorem same_unlistCollider {w w' : World} (h : SameUpToOrder w w') (k : Nat) : SameO (w.unlistCollider k) (w'.unlistCollider k) := by
  unfold unlistCollider
  rw [h.owner, h.body]
  cases w.body (w.owner k) with
  | none => trivial
  | some r => exact same_setBody h _ _

theorem same_removeCollider {w w' : World} (h : SameUpToOrder w w') (k : Nat) : SameR (w.removeCollider k) (w'.removeCollider k) := by
  have hb : SameO ((w.untree k).bind fun w => w.unlistCollider k) ((w'.untree k).bind fun w => w.unlistCollider k) := (same_untree h k).bind fun _ _ h => same_unlistCollider h k
  unfold removeCollider
  generalize (w.untree k).bind (fun w => w.unlistCollider k) = x at hb ⊢
  generalize (w'.untree k).bind (fun w => w.unlistCollider k) = y at hb ⊢
  cases x <;> cases y <;> simp only [SameO] at hb
  · simp only [hb.owner, hb.body, hb.tree]
    rename_i u u'
    cases u.body (u.owner k) with
    | none => exact ⟨hb, rfl⟩
    | some r => exact ⟨hb, rfl⟩
  · exact ⟨h, rfl⟩
  · exact ⟨h, rfl⟩

theorem same_removeColliders (ks : List Nat) : ∀ {w w' : World}, SameUpToOrder w w' → SameO (removeColliders ks w) (removeColliders ks w') := by
  induction ks with
  | nil => exact fun h => h
  | cons k ks ih =>
    intro w w' h
    obtain ⟨a, b⟩ := same_removeCollider h k
    simp only [removeColliders]
    generalize w.removeCollider k = x at a b
    generalize w'.removeCollider k = y at a b
    obtain ⟨x1, x2⟩ := x
    obtain ⟨y1, y2⟩ := y
    simp only at a b
    subst b
    cases y2 with
    | ok _ => exact ih a
    | throw => trivial
    | ub => trivial

theorem same_destroyBody (cfg : Cfg) {w w' : World} (h : SameUpToOrder w w') (b : Nat) : SameO (w.destroyBody cfg b) (w'.destroyBody cfg b) := by
  unfold destroyBody
  rw [h.body]
  cases w.body b with
  | none => trivial
  | some r =>
    simp only
    refine SameO.bind ?_ fun u u' hu => ?_
    · split_ifs
      · exact h
      · exact same_removeColliders _ h
      · trivial
    · refine ⟨?_, ?_, hu.joints, hu.joint, hu.contacts, hu.contact, hu.forces, hu.tree, hu.broken, hu.owner, hu.next, hu.log.append_right _⟩
      · simp only [hu.bodies]
      · simp only [hu.body]

theorem same_destroyBodies (cfg : Cfg) (bs : List Nat) : ∀ {w w' : World}, SameUpToOrder w w' → SameO (destroyBodies cfg bs w) (destroyBodies cfg bs w') := by
  induction bs with
  | nil => exact fun h => h
  | cons b bs ih => exact fun h => (same_destroyBody cfg h b).bind fun _ _ => ih

theorem same_deadC {w w' : World} (h : SameUpToOrder w w') : deadC w' = deadC w := by
  funext n
  simp only [deadC, killedB, h.contact, h.body]

theorem same_deadJ {w w' : World} (h : SameUpToOrder w w') : deadJ w' = deadJ w := by
  funext n
  simp only [deadJ, killedB, h.joint, h.body]

theorem same_killedB {w w' : World} (h : SameUpToOrder w w') : killedB w' = killedB w := by
  funext n
  simp only [killedB, h.body]

theorem same_cleaned {w w' : World} (h : SameUpToOrder w w') : SameUpToOrder (cleaned w) (cleaned w') := by
  have e1 := same_deadC h
  have e2 := same_deadJ h
  have e3 := same_killedB h
  refine ⟨?_, ?_, ?_, ?_, ?_, ?_, ?_, ?_, h.broken, h.owner, h.next, ?_⟩
  · simp only [cleaned, dropBodies, dropJoints, dropContacts, e1, e2, e3, h.bodies]
  · simp only [cleaned, dropBodies, dropJoints, dropContacts, e1, e2, e3, h.body]
  · simp only [cleaned, dropBodies, dropJoints, dropContacts, e1, e2, e3, h.joints]
  · simp only [cleaned, dropBodies, dropJoints, dropContacts, e1, e2, e3, h.joint]
  · simp only [cleaned, dropBodies, dropJoints, dropContacts, e1, e2, e3]
    exact h.contacts.filter _
  · simp only [cleaned, dropBodies, dropJoints, dropContacts, e1, e2, e3, h.contact]
  · simp only [cleaned, h.forces]
  · simp only [cleaned, dropBodies, dropJoints, dropContacts, e1, e2, e3, h.tree, h.owner, h.body]
  · simp only [cleaned, e1, e2, e3, h.joints, h.forces, h.bodies]
    exact (((h.log.append ((h.contacts.filter _).map _)).append_right _).append_right _).append_right _

theorem same_inv0 {w w' : World} (h : SameUpToOrder w w') (hi : Inv0 w) : Inv0 w' := by
  have hi' := hi
  cases hi'
  rw [h.relist]
  constructor
  all_goals try assumption
  · intro n
    rw [show (World.contact (relist w w'.contacts w'.log)) = w.contact from rfl, ← hi.contacts_iff]
    exact h.contacts.mem_iff
  · exact h.contacts.nodup_iff.2 hi.contacts_nodup

theorem same_inv {w w' : World} (h : SameUpToOrder w w') (hi : Inv w) : Inv w' :=
  (same_inv0 h hi.toInv0).inv fun n C hC => hi.hits n C (h.contact ▸ hC)

/-- The lookup finds the same contact. -/
theorem same_inContacts {w w' : World} (h : SameUpToOrder w w') (hi : Inv0 w) (k0 k1 : Nat) : w'.inContacts k0 k1 = w.inContacts k0 k1 := by
  have hi' := same_inv0 h hi
  cases e : w.inContacts k0 k1 with
  | none =>
    cases e' : w'.inContacts k0 k1 with
    | none => rfl
    | some n =>
      obtain ⟨C, a, b⟩ := inContacts_some hi' e'
      exact absurd b (inContacts_none hi e n C (h.contact ▸ a))
  | some n =>
    obtain ⟨C, a, b⟩ := inContacts_some hi e
    cases e' : w'.inContacts k0 k1 with
    | none => exact absurd b (inContacts_none hi' e' n C (h.contact ▸ a))
    | some m =>
      obtain ⟨D, c, d⟩ := inContacts_some hi' e'
      rw [hi.keys n m C D a (h.contact ▸ c) (b.trans d.symm)]

theorem same_disabled {w w' : World} (h : SameUpToOrder w w') (b1 : Nat) (ns : List Nat) : w'.disabled b1 ns = w.disabled b1 ns := by
  induction ns with
  | nil => rfl
  | cons n ns ih => simp only [disabled, h.joint, ih]

theorem same_makeContact {w w' : World} (h : SameUpToOrder w w') (k0 k1 : Nat) : SameO (w.makeContact k0 k1) (w'.makeContact k0 k1) := by
  unfold makeContact
  rw [h.body, h.owner]
  cases w.body (w.owner k0) with
  | none => trivial
  | some r0 =>
    cases w.body (w.owner k1) with
    | none => trivial
    | some r1 =>
      simp only
      split_ifs
      · trivial
      · rw [h.next]
        have h0 : SameUpToOrder { w with log := w.log ++ [.constructed (.contact w.next)] } { w' with log := w'.log ++ [.constructed (.contact w.next)] } :=
          ⟨h.bodies, h.body, h.joints, h.joint, h.contacts, h.contact, h.forces, h.tree, h.broken, h.owner, h.next, h.log.append_right _⟩
        refine SameO.bind (same_listContact (by simpa only [h.body, h.owner, h.next] using h0) _ _) fun u u' hu => ?_
        rw [hu.owner]
        refine SameO.bind (same_listContact hu _ _) fun v v' hv => ?_
        refine ⟨hv.bodies, hv.body, hv.joints, hv.joint, hv.contacts.append_right _, ?_, hv.forces, hv.tree, hv.broken, hv.owner, rfl, hv.log⟩
        simp only [hv.contact, hv.owner]

theorem same_registerContact {w w' : World} (h : SameUpToOrder w w') (hi : Inv0 w) (k0 k1 : Nat) : SameO (w.registerContact k0 k1) (w'.registerContact k0 k1) := by
  unfold registerContact
  rw [h.owner, h.body]
  split_ifs
  · exact h
  · cases w.body (w.owner k0) with
    | none => trivial
    | some r0 =>
      simp only
      rw [same_disabled h]
      cases w.disabled (w.owner k1) r0.joints with
      | throw => trivial
      | ub => trivial
      | ok d =>
        simp only [Outcome.bind]
        split_ifs
        · exact h
        · rw [same_inContacts h hi]
          cases w.inContacts k0 k1 with
          | none => exact same_makeContact h k0 k1
          | some n =>
            simp only
            rw [h.contact]
            cases w.contact n with
            | none => trivial
            | some c => exact same_setContact h _ _

theorem same_registerAll (ps : List (Nat × Nat)) : ∀ {w w' : World}, SameUpToOrder w w' → Inv0 w → (∀ p ∈ ps, p.1 ∈ w.tree ∧ p.2 ∈ w.tree) → SameR (registerAll ps w) (registerAll ps w') := by
  induction ps with
  | nil => exact fun h _ _ => ⟨h, rfl⟩
  | cons p ps ih =>
    intro w w' h hi ht
    have hr := same_registerContact h hi p.1 p.2
    simp only [registerAll]
    cases e : w.registerContact p.1 p.2 with
    | ok u =>
      rw [e] at hr
      cases e' : w'.registerContact p.1 p.2 with
      | ok u' =>
        rw [e'] at hr
        have S := registerContact_spec hi (ht p List.mem_cons_self).1 (ht p List.mem_cons_self).2
        by_cases hc : Elig w p ∧ BothStructural w p ∧ ∀ n C, w.contact n = some C → ¬SamePair C.key p
        · rw [S.2 hc] at e
          cases e
        · obtain ⟨w1, e1, R1⟩ := S.1 hc
          rw [e] at e1
          obtain rfl : u = w1 := Outcome.ok.inj e1
          exact ih hr R1.inv fun q hq => by rw [R1.tree]; exact ht q (List.mem_cons_of_mem _ hq)
      | throw => rw [e'] at hr; exact hr.elim
      | ub => rw [e'] at hr; exact hr.elim
    | throw =>
      rw [e] at hr
      cases e' : w'.registerContact p.1 p.2 with
      | ok u' => rw [e'] at hr; exact hr.elim
      | throw => exact ⟨h, rfl⟩
      | ub => rw [e'] at hr; exact hr.elim
    | ub =>
      rw [e] at hr
      cases e' : w'.registerContact p.1 p.2 with
      | ok u' => rw [e'] at hr; exact hr.elim
      | throw => rw [e'] at hr; exact hr.elim
      | ub => exact ⟨h, rfl⟩

theorem same_settle {w w' : World} (h : SameUpToOrder w w') : SameUpToOrder w.settle w'.settle := by
  refine ⟨h.bodies, h.body, h.joints, h.joint, h.contacts, ?_, h.forces, h.tree, h.broken, h.owner, h.next, h.log⟩
  simp only [settle, h.contact, h.contacts.mem_iff]

theorem same_allowed {w w' : World} (h : SameUpToOrder w w') (o : Op) (ha : o.Allowed w) : o.Allowed w' := by
  cases o <;> simp only [Op.Allowed, h.bodies, h.tree, h.joints, h.contacts.mem_iff, h.forces, h.owner, h.body] at ha ⊢
  all_goals try exact ha
  exact List.perm_nil.1 (ha ▸ h.contacts)

theorem same_safe {cfg : Cfg} {w w' : World} (h : SameUpToOrder w w') (o : Op) (hd : o.DestroysSafely cfg w) : o.DestroysSafely cfg w' := by
  cases o <;> simp only [Op.DestroysSafely, DeadBody, Destructible, h.bodies, h.tree, h.body] at hd ⊢
  all_goals exact hd

theorem same_step (cfg : Cfg) {w w' : World} (h : SameUpToOrder w w') (hi : Inv w) {p : Bool} {c : List Nat → List (Nat × Nat)} {f : Option Stage} (ha : Op.Allowed w (.step p c f))
    (hd : ∀ b, DeadBody w b → Destructible cfg w b) : SameR (w.step cfg p c f) (w'.step cfg p c f) := by
  have hc := same_cleaned h
  rw [step_cases hi hd, step_cases (same_inv h hi) (same_safe h (.step p c f) hd)]
  split_ifs
  · exact ⟨hc, rfl⟩
  · exact ⟨hc, rfl⟩
  · exact ⟨hc, rfl⟩
  · rw [hc.tree]
    obtain ⟨ov, hr, hs⟩ := ha
    obtain ⟨a, b⟩ := same_registerAll (c (cleaned w).tree) hc hi.cleaned.toInv0 (pairs_ok hi hr hs).1
    generalize registerAll (c (cleaned w).tree) (cleaned w) = x at a b
    generalize registerAll (c (cleaned w).tree) (cleaned w') = y at a b
    obtain ⟨x1, x2⟩ := x
    obtain ⟨y1, y2⟩ := y
    simp only at a b
    subst b
    cases y2 with
    | ok _ => exact ⟨same_settle a, rfl⟩
    | throw => exact ⟨⟨a.bodies, a.body, a.joints, a.joint, a.contacts, a.contact, a.forces, a.tree, rfl, a.owner, a.next, a.log⟩, rfl⟩
    | ub => exact ⟨a, rfl⟩

theorem same_makeConstraint {w w' : World} (h : SameUpToOrder w w') (hi : Inv w) {b0 b1 : Nat} (d f : Bool) (h0 : b0 ∈ w.bodies) (h1 : b1 ∈ w.bodies) :
    SameR (w.makeConstraint b0 b1 d f) (w'.makeConstraint b0 b1 d f) := by
  cases f with
  | false =>
    rw [makeConstraint_eq hi.toInv0 d h0 h1, makeConstraint_eq (same_inv h hi).toInv0 d (h.bodies ▸ h0) (h.bodies ▸ h1)]
    refine ⟨⟨h.bodies, ?_, ?_, ?_, h.contacts, h.contact, h.forces, h.tree, h.broken, h.owner, ?_, ?_⟩, rfl⟩ <;>
      simp only [addJoint, h.body, h.joints, h.joint, h.next]
    exact h.log.append_right _
  | true =>
    have s0 := (hi.bodies_iff b0).1 h0
    have s1 := (hi.bodies_iff b1).1 h1
    have hn : ¬((w.body b0).isNone = true ∨ (w.body b1).isNone = true) := by rintro (e | e) <;> simp_all
    have e : ∀ u : World, u.body = w.body → u.makeConstraint b0 b1 d true = (u, .throw) := by
      intro u hu
      unfold World.makeConstraint
      rw [hu, if_neg hn, if_pos rfl]
    rw [e w rfl, e w' h.body]
    exact ⟨h, rfl⟩

theorem same_addCollider {w w' : World} (h : SameUpToOrder w w') (b : Nat) (v : Bool) : SameR (w.addCollider b v) (w'.addCollider b v) := by
  unfold addCollider
  rw [h.body]
  cases w.body b with
  | none => exact ⟨h, rfl⟩
  | some r =>
    dsimp only
    have h0 : SameUpToOrder { w.setBody b { r with colliders := r.colliders ++ [w.next] } with next := w.next + 1, owner := Function.update w.owner w.next b }
        { w'.setBody b { r with colliders := r.colliders ++ [w'.next] } with next := w'.next + 1, owner := Function.update w'.owner w'.next b } := by
      refine ⟨h.bodies, ?_, h.joints, h.joint, h.contacts, h.contact, h.forces, h.tree, h.broken, ?_, ?_, h.log⟩
      · simp only [setBody, h.body, h.next]
      · simp only [h.owner, h.next]
      · simp only [h.next]
    by_cases c1 : (!v) = true
    · rw [if_pos c1, if_pos c1]
      exact ⟨h0, rfl⟩
    · rw [if_neg c1, if_neg c1]
      by_cases c2 : w.broken = true
      · rw [if_pos (show World.broken (w.setBody b _) = true from c2), if_pos (show World.broken (w'.setBody b _) = true from h.broken.trans c2)]
        exact ⟨h0, rfl⟩
      · rw [if_neg (show ¬World.broken (w.setBody b _) = true from c2), if_neg (show ¬World.broken (w'.setBody b _) = true from fun e => c2 (h.broken.symm.trans e))]
        refine ⟨⟨h0.bodies, h0.body, h0.joints, h0.joint, h0.contacts, h0.contact, h0.forces, ?_, h0.broken, h0.owner, h0.next, h0.log⟩, rfl⟩
        simp only [setBody, h.tree, h.next]

theorem same_clear (cfg : Cfg) {w w' : World} (h : SameUpToOrder w w') : SameR (w.clear cfg) (w'.clear cfg) := by
  have hb := same_destroyBodies cfg w.bodies h
  unfold clear
  rw [h.bodies]
  generalize destroyBodies cfg w.bodies w = x at hb ⊢
  generalize destroyBodies cfg w.bodies w' = y at hb ⊢
  cases x <;> cases y <;> simp only [SameO] at hb
  · rename_i u u'
    dsimp only
    by_cases c : u.broken = true
    · rw [if_pos c, if_pos (hb.broken.trans c)]
      exact ⟨hb, rfl⟩
    · rw [if_neg c, if_neg fun e => c (hb.broken.symm.trans e)]
      refine ⟨⟨hb.bodies, hb.body, rfl, rfl, .refl _, rfl, rfl, rfl, hb.broken, hb.owner, hb.next, ?_⟩, rfl⟩
      simp only [hb.forces, hb.joints]
      exact hb.log.append (((hb.contacts.map _).append_left _).append_right _)
  · exact ⟨h, rfl⟩
  · exact ⟨h, rfl⟩

theorem same_apply (cfg : Cfg) {w w' : World} (h : SameUpToOrder w w') (hi : Inv w) (o : Op) (ha : o.Allowed w) (hd : o.DestroysSafely cfg w) : SameR (w.apply cfg o) (w'.apply cfg o) := by
  cases o with
  | makeBody s =>
    refine ⟨⟨?_, ?_, h.joints, h.joint, h.contacts, h.contact, h.forces, h.tree, h.broken, h.owner, ?_, ?_⟩, rfl⟩ <;>
      simp only [World.apply, World.makeBody, h.bodies, h.next, h.body]
    exact h.log.append_right _
  | makeConstraint b0 b1 d f => exact same_makeConstraint h hi d f ha.1 ha.2
  | makeForce =>
    refine ⟨⟨h.bodies, h.body, h.joints, h.joint, h.contacts, h.contact, ?_, h.tree, h.broken, h.owner, ?_, ?_⟩, rfl⟩ <;>
      simp only [World.apply, World.makeForce, h.forces, h.next]
    exact h.log.append_right _
  | addCollider b v => exact same_addCollider h b v
  | removeCollider k => exact same_removeCollider h k
  | killBody b =>
    simp only [World.apply, World.killBody]
    rw [h.body]
    cases w.body b with
    | none => exact ⟨h, rfl⟩
    | some r => exact ⟨same_setBody h _ _, rfl⟩
  | killJoint n =>
    simp only [World.apply, World.killJoint]
    rw [h.joint]
    cases w.joint n with
    | none => exact ⟨h, rfl⟩
    | some r =>
      exact ⟨⟨h.bodies, h.body, h.joints, rfl, h.contacts, h.contact, h.forces, h.tree, h.broken, h.owner, h.next, h.log⟩, rfl⟩
  | killContact n =>
    simp only [World.apply, World.killContact]
    rw [h.contact]
    cases w.contact n with
    | none => exact ⟨h, rfl⟩
    | some r => exact ⟨same_setContact h _ _, rfl⟩
  | killForce n =>
    simp only [World.apply, World.killForce]
    rw [h.forces]
    by_cases c : n ∈ w.forces.map (·.1)
    · rw [if_pos c, if_pos c]
      exact ⟨⟨h.bodies, h.body, h.joints, h.joint, h.contacts, h.contact, rfl, h.tree, h.broken, h.owner, h.next, h.log⟩, rfl⟩
    · rw [if_neg c, if_neg c]
      exact ⟨h, rfl⟩
  | step p c f => exact same_step cfg h hi ha hd
  | clear => exact same_clear cfg h
  | setContactFactory =>
    refine ⟨⟨h.bodies, h.body, h.joints, h.joint, .refl _, rfl, h.forces, h.tree, h.broken, h.owner, h.next, ?_⟩, rfl⟩
    exact h.log.append (h.contacts.map _)

end Simu.World
