import Verif.Model.World
/-
A tree that was left broken by an exception stays so.
-/
namespace Simu.World
open World

/-- No exception, and the state of the tree is kept. -/
def Keeps (w : World) (o : Outcome World) : Prop := o ≠ .throw ∧ ∀ w', o = .ok w' → w'.broken = w.broken

theorem Keeps.bind {w : World} {o : Outcome World} {f : World → Outcome World} (h : Keeps w o) (hf : ∀ w', w'.broken = w.broken → Keeps w' (f w')) : Keeps w (o.bind f) := by
  cases o with
  | throw => exact absurd rfl h.1
  | ub => exact ⟨by simp, by simp⟩
  | ok w' =>
    obtain ⟨a, b⟩ := hf w' (h.2 w' rfl)
    exact ⟨a, fun w'' e => (b w'' e).trans (h.2 w' rfl)⟩

theorem Keeps.ok {w w' : World} (h : w'.broken = w.broken) : Keeps w (.ok w') := ⟨by simp, by rintro _ ⟨⟩; exact h⟩

theorem Keeps.ub {w : World} : Keeps w .ub := ⟨by simp, by simp⟩

theorem Keeps.of_eq {w w' : World} {o : Outcome World} (h : Keeps w' o) (e : w'.broken = w.broken) : Keeps w o := ⟨h.1, fun w'' e' => (h.2 w'' e').trans e⟩

/-- The outcomes that are not exceptions. -/
def NoThrow {α : Type} (o : Outcome α) : Prop := o ≠ .throw

theorem Keeps.bind' {w : World} {α : Type} {o : Outcome α} {f : α → Outcome World} (h : NoThrow o) (hf : ∀ a, Keeps w (f a)) : Keeps w (o.bind f) := by
  cases o with
  | throw => exact absurd rfl h
  | ub => exact Keeps.ub
  | ok a => exact hf a

theorem NoThrow.bind {α β : Type} {o : Outcome α} {f : α → Outcome β} (h : NoThrow o) (hf : ∀ a, NoThrow (f a)) : NoThrow (o.bind f) := by
  cases o with
  | throw => exact absurd rfl h
  | ub => simp [NoThrow]
  | ok a => exact hf a

theorem bodyDead_nt (w : World) (b : Nat) : NoThrow (w.bodyDead b) := by unfold bodyDead; split <;> simp [NoThrow]

theorem anyDead_nt (w : World) (b0 b1 : Nat) : NoThrow (w.anyDead b0 b1) := by
  unfold anyDead
  refine (bodyDead_nt w b0).bind fun d => ?_
  split_ifs
  · simp [NoThrow]
  · simp [NoThrow]
  · exact bodyDead_nt w b1

theorem contactDead_nt (w : World) (n : Nat) : NoThrow (w.contactDead n) := by
  unfold contactDead
  split
  · simp [NoThrow]
  · split_ifs
    · simp [NoThrow]
    · exact anyDead_nt w _ _

theorem jointDead_nt (w : World) (n : Nat) : NoThrow (w.jointDead n) := by
  unfold jointDead
  split
  · simp [NoThrow]
  · split_ifs
    · simp [NoThrow]
    · exact anyDead_nt w _ _

theorem unlistContact_keeps (w : World) (n b : Nat) : Keeps w (w.unlistContact n b) := by
  unfold unlistContact
  split
  · exact Keeps.ub
  · exact Keeps.ok rfl

theorem unlistJoint_keeps (w : World) (n b : Nat) : Keeps w (w.unlistJoint n b) := by
  unfold unlistJoint
  split
  · exact Keeps.ub
  · exact Keeps.ok rfl

theorem cleanContacts_keeps (ns : List Nat) : ∀ w, Keeps w (cleanContacts ns w) := by
  induction ns with
  | nil => intro w; exact Keeps.ok rfl
  | cons n ns ih =>
    intro w
    rw [cleanContacts]
    refine Keeps.bind' (contactDead_nt w n) fun dead => ?_
    split_ifs
    · split
      · exact Keeps.ub
      · refine (unlistContact_keeps w n _).bind fun w1 e1 => ?_
        refine Keeps.bind (w := w1) ?_ fun w2 e2 => (ih _).of_eq rfl
        split_ifs
        · exact Keeps.ok rfl
        · exact unlistContact_keeps _ _ _
    · exact ih w

theorem deadJoints_nt (w : World) (ns : List Nat) : NoThrow (w.deadJoints ns) := by
  induction ns with
  | nil => simp [deadJoints, NoThrow]
  | cons n ns ih => exact (jointDead_nt w n).bind fun d => ih.bind fun l => by simp [NoThrow]

theorem unlistJoints_keeps (ns : List Nat) : ∀ w, Keeps w (unlistJoints ns w) := by
  induction ns with
  | nil => intro w; exact Keeps.ok rfl
  | cons n ns ih =>
    intro w
    rw [unlistJoints]
    split
    · exact Keeps.ub
    · refine (unlistJoint_keeps w n _).bind fun w1 e1 => ?_
      refine Keeps.bind (w := w1) ?_ fun w2 e2 => ih w2
      split_ifs
      · exact Keeps.ok rfl
      · exact unlistJoint_keeps _ _ _

theorem killContactsOf_keeps (k : Nat) (ns : List Nat) : ∀ w, Keeps w (killContactsOf k ns w) := by
  induction ns with
  | nil => intro w; exact Keeps.ok rfl
  | cons n ns ih =>
    intro w
    rw [killContactsOf]
    split
    · exact Keeps.ub
    · refine (ih _).of_eq ?_
      split_ifs <;> rfl

theorem removeColliders_keeps (ks : List Nat) : ∀ w, Keeps w (removeColliders ks w) := by
  induction ks with
  | nil => intro w; exact Keeps.ok rfl
  | cons k ks ih =>
    intro w
    rw [removeColliders]
    split
    · rename_i w' e
      refine (ih w').of_eq ?_
      have hk : Keeps w ((w.untree k).bind fun w => w.unlistCollider k) := by
        refine Keeps.bind (w := w) ?_ fun w1 _ => ?_
        · unfold untree
          split_ifs
          · exact Keeps.ub
          · simp only
            split
            · exact Keeps.ub
            · exact (killContactsOf_keeps k _ _).of_eq rfl
        · unfold unlistCollider
          split
          · exact Keeps.ub
          · exact Keeps.ok rfl
      unfold removeCollider at e
      cases hu : (w.untree k).bind fun w => w.unlistCollider k with
      | throw => exact absurd hu hk.1
      | ub => simp [hu] at e
      | ok w2 =>
        have hb := hk.2 w2 hu
        rw [hu] at e
        simp only at e
        split at e
        · simp at e
        · rw [Prod.mk.injEq] at e
          rw [← e.1]; exact hb
    · exact Keeps.ub

theorem destroyBodies_keeps (cfg : Cfg) (bs : List Nat) : ∀ w, Keeps w (destroyBodies cfg bs w) := by
  induction bs with
  | nil => intro w; exact Keeps.ok rfl
  | cons b bs ih =>
    intro w
    rw [destroyBodies]
    refine Keeps.bind ?_ fun w1 _ => ih w1
    unfold destroyBody
    split
    · exact Keeps.ub
    · refine Keeps.bind (w := w) ?_ fun w1 _ => Keeps.ok rfl
      split_ifs
      · exact Keeps.ok rfl
      · exact removeColliders_keeps _ _
      · exact Keeps.ub

theorem cleanup_keeps (cfg : Cfg) (w : World) : Keeps w (w.cleanup cfg) := by
  unfold cleanup
  refine (cleanContacts_keeps _ w).bind fun w1 _ => ?_
  refine Keeps.bind' (deadJoints_nt w1 _) fun dj => ?_
  refine (unlistJoints_keeps dj w1).bind fun w2 _ => ?_
  exact (destroyBodies_keeps cfg _ _).of_eq rfl

/-- With a broken tree, a step with `dt > 0` whose `preStep`s do not throw is undefined. -/
theorem step_broken {cfg : Cfg} {w : World} (hb : w.broken = true) {c : List Nat → List (Nat × Nat)} {f : Option Stage} (hf : f ≠ some .preStep) :
    (w.step cfg true c f).2 = .ub := by
  unfold step
  have k := cleanup_keeps cfg w
  cases h : w.cleanup cfg with
  | throw => exact absurd h k.1
  | ub => rfl
  | ok w1 =>
    have hb1 : w1.broken = true := (k.2 w1 h).trans hb
    simp only
    by_cases h1 : (!w1.contactsReadable) = true
    · rw [if_pos h1]
    · rw [if_neg h1, if_neg hf, if_neg (by simp), if_pos (by simp [treeReadable, hb1])]

end Simu.World
