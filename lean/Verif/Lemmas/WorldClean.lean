import Verif.Lemmas.World
/-
Effect of `World::cleanup` on all objects at once.
-/
namespace Simu.World
open World

/-- The world without some constraints. -/
def dropJoints (w : World) (p : Nat → Bool) : World :=
  { w with
    joints := w.joints.filter fun n => !p n
    joint := fun n => if p n then none else w.joint n
    body := fun b => (w.body b).map fun r => { r with joints := r.joints.filter fun n => !p n } }

theorem dropJoints_body {w : World} {p : Nat → Bool} {b : Nat} {r : BodyRec} :
    (dropJoints w p).body b = some r ↔ ∃ r', w.body b = some r' ∧ r = { r' with joints := r'.joints.filter fun n => !p n } := by
  simp only [dropJoints, Option.map_eq_some_iff]
  constructor
  · rintro ⟨r', h1, h2⟩; exact ⟨r', h1, h2.symm⟩
  · rintro ⟨r', h1, h2⟩; exact ⟨r', h1, h2.symm⟩

theorem dropJoints_joint {w : World} {p : Nat → Bool} {n : Nat} {J : JointRec} :
    (dropJoints w p).joint n = some J ↔ p n = false ∧ w.joint n = some J := by
  simp only [dropJoints]
  cases hp : p n <;> simp

theorem Inv0.dropJoints {w : World} (h : Inv0 w) (p : Nat → Bool) : Inv0 (dropJoints w p) where
  bodies_iff b := by rw [show (World.dropJoints w p).bodies = w.bodies from rfl, h.bodies_iff]; simp [World.dropJoints]
  bodies_nodup := h.bodies_nodup
  contacts_iff := h.contacts_iff
  contacts_nodup := h.contacts_nodup
  joints_iff n := by
    simp only [World.dropJoints, List.mem_filter, h.joints_iff]
    cases hp : p n <;> simp
  joints_nodup := h.joints_nodup.filter _
  fresh_body b r hr := by
    obtain ⟨r', h1, rfl⟩ := dropJoints_body.1 hr
    exact h.fresh_body b r' h1
  fresh_contact := h.fresh_contact
  fresh_joint n C hc := h.fresh_joint n C (dropJoints_joint.1 hc).2
  contact_ends n J hJ := by
    obtain ⟨hne, ⟨r0, a1, a2⟩, r1, a3, a4⟩ := h.contact_ends n J hJ
    exact ⟨hne, ⟨_, dropJoints_body.2 ⟨r0, a1, rfl⟩, a2⟩, ⟨_, dropJoints_body.2 ⟨r1, a3, rfl⟩, a4⟩⟩
  contact_listed b r hr n hn := by
    obtain ⟨r', h1, rfl⟩ := dropJoints_body.1 hr
    exact h.contact_listed b r' h1 n hn
  joint_ends n C hc := by
    obtain ⟨hp, hc⟩ := dropJoints_joint.1 hc
    obtain ⟨⟨r0, a1, a2⟩, r1, a3, a4⟩ := h.joint_ends n C hc
    refine ⟨⟨_, dropJoints_body.2 ⟨r0, a1, rfl⟩, ?_⟩, ⟨_, dropJoints_body.2 ⟨r1, a3, rfl⟩, ?_⟩⟩
    · rw [List.count_filter (by simp [hp])]; exact a2
    · rw [List.count_filter (by simp [hp])]; exact a4
  joint_listed b r hr n hn := by
    obtain ⟨r', h1, rfl⟩ := dropJoints_body.1 hr
    rw [List.mem_filter] at hn
    obtain ⟨C, hC, hb⟩ := h.joint_listed b r' h1 n hn.1
    exact ⟨C, dropJoints_joint.2 ⟨by simpa using hn.2, hC⟩, hb⟩
  contact_key := h.contact_key
  keys := h.keys
  colliders b r hr := by
    obtain ⟨r', h1, rfl⟩ := dropJoints_body.1 hr
    exact h.colliders b r' h1
  tree_nodup := h.tree_nodup
  tree_owned k hk := by
    obtain ⟨r, a1, a2⟩ := h.tree_owned k hk
    exact ⟨_, dropJoints_body.2 ⟨r, a1, rfl⟩, a2⟩
  broken := h.broken

/-- The world without some bodies. -/
def dropBodies (w : World) (p : Nat → Bool) : World :=
  { w with
    bodies := w.bodies.filter fun b => !p b
    body := fun b => if p b then none else w.body b
    tree := w.tree.filter fun k => !p (w.owner k) }

theorem dropBodies_body {w : World} {p : Nat → Bool} {b : Nat} {r : BodyRec} :
    (dropBodies w p).body b = some r ↔ p b = false ∧ w.body b = some r := by
  simp only [dropBodies]
  cases hp : p b <;> simp

theorem Inv0.dropBodies {w : World} (h : Inv0 w) (p : Nat → Bool) (hJ : ∀ n J, w.joint n = some J → p J.b0 = false ∧ p J.b1 = false)
    (hC : ∀ n C, w.contact n = some C → p C.b0 = false ∧ p C.b1 = false) : Inv0 (dropBodies w p) where
  bodies_iff b := by
    simp only [World.dropBodies, List.mem_filter, h.bodies_iff]
    cases hp : p b <;> simp
  bodies_nodup := h.bodies_nodup.filter _
  contacts_iff := h.contacts_iff
  contacts_nodup := h.contacts_nodup
  joints_iff := h.joints_iff
  joints_nodup := h.joints_nodup
  fresh_body b r hr := h.fresh_body b r (dropBodies_body.1 hr).2
  fresh_contact := h.fresh_contact
  fresh_joint := h.fresh_joint
  contact_ends n C hc := by
    obtain ⟨hne, ⟨r0, a1, a2⟩, r1, a3, a4⟩ := h.contact_ends n C hc
    obtain ⟨p0, p1⟩ := hC n C hc
    exact ⟨hne, ⟨_, dropBodies_body.2 ⟨p0, a1⟩, a2⟩, ⟨_, dropBodies_body.2 ⟨p1, a3⟩, a4⟩⟩
  contact_listed b r hr n hn := h.contact_listed b r (dropBodies_body.1 hr).2 n hn
  joint_ends n C hc := by
    obtain ⟨⟨r0, a1, a2⟩, r1, a3, a4⟩ := h.joint_ends n C hc
    obtain ⟨p0, p1⟩ := hJ n C hc
    exact ⟨⟨_, dropBodies_body.2 ⟨p0, a1⟩, a2⟩, ⟨_, dropBodies_body.2 ⟨p1, a3⟩, a4⟩⟩
  joint_listed b r hr n hn := h.joint_listed b r (dropBodies_body.1 hr).2 n hn
  contact_key n C hc := by
    obtain ⟨a1, a2, a3, a4, a5⟩ := h.contact_key n C hc
    obtain ⟨p0, p1⟩ := hC n C hc
    refine ⟨a1, a2, a3, a4, fun hk => ?_⟩
    obtain ⟨t0, t1⟩ := a5 hk
    simp only [World.dropBodies, List.mem_filter]
    exact ⟨⟨t0, by rw [a1, p0]; rfl⟩, ⟨t1, by rw [a2, p1]; rfl⟩⟩
  keys := h.keys
  colliders b r hr := h.colliders b r (dropBodies_body.1 hr).2
  tree_nodup := h.tree_nodup.filter _
  tree_owned k hk := by
    simp only [World.dropBodies, List.mem_filter] at hk
    obtain ⟨r, a1, a2⟩ := h.tree_owned k hk.1
    have hk2 : p (w.owner k) = false := by simpa using hk.2
    exact ⟨r, dropBodies_body.2 ⟨hk2, a1⟩, a2⟩
  broken := h.broken

theorem deadJoints_eq {w : World} (h : Inv0 w) (ns : List Nat) (hs : ∀ n ∈ ns, (w.joint n).isSome) : w.deadJoints ns = .ok (ns.filter (deadJ w)) := by
  induction ns with
  | nil => rfl
  | cons n ns ih =>
    rw [deadJoints, jointDead_eq h (hs n (by simp)), ih (fun m hm => hs m (by simp [hm]))]
    simp only [Outcome.bind]
    cases hd : deadJ w n
    · rw [List.filter_cons_of_neg (by simp [hd])]; simp
    · rw [List.filter_cons_of_pos hd]; simp

theorem unlistJoints_eq (ns : List Nat) : ∀ {w : World}, (∀ n ∈ ns, ∃ J, w.joint n = some J ∧ (w.body J.b0).isSome ∧ (w.body J.b1).isSome) →
    (∀ b r, w.body b = some r → ∀ n ∈ r.joints, n ∈ ns → ∀ J, w.joint n = some J → J.b0 = b ∨ J.b1 = b) →
    unlistJoints ns w = .ok { w with body := fun b => (w.body b).map fun r => { r with joints := r.joints.filter fun n => decide (n ∉ ns) } } := by
  induction ns with
  | nil =>
    intro w _ _
    simp only [unlistJoints, Outcome.ok.injEq]
    ext1
    all_goals try rfl
    funext b
    show w.body b = (w.body b).map _
    cases hb : w.body b <;> simp
  | cons n ns ih =>
    intro w hs hl
    obtain ⟨J, hJ, h0, h1⟩ := hs n (by simp)
    obtain ⟨r0, h0⟩ := Option.isSome_iff_exists.1 h0
    obtain ⟨r1, h1⟩ := Option.isSome_iff_exists.1 h1
    have key : ((w.unlistJoint n J.b0).bind fun w => (if J.b0 = J.b1 then Outcome.ok w else w.unlistJoint n J.b1)) =
        .ok { w with body := fun b => (w.body b).map fun r => { r with joints := r.joints.filter fun m => decide (m ≠ n) } } := by
      have e1 : w.unlistJoint n J.b0 = .ok (w.setBody J.b0 { r0 with joints := r0.joints.filter (· ≠ n) }) := by
        simp [unlistJoint, h0]
      have hother : ∀ b r, w.body b = some r → b ≠ J.b0 → b ≠ J.b1 → r.joints.filter (fun m => decide (m ≠ n)) = r.joints := by
        intro b r hr hb0 hb1
        apply filter_ne_of_not_mem
        intro hn
        rcases hl b r hr n hn (by simp) J hJ with e | e
        · exact hb0 e.symm
        · exact hb1 e.symm
      rw [e1]
      simp only [Outcome.bind]
      by_cases he : J.b0 = J.b1
      · rw [if_pos he, Outcome.ok.injEq]
        ext1
        all_goals try rfl
        funext b
        simp only [setBody]
        by_cases hb0 : b = J.b0
        · subst hb0; rw [Function.update_self, h0]; simp
        · rw [Function.update_of_ne hb0]
          cases hr : w.body b with
          | none => rfl
          | some r => rw [Option.map_some, hother b r hr hb0 (fun e => hb0 (e.trans he.symm))]
      · rw [if_neg he]
        have e2 : (w.setBody J.b0 { r0 with joints := r0.joints.filter (· ≠ n) }).unlistJoint n J.b1 =
            .ok ((w.setBody J.b0 { r0 with joints := r0.joints.filter (· ≠ n) }).setBody J.b1 { r1 with joints := r1.joints.filter (· ≠ n) }) := by
          simp [unlistJoint, setBody, Function.update_of_ne (Ne.symm he), h1]
        rw [e2, Outcome.ok.injEq]
        ext1
        all_goals try rfl
        funext b
        simp only [setBody]
        by_cases hb1 : b = J.b1
        · subst hb1; rw [Function.update_self, h1]; simp
        · rw [Function.update_of_ne hb1]
          by_cases hb0 : b = J.b0
          · subst hb0; rw [Function.update_self, h0]; simp
          · rw [Function.update_of_ne hb0]
            cases hr : w.body b with
            | none => rfl
            | some r => rw [Option.map_some, hother b r hr hb0 hb1]
    rw [unlistJoints, hJ]
    simp only
    cases hu : w.unlistJoint n J.b0 with
    | throw => rw [hu] at key; simp [Outcome.bind] at key
    | ub => rw [hu] at key; simp [Outcome.bind] at key
    | ok w1 =>
      rw [hu] at key
      simp only [Outcome.bind] at key ⊢
      rw [key]
      simp only
      rw [ih]
      · rw [Outcome.ok.injEq]
        ext1
        all_goals try rfl
        funext b
        simp only [Option.map_map]
        congr 1
        funext r
        simp only [Function.comp, List.filter_filter, BodyRec.mk.injEq, true_and, and_true]
        apply List.filter_congr
        intro m _
        rw [Bool.and_comm]
        simp
      · intro m hm
        obtain ⟨J', a1, a2, a3⟩ := hs m (by simp [hm])
        exact ⟨J', a1, by simpa using a2, by simpa using a3⟩
      · intro b r hr m hm hmn J' hJ'
        simp only [Option.map_eq_some_iff] at hr
        obtain ⟨r', hr', rfl⟩ := hr
        exact hl b r' hr' m (List.mem_of_mem_filter hm) (by simp [hmn]) J' hJ'

/-- What `cleanup` leaves. -/
def cleaned (w : World) : World :=
  { dropBodies (dropJoints (dropContacts w (deadC w) w.log) (deadJ w)) (killedB w) with
    forces := w.forces.filter fun f => !f.2
    log := w.log ++ (w.contacts.filter (deadC w)).map (fun n => .freed (.contact n)) ++
      ((w.joints.filter (deadJ w)).map (fun n => .notified (.joint n)) ++ ((w.forces.filter (·.2)).map (·.1)).map (fun n => .notified (.force n)) ++
        (w.bodies.filter (killedB w)).map (fun n => .notified (.body n))) ++
      ((w.joints.filter (deadJ w)).map (fun n => .freed (.joint n)) ++ ((w.forces.filter (·.2)).map (·.1)).map (fun n => .freed (.force n))) ++
      (w.bodies.filter (killedB w)).map (fun n => .freed (.body n)) }

theorem deadJ_ends {w : World} {n : Nat} {J : JointRec} (hJ : w.joint n = some J) (hd : deadJ w n = false) :
    J.killed = false ∧ killedB w J.b0 = false ∧ killedB w J.b1 = false := by
  simp only [deadJ, hJ, Option.any_some, Bool.or_eq_false_iff] at hd
  tauto

theorem deadC_ends {w : World} {n : Nat} {C : ContactRec} (hC : w.contact n = some C) (hd : deadC w n = false) :
    C.killed = false ∧ killedB w C.b0 = false ∧ killedB w C.b1 = false := by
  simp only [deadC, hC, Option.any_some, Bool.or_eq_false_iff] at hd
  tauto

theorem Inv0.congr {w w' : World} (h : Inv0 w) (h1 : w'.bodies = w.bodies) (h2 : w'.body = w.body) (h3 : w'.joints = w.joints) (h4 : w'.joint = w.joint)
    (h5 : w'.contacts = w.contacts) (h6 : w'.contact = w.contact) (h7 : w'.tree = w.tree) (h8 : w'.broken = w.broken) (h9 : w'.owner = w.owner)
    (h10 : w.next ≤ w'.next) : Inv0 w' := by
  cases h
  constructor
  all_goals try (simp only [h1, h2, h3, h4, h5, h6, h7, h8, h9, ListsJoint, ListsContact] at *; assumption)
  · intro b r hr
    rw [h2] at hr
    rename_i fb _ _ _ _ _ _ _ _ _ _ _ _
    obtain ⟨a, c⟩ := fb b r hr
    exact ⟨lt_of_lt_of_le a h10, fun k hk => lt_of_lt_of_le (c k hk) h10⟩
  · intro n J hJ
    rw [h4] at hJ
    rename_i fj _ _ _ _ _ _ _ _ _ _ _
    exact lt_of_lt_of_le (fj n J hJ) h10
  · intro n J hJ
    rw [h6] at hJ
    rename_i fj _ _ _ _ _ _ _ _ _ _
    exact lt_of_lt_of_le (fj n J hJ) h10
  · intro n C hC
    rw [h6] at hC
    rename_i ck _ _ _ _ _
    obtain ⟨a1, a2, a3, a4, a5⟩ := ck n C hC
    rw [h9, h7]
    exact ⟨a1, a2, lt_of_lt_of_le a3 h10, lt_of_lt_of_le a4 h10, a5⟩

theorem Inv0.cleaned {w : World} (h : Inv0 w) : Inv0 (cleaned w) := by
  have h1 := (h.dropContacts (deadC w) w.log).dropJoints (deadJ w)
  have h2 := h1.dropBodies (killedB w) (fun n J hJ => by
      obtain ⟨hp, hJ⟩ := dropJoints_joint.1 hJ
      exact (deadJ_ends (w := w) hJ hp).2)
    (fun n C hC => by
      obtain ⟨hp, hC⟩ := (dropContacts_contact (log := w.log)).1 hC
      exact (deadC_ends hC hp).2)
  exact h2.congr rfl rfl rfl rfl rfl rfl rfl rfl rfl le_rfl

/-- World.cpp:224-268: the result of `cleanup`, if the destructors of the dead bodies are defined. -/
theorem cleanup_eq {cfg : Cfg} {w : World} (h : Inv0 w) :
    ((∀ b, DeadBody w b → Destructible cfg w b) → w.cleanup cfg = .ok (cleaned w)) ∧
    ((∃ b, DeadBody w b ∧ ¬Destructible cfg w b) → w.cleanup cfg = .ub) := by
  have hpc : (fun n => decide (n ∈ w.contacts) && deadC w n) = deadC w := by
    funext n
    by_cases hn : n ∈ w.contacts
    · simp [hn]
    · have : w.contact n = none := by
        rw [h.contacts_iff] at hn
        simpa using hn
      simp [hn, deadC, this]
  have hpj : ∀ n, decide (n ∉ w.joints.filter (deadJ w)) = !deadJ w n := by
    intro n
    by_cases hn : n ∈ w.joints
    · simp [List.mem_filter, hn]
    · have : w.joint n = none := by
        rw [h.joints_iff] at hn
        simpa using hn
      simp [List.mem_filter, hn, deadJ, this]
  set L1 := w.log ++ (w.contacts.filter (deadC w)).map (fun n => Event.freed (.contact n)) with hL1
  set w1 := dropContacts w (deadC w) L1 with hw1
  have i1 : Inv0 w1 := h.dropContacts _ _
  have dj1 : deadJ w1 = deadJ w := by
    funext n
    simp only [deadJ, hw1, killedB_dropContacts]
    rfl
  have hkb : ∀ b, (w1.body b).any (·.killed) = killedB w b := fun b => killedB_dropContacts w (deadC w) L1 b
  set L2 := L1 ++ ((w.joints.filter (deadJ w)).map (fun n => Event.notified (.joint n)) ++ ((w.forces.filter (·.2)).map (·.1)).map (fun n => Event.notified (.force n)) ++
        (w.bodies.filter (killedB w)).map (fun n => Event.notified (.body n))) ++
      ((w.joints.filter (deadJ w)).map (fun n => Event.freed (.joint n)) ++ ((w.forces.filter (·.2)).map (·.1)).map (fun n => Event.freed (.force n))) with hL2
  set w2 : World := { dropJoints w1 (deadJ w) with forces := w.forces.filter (fun f => !f.2), log := L2 } with hw2
  have i2 : Inv0 w2 := (i1.dropJoints (deadJ w)).congr rfl rfl rfl rfl rfl rfl rfl rfl rfl le_rfl
  have hcl : w.cleanup cfg = destroyBodies cfg (w.bodies.filter (killedB w)) w2 := by
    unfold cleanup
    rw [cleanContacts_eq w.contacts h h.contacts_nodup (fun n hn => (h.contacts_iff n).1 hn), hpc]
    show (w1.deadJoints w1.joints).bind _ = _
    rw [deadJoints_eq i1 w1.joints (fun n hn => (i1.joints_iff n).1 hn), dj1]
    have hjs : w1.joints = w.joints := rfl
    simp only [Outcome.bind, hjs]
    rw [unlistJoints_eq]
    · have hdb : w1.bodies.filter (fun b => (w1.body b).any (·.killed)) = w.bodies.filter (killedB w) := by
        simp only [hkb]
        rfl
      have hfun : (fun n => decide (n ∉ w.joints.filter (deadJ w))) = fun n => !deadJ w n := funext hpj
      have hjf : (fun n => if n ∈ w.joints.filter (deadJ w) then none else w1.joint n) = fun n => if deadJ w n then none else w.joint n := by
        funext n
        have := hpj n
        by_cases hn : n ∈ w.joints.filter (deadJ w)
        · rw [if_pos hn]
          simp only [hn, not_true_eq_false, decide_false] at this
          rw [if_pos (by simpa using this.symm)]
        · rw [if_neg hn]
          simp only [hn, not_false_eq_true, decide_true] at this
          rw [if_neg (by simpa using this.symm)]
          rfl
      refine congrArg₂ (destroyBodies cfg) hdb ?_
      ext1
      · rfl
      · funext b
        show (w1.body b).map _ = (w1.body b).map _
        congr 1
        funext r
        exact congrArg (fun f => { r with joints := r.joints.filter f }) hfun
      · exact congrArg (fun f => w.joints.filter f) hfun
      · exact hjf
      · rfl
      · rfl
      · rfl
      · rfl
      · rfl
      · rfl
      · rfl
      · exact congrArg (fun db => L1 ++ ((w.joints.filter (deadJ w)).map (fun n => Event.notified (.joint n)) ++ ((w.forces.filter (·.2)).map (·.1)).map (fun n => Event.notified (.force n)) ++
          db.map (fun n => Event.notified (.body n))) ++
          ((w.joints.filter (deadJ w)).map (fun n => Event.freed (.joint n)) ++ ((w.forces.filter (·.2)).map (·.1)).map (fun n => Event.freed (.force n)))) hdb
    · intro n hn
      obtain ⟨J, hJ⟩ := Option.isSome_iff_exists.1 ((h.joints_iff n).1 (List.mem_of_mem_filter hn))
      obtain ⟨a0, a1⟩ := i1.joint_ends n J hJ
      exact ⟨J, hJ, a0.some, a1.some⟩
    · intro b r hr n hn _ J hJ
      obtain ⟨J', hJ', hb⟩ := i1.joint_listed b r hr n hn
      rw [hJ] at hJ'
      injection hJ' with e
      subst e
      exact hb
  have hbody2 : ∀ b r, w2.body b = some r → ∃ r', w.body b = some r' ∧ r'.colliders = r.colliders ∧
      r.contacts = r'.contacts.filter (fun n => !deadC w n) := by
    intro b r hr
    obtain ⟨r1, hr1, e1⟩ := dropJoints_body.1 hr
    obtain ⟨r2, hr2, e2⟩ := dropContacts_body.1 hr1
    subst e1 e2
    exact ⟨r2, hr2, rfl, rfl⟩
  have hbody2' : ∀ b r', w.body b = some r' → ∃ r, w2.body b = some r ∧ r'.colliders = r.colliders := by
    intro b r' hr'
    exact ⟨_, dropJoints_body.2 ⟨_, dropContacts_body.2 ⟨r', hr', rfl⟩, rfl⟩, rfl⟩
  have hmem : ∀ b ∈ w.bodies.filter (killedB w), b ∈ w2.bodies := fun b hb => List.mem_of_mem_filter hb
  have hdead : ∀ b, b ∈ w.bodies.filter (killedB w) ↔ DeadBody w b := by
    intro b
    rw [List.mem_filter, h.bodies_iff]
    unfold killedB DeadBody
    cases w.body b <;> simp
  have hdes : ∀ b, Destructible cfg w2 b ↔ Destructible cfg w b := by
    intro b
    constructor
    · intro hd r' hr'
      obtain ⟨r, hr, e⟩ := hbody2' b r' hr'
      rw [e]
      exact hd r hr
    · intro hd r hr
      obtain ⟨r', hr', e, _⟩ := hbody2 b r hr
      rw [← e]
      exact hd r' hr'
  constructor
  · intro hd
    rw [hcl]
    obtain ⟨ct, e1, e2, -⟩ := destroyBodies_ok cfg (w.bodies.filter (killedB w)) i2.weak (h.bodies_nodup.filter _) hmem
      (fun b hb => (hdes b).2 (hd b ((hdead b).1 hb)))
    have hct := e2 (fun b hb r hr => by
      obtain ⟨r', hr', _, e⟩ := hbody2 b r hr
      rw [e, List.filter_eq_nil_iff]
      intro n hn
      obtain ⟨C, hC, hbb⟩ := h.contact_listed b r' hr' n hn
      have hk : killedB w b = true := (List.mem_filter.1 hb).2
      simp only [deadC, hC, Option.any_some]
      rcases hbb with hbb | hbb <;> rw [hbb, hk] <;> simp)
    rw [e1, hct, Outcome.ok.injEq]
    have hin : ∀ b, b ∈ w2.bodies → (b ∈ w.bodies.filter (killedB w) ↔ killedB w b = true) := by
      intro b hb
      rw [List.mem_filter]
      exact ⟨fun h => h.2, fun h => ⟨hb, h⟩⟩
    ext1
    · simp only [cleaned, dropBodies]
      apply List.filter_congr
      intro b hb
      rw [Bool.eq_iff_iff]
      simp [hin b hb]
    · funext b
      simp only [cleaned, dropBodies]
      by_cases hb : b ∈ w.bodies.filter (killedB w)
      · rw [if_pos hb, if_pos (List.mem_filter.1 hb).2]
      · rw [if_neg hb]
        by_cases hk : killedB w b = true
        · exfalso
          apply hb
          rw [List.mem_filter, h.bodies_iff]
          refine ⟨?_, hk⟩
          unfold killedB at hk
          cases hbb : w.body b with
          | none => simp [hbb] at hk
          | some r => rfl
        · rw [if_neg hk]
          rfl
    · rfl
    · rfl
    · rfl
    · rfl
    · rfl
    · simp only [cleaned, dropBodies]
      apply List.filter_congr
      intro k hk
      obtain ⟨r, hr, _⟩ := h.tree_owned k hk
      have hb : w.owner k ∈ w.bodies := (h.bodies_iff _).2 (by simp [hr])
      rw [Bool.eq_iff_iff]
      show decide (w.owner k ∉ w.bodies.filter (killedB w)) = true ↔ (!killedB w (w.owner k)) = true
      have := hin (w.owner k) hb
      simp [this]
    · rfl
    · rfl
    · rfl
    · rfl
  · rintro ⟨b, hb, hnd⟩
    rw [hcl]
    exact destroyBodies_ub cfg _ i2.weak (h.bodies_nodup.filter _) hmem ⟨b, (hdead b).2 hb, fun hh => hnd ((hdes b).1 hh)⟩

end Simu.World
