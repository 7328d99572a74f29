import Verif.Spec.WorldSleep
import Verif.Lemmas.WorldReach
/-
Waking: what the functions of Model/WorldSleep.lean do to the objects of the world is what those of Model/World.lean do, and bodies that sleep afterwards slept before and
have the same lists.
-/
namespace Simu.World
variable {K : Type*} [Field K] [LinearOrder K]
open World

namespace RestWorld

/-! ### The objects -/

omit [LinearOrder K] in
theorem wakeAll_world (s : RestWorld K) (bs : List Nat) : (s.wakeAll bs).world = s.world := by
  unfold wakeAll
  induction bs generalizing s with
  | nil => rfl
  | cons b bs ih => rw [List.foldl_cons, ih]; rfl

theorem cleanContacts_world (ns : List Nat) (s : RestWorld K) : ((cleanContacts ns s).bind fun s => .ok s.world) = World.cleanContacts ns s.world := by
  induction ns generalizing s with
  | nil => rfl
  | cons n ns ih =>
    unfold cleanContacts World.cleanContacts
    cases s.world.contactDead n with
    | throw => rfl
    | ub => rfl
    | ok d =>
      cases d with
      | false => exact ih s
      | true =>
        simp only [Outcome.bind_ok, if_true]
        cases s.world.contact n with
        | none => rfl
        | some c =>
          dsimp only
          cases s.world.unlistContact n c.b0 with
          | throw => rfl
          | ub => rfl
          | ok w =>
            simp only [Outcome.bind_ok]
            by_cases hb : c.b0 = c.b1
            · rw [if_pos hb, if_pos hb]
              simp only [Outcome.bind_ok]
              exact ih _
            · rw [if_neg hb, if_neg hb]
              show ((((w.unlistContact n c.b1).bind _).bind _).bind _) = _
              cases w.unlistContact n c.b1 with
              | throw => rfl
              | ub => rfl
              | ok w => exact ih _

theorem unlistJoints_world (ns : List Nat) (s : RestWorld K) : ((unlistJoints ns s).bind fun s => .ok s.world) = World.unlistJoints ns s.world := by
  induction ns generalizing s with
  | nil => rfl
  | cons n ns ih =>
    unfold unlistJoints World.unlistJoints
    cases s.world.joint n with
    | none => rfl
    | some c =>
      dsimp only
      cases s.world.unlistJoint n c.b0 with
      | throw => rfl
      | ub => rfl
      | ok w =>
        simp only [Outcome.bind_ok]
        by_cases hb : c.b0 = c.b1
        · rw [if_pos hb, if_pos hb]
          simp only [Outcome.bind_ok]
          exact ih _
        · rw [if_neg hb, if_neg hb]
          show ((((w.unlistJoint n c.b1).bind _).bind _).bind _) = _
          cases w.unlistJoint n c.b1 with
          | throw => rfl
          | ub => rfl
          | ok w => exact ih _

theorem removeCollider_world (s : RestWorld K) (k : Nat) : (s.removeCollider k).1.world = (s.world.removeCollider k).1 ∧ (s.removeCollider k).2 = (s.world.removeCollider k).2 := by
  unfold removeCollider
  obtain ⟨w, r⟩ := s.world.removeCollider k
  cases r with
  | throw => exact ⟨rfl, rfl⟩
  | ub => exact ⟨rfl, rfl⟩
  | ok u =>
    dsimp only
    by_cases h : ((w.body (w.owner k)).any fun r => r.colliders.isEmpty) = true
    · rw [if_pos h]; exact ⟨rfl, rfl⟩
    · rw [if_neg h]; exact ⟨rfl, rfl⟩

theorem removeColliders_world (ks : List Nat) (s : RestWorld K) : ((removeColliders ks s).bind fun s => .ok s.world) = World.removeColliders ks s.world := by
  induction ks generalizing s with
  | nil => rfl
  | cons k ks ih =>
    unfold removeColliders World.removeColliders
    obtain ⟨h1, h2⟩ := removeCollider_world s k
    revert h1 h2
    obtain ⟨s', r'⟩ := s.removeCollider k
    obtain ⟨w, r⟩ := s.world.removeCollider k
    rintro (rfl : s'.world = w) (rfl : r' = r)
    cases r' with
    | throw => rfl
    | ub => rfl
    | ok u => exact ih _

theorem destroyBody_world (cfg : Cfg) (s : RestWorld K) (b : Nat) : ((destroyBody cfg s b).bind fun s => .ok s.world) = World.destroyBody cfg s.world b := by
  unfold destroyBody World.destroyBody
  cases s.world.body b with
  | none => rfl
  | some r =>
    dsimp only
    by_cases hr : r.colliders = []
    · rw [if_pos hr, if_pos hr]; rfl
    · rw [if_neg hr, if_neg hr]
      cases cfg.repairedDestructor with
      | false => rfl
      | true =>
        simp only [if_true]
        rw [← removeColliders_world]
        cases removeColliders r.colliders s <;> rfl

theorem destroyBodies_world (cfg : Cfg) (bs : List Nat) (s : RestWorld K) : ((destroyBodies cfg bs s).bind fun s => .ok s.world) = World.destroyBodies cfg bs s.world := by
  induction bs generalizing s with
  | nil => rfl
  | cons b bs ih =>
    unfold destroyBodies World.destroyBodies
    rw [← destroyBody_world]
    cases destroyBody cfg s b with
    | throw => rfl
    | ub => rfl
    | ok s => exact ih s

theorem cleanup_world (cfg : Cfg) (s : RestWorld K) : ((s.cleanup cfg).bind fun s => .ok s.world) = s.world.cleanup cfg := by
  unfold cleanup World.cleanup
  rw [← cleanContacts_world]
  cases cleanContacts s.world.contacts s with
  | throw => rfl
  | ub => rfl
  | ok s =>
    simp only [Outcome.bind_ok]
    cases s.world.deadJoints s.world.joints with
    | throw => rfl
    | ub => rfl
    | ok dj =>
      simp only [Outcome.bind_ok]
      rw [← unlistJoints_world]
      cases unlistJoints dj s with
      | throw => rfl
      | ub => rfl
      | ok s => exact destroyBodies_world cfg _ _

theorem registerContact_world (s : RestWorld K) (k0 k1 : Nat) : ((s.registerContact k0 k1).bind fun s => .ok s.world) = s.world.registerContact k0 k1 := by
  unfold registerContact World.registerContact
  by_cases h : s.world.owner k0 = s.world.owner k1
  · rw [if_pos h, if_pos h]; rfl
  · rw [if_neg h, if_neg h]
    cases s.world.body (s.world.owner k0) with
    | none => rfl
    | some r0 =>
      dsimp only
      cases s.world.disabled (s.world.owner k1) r0.joints with
      | throw => rfl
      | ub => rfl
      | ok d =>
        cases d with
        | true => rfl
        | false =>
          simp only [Outcome.bind_ok]
          cases s.world.inContacts k0 k1 with
          | none =>
            simp only [Bool.false_eq_true, if_false]
            unfold makeContact
            cases s.world.makeContact k0 k1 <;> rfl
          | some n =>
            simp only [Bool.false_eq_true, if_false]
            cases s.world.contact n <;> rfl

theorem registerAll_world (ps : List (Nat × Nat)) (s : RestWorld K) : (registerAll ps s).1.world = (World.registerAll ps s.world).1 ∧ (registerAll ps s).2 = (World.registerAll ps s.world).2 := by
  induction ps generalizing s with
  | nil => exact ⟨rfl, rfl⟩
  | cons p ps ih =>
    unfold registerAll World.registerAll
    rw [← registerContact_world]
    cases s.registerContact p.1 p.2 with
    | throw => exact ⟨rfl, rfl⟩
    | ub => exact ⟨rfl, rfl⟩
    | ok s => exact ih s

theorem step_world (cfg : Cfg) (s : RestWorld K) (dt : K) (c : List Nat → List (Nat × Nat)) (f : Option World.Stage) (v : RestWorld K → List Nat × (Nat → K × K × K)) :
    (s.step cfg dt c f v).1.world = (s.world.step cfg (decide (0 < dt)) c f).1 ∧ (s.step cfg dt c f v).2 = (s.world.step cfg (decide (0 < dt)) c f).2 := by
  unfold step World.step
  rw [← cleanup_world]
  cases s.cleanup cfg with
  | throw => exact ⟨rfl, rfl⟩
  | ub => exact ⟨rfl, rfl⟩
  | ok s =>
    simp only [Outcome.bind_ok]
    by_cases h1 : (!s.world.contactsReadable) = true
    · rw [if_pos h1, if_pos h1]; exact ⟨rfl, rfl⟩
    rw [if_neg h1, if_neg h1]
    by_cases h2 : f = some .preStep
    · rw [if_pos h2, if_pos h2]; exact ⟨rfl, rfl⟩
    rw [if_neg h2, if_neg h2]
    by_cases h3 : (!decide (0 < dt)) = true
    · rw [if_pos h3, if_pos h3]; exact ⟨rfl, rfl⟩
    rw [if_neg h3, if_neg h3]
    by_cases h4 : (!s.world.treeReadable || !s.world.graphReadable) = true
    · rw [if_pos h4, if_pos h4]; exact ⟨rfl, rfl⟩
    rw [if_neg h4, if_neg h4]
    by_cases h5 : f = some .solve
    · rw [if_pos h5, if_pos h5]; exact ⟨wakeAll_world _ _, rfl⟩
    rw [if_neg h5, if_neg h5]
    obtain ⟨e1, e2⟩ := registerAll_world (c s.world.tree) ((s.wakeAll (v s).1).doze dt (v s).2)
    rw [show ((s.wakeAll (v s).1).doze dt (v s).2).world = s.world from wakeAll_world _ _] at e1 e2
    revert e1 e2
    obtain ⟨t, r⟩ := registerAll (c s.world.tree) ((s.wakeAll (v s).1).doze dt (v s).2)
    obtain ⟨w, q⟩ := World.registerAll (c s.world.tree) s.world
    rintro (rfl : t.world = w) (rfl : r = q)
    cases r <;> exact ⟨rfl, rfl⟩

theorem clear_world (cfg : Cfg) (s : RestWorld K) : (s.clear cfg).1.world = (s.world.clear cfg).1 ∧ (s.clear cfg).2 = (s.world.clear cfg).2 := by
  unfold clear
  have h := destroyBodies_world cfg s.world.bodies s
  cases hd : destroyBodies cfg s.world.bodies s with
  | ok t => exact ⟨rfl, rfl⟩
  | throw =>
    rw [hd] at h
    unfold World.clear
    rw [← h]
    exact ⟨rfl, rfl⟩
  | ub =>
    rw [hd] at h
    unfold World.clear
    rw [← h]
    exact ⟨rfl, rfl⟩

/-- Each operation does to the objects what it does in Model/World.lean. -/
theorem apply_world (cfg : Cfg) (s : RestWorld K) (o : RestOp K) :
    match o.plain with
    | some p => (s.apply cfg o).1.world = (s.world.apply cfg p).1 ∧ (s.apply cfg o).2 = (s.world.apply cfg p).2
    | none => (s.apply cfg o).1.world = s.world := by
  cases o with
  | makeBody b => exact ⟨rfl, rfl⟩
  | makeConstraint b0 b1 d r =>
    show (s.makeConstraint b0 b1 d r).1.world = (s.world.makeConstraint b0 b1 d r).1 ∧ (s.makeConstraint b0 b1 d r).2 = (s.world.makeConstraint b0 b1 d r).2
    unfold makeConstraint
    obtain ⟨w, q⟩ := s.world.makeConstraint b0 b1 d r
    cases q <;> exact ⟨rfl, rfl⟩
  | makeForce d =>
    refine ⟨?_, rfl⟩
    show (s.makeForce d).world = s.world.makeForce
    unfold makeForce
    cases d <;> exact wakeAll_world _ _
  | addCollider b v =>
    show (s.addCollider b v).1.world = (s.world.addCollider b v).1 ∧ (s.addCollider b v).2 = (s.world.addCollider b v).2
    unfold addCollider
    obtain ⟨w, q⟩ := s.world.addCollider b v
    cases q <;> exact ⟨rfl, rfl⟩
  | removeCollider k => exact removeCollider_world s k
  | killBody b => exact ⟨rfl, rfl⟩
  | killJoint n => exact ⟨rfl, rfl⟩
  | killContact n => exact ⟨rfl, rfl⟩
  | killForce n => exact ⟨rfl, rfl⟩
  | step dt c f v => exact step_world cfg s dt c f v
  | clear => exact clear_world cfg s
  | setContactFactory => exact ⟨rfl, rfl⟩
  | touch b =>
    show (if (s.world.body b).isNone then (s, .ub) else (s.wake b, .ok ()) : RestWorld K × Outcome Unit).1.world = s.world
    split <;> rfl
  | updateSettings t =>
    show (s.updateSettings t).world = s.world
    unfold updateSettings
    split
    · exact wakeAll_world _ _
    · rfl

end RestWorld

theorem RestReachable.plain {cfg : Cfg} {s : RestWorld K} (h : RestReachable cfg s) : Reachable cfg s.world := by
  induction h with
  | init => exact .init
  | @op s h o ha hd ih =>
    have e := s.apply_world cfg o
    cases hp : o.plain with
    | none => rw [hp] at e; dsimp only at e; rw [e]; exact ih
    | some p =>
      rw [hp] at e
      rw [e.1]
      refine ih.op p ?_ (hd p hp)
      cases o <;> first | exact ha p hp | (cases hp)

/-! ### The lists of bodies that sleep -/

/-- The lists of a body. -/
def BodyRec.lists (r : BodyRec) : List Nat × List Nat × List Nat := (r.joints, r.contacts, r.colliders)

/-- The bodies (with the property `p`) that sleep afterwards slept before, with the same clock, and have the same lists. -/
def CalmFor (p : Nat → Prop) (s t : RestWorld K) : Prop :=
  ∀ b v, p b → (t.world.body b).map BodyRec.lists = some v → (t.clock b).asleep = true → (s.world.body b).map BodyRec.lists = some v ∧ s.clock b = t.clock b

/-- All bodies. -/
def Undisturbed (s t : RestWorld K) : Prop := CalmFor (fun _ => True) s t

omit [Field K] [LinearOrder K] in
theorem CalmFor.refl (p : Nat → Prop) (s : RestWorld K) : CalmFor p s s := fun _ _ _ h1 _ => ⟨h1, rfl⟩

omit [Field K] [LinearOrder K] in
theorem CalmFor.trans {p : Nat → Prop} {s t u : RestWorld K} (h1 : CalmFor p s t) (h2 : CalmFor p t u) : CalmFor p s u := fun b v hp e1 e2 =>
  have ⟨e3, e4⟩ := h2 b v hp e1 e2
  have ⟨e5, e6⟩ := h1 b v hp e3 (e4 ▸ e2)
  ⟨e5, e6.trans e4⟩

omit [LinearOrder K] in
theorem wake_asleep {s : RestWorld K} {b c : Nat} (h : ((s.wake b).clock c).asleep = true) : c ≠ b ∧ s.clock c = (s.wake b).clock c := by
  unfold RestWorld.wake at h ⊢
  dsimp only at h ⊢
  by_cases hc : c = b
  · subst hc; rw [Function.update_self] at h; cases h
  · rw [Function.update_of_ne hc]; exact ⟨hc, rfl⟩

omit [LinearOrder K] in
theorem CalmFor.wake (p : Nat → Prop) (s : RestWorld K) (b : Nat) : CalmFor p s (s.wake b) := fun _ _ _ h1 h2 => ⟨h1, (wake_asleep h2).2⟩

omit [LinearOrder K] in
theorem CalmFor.wakeAll (p : Nat → Prop) (s : RestWorld K) (bs : List Nat) : CalmFor p s (s.wakeAll bs) := by
  unfold RestWorld.wakeAll
  induction bs generalizing s with
  | nil => exact .refl p s
  | cons b bs ih => exact (CalmFor.wake p s b).trans (ih _)

omit [Field K] [LinearOrder K] in
/-- The objects change, but no list. -/
theorem CalmFor.keep {p : Nat → Prop} {s : RestWorld K} {w : World} (h : ∀ b r, p b → w.body b = some r → (s.world.body b).map BodyRec.lists = some r.lists) :
    CalmFor p s { s with world := w } := by
  intro b v hp h1 h2
  obtain ⟨r, hr, rfl⟩ := Option.map_eq_some_iff.1 h1
  exact ⟨h b r hp hr, rfl⟩

omit [LinearOrder K] in
/-- A body changes and is woken. -/
theorem CalmFor.edit {p : Nat → Prop} {s : RestWorld K} {w : World} {c : Nat} (h : ∀ b r, p b → b ≠ c → w.body b = some r → (s.world.body b).map BodyRec.lists = some r.lists) :
    CalmFor p s (({ s with world := w } : RestWorld K).wake c) := by
  intro b v hp h1 h2
  obtain ⟨hc, h2⟩ := wake_asleep h2
  obtain ⟨r, hr, rfl⟩ := Option.map_eq_some_iff.1 h1
  exact ⟨h b r hp hc hr, h2⟩

/-- What the functions that tidy up keep: colliders have the same owners, and bodies get no colliders. -/
structure Tidy (w w' : World) : Prop where
  owner : w'.owner = w.owner
  colliders : ∀ b r', w'.body b = some r' → ∃ r, w.body b = some r ∧ ∀ k ∈ r'.colliders, k ∈ r.colliders

theorem Tidy.refl (w : World) : Tidy w w := ⟨rfl, fun _ r h => ⟨r, h, fun _ hk => hk⟩⟩

theorem Tidy.trans {w w' w'' : World} (h : Tidy w w') (h' : Tidy w' w'') : Tidy w w'' :=
  ⟨h'.owner.trans h.owner, fun b r hr => by
    obtain ⟨r', hr', h1⟩ := h'.colliders b r hr
    obtain ⟨r'', hr'', h2⟩ := h.colliders b r' hr'
    exact ⟨r'', hr'', fun k hk => h2 k (h1 k hk)⟩⟩

theorem Tidy.congr {w w' w'' : World} (h : Tidy w' w'') (h1 : w'.owner = w.owner) (h2 : w'.body = w.body) : Tidy w w'' :=
  ⟨h.owner.trans h1, fun b r hr => h2 ▸ h.colliders b r hr⟩

theorem Tidy.setBody {w : World} {b : Nat} {r r' : BodyRec} (h : w.body b = some r) (hs : ∀ k ∈ r'.colliders, k ∈ r.colliders) : Tidy w (w.setBody b r') := by
  refine ⟨rfl, fun c q hq => ?_⟩
  unfold World.setBody at hq
  dsimp only at hq
  by_cases hc : c = b
  · subst hc; rw [Function.update_self] at hq; cases hq; exact ⟨r, h, hs⟩
  · rw [Function.update_of_ne hc] at hq; exact ⟨q, hq, fun _ hk => hk⟩

theorem setBody_other {w : World} {b c : Nat} {r : BodyRec} (h : c ≠ b) : (w.setBody b r).body c = w.body c := Function.update_of_ne h ..

theorem unlistContact_frame {w w' : World} {n b : Nat} (h : w.unlistContact n b = .ok w') : Tidy w w' ∧ (∀ c, c ≠ b → w'.body c = w.body c) ∧ w'.joint = w.joint ∧ w'.contact = w.contact := by
  unfold World.unlistContact at h
  cases hb : w.body b with
  | none => rw [hb] at h; cases h
  | some r => rw [hb] at h; cases h; exact ⟨.setBody hb fun _ hk => hk, fun c hc => setBody_other hc, rfl, rfl⟩

theorem unlistJoint_frame {w w' : World} {n b : Nat} (h : w.unlistJoint n b = .ok w') : Tidy w w' ∧ (∀ c, c ≠ b → w'.body c = w.body c) ∧ w'.joint = w.joint ∧ w'.contact = w.contact := by
  unfold World.unlistJoint at h
  cases hb : w.body b with
  | none => rw [hb] at h; cases h
  | some r => rw [hb] at h; cases h; exact ⟨.setBody hb fun _ hk => hk, fun c hc => setBody_other hc, rfl, rfl⟩

theorem lists_of_body {w w' : World} {b : Nat} {r : BodyRec} (h : w'.body b = w.body b) (hr : w'.body b = some r) : (w.body b).map BodyRec.lists = some r.lists := by
  rw [← h, hr]; rfl

omit [LinearOrder K] in
theorem calm_cleanContacts (ns : List Nat) {s t : RestWorld K} (h : RestWorld.cleanContacts ns s = .ok t) : Undisturbed s t ∧ Tidy s.world t.world := by
  induction ns generalizing s with
  | nil => cases h; exact ⟨.refl _ _, .refl _⟩
  | cons n ns ih =>
    unfold RestWorld.cleanContacts at h
    cases hd : s.world.contactDead n with
    | throw => rw [hd] at h; cases h
    | ub => rw [hd] at h; cases h
    | ok d =>
      rw [hd] at h
      cases d with
      | false => exact ih h
      | true =>
        simp only [Outcome.bind_ok, if_true] at h
        cases hc : s.world.contact n with
        | none => rw [hc] at h; cases h
        | some c =>
          rw [hc] at h
          dsimp only at h
          cases hu : s.world.unlistContact n c.b0 with
          | throw => rw [hu] at h; cases h
          | ub => rw [hu] at h; cases h
          | ok w =>
            rw [hu] at h
            simp only [Outcome.bind_ok] at h
            obtain ⟨t0, f0, -⟩ := unlistContact_frame hu
            have c0 : Undisturbed s (({ s with world := w } : RestWorld K).wake c.b0) := CalmFor.edit fun b r _ hb hr => lists_of_body (f0 b hb) hr
            by_cases hb : c.b0 = c.b1
            · rw [if_pos hb] at h
              simp only [Outcome.bind_ok] at h
              obtain ⟨c1, t1⟩ := ih h
              refine ⟨c0.trans (CalmFor.trans ?_ c1), t0.trans (t1.congr rfl rfl)⟩
              exact CalmFor.keep fun b r _ hr => lists_of_body (w' := w) rfl hr
            · rw [if_neg hb] at h
              cases hu' : w.unlistContact n c.b1 with
              | throw => rw [show (({ s with world := w } : RestWorld K).wake c.b0).world = w from rfl, hu'] at h; cases h
              | ub => rw [show (({ s with world := w } : RestWorld K).wake c.b0).world = w from rfl, hu'] at h; cases h
              | ok w' =>
                rw [show (({ s with world := w } : RestWorld K).wake c.b0).world = w from rfl, hu'] at h
                simp only [Outcome.bind_ok] at h
                obtain ⟨t1, f1, -⟩ := unlistContact_frame hu'
                obtain ⟨c2, t2⟩ := ih h
                refine ⟨c0.trans (CalmFor.trans (t := ({ ({ s with world := w } : RestWorld K).wake c.b0 with world := w' } : RestWorld K).wake c.b1) ?_ (CalmFor.trans ?_ c2)),
                  t0.trans (t1.trans (t2.congr rfl rfl))⟩
                · exact CalmFor.edit fun b r _ hb hr => lists_of_body (w' := w') (f1 b hb) hr
                · exact CalmFor.keep fun b r _ hr => lists_of_body (w' := w') rfl hr

omit [LinearOrder K] in
theorem calm_unlistJoints (ns : List Nat) {s t : RestWorld K} (h : RestWorld.unlistJoints ns s = .ok t) : Undisturbed s t ∧ Tidy s.world t.world := by
  induction ns generalizing s with
  | nil => cases h; exact ⟨.refl _ _, .refl _⟩
  | cons n ns ih =>
    unfold RestWorld.unlistJoints at h
    cases hc : s.world.joint n with
    | none => rw [hc] at h; cases h
    | some c =>
      rw [hc] at h
      dsimp only at h
      cases hu : s.world.unlistJoint n c.b0 with
      | throw => rw [hu] at h; cases h
      | ub => rw [hu] at h; cases h
      | ok w =>
        rw [hu] at h
        simp only [Outcome.bind_ok] at h
        obtain ⟨t0, f0, -⟩ := unlistJoint_frame hu
        have c0 : Undisturbed s (({ s with world := w } : RestWorld K).wake c.b0) := CalmFor.edit fun b r _ hb hr => lists_of_body (f0 b hb) hr
        by_cases hb : c.b0 = c.b1
        · rw [if_pos hb] at h
          simp only [Outcome.bind_ok] at h
          obtain ⟨c1, t1⟩ := ih h
          exact ⟨c0.trans c1, t0.trans t1⟩
        · rw [if_neg hb] at h
          cases hu' : w.unlistJoint n c.b1 with
          | throw => rw [show (({ s with world := w } : RestWorld K).wake c.b0).world = w from rfl, hu'] at h; cases h
          | ub => rw [show (({ s with world := w } : RestWorld K).wake c.b0).world = w from rfl, hu'] at h; cases h
          | ok w' =>
            rw [show (({ s with world := w } : RestWorld K).wake c.b0).world = w from rfl, hu'] at h
            simp only [Outcome.bind_ok] at h
            obtain ⟨t1, f1, -⟩ := unlistJoint_frame hu'
            obtain ⟨c2, t2⟩ := ih h
            refine ⟨c0.trans (CalmFor.trans (t := ({ ({ s with world := w } : RestWorld K).wake c.b0 with world := w' } : RestWorld K).wake c.b1) ?_ c2), t0.trans (t1.trans t2)⟩
            exact CalmFor.edit fun b r _ hb hr => lists_of_body (w' := w') (f1 b hb) hr

theorem killContactsOf_frame {k : Nat} (ns : List Nat) {w w' : World} (h : World.killContactsOf k ns w = .ok w') : w'.body = w.body ∧ w'.owner = w.owner := by
  induction ns generalizing w with
  | nil => cases h; exact ⟨rfl, rfl⟩
  | cons n ns ih =>
    unfold World.killContactsOf at h
    cases hc : w.contact n with
    | none => rw [hc] at h; cases h
    | some c =>
      rw [hc] at h
      dsimp only at h
      obtain ⟨h1, h2⟩ := ih h
      split at h1 <;> split at h2 <;> exact ⟨h1, h2⟩

theorem removeCollider_frame {w w' : World} {k : Nat} {o : Outcome Unit} (h : w.removeCollider k = (w', o)) :
    Tidy w w' ∧ (∀ c, c ≠ w.owner k → w'.body c = w.body c) ∧ (o = .ok () → ∃ r, w.body (w.owner k) = some r ∧ w'.body (w.owner k) = some { r with colliders := r.colliders.filter (· ≠ k) }) := by
  unfold World.removeCollider at h
  cases hu : (w.untree k).bind fun w => w.unlistCollider k with
  | throw => rw [hu] at h; cases h; exact ⟨.refl _, fun _ _ => rfl, nofun⟩
  | ub => rw [hu] at h; cases h; exact ⟨.refl _, fun _ _ => rfl, nofun⟩
  | ok v =>
    rw [hu] at h
    have key : Tidy w v ∧ (∀ c, c ≠ w.owner k → v.body c = w.body c) ∧ ∃ r, w.body (w.owner k) = some r ∧ v.body (w.owner k) = some { r with colliders := r.colliders.filter (· ≠ k) } := by
      cases ht : w.untree k with
      | throw => rw [ht] at hu; cases hu
      | ub => rw [ht] at hu; cases hu
      | ok u =>
        rw [ht] at hu
        simp only [Outcome.bind_ok] at hu
        have hue : u.body = w.body ∧ u.owner = w.owner := by
          unfold World.untree at ht
          split at ht
          · cases ht
          · dsimp only at ht
            split at ht
            · cases ht
            · have := killContactsOf_frame _ ht
              exact this
        unfold World.unlistCollider at hu
        rw [hue.2] at hu
        cases hb : u.body (w.owner k) with
        | none => rw [hb] at hu; cases hu
        | some r =>
          rw [hb] at hu
          cases hu
          refine ⟨Tidy.trans (w' := u) ⟨hue.2, fun b r hr => ⟨r, hue.1 ▸ hr, fun _ hk => hk⟩⟩ (.setBody hb fun k hk => (List.mem_filter.1 hk).1),
            fun c hc => (setBody_other hc).trans (congrFun hue.1 c), r, hue.1 ▸ hb, Function.update_self ..⟩
    dsimp only at h
    split at h <;> cases h
    · exact ⟨key.1, key.2.1, fun _ => key.2.2⟩
    · exact ⟨key.1, key.2.1, fun _ => key.2.2⟩

omit [LinearOrder K] in
theorem calm_removeCollider (s : RestWorld K) (k : Nat) : CalmFor (· ≠ s.world.owner k) s (s.removeCollider k).1 ∧ Tidy s.world (s.removeCollider k).1.world ∧
    ((s.removeCollider k).2 = .ok () → (∃ r, s.world.body (s.world.owner k) = some r ∧ ∃ k' ∈ r.colliders, k' ≠ k) → Undisturbed s (s.removeCollider k).1) := by
  unfold RestWorld.removeCollider
  cases hw : s.world.removeCollider k with
  | mk w o =>
    obtain ⟨h1, h2, h3⟩ := removeCollider_frame hw
    have keep : CalmFor (· ≠ s.world.owner k) s { s with world := w } := CalmFor.keep fun b r hb hr => lists_of_body (h2 b hb) hr
    cases o with
    | throw => exact ⟨keep, h1, nofun⟩
    | ub => exact ⟨keep, h1, nofun⟩
    | ok u =>
      obtain ⟨r, hr, hr'⟩ := h3 rfl
      dsimp only
      have ho : w.owner k = s.world.owner k := congrFun h1.owner k
      rw [ho]
      have edit : Undisturbed s (({ s with world := w } : RestWorld K).wake (s.world.owner k)) := CalmFor.edit fun b r _ hb hr => lists_of_body (h2 b hb) hr
      by_cases he : ((w.body (s.world.owner k)).any fun r => r.colliders.isEmpty) = true
      · rw [if_pos he]
        refine ⟨keep, h1, fun _ ⟨q, hq, k', hk', hne⟩ => ?_⟩
        rw [hr] at hq; cases hq
        rw [hr'] at he
        simp only [Option.any_some, List.isEmpty_iff] at he
        have : k' ∈ r.colliders.filter (· ≠ k) := List.mem_filter.2 ⟨hk', by simpa using hne⟩
        rw [he] at this; cases this
      · rw [if_neg he]
        exact ⟨fun b v _ => edit b v trivial, h1, fun _ _ => edit⟩

omit [LinearOrder K] in
theorem calm_removeColliders {c : Nat} (ks : List Nat) {s t : RestWorld K} (h : RestWorld.removeColliders ks s = .ok t) (ho : ∀ k ∈ ks, s.world.owner k = c) :
    CalmFor (· ≠ c) s t ∧ Tidy s.world t.world := by
  induction ks generalizing s with
  | nil => cases h; exact ⟨.refl _ _, .refl _⟩
  | cons k ks ih =>
    unfold RestWorld.removeColliders at h
    obtain ⟨h1, h2, -⟩ := calm_removeCollider s k
    revert h h1 h2
    obtain ⟨u, o⟩ := s.removeCollider k
    intro h h1 h2
    cases o with
    | throw => cases h
    | ub => cases h
    | ok x =>
      obtain ⟨h3, h4⟩ := ih h (fun k' hk' => (congrFun h2.owner k').trans (ho k' (List.mem_cons_of_mem _ hk')))
      rw [ho k List.mem_cons_self] at h1
      exact ⟨h1.trans h3, h2.trans h4⟩

/-- The colliders of a body have it as their owner. -/
def Owned (w : World) : Prop := ∀ b r, w.body b = some r → ∀ k ∈ r.colliders, w.owner k = b

theorem Owned.tidy {w w' : World} (h : Owned w) (ht : Tidy w w') : Owned w' := fun b r hr k hk => by
  obtain ⟨r', hr', h'⟩ := ht.colliders b r hr
  rw [ht.owner]
  exact h b r' hr' k (h' k hk)

omit [LinearOrder K] in
theorem calm_destroyBody {cfg : Cfg} {s t : RestWorld K} {b : Nat} (hw : Owned s.world) (h : s.destroyBody cfg b = .ok t) : Undisturbed s t ∧ Tidy s.world t.world := by
  unfold RestWorld.destroyBody at h
  cases hb : s.world.body b with
  | none => rw [hb] at h; cases h
  | some r =>
    rw [hb] at h
    dsimp only at h
    have drop : ∀ u : RestWorld K, CalmFor (· ≠ b) s u → Tidy s.world u.world → u.world.body b = u.world.body b →
        Undisturbed s { u with world := { u.world with bodies := u.world.bodies.filter (· ≠ b), body := Function.update u.world.body b none, log := u.world.log ++ [.freed (.body b)] } } ∧
        Tidy s.world { u.world with bodies := u.world.bodies.filter (· ≠ b), body := Function.update u.world.body b none, log := u.world.log ++ [.freed (.body b)] } := by
      intro u hc ht _
      constructor
      · intro c v _ h1 h2
        dsimp only at h1 h2
        by_cases hcb : c = b
        · subst hcb; rw [Function.update_self] at h1; cases h1
        · rw [Function.update_of_ne hcb] at h1; exact hc c v hcb h1 h2
      · refine ht.trans ⟨rfl, fun c q hq => ?_⟩
        dsimp only at hq
        by_cases hcb : c = b
        · subst hcb; rw [Function.update_self] at hq; cases hq
        · rw [Function.update_of_ne hcb] at hq; exact ⟨q, hq, fun _ hk => hk⟩
    by_cases hr : r.colliders = []
    · rw [if_pos hr] at h
      simp only [Outcome.bind_ok] at h
      cases h
      exact drop s (.refl _ _) (.refl _) rfl
    · rw [if_neg hr] at h
      cases hcfg : cfg.repairedDestructor with
      | false => rw [hcfg] at h; cases h
      | true =>
        rw [hcfg] at h
        simp only [if_true] at h
        cases hu : RestWorld.removeColliders r.colliders s with
        | throw => rw [hu] at h; cases h
        | ub => rw [hu] at h; cases h
        | ok u =>
          rw [hu] at h
          cases h
          obtain ⟨h1, h2⟩ := calm_removeColliders r.colliders hu (hw b r hb)
          exact drop u h1 h2 rfl

omit [LinearOrder K] in
theorem calm_destroyBodies {cfg : Cfg} (bs : List Nat) {s t : RestWorld K} (hw : Owned s.world) (h : RestWorld.destroyBodies cfg bs s = .ok t) : Undisturbed s t ∧ Tidy s.world t.world := by
  induction bs generalizing s with
  | nil => cases h; exact ⟨.refl _ _, .refl _⟩
  | cons b bs ih =>
    unfold RestWorld.destroyBodies at h
    cases hu : s.destroyBody cfg b with
    | throw => rw [hu] at h; cases h
    | ub => rw [hu] at h; cases h
    | ok u =>
      rw [hu] at h
      obtain ⟨h1, h2⟩ := calm_destroyBody hw hu
      obtain ⟨h3, h4⟩ := ih (hw.tidy h2) h
      exact ⟨h1.trans h3, h2.trans h4⟩

omit [LinearOrder K] in
theorem calm_cleanup {cfg : Cfg} {s t : RestWorld K} (hw : Owned s.world) (h : s.cleanup cfg = .ok t) : Undisturbed s t := by
  unfold RestWorld.cleanup at h
  cases hc : RestWorld.cleanContacts s.world.contacts s with
  | throw => rw [hc] at h; cases h
  | ub => rw [hc] at h; cases h
  | ok s1 =>
    rw [hc] at h
    simp only [Outcome.bind_ok] at h
    obtain ⟨c1, t1⟩ := calm_cleanContacts _ hc
    cases hj : s1.world.deadJoints s1.world.joints with
    | throw => rw [hj] at h; cases h
    | ub => rw [hj] at h; cases h
    | ok dj =>
      rw [hj] at h
      simp only [Outcome.bind_ok] at h
      cases hu : RestWorld.unlistJoints dj s1 with
      | throw => rw [hu] at h; cases h
      | ub => rw [hu] at h; cases h
      | ok s2 =>
        rw [hu] at h
        simp only [Outcome.bind_ok] at h
        obtain ⟨c2, t2⟩ := calm_unlistJoints _ hu
        have hw2 : Owned s2.world := (hw.tidy t1).tidy t2
        obtain ⟨c3, -⟩ := calm_destroyBodies _ (by exact hw2) h
        refine c1.trans (c2.trans (CalmFor.trans ?_ c3))
        exact CalmFor.keep fun b r _ hr => lists_of_body (w' := s2.world) rfl hr

theorem listContact_frame {w w' : World} {n b : Nat} (h : w.listContact n b = .ok w') : (∀ c, c ≠ b → w'.body c = w.body c) ∧ w'.owner = w.owner := by
  unfold World.listContact at h
  cases hb : w.body b with
  | none => rw [hb] at h; cases h
  | some r => rw [hb] at h; cases h; exact ⟨fun c hc => setBody_other hc, rfl⟩

theorem makeContact_frame {w w' : World} {k0 k1 : Nat} (h : w.makeContact k0 k1 = .ok w') : w'.owner = w.owner ∧ ∀ c, c ≠ w.owner k0 → c ≠ w.owner k1 → w'.body c = w.body c := by
  unfold World.makeContact at h
  split at h
  · split at h
    · cases h
    · dsimp only at h
      revert h
      generalize hx : ({ w with log := w.log ++ [Event.constructed (.contact w.next)] } : World) = x
      intro h
      cases h1 : x.listContact w.next (w.owner k0) with
      | throw => rw [h1] at h; cases h
      | ub => rw [h1] at h; cases h
      | ok u =>
        rw [h1] at h
        simp only [Outcome.bind_ok] at h
        cases h2 : u.listContact w.next (w.owner k1) with
        | throw =>
          obtain ⟨-, e⟩ := listContact_frame h1
          have e' : x.owner = w.owner := by rw [← hx]
          rw [e, e', h2] at h; cases h
        | ub =>
          obtain ⟨-, e⟩ := listContact_frame h1
          have e' : x.owner = w.owner := by rw [← hx]
          rw [e, e', h2] at h; cases h
        | ok v =>
          obtain ⟨f, e⟩ := listContact_frame h1
          have e' : x.owner = w.owner := by rw [← hx]
          rw [e, e', h2] at h
          cases h
          obtain ⟨f', e''⟩ := listContact_frame h2
          refine ⟨e''.trans (e.trans e'), fun c hc hc' => ?_⟩
          show v.body c = w.body c
          rw [f' c hc', f c hc, ← hx]
  · cases h

omit [LinearOrder K] in
theorem calm_registerContact {s t : RestWorld K} {k0 k1 : Nat} (h : s.registerContact k0 k1 = .ok t) : Undisturbed s t := by
  unfold RestWorld.registerContact at h
  split at h
  · cases h; exact .refl _ _
  · split at h
    · cases h
    · rename_i r0 hr0
      revert h
      cases s.world.disabled (s.world.owner k1) r0.joints with
      | throw => intro h; cases h
      | ub => intro h; cases h
      | ok d =>
        cases d with
        | true => intro h; cases h; exact .refl _ _
        | false =>
          simp only [Outcome.bind_ok, Bool.false_eq_true, if_false]
          intro h
          split at h
          · unfold RestWorld.makeContact at h
            cases hm : s.world.makeContact k0 k1 with
            | throw => rw [hm] at h; cases h
            | ub => rw [hm] at h; cases h
            | ok w =>
              rw [hm] at h
              cases h
              obtain ⟨e, f⟩ := makeContact_frame hm
              intro b v _ h1 h2
              obtain ⟨hb1, e2⟩ := wake_asleep h2
              obtain ⟨hb0, e3⟩ := wake_asleep (e2 ▸ h2)
              obtain ⟨r, hr, rfl⟩ := Option.map_eq_some_iff.1 h1
              rw [e] at hb0 hb1
              exact ⟨lists_of_body (f b hb0 hb1) hr, e3.trans e2⟩
          · split at h
            · cases h
            · cases h
              exact CalmFor.keep fun b r _ hr => lists_of_body (w' := s.world) rfl hr

omit [LinearOrder K] in
theorem calm_registerAll (ps : List (Nat × Nat)) (s : RestWorld K) : Undisturbed s (RestWorld.registerAll ps s).1 := by
  induction ps generalizing s with
  | nil => exact .refl _ _
  | cons p ps ih =>
    unfold RestWorld.registerAll
    cases h : s.registerContact p.1 p.2 with
    | throw => exact .refl _ _
    | ub => exact .refl _ _
    | ok t => exact (calm_registerContact h).trans (ih t)

end Simu.World
