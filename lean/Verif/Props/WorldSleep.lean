import Verif.Lemmas.WorldSleep
import Verif.Props.World
import Mathlib.Algebra.Order.Ring.Rat
import Mathlib.Algebra.Field.Rat
/-
C97: a sleeping body wakes when what holds it changes.
-/
namespace Simu.World
variable {K : Type*} [Field K] [LinearOrder K]
open World

theorem Inv0.mem_joints {w : World} (h : Inv0 w) {b : Nat} {r : BodyRec} (hr : w.body b = some r) (n : Nat) :
    n ∈ r.joints ↔ ∃ J, w.joint n = some J ∧ (J.b0 = b ∨ J.b1 = b) := by
  refine ⟨h.joint_listed b r hr n, ?_⟩
  rintro ⟨J, hJ, hb⟩
  obtain ⟨l0, l1⟩ := h.joint_ends n J hJ
  have : ListsJoint w b n := by rcases hb with rfl | rfl; exacts [l0, l1]
  obtain ⟨r', hr', hc⟩ := this
  rw [hr] at hr'; cases hr'
  exact List.count_pos_iff.1 (by omega)

theorem Inv0.mem_contacts {w : World} (h : Inv0 w) {b : Nat} {r : BodyRec} (hr : w.body b = some r) (n : Nat) :
    n ∈ r.contacts ↔ ∃ C, w.contact n = some C ∧ (C.b0 = b ∨ C.b1 = b) := by
  refine ⟨h.contact_listed b r hr n, ?_⟩
  rintro ⟨C, hC, hb⟩
  obtain ⟨-, l0, l1⟩ := h.contact_ends n C hC
  have : ListsContact w b n := by rcases hb with rfl | rfl; exacts [l0, l1]
  obtain ⟨r', hr', hc⟩ := this
  rw [hr] at hr'; cases hr'
  exact List.count_pos_iff.1 (by omega)

omit [Field K] [LinearOrder K] in
/-- From lists to objects. -/
theorem Undisturbed.same {s t : RestWorld K} (h : Undisturbed s t) (hs : Inv0 s.world) (ht : Inv0 t.world) {b : Nat} (ha : t.Asleep b) : s.Asleep b ∧ SameHold s.world t.world b := by
  obtain ⟨hb, hc⟩ := ha
  obtain ⟨r', hr'⟩ := Option.isSome_iff_exists.1 hb
  obtain ⟨e1, e2⟩ := h b r'.lists trivial (by rw [hr']; rfl) hc
  rw [← e2] at hc
  obtain ⟨r, hr, el⟩ := Option.map_eq_some_iff.1 e1
  have ej : r.joints = r'.joints := congrArg (·.1) el
  have ec : r.contacts = r'.contacts := congrArg (·.2.1) el
  have ek : r.colliders = r'.colliders := congrArg (·.2.2) el
  refine ⟨⟨by rw [hr]; rfl, hc⟩, fun n => ?_, fun n => ?_, by rw [hr, hr', Option.map_some, Option.map_some, ek]⟩
  · rw [← ht.mem_joints hr', ← hs.mem_joints hr, ej]
  · rw [← ht.mem_contacts hr', ← hs.mem_contacts hr, ec]

theorem makeConstraint_frame {w w' : World} {b0 b1 : Nat} {d f : Bool} {o : Outcome Unit} (h : w.makeConstraint b0 b1 d f = (w', o)) :
    (o ≠ .ok () → w' = w) ∧ ∀ c, c ≠ b0 → c ≠ b1 → w'.body c = w.body c := by
  unfold World.makeConstraint at h
  split at h
  · cases h; exact ⟨fun _ => rfl, fun _ _ _ => rfl⟩
  · split at h
    · cases h; exact ⟨fun _ => rfl, fun _ _ _ => rfl⟩
    · dsimp only at h
      have list : ∀ {u v : World} {n b : Nat}, u.listJoint n b = .ok v → ∀ c, c ≠ b → v.body c = u.body c := by
        intro u v n b hu c hc
        unfold World.listJoint at hu
        cases hb : u.body b with
        | none => rw [hb] at hu; cases hu
        | some r => rw [hb] at hu; cases hu; exact setBody_other hc
      split at h
      · rename_i v hv
        cases h
        refine ⟨fun hn => absurd rfl hn, fun c h0 h1 => ?_⟩
        revert hv
        generalize hx : ({ w with next := w.next + 1, joints := w.joints ++ [w.next], joint := Function.update w.joint w.next (some ⟨b0, b1, d, false⟩), log := w.log ++ [Event.constructed (.joint w.next)] } : World) = x
        intro hv
        cases h2 : x.listJoint w.next b0 with
        | throw => rw [h2] at hv; cases hv
        | ub => rw [h2] at hv; cases hv
        | ok u =>
          rw [h2] at hv
          simp only [Outcome.bind_ok] at hv
          have hu : u.body c = w.body c := (list h2 c h0).trans (by rw [← hx])
          split at hv
          · cases hv; exact hu
          · exact (list hv c h1).trans hu
      · cases h; exact ⟨fun _ => rfl, fun _ _ _ => rfl⟩
      · cases h; exact ⟨fun _ => rfl, fun _ _ _ => rfl⟩

/-- The calls of users other than steps. -/
theorem calm_call {cfg : Cfg} {s : RestWorld K} (hw : Owned s.world) {o : RestOp K} (ho : o.Ordinary cfg s) : Undisturbed s (s.apply cfg o).1 := by
  have same : ∀ {w : World}, w.body = s.world.body → Undisturbed s { s with world := w } := fun h => CalmFor.keep fun b r _ hr => lists_of_body (congrFun h b) hr
  cases o with
  | step => exact ho.elim
  | makeBody st =>
    intro b v _ h1 h2
    have h1 : (Function.update s.world.body s.world.next (some ⟨st, false, [], [], []⟩) b).map BodyRec.lists = some v := h1
    have h2 : (Function.update s.clock s.world.next Sleep.Clock.new b).asleep = true := h2
    by_cases hb : b = s.world.next
    · subst hb; rw [Function.update_self] at h2; cases h2
    · rw [Function.update_of_ne hb] at h1; exact ⟨h1, (Function.update_of_ne hb ..).symm⟩
  | makeConstraint b0 b1 d f =>
    show Undisturbed s (s.makeConstraint b0 b1 d f).1
    unfold RestWorld.makeConstraint
    cases hm : s.world.makeConstraint b0 b1 d f with
    | mk w q =>
      obtain ⟨h1, h2⟩ := makeConstraint_frame hm
      cases q with
      | throw => exact same (by rw [h1 nofun])
      | ub => exact same (by rw [h1 nofun])
      | ok u =>
        intro b v _ h3 h4
        obtain ⟨hb1, e1⟩ := wake_asleep h4
        obtain ⟨hb0, e0⟩ := wake_asleep (e1 ▸ h4)
        obtain ⟨r, hr, rfl⟩ := Option.map_eq_some_iff.1 h3
        exact ⟨lists_of_body (h2 b hb0 hb1) hr, e0.trans e1⟩
  | makeForce d =>
    show Undisturbed s (s.makeForce d)
    unfold RestWorld.makeForce
    have e : Undisturbed s { s with world := s.world.makeForce } := same rfl
    cases d with
    | none => exact e.trans (CalmFor.wakeAll _ _ _)
    | some d => exact e.trans (CalmFor.wakeAll _ _ _)
  | addCollider b v =>
    have ho : (s.addCollider b v).2 = .ok () := ho
    show Undisturbed s (s.addCollider b v).1
    unfold RestWorld.addCollider at ho ⊢
    cases hm : s.world.addCollider b v with
    | mk w q =>
      rw [hm] at ho
      cases q with
      | throw => cases ho
      | ub => cases ho
      | ok u =>
        refine CalmFor.edit fun c r _ hc hr => lists_of_body (w' := w) ?_ hr
        unfold World.addCollider at hm
        cases hb : s.world.body b with
        | none => rw [hb] at hm; cases hm
        | some r =>
          rw [hb] at hm
          dsimp only at hm
          split at hm
          · cases hm
          · split at hm
            · cases hm
            · cases hm; exact setBody_other hc
  | removeCollider k => exact (calm_removeCollider s k).2.2 ho.1 ho.2
  | killBody b =>
    show Undisturbed s { s with world := (s.world.killBody b).1 }
    refine CalmFor.keep fun c r _ hr => ?_
    unfold World.killBody at hr
    cases hb : s.world.body b with
    | none => rw [hb] at hr; exact lists_of_body rfl hr
    | some q =>
      rw [hb] at hr
      by_cases hc : c = b
      · subst hc
        have : r = { q with killed := true } := Option.some.inj (hr.symm.trans (Function.update_self ..))
        rw [hb, this]; rfl
      · exact lists_of_body (w' := s.world.setBody b { q with killed := true }) (setBody_other hc) hr
  | killJoint n =>
    refine same ?_
    unfold World.killJoint
    cases s.world.joint n <;> rfl
  | killContact n =>
    refine same ?_
    unfold World.killContact
    cases s.world.contact n <;> rfl
  | killForce n =>
    refine same ?_
    unfold World.killForce
    split <;> rfl
  | clear =>
    show Undisturbed s (s.clear cfg).1
    unfold RestWorld.clear
    have hd := RestWorld.destroyBodies_world cfg s.world.bodies s
    cases h : RestWorld.destroyBodies cfg s.world.bodies s with
    | throw => exact .refl _ _
    | ub => exact .refl _ _
    | ok t =>
      rw [h] at hd
      dsimp only
      refine CalmFor.trans (calm_destroyBodies _ hw h).1 (CalmFor.keep fun b r _ hr => lists_of_body (congrFun ?_ b) hr)
      unfold World.clear
      rw [← hd]
      simp only [Outcome.bind_ok]
      split <;> rfl
  | setContactFactory => exact same rfl
  | touch b =>
    show Undisturbed s (if (s.world.body b).isNone then (s, .ub) else (s.wake b, .ok ()) : RestWorld K × Outcome Unit).1
    split
    · exact .refl _ _
    · exact CalmFor.wake _ _ _
  | updateSettings t =>
    show Undisturbed s (s.updateSettings t)
    unfold RestWorld.updateSettings
    split
    · exact fun b v hp h1 h2 => CalmFor.wakeAll (fun _ => True) s s.world.bodies b v hp h1 h2
    · exact fun b v _ h1 _ => ⟨h1, rfl⟩

theorem RestReachable.inv {cfg : Cfg} {s : RestWorld K} (h : RestReachable cfg s) : Inv s.world := h.plain.inv

theorem Inv0.owned {w : World} (h : Inv0 w) : Owned w := fun b r hr k hk => (h.colliders b r hr).2 k hk

/-- **C97** (calls). A body that sleeps after a call slept before, and is still in the same constraints and contacts and has the same colliders: whoever adds or removes one of these
wakes it. Missing: removing the last collider, where it is false (`C97_last_collider_disagreement`), and exceptions while adding or removing colliders. -/
theorem C97_calls_partial {cfg : Cfg} {s : RestWorld K} (h : RestReachable cfg s) {o : RestOp K} (ha : o.Allowed s) (hd : o.DestroysSafely cfg s) (ho : o.Ordinary cfg s) {b : Nat}
    (hb : (s.apply cfg o).1.Asleep b) : s.Asleep b ∧ SameHold s.world (s.apply cfg o).1.world b :=
  (calm_call h.inv.toInv0.owned ho).same h.inv.toInv0 (h.op o ha hd).inv.toInv0 hb

theorem cleanup_ok {cfg : Cfg} {s : RestWorld K} (h : RestReachable cfg s) (hd : ∀ b, DeadBody s.world b → Destructible cfg s.world b) :
    ∃ u, s.cleanup cfg = .ok u ∧ u.world = cleaned s.world := by
  have e := RestWorld.cleanup_world cfg s
  rw [(cleanup_eq h.inv.toInv0).1 hd] at e
  cases hc : s.cleanup cfg with
  | throw => rw [hc] at e; cases e
  | ub => rw [hc] at e; cases e
  | ok u => rw [hc] at e; exact ⟨u, rfl, Outcome.ok.inj e⟩

/-- **C97** (steps). When a step applies forces, every body that sleeps slept before the step and is in the same constraints and contacts as before it: those that lost one (because it
was killed, or the other body was, or a collider was removed, or the colliders came apart) are awake. After the step, every body that sleeps is in the same constraints and contacts as when
forces were applied: new contacts wake their bodies. It slept when forces were applied, or its clock has reached the delay. -/
theorem C97_step {cfg : Cfg} {s : RestWorld K} (h : RestReachable cfg s) {dt : K} {c : List Nat → List (Nat × Nat)} {f : Option World.Stage} {v : RestWorld K → List Nat × (Nat → K × K × K)}
    (ha : (RestOp.step dt c f v).Allowed s) (hd : (RestOp.step dt c f v).DestroysSafely cfg s) :
    ∃ u, s.cleanup cfg = .ok u ∧ (∀ b, u.Asleep b → s.Asleep b ∧ SameHold s.world u.world b) ∧
      ∀ b, (s.step cfg dt c f v).1.Asleep b → SameHold u.world (s.step cfg dt c f v).1.world b ∧
        (u.Asleep b ∨ (u.settings.enableSleeping = true ∧ u.settings.inactivitySleepDelay ≤ ((s.step cfg dt c f v).1.clock b).timeImmobile)) := by
  have hd' : ∀ b, DeadBody s.world b → Destructible cfg s.world b := hd _ rfl
  obtain ⟨u, hu, hw⟩ := cleanup_ok h hd'
  have iu : Inv0 u.world := hw ▸ h.inv.toInv0.cleaned
  have it : Inv0 (s.step cfg dt c f v).1.world := (h.op _ ha hd).inv.toInv0
  refine ⟨u, hu, fun b hb => (calm_cleanup h.inv.toInv0.owned hu).same h.inv.toInv0 iu hb, fun b hb => ?_⟩
  -- what happens after the forces, apart from the clock
  have key : Undisturbed u (s.step cfg dt c f v).1 ∨ Undisturbed ((u.wakeAll (v u).1).doze dt (v u).2) (s.step cfg dt c f v).1 := by
    unfold RestWorld.step
    rw [hu]
    dsimp only
    split
    · exact Or.inl (.refl _ _)
    split
    · exact Or.inl (.refl _ _)
    split
    · exact Or.inl (.refl _ _)
    split
    · exact Or.inl (.refl _ _)
    split
    · exact Or.inl (CalmFor.wakeAll _ _ _)
    refine Or.inr ?_
    have hr := calm_registerAll (c u.world.tree) ((u.wakeAll (v u).1).doze dt (v u).2)
    revert hr
    obtain ⟨t, q⟩ := RestWorld.registerAll (c u.world.tree) ((u.wakeAll (v u).1).doze dt (v u).2)
    intro hr
    cases q with
    | throw => exact hr.trans (CalmFor.keep fun b r _ hr => lists_of_body (w' := t.world) rfl hr)
    | ub => exact hr
    | ok x => exact hr.trans (CalmFor.keep fun b r _ hr => lists_of_body (w' := t.world) rfl hr)
  rcases key with key | key
  · exact ⟨(key.same iu it hb).2, Or.inl (key.same iu it hb).1⟩
  · have ew : ((u.wakeAll (v u).1).doze dt (v u).2).world = u.world := RestWorld.wakeAll_world _ _
    obtain ⟨k1, k2⟩ := key.same (ew ▸ iu) it hb
    rw [ew] at k2
    refine ⟨k2, ?_⟩
    obtain ⟨r', hr'⟩ := Option.isSome_iff_exists.1 hb.1
    obtain ⟨-, ec⟩ := key b r'.lists trivial (by rw [hr']; rfl) hb.2
    rw [← ec]
    have hex : (u.world.body b).isSome = true := ew ▸ k1.1
    have hset : ∀ (bs : List Nat) (s : RestWorld K), (s.wakeAll bs).settings = s.settings := by
      intro bs
      induction bs with
      | nil => exact fun _ => rfl
      | cons b bs ih => exact fun s => ih (s.wake b)
    have hold : ((u.wakeAll (v u).1).clock b).asleep = true → u.Asleep b := fun e => by
      obtain ⟨r, hr⟩ := Option.isSome_iff_exists.1 hex
      obtain ⟨-, e'⟩ := CalmFor.wakeAll (fun _ => True) u (v u).1 b r.lists trivial (by rw [RestWorld.wakeAll_world, hr]; rfl) e
      exact ⟨hex, e' ▸ e⟩
    have k3 := k1.2
    unfold RestWorld.doze at k3 ⊢
    dsimp only at k3 ⊢
    rw [RestWorld.wakeAll_world] at k3 ⊢
    by_cases hm : b ∈ u.world.bodies
    · rw [if_pos hm] at k3 ⊢
      unfold Sleep.update at k3 ⊢
      rw [hset] at k3 ⊢
      by_cases he : u.settings.enableSleeping = true
      · rw [if_pos he] at k3 ⊢
        dsimp only at k3 ⊢
        by_cases hs : Sleep.canSleep u.settings (Sleep.updateTimeImmobile u.settings dt ((v u).2 b).1 ((v u).2 b).2.1 ((v u).2 b).2.2 ((u.wakeAll (v u).1).clock b)) = true
        · rw [if_pos hs]
          exact Or.inr ⟨he, of_decide_eq_true hs⟩
        · rw [if_neg hs] at k3
          exact Or.inl (hold k3)
      · rw [if_neg he] at k3
        exact Or.inl (hold k3)
    · rw [if_neg hm] at k3
      exact Or.inl (hold k3)

theorem SameHold.refl (w : World) (b : Nat) : SameHold w w b := ⟨fun _ => Iff.rfl, fun _ => Iff.rfl, rfl⟩

theorem SameHold.trans {w w' w'' : World} {b : Nat} (h : SameHold w w' b) (h' : SameHold w' w'' b) : SameHold w w'' b :=
  ⟨fun n => (h'.joints n).trans (h.joints n), fun n => (h'.contacts n).trans (h.contacts n), h'.colliders.trans h.colliders⟩

/-- **C97** (histories). For as long as a body gets no forces because it sleeps, whatever is done meanwhile, it stays in the same constraints and contacts and keeps its colliders.
Missing: as in `C97_calls_partial`. -/
theorem C97_history_partial {cfg : Cfg} {b : Nat} {s t : RestWorld K} (h : Sleeps cfg b s t) (hs : RestReachable cfg s) : RestReachable cfg t ∧ t.Asleep b ∧ SameHold s.world t.world b := by
  induction h with
  | refl h => exact ⟨hs, h, .refl _ _⟩
  | call _ o ha hd ho he ih =>
    obtain ⟨ht, -, hh⟩ := ih
    exact ⟨ht.op o ha hd, he, hh.trans (C97_calls_partial ht ha hd ho he).2⟩
  | step _ ha hd hu hb he ih =>
    obtain ⟨ht, -, hh⟩ := ih
    obtain ⟨u', hu', h1, h2⟩ := C97_step ht ha hd
    rw [hu] at hu'
    cases hu'
    exact ⟨ht.op _ ha hd, he, hh.trans ((h1 _ hb).2.trans (h2 _ he).1)⟩

/-- **C97** (who wakes). The bodies of a new constraint are awake. When a step applies forces, the bodies of the constraints and contacts that died since the last step get them, unless
they died too or are structural. After the step, the bodies of its new contacts are awake. -/
theorem C97_wakes {cfg : Cfg} {s : RestWorld K} (h : RestReachable cfg s) :
    (∀ b0 b1 d f, (s.makeConstraint b0 b1 d f).2 = .ok () → ((s.makeConstraint b0 b1 d f).1.clock b0).asleep = false ∧ ((s.makeConstraint b0 b1 d f).1.clock b1).asleep = false) ∧
    ∀ (dt : K) c f v, (RestOp.step dt c f v).Allowed s → (RestOp.step dt c f v).DestroysSafely cfg s → ∃ u, s.cleanup cfg = .ok u ∧
      (∀ b r, s.world.body b = some r → r.killed = false → r.structural = false →
        ((∃ n J, DeadJoint s.world n ∧ s.world.joint n = some J ∧ (J.b0 = b ∨ J.b1 = b)) ∨ ∃ n C, DeadContact s.world n ∧ s.world.contact n = some C ∧ (C.b0 = b ∨ C.b1 = b)) →
        u.receivesForces b = true) ∧
      ∀ n C, (s.step cfg dt c f v).1.world.contact n = some C → s.world.contact n = none →
        ((s.step cfg dt c f v).1.clock C.b0).asleep = false ∧ ((s.step cfg dt c f v).1.clock C.b1).asleep = false := by
  constructor
  · intro b0 b1 d f ho
    unfold RestWorld.makeConstraint at ho ⊢
    revert ho
    generalize s.world.makeConstraint b0 b1 d f = x
    intro ho
    obtain ⟨w, q⟩ := x
    cases q with
    | throw => cases ho
    | ub => cases ho
    | ok x =>
      constructor
      · by_contra hn
        rw [Bool.not_eq_false] at hn
        obtain ⟨-, e⟩ := wake_asleep hn
        exact (wake_asleep (e ▸ hn)).1 rfl
      · by_contra hn
        rw [Bool.not_eq_false] at hn
        exact (wake_asleep hn).1 rfl
  · intro dt c f v ha hd
    have hd' : ∀ b, DeadBody s.world b → Destructible cfg s.world b := hd _ rfl
    have i := h.inv.toInv0
    obtain ⟨u, hu, hw⟩ := cleanup_ok h hd'
    obtain ⟨u', hu', h1, h2⟩ := C97_step h ha hd
    rw [hu] at hu'
    cases hu'
    have iu : Inv0 u.world := hw ▸ i.cleaned
    have it : Inv0 (s.step cfg dt c f v).1.world := (h.op _ ha hd).inv.toInv0
    refine ⟨u, hu, fun b r hr hk hs hor => ?_, fun n C hC hn => ?_⟩
    · have hb : b ∈ u.world.bodies := by
        rw [hw]
        show b ∈ s.world.bodies.filter _
        rw [List.mem_filter, i.bodies_iff, hr]
        refine ⟨rfl, ?_⟩
        rw [killedB, hr, Option.any_some, hk]; rfl
      obtain ⟨r', hr'⟩ := Option.isSome_iff_exists.1 ((iu.bodies_iff b).1 hb)
      have hst : r'.structural = false := by
        have : (cleaned s.world).body b = some r' := hw ▸ hr'
        obtain ⟨q, hq, -, e⟩ := cleaned_body.1 this
        rw [hr] at hq
        cases hq
        rw [e, hs]
      have hna : ¬u.Asleep b := by
        intro hb
        rcases hor with ⟨n, J, hdn, hJ, hJb⟩ | ⟨n, C, hdn, hC, hCb⟩
        · obtain ⟨J', hJ', -⟩ := ((h1 b hb).2.joints n).2 ⟨J, hJ, hJb⟩
          have : n ∈ u.world.joints := (iu.joints_iff n).2 (by rw [hJ']; rfl)
          rw [hw] at this
          have := (List.mem_filter.1 this).2
          rw [(deadJ_iff _ _).2 hdn] at this
          cases this
        · obtain ⟨C', hC', -⟩ := ((h1 b hb).2.contacts n).2 ⟨C, hC, hCb⟩
          have : n ∈ u.world.contacts := (iu.contacts_iff n).2 (by rw [hC']; rfl)
          rw [hw] at this
          have := (List.mem_filter.1 this).2
          rw [(deadC_iff _ _).2 hdn] at this
          cases this
      unfold RestWorld.receivesForces
      rw [hr', Option.any_some, hst]
      cases hc : (u.clock b).asleep with
      | false => rfl
      | true => exact absurd ⟨by rw [hr']; rfl, hc⟩ hna
    · have hnu : u.world.contact n = none := by
        cases hx : u.world.contact n with
        | none => rfl
        | some D =>
          have : n ∈ u.world.contacts := (iu.contacts_iff n).2 (by rw [hx]; rfl)
          rw [hw] at this
          have := (i.contacts_iff n).1 (List.mem_filter.1 this).1
          rw [hn] at this
          cases this
      obtain ⟨-, ⟨r0, hr0, -⟩, ⟨r1, hr1, -⟩⟩ := it.contact_ends n C hC
      constructor <;> by_contra hx <;> rw [Bool.not_eq_false] at hx
      · obtain ⟨D, hD, -⟩ := ((h2 C.b0 ⟨by rw [hr0]; rfl, hx⟩).1.contacts n).1 ⟨C, hC, Or.inl rfl⟩
        rw [hnu] at hD; cases hD
      · obtain ⟨D, hD, -⟩ := ((h2 C.b1 ⟨by rw [hr1]; rfl, hx⟩).1.contacts n).1 ⟨C, hC, Or.inr rfl⟩
        rw [hnu] at hD; cases hD

omit [LinearOrder K] in
theorem wakeAll_awake (bs : List Nat) (s : RestWorld K) {b : Nat} (hb : b ∈ bs ∨ (s.clock b).asleep = false) : ((s.wakeAll bs).clock b).asleep = false := by
  induction bs generalizing s with
  | nil => exact hb.resolve_left List.not_mem_nil
  | cons c bs ih =>
    refine ih (s.wake c) ?_
    by_cases hc : ((s.wake c).clock b).asleep = true
    · obtain ⟨h1, h2⟩ := wake_asleep hc
      rcases hb with hb | hb
      · exact Or.inl ((List.mem_cons.1 hb).resolve_left h1)
      · rw [h2, hc] at hb; cases hb
    · exact Or.inr (Bool.not_eq_true _ ▸ hc)

omit [LinearOrder K] in
/-- **C97** (force fields). A new force field wakes every body of its domain: all of them if it is global, and otherwise those with a collider that touches its region. -/
theorem C97_forces (s : RestWorld K) :
    (∀ b ∈ s.world.bodies, ((s.makeForce none).clock b).asleep = false) ∧ ∀ d : Nat → Bool, ∀ k ∈ s.world.tree, d k = true → ((s.makeForce (some d)).clock (s.world.owner k)).asleep = false :=
  ⟨fun _ hb => wakeAll_awake _ _ (Or.inl hb), fun _ k hk hd => wakeAll_awake _ _ (Or.inl (List.mem_map.2 ⟨k, List.mem_filter.2 ⟨hk, hd⟩, rfl⟩))⟩

section Settings

omit [LinearOrder K] in
theorem wakeAll_settings (bs : List Nat) (s : RestWorld K) : (s.wakeAll bs).settings = s.settings := by
  induction bs generalizing s with
  | nil => rfl
  | cons b bs ih => exact ih (s.wake b)

omit [LinearOrder K] in
theorem cleanContacts_settings (ns : List Nat) {s t : RestWorld K} (h : RestWorld.cleanContacts ns s = .ok t) : t.settings = s.settings := by
  induction ns generalizing s with
  | nil => cases h; rfl
  | cons n ns ih =>
    unfold RestWorld.cleanContacts at h
    cases hd : s.world.contactDead n with
    | throw => rw [hd] at h; cases h
    | ub => rw [hd] at h; cases h
    | ok dead =>
      rw [hd] at h
      simp only [Outcome.bind_ok] at h
      split at h
      · split at h
        · cases h
        · rename_i c _
          cases h0 : s.world.unlistContact n c.b0 with
          | throw => rw [h0] at h; cases h
          | ub => rw [h0] at h; cases h
          | ok w =>
            rw [h0] at h
            simp only [Outcome.bind_ok] at h
            split at h
            · simp only [Outcome.bind_ok] at h; have := ih h; exact this
            · cases h1 : (RestWorld.wake (⟨w, s.clock, s.settings⟩ : RestWorld K) c.b0).world.unlistContact n c.b1 with
              | throw => rw [h1] at h; cases h
              | ub => rw [h1] at h; cases h
              | ok w' => rw [h1] at h; simp only [Outcome.bind_ok] at h; have := ih h; exact this
      · exact ih h

omit [LinearOrder K] in
theorem unlistJoints_settings (ns : List Nat) {s t : RestWorld K} (h : RestWorld.unlistJoints ns s = .ok t) : t.settings = s.settings := by
  induction ns generalizing s with
  | nil => cases h; rfl
  | cons n ns ih =>
    unfold RestWorld.unlistJoints at h
    split at h
    · cases h
    · rename_i j _
      cases h0 : s.world.unlistJoint n j.b0 with
      | throw => rw [h0] at h; cases h
      | ub => rw [h0] at h; cases h
      | ok w =>
        rw [h0] at h
        simp only [Outcome.bind_ok] at h
        split at h
        · simp only [Outcome.bind_ok] at h; have := ih h; exact this
        · cases h1 : (RestWorld.wake (⟨w, s.clock, s.settings⟩ : RestWorld K) j.b0).world.unlistJoint n j.b1 with
          | throw => rw [h1] at h; cases h
          | ub => rw [h1] at h; cases h
          | ok w' => rw [h1] at h; simp only [Outcome.bind_ok] at h; have := ih h; exact this

omit [LinearOrder K] in
theorem removeCollider_settings (s : RestWorld K) (k : Nat) : (s.removeCollider k).1.settings = s.settings := by
  unfold RestWorld.removeCollider
  split
  · split <;> rfl
  · rfl

omit [LinearOrder K] in
theorem removeColliders_settings (ks : List Nat) {s t : RestWorld K} (h : RestWorld.removeColliders ks s = .ok t) : t.settings = s.settings := by
  induction ks generalizing s with
  | nil => cases h; rfl
  | cons k ks ih =>
    unfold RestWorld.removeColliders at h
    split at h
    · rename_i s' hs
      rw [ih h, ← removeCollider_settings s k, hs]
    · cases h

omit [LinearOrder K] in
theorem destroyBodies_settings {cfg : Cfg} (bs : List Nat) {s t : RestWorld K} (h : RestWorld.destroyBodies cfg bs s = .ok t) : t.settings = s.settings := by
  induction bs generalizing s with
  | nil => cases h; rfl
  | cons b bs ih =>
    unfold RestWorld.destroyBodies RestWorld.destroyBody at h
    split at h
    · cases h
    · rename_i r _
      split at h
      · simp only [Outcome.bind_ok] at h; have := ih h; exact this
      · split at h
        · cases h1 : RestWorld.removeColliders r.colliders s with
          | throw => rw [h1] at h; cases h
          | ub => rw [h1] at h; cases h
          | ok s' =>
            rw [h1] at h
            simp only [Outcome.bind_ok] at h
            have e := ih h
            have e' := removeColliders_settings _ h1
            exact e.trans e'
        · cases h

omit [LinearOrder K] in
theorem cleanup_settings {cfg : Cfg} {s t : RestWorld K} (h : s.cleanup cfg = .ok t) : t.settings = s.settings := by
  unfold RestWorld.cleanup at h
  cases h1 : RestWorld.cleanContacts s.world.contacts s with
  | throw => rw [h1] at h; cases h
  | ub => rw [h1] at h; cases h
  | ok s1 =>
    rw [h1] at h
    simp only [Outcome.bind_ok] at h
    cases h2 : s1.world.deadJoints s1.world.joints with
    | throw => rw [h2] at h; cases h
    | ub => rw [h2] at h; cases h
    | ok dj =>
      rw [h2] at h
      simp only [Outcome.bind_ok] at h
      cases h3 : RestWorld.unlistJoints dj s1 with
      | throw => rw [h3] at h; cases h
      | ub => rw [h3] at h; cases h
      | ok s2 =>
        rw [h3] at h
        simp only [Outcome.bind_ok] at h
        have := destroyBodies_settings _ h
        exact this.trans ((unlistJoints_settings _ h3).trans (cleanContacts_settings _ h1))

omit [LinearOrder K] in
theorem registerAll_settings (ps : List (Nat × Nat)) (s : RestWorld K) : (RestWorld.registerAll ps s).1.settings = s.settings := by
  induction ps generalizing s with
  | nil => rfl
  | cons p ps ih =>
    unfold RestWorld.registerAll
    split
    · rename_i t ht
      rw [ih t]
      unfold RestWorld.registerContact at ht
      split at ht
      · cases ht; rfl
      · split at ht
        · cases ht
        · rename_i r0 _
          cases h1 : s.world.disabled (s.world.owner p.2) r0.joints with
          | throw => rw [h1] at ht; cases ht
          | ub => rw [h1] at ht; cases ht
          | ok d =>
            rw [h1] at ht
            simp only [Outcome.bind_ok] at ht
            split at ht
            · cases ht; rfl
            · split at ht
              · unfold RestWorld.makeContact at ht
                cases h2 : s.world.makeContact p.1 p.2 with
                | throw => rw [h2] at ht; cases ht
                | ub => rw [h2] at ht; cases ht
                | ok w => rw [h2] at ht; cases ht; rfl
              · split at ht
                · cases ht
                · cases ht; rfl
    · rfl
    · rfl

theorem step_settings (cfg : Cfg) (s : RestWorld K) (dt : K) (c : List Nat → List (Nat × Nat)) (f : Option World.Stage) (v : RestWorld K → List Nat × (Nat → K × K × K)) :
    (s.step cfg dt c f v).1.settings = s.settings := by
  unfold RestWorld.step
  cases h : s.cleanup cfg with
  | throw => rfl
  | ub => rfl
  | ok u =>
    rw [← cleanup_settings h]
    dsimp only
    split
    · rfl
    split
    · rfl
    split
    · rfl
    split
    · rfl
    split
    · exact wakeAll_settings _ _
    have hr := registerAll_settings (c u.world.tree) ((u.wakeAll (v u).1).doze dt (v u).2)
    have hd : ((u.wakeAll (v u).1).doze dt (v u).2).settings = u.settings := wakeAll_settings _ _
    rw [hd] at hr
    revert hr
    generalize RestWorld.registerAll (c u.world.tree) ((u.wakeAll (v u).1).doze dt (v u).2) = x
    obtain ⟨t, q⟩ := x
    intro hr
    cases q <;> exact hr

end Settings

/-- No call other than a step makes a body sleep. -/
theorem call_asleep {cfg : Cfg} {s : RestWorld K} (h : RestReachable cfg s) {o : RestOp K} (ho : ∀ dt c f v, o ≠ .step dt c f v) (ha : o.Allowed s) (hd : o.DestroysSafely cfg s)
    {b : Nat} (hb : (s.apply cfg o).1.Asleep b) : s.Asleep b := by
  cases o with
  | step dt c f v => exact absurd rfl (ho dt c f v)
  | addCollider c v =>
    obtain ⟨h1, h2⟩ := hb
    have h1 : ((s.addCollider c v).1.world.body b).isSome = true := h1
    have h2 : ((s.addCollider c v).1.clock b).asleep = true := h2
    have hc : (s.clock b).asleep = true := by
      unfold RestWorld.addCollider at h2
      split at h2
      · exact (wake_asleep h2).2 ▸ h2
      · exact h2
      · exact (wake_asleep h2).2 ▸ h2
    refine ⟨?_, hc⟩
    have e : (s.addCollider c v).1.world = (s.world.addCollider c v).1 := (RestWorld.apply_world cfg s (.addCollider c v)).1
    rw [e] at h1
    unfold World.addCollider at h1
    cases hc' : s.world.body c with
    | none => rw [hc'] at h1; exact h1
    | some r =>
      rw [hc'] at h1
      dsimp only at h1
      by_cases hbc : b = c
      · rw [hbc, hc']; rfl
      · have e2 : (s.world.setBody c { r with colliders := r.colliders ++ [s.world.next] }).body b = s.world.body b := setBody_other hbc
        rw [← e2]
        split at h1
        · exact h1
        · split at h1 <;> exact h1
  | removeCollider k =>
    obtain ⟨h1, h2⟩ := hb
    have h1 : ((s.removeCollider k).1.world.body b).isSome = true := h1
    have h2 : ((s.removeCollider k).1.clock b).asleep = true := h2
    obtain ⟨r, hr⟩ := Option.isSome_iff_exists.1 h1
    obtain ⟨r', hr', -⟩ := (calm_removeCollider s k).2.1.2 b r hr
    refine ⟨by rw [hr']; rfl, ?_⟩
    unfold RestWorld.removeCollider at h2
    split at h2
    · split at h2
      · exact h2
      · exact (wake_asleep h2).2 ▸ h2
    · exact h2
  | makeBody st => exact (C97_calls_partial h ha hd trivial hb).1
  | makeConstraint b0 b1 d f => exact (C97_calls_partial h ha hd trivial hb).1
  | makeForce d => exact (C97_calls_partial h ha hd trivial hb).1
  | killBody n => exact (C97_calls_partial h ha hd trivial hb).1
  | killJoint n => exact (C97_calls_partial h ha hd trivial hb).1
  | killContact n => exact (C97_calls_partial h ha hd trivial hb).1
  | killForce n => exact (C97_calls_partial h ha hd trivial hb).1
  | clear => exact (C97_calls_partial h ha hd trivial hb).1
  | setContactFactory => exact (C97_calls_partial h ha hd trivial hb).1
  | touch n => exact (C97_calls_partial h ha hd trivial hb).1
  | updateSettings t => exact (C97_calls_partial h ha hd trivial hb).1

theorem call_settings {cfg : Cfg} {s : RestWorld K} {o : RestOp K} (h1 : ∀ dt c f v, o ≠ .step dt c f v) (h2 : ∀ t, o ≠ .updateSettings t) : (s.apply cfg o).1.settings = s.settings := by
  cases o with
  | step dt c f v => exact absurd rfl (h1 dt c f v)
  | updateSettings t => exact absurd rfl (h2 t)
  | addCollider c v =>
    show (s.addCollider c v).1.settings = _
    unfold RestWorld.addCollider
    split <;> rfl
  | removeCollider k => exact removeCollider_settings s k
  | makeBody st => rfl
  | makeConstraint b0 b1 d f =>
    show (s.makeConstraint b0 b1 d f).1.settings = _
    unfold RestWorld.makeConstraint
    split <;> rfl
  | makeForce d => cases d <;> exact wakeAll_settings _ _
  | killBody n => rfl
  | killJoint n => rfl
  | killContact n => rfl
  | killForce n => rfl
  | clear =>
    show (s.clear cfg).1.settings = _
    unfold RestWorld.clear
    split
    · rename_i t ht
      have := destroyBodies_settings _ ht
      exact this
    · rfl
    · rfl
  | setContactFactory => rfl
  | touch n =>
    show (if (s.world.body n).isNone then (s, .ub) else (s.wake n, .ok ()) : RestWorld K × Outcome Unit).1.settings = _
    split <;> rfl

/-- **C97** (settings). While sleeping is disabled, no body sleeps, also if it was enabled before. -/
theorem C97_disabled {cfg : Cfg} {s : RestWorld K} (h : RestReachable cfg s) (he : s.settings.enableSleeping = false) (b : Nat) : ¬s.Asleep b := by
  induction h with
  | init => exact fun hb => nomatch hb.2
  | @op s h o ha hd ih =>
    intro hb
    by_cases h1 : ∃ dt c f v, o = .step dt c f v
    · obtain ⟨dt, c, f, v, rfl⟩ := h1
      have he : s.settings.enableSleeping = false := (step_settings cfg s dt c f v) ▸ he
      obtain ⟨u, hu, h2, h3⟩ := C97_step h ha hd
      rcases (h3 b hb).2 with h4 | ⟨h4, -⟩
      · exact ih he (h2 b h4).1
      · rw [cleanup_settings hu, he] at h4; cases h4
    · by_cases h2 : ∃ t, o = .updateSettings t
      · obtain ⟨t, rfl⟩ := h2
        have he : t.enableSleeping = false := he
        have hold := call_asleep h (fun _ _ _ _ e => by cases e) ha hd hb
        cases hs : s.settings.enableSleeping with
        | false => exact ih hs hold
        | true =>
          have hc : ((s.updateSettings t).clock b).asleep = true := hb.2
          unfold RestWorld.updateSettings at hc
          rw [if_pos (by rw [he, hs]; rfl)] at hc
          have := wakeAll_awake s.world.bodies s (Or.inl ((h.inv.toInv0.bodies_iff b).2 hold.1))
          rw [show ((s.wakeAll s.world.bodies).clock b).asleep = true from hc] at this
          cases this
      · have n1 : ∀ dt c f v, o ≠ .step dt c f v := fun dt c f v e => h1 ⟨dt, c, f, v, e⟩
        have n2 : ∀ t, o ≠ .updateSettings t := fun t e => h2 ⟨t, e⟩
        rw [call_settings n1 n2] at he
        exact ih he (call_asleep h n1 ha hd hb)

section Examples

/-- A step of a world without dead bodies, to build examples. -/
theorem RestReachable.step {s : RestWorld K} (h : RestReachable ⟨true⟩ s) (dt : K) {c : List Nat → List (Nat × Nat)} {ov : Nat → Nat → Prop} (hc : Reports ov c) (f : Option World.Stage)
    (v : RestWorld K → List Nat × (Nat → K × K × K)) (hk : ∀ b ∈ s.world.bodies, ∀ k ∈ (s.world.body b).elim [] (·.colliders), k ∈ s.world.tree)
    (hs : ∀ k0 ∈ s.world.tree, ∀ k1 ∈ s.world.tree, s.world.owner k0 ≠ s.world.owner k1 →
      ¬((s.world.body (s.world.owner k0)).any (·.structural) ∧ (s.world.body (s.world.owner k1)).any (·.structural))) : RestReachable ⟨true⟩ (s.step ⟨true⟩ dt c f v).1 := by
  refine h.op (.step dt c f v) ?_ ?_
  · rintro p ⟨⟩
    exact ⟨ov, hc, fun k0 h0 k1 h1 _ hne => hs k0 h0 k1 h1 hne⟩
  · rintro p ⟨⟩
    rintro b ⟨r, hr, -⟩ q hq
    rw [hr] at hq
    cases hq
    have := hk b ((h.inv.toInv0.bodies_iff b).2 (by rw [hr]; rfl))
    rw [hr] at this
    exact Or.inr ⟨rfl, this⟩

/-- Nothing overlaps. -/
theorem noPairs_reports : Reports (fun _ _ => False) (fun _ => []) := fun _ _ => ⟨fun _ h => (List.not_mem_nil h).elim, fun _ _ _ _ _ h => h.elim⟩

/-- No islands, and every body at rest. -/
def rested : RestWorld ℚ → List Nat × (Nat → ℚ × ℚ × ℚ) := fun _ => ([], fun _ => (0, 0, 0))

/-- Sleeping enabled, with the default thresholds and delay. -/
def dozy : Sleep.Settings ℚ := ⟨true, 1 / 1000, 1 / 1000, 1⟩

/-- A ground (0, with the collider 2) and a body (1, with the collider 3), in a world with gravity (4). -/
def ground : RestWorld ℚ := ((((((RestWorld.init.makeBody true).makeBody false).addCollider 0 true).1.addCollider 1 true).1.makeForce none).updateSettings dozy)

theorem ground_reachable : RestReachable ⟨true⟩ ground := by
  have h1 : RestReachable ⟨true⟩ ((RestWorld.init : RestWorld ℚ).makeBody true) := .op .init (.makeBody true) (by rintro _ ⟨⟩; trivial) (by rintro _ ⟨⟩; trivial)
  have h2 := h1.op (.makeBody false) (by rintro _ ⟨⟩; trivial) (by rintro _ ⟨⟩; trivial)
  have h3 := h2.op (.addCollider 0 true) (by rintro _ ⟨⟩; show 0 ∈ [0, 1]; decide) (by rintro _ ⟨⟩; trivial)
  have h4 := h3.op (.addCollider 1 true) (by rintro _ ⟨⟩; show 1 ∈ [0, 1]; decide) (by rintro _ ⟨⟩; trivial)
  have h5 := h4.op (.makeForce none) (by rintro _ ⟨⟩; trivial) (by rintro _ ⟨⟩; trivial)
  exact h5.op (.updateSettings dozy) (by rintro _ ⟨⟩) (by rintro _ ⟨⟩)

/-- After a step the body touches the ground. -/
def landed : RestWorld ℚ := (ground.step ⟨true⟩ 1 allPairs none rested).1

/-- After another one it sleeps there. -/
def asleep : RestWorld ℚ := (landed.step ⟨true⟩ 1 allPairs none rested).1

theorem landed_reachable : RestReachable ⟨true⟩ landed :=
  ground_reachable.step 1 allPairs_reports none rested (by decide) (by decide)

theorem asleep_reachable : RestReachable ⟨true⟩ asleep :=
  landed_reachable.step 1 allPairs_reports none rested (by decide +kernel) (by decide +kernel)

/-- The new contact (5) woke the body; it sleeps a step later. -/
example : landed.world.contacts = [5] ∧ (landed.clock 1).asleep = false ∧ (asleep.clock 1).asleep = true ∧ asleep.world.contacts = [5] := by decide +kernel

theorem asleep_1 : asleep.Asleep 1 := ⟨by decide +kernel, by decide +kernel⟩

/-- The ground is killed: the body gets forces again in the next step. -/
example : ∃ u, ((asleep.apply ⟨true⟩ (.killBody 0)).1).cleanup ⟨true⟩ = .ok u ∧ u.receivesForces 1 = true ∧ u.world.contacts = [] ∧ asleep.receivesForces 1 = false := by
  refine ⟨_, rfl, ?_⟩
  decide +kernel

/-- While it sleeps, a third body is made. -/
example : Sleeps ⟨true⟩ 1 asleep (asleep.apply ⟨true⟩ (.makeBody false)).1 :=
  .call (.refl asleep_1) (.makeBody false) (by rintro _ ⟨⟩; trivial) (by rintro _ ⟨⟩; trivial) trivial ⟨by decide +kernel, by decide +kernel⟩

/-- Disabling sleeping wakes it. -/
example : ((asleep.updateSettings { dozy with enableSleeping := false }).clock 1).asleep = false := by decide +kernel

/-- A body (0, with the collider 1) that the force 2 holds in the air, asleep after a step. -/
def hovering : RestWorld ℚ := (((((RestWorld.init.makeBody false).addCollider 0 true).1.makeForce none).updateSettings dozy).step ⟨true⟩ 1 (fun _ => []) none rested).1

theorem hovering_reachable : RestReachable ⟨true⟩ hovering := by
  have h1 : RestReachable ⟨true⟩ ((RestWorld.init : RestWorld ℚ).makeBody false) := .op .init (.makeBody false) (by rintro _ ⟨⟩; trivial) (by rintro _ ⟨⟩; trivial)
  have h2 := h1.op (.addCollider 0 true) (by rintro _ ⟨⟩; show 0 ∈ [0]; decide) (by rintro _ ⟨⟩; trivial)
  have h3 := h2.op (.makeForce none) (by rintro _ ⟨⟩; trivial) (by rintro _ ⟨⟩; trivial)
  have h4 := h3.op (.updateSettings dozy) (by rintro _ ⟨⟩) (by rintro _ ⟨⟩)
  exact h4.step 1 noPairs_reports none rested (by decide) (by decide)

end Examples

/-- **C97, disagreement** (force fields). A force field that is killed wakes nobody: a body that it held in the air sleeps on after the field is gone, and gets none of the other forces.
This goes on in every later step, until something else wakes the body. -/
theorem C97_force_disagreement : RestReachable ⟨true⟩ hovering ∧ hovering.Asleep 0 ∧ hovering.world.forces = [(2, false)] ∧
    ∃ u, (hovering.apply ⟨true⟩ (.killForce 2)).1.cleanup ⟨true⟩ = .ok u ∧ u.world.forces = [] ∧ u.Asleep 0 ∧ u.receivesForces 0 = false :=
  ⟨hovering_reachable, ⟨by decide +kernel, by decide +kernel⟩, by decide +kernel, _, rfl, by decide +kernel, ⟨by decide +kernel, by decide +kernel⟩, by decide +kernel⟩

/-- **C97, disagreement** (last collider). Removing the only collider of a body succeeds and leaves it asleep, although removing any other one would wake it. -/
theorem C97_last_collider_disagreement : RestReachable ⟨true⟩ hovering ∧ hovering.Asleep 0 ∧ (RestOp.removeCollider 1 : RestOp ℚ).Allowed hovering ∧
    (hovering.apply ⟨true⟩ (.removeCollider 1)).2 = .ok () ∧ (hovering.apply ⟨true⟩ (.removeCollider 1)).1.Asleep 0 ∧
    ¬SameHold hovering.world (hovering.apply ⟨true⟩ (.removeCollider 1)).1.world 0 :=
  ⟨hovering_reachable, ⟨by decide +kernel, by decide +kernel⟩, by rintro _ ⟨⟩; show 1 ∈ hovering.world.tree; decide +kernel, by decide +kernel, ⟨by decide +kernel, by decide +kernel⟩,
    fun h => absurd h.colliders (by decide +kernel)⟩

/-- **C97, disagreement** (clock). Waking does not restart the clock: the body of a constraint that was just killed is awake when forces are applied, but if it is still slow after that step it
sleeps at once, without resting for the delay (here, 1 second; a step of any length will do). -/
theorem C97_clock_disagreement (dt : ℚ) (hdt : 0 < dt) :
    ∃ u, (asleep.apply ⟨true⟩ (.killContact 5)).1.cleanup ⟨true⟩ = .ok u ∧ u.receivesForces 1 = true ∧ ((u.doze dt (rested u).2).clock 1).asleep = true := by
  have key : ∀ u : RestWorld ℚ, 1 ∈ u.world.bodies → u.settings.enableSleeping = true → 0 < u.settings.velocitySleepThreshold → 0 < u.settings.angularVelocitySleepThreshold →
      u.settings.inactivitySleepDelay ≤ (u.clock 1).timeImmobile → ((u.doze dt (rested u).2).clock 1).asleep = true := by
    intro u h1 h2 h3 h4 h5
    unfold RestWorld.doze
    dsimp only
    rw [if_pos h1]
    unfold Sleep.update
    rw [if_pos h2]
    have hi : Sleep.isImmobile u.settings ((rested u).2 1).1 ((rested u).2 1).2.1 ((rested u).2 1).2.2 = true := by
      refine Bool.and_eq_true_iff.2 ⟨decide_eq_true ?_, decide_eq_true h4⟩
      show (0 : ℚ) * 0 + 0 * 0 < _
      rw [mul_zero, add_zero]
      exact mul_pos h3 h3
    dsimp only
    rw [if_pos]
    · rfl
    · unfold Sleep.canSleep Sleep.updateTimeImmobile
      rw [if_pos hi]
      exact decide_eq_true (h5.trans (le_add_of_nonneg_right hdt.le))
  exact ⟨_, rfl, by decide +kernel, key _ (by decide +kernel) (by decide +kernel) (by decide +kernel) (by decide +kernel) (by decide +kernel)⟩

end Simu.World
