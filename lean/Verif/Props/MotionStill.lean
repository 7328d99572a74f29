import Verif.Spec.MotionStill
import Verif.Lemmas.LibraryStill
import Verif.Props.MotionEnergy
/-
C78: bodies at rest stay at rest.
-/
namespace Simu
open Island Finset

namespace Island
variable {P V S : Type*} {N : Net P V S} {A : Link → Bool} {world : List Nat} {st st' : St P V S} {log : List Record}

/-- C78: if the bodies of an isolated group are at rest and their active constraints have nothing to do, `solveIslands` moves none of them, however many iterations are made, into however many
islands the group falls and whatever else is in the world. -/
theorem C78_group (h : Solved N A world st st' log) {idle primed : Link → S → Prop} {pos : Nat → P} {vel : Nat → V} (ha : Apart N idle primed) {group : Finset Nat}
    (hin : ∀ b ∈ group, b ∈ world) (hiso : Isolated N A group) (hr : ∀ b ∈ group, N.isRest (vel b) = true)
    (hx : ∀ b ∈ group, ∀ l ∈ linksOf N b, A l = true → Rests N idle primed pos vel l ∧ idle l st.s) (hp : ∀ b ∈ group, (st.body b).pos = pos b ∧ (st.body b).vel = vel b) :
    (∀ b ∈ group, (st'.body b).pos = pos b ∧ (st'.body b).vel = vel b) ∧ ∀ b ∈ group, ∀ l ∈ linksOf N b, A l = true → idle l st'.s := by
  obtain ⟨cfg, fuel, p, v, he⟩ := h.ran
  obtain ⟨a, b⟩ := solveLoop_still h.behaved.lawful ha h.graph.consistent hin hiso hr (fun b hb l hl hA => (hx b hb l hl hA).1) fuel (progress_start h.ready.idle)
    ⟨fun b hb l hl hA => (hx b hb l hl hA).2, hp⟩ ⟨rfl, rfl, rfl⟩ he h.stable
  exact ⟨b, a⟩

end Island

section
variable {K : Type*} [Field K] [LinearOrder K] [IsStrictOrderedRing K] [Trig K]

/-- C78: in a world of constraints of the library, an isolated group at rest whose active constraints are satisfied does not move, and they stay satisfied. -/
theorem C78_library {L : Library K} {c : CallCfg K} (hsq : ∀ x, 0 ≤ x → c.sqrt x * c.sqrt x = x) (hdt : 0 < c.dt) {A : Link → Bool} {world : List Nat}
    {st st' : St (Pose K) (Velocity K) ((l : Link) → (L.kind l).State)} {log : List Record} (h : Solved (L.net c) A world st st' log) {group : Finset Nat}
    (hin : ∀ b ∈ group, b ∈ world) (hiso : Isolated (L.net c) A group) (hv : ∀ b ∈ group, (st.body b).vel = ⟨0, 0⟩)
    (hs : ∀ b ∈ group, ∀ l ∈ linksOf (L.net c) b, A l = true → L.Satisfied (fun b => (st.body b).pos) st.s l) :
    (∀ b ∈ group, (st'.body b).pos = (st.body b).pos ∧ (st'.body b).vel = ⟨0, 0⟩) ∧
    ∀ b ∈ group, ∀ l ∈ linksOf (L.net c) b, A l = true → L.Satisfied (fun b => (st.body b).pos) st'.s l :=
  C78_group h (L.apart c fun b => (st.body b).pos) hin hiso (vel := fun _ => ⟨0, 0⟩) (fun _ _ => by simp [Library.net])
    (fun b hb l hl hA => ⟨L.rests hsq hdt _ l, hs b hb l hl hA⟩) (fun b hb => ⟨rfl, hv b hb⟩)

/-- Bodies that are asleep, structural or out of reach are not changed by the fields. -/
theorem applyForces_untouched {fields : List (ForceField K)} {dt : K} {tree : List (Nat × Collider K)} {bodies bodies' : Nat → Body K} {i : Nat}
    (hi : (bodies i).asleep = true ∨ (bodies i).dominance = 0 ∨ ∀ f ∈ fields, ∀ e ∈ tree, e.1 = i → inRegion f.region e = false)
    (h : applyForces fields dt tree bodies = .ok bodies') : bodies' i = bodies i := by
  have one : ∀ (f : ForceField K) (l : List (Nat × Collider K)) (B B' : Nat → Body K), ((B i).asleep = true ∨ (B i).dominance = 0 ∨ ∀ e ∈ l, e.1 ≠ i) →
      foldlO (applyToCollider f dt) B l = .ok B' → B' i = B i := by
    intro f l
    induction l with
    | nil => intro B B' _ h; cases Outcome.ok.inj h; rfl
    | cons e l ih =>
      intro B B' hB h
      obtain ⟨B1, h1, h2⟩ := bind_ok_iff.1 h
      have e1 : B1 i = B i := by
        unfold applyToCollider at h1
        dsimp only at h1
        split at h1
        · rename_i hc
          obtain ⟨p, -, h1⟩ := bind_ok_iff.1 h1
          rw [← Outcome.ok.inj h1]
          refine Function.update_of_ne ?_ _ _
          rintro rfl
          rcases hB with hB | hB | hB
          · simp [hB] at hc
          · simp [Body.isStructural, hB] at hc
          · exact hB e (by simp) rfl
        · rw [← Outcome.ok.inj h1]
      rw [ih B1 B' (by rw [e1]; exact hB.imp_right fun h => h.imp_right fun h e he => h e (List.mem_cons_of_mem _ he)) h2, e1]
  unfold applyForces at h
  induction fields generalizing bodies with
  | nil => cases Outcome.ok.inj h; rfl
  | cons f fields ih =>
    obtain ⟨B1, h1, h2⟩ := bind_ok_iff.1 h
    have e1 : B1 i = bodies i := one f _ _ _ (hi.imp_right fun h => h.imp_right fun h e he => by
      rintro rfl
      obtain ⟨he, hr⟩ := List.mem_filter.1 he
      rw [h f (by simp) e he rfl] at hr
      simp at hr) h1
    rw [ih (by rw [e1]; exact hi.imp_right fun h => h.imp_right fun h f hf => h f (List.mem_cons_of_mem _ hf)) h2, e1]

theorem Colliders.update_synced {b : Body K} (h : b.Synced) : b.colliders.update b.position.toWorldSpace.app = b.colliders := by
  obtain ⟨pos, v, w, ⟨list, props⟩, d, a, at'⟩ := b
  unfold Colliders.update
  have : list.map (fun c : Collider K => { c with geom := c.geom.update pos.toWorldSpace.app }) = list := by
    refine (List.map_congr_left fun c hc => ?_).trans (List.map_id _)
    obtain ⟨h1, h2⟩ := h c hc
    obtain ⟨i, ⟨lv, tv, box⟩, mat⟩ := c
    dsimp only at h1 h2
    rw [h2, h1]
    rfl
  dsimp only
  rw [this]

/-- The clock of a body in a step. -/
theorem Motion.step_clock {L : Library K} {m m' : Motion L} {c : CallCfg K} {cfg : Island.Settings} {sl : Sleep.Settings K} {fields : List (ForceField K)}
    {tree : List (Nat × Collider K)} {world : List Nat} {fuel : Nat} {log : List Record} {evals : List (Link × Bool)}
    (h : m.step c cfg sl fields tree world fuel = some (.ok (m', log, evals))) {b : Nat} (hb : b ∈ world) :
    ∃ a, (⟨(m'.body b).asleep, m'.timeImmobile b⟩ : Sleep.Clock K) =
      Sleep.update sl c.dt (m'.body b).velocity.x (m'.body b).velocity.y (m'.body b).angular ⟨a, m.timeImmobile b⟩ := by
  unfold Motion.step at h
  split at h
  · simp at h
  · simp at h
  rename_i body hbody
  dsimp only at h
  split at h
  · simp at h
  · simp at h
  · simp at h
  rename_i st log' hs
  simp only [Option.some.injEq, Outcome.ok.injEq, Prod.mk.injEq] at h
  obtain ⟨h1, h2, h3⟩ := h
  rw [← h1]
  dsimp only
  rw [if_pos hb]
  exact ⟨(st.body b).asleep, rfl⟩

/-- C78: a step of the world leaves a group at rest where it is, for any settings and whatever happens elsewhere: positions, velocities and colliders are the same afterwards, and it is at rest
again. -/
theorem C78_step {L : Library K} {m m' : Motion L} {c : CallCfg K} {cfg : Island.Settings} {sl : Sleep.Settings K} {fields : List (ForceField K)}
    {tree : List (Nat × Collider K)} {world : List Nat} {fuel : Nat} {A : Link → Bool} {group : Finset Nat} {log : List Record} {evals : List (Link × Bool)}
    (hr : AtRest c A group m) (hl : LeftAlone c fields tree world A group m) (h : m.step c cfg sl fields tree world fuel = some (.ok (m', log, evals))) (hA : ∀ e ∈ evals, e.2 = A e.1) :
    (∀ b ∈ group, (m'.body b).position = (m.body b).position ∧ (m'.body b).velocity = 0 ∧ (m'.body b).angular = 0 ∧ (m'.body b).Synced ∧
      ((m.body b).Synced → m'.body b = { m.body b with asleep := (m'.body b).asleep })) ∧
    AtRest c A group m' := by
  obtain ⟨body, st, h1, h2, rfl, h4, h5⟩ := Motion.step_ok h
  have hb : ∀ b ∈ group, body b = m.body b := fun b hb => applyForces_untouched (hl.unforced b hb) h1
  have hsol : Solved (L.net c) A world ({ m with body := body } : Motion L).start st log := ⟨C37_library hl.made c, hl.wellFormed, ⟨fun _ => rfl, fun _ => rfl⟩, ⟨_, _, _, _, h2⟩, hA⟩
  have hends : ∀ b ∈ group, ∀ l ∈ linksOf (L.net c) b, A l = true → (L.bodies l).i0 ∈ group ∧ (L.bodies l).i1 ∈ group := hl.isolated
  have sat : ∀ (p p' : Nat → Pose K) (s : (l : Link) → (L.kind l).State), (∀ b ∈ group, p b = p' b) → ∀ b ∈ group, ∀ l ∈ linksOf (L.net c) b, A l = true →
      L.Satisfied p s l → L.Satisfied p' s l := by
    intro p p' s hp b hb l hlb ha hsat
    obtain ⟨e0, e1⟩ := hends b hb l hlb ha
    unfold Library.Satisfied at hsat ⊢
    rw [← hp _ e0, ← hp _ e1]
    exact hsat
  obtain ⟨k1, k2⟩ := C78_library hl.sqrt hl.forward hsol hl.inside hl.isolated (by
      intro b hb'
      show (⟨(body b).velocity, (body b).angular⟩ : Velocity K) = _
      rw [hb b hb', (hr.velocity b hb').1, (hr.velocity b hb').2]) (by
      intro b hb' l hlb ha
      refine sat _ _ _ (fun b' hb'' => ?_) b hb' l hlb ha (hr.satisfied b hb' l hlb ha)
      show _ = Pose.of (body b').position
      rw [hb b' hb''])
  have hpos : ∀ b ∈ group, (st.body b).pos.1 = (m.body b).position := fun b hb' => by
    rw [(k1 b hb').1]
    show (Pose.of (body b).position).1 = _
    rw [hb b hb', Pose.of_eq (hr.orient b hb')]
  have keep : ∀ b ∈ group, (m'.body b).position = (m.body b).position ∧ (m'.body b).velocity = 0 ∧ (m'.body b).angular = 0 := fun b hb' => by
    rw [h5 b (hl.inside b hb')]
    refine ⟨hpos b hb', ?_, ?_⟩
    · show (st.body b).vel.linear = 0
      rw [(k1 b hb').2]
    · show (st.body b).vel.angular = 0
      rw [(k1 b hb').2]
  have hsync : ∀ b ∈ group, (m'.body b).Synced := fun b hb' => by
    rw [h5 b (hl.inside b hb')]
    exact Body.update_synced ({ body b with position := (st.body b).pos.1 } : Body K)
  refine ⟨fun b hb' => ⟨(keep b hb').1, (keep b hb').2.1, (keep b hb').2.2, hsync b hb', fun hs => ?_⟩, ⟨fun b hb' => (keep b hb').2, fun b hb' => ?_, fun b hb' l hlb ha => ?_⟩⟩
  · have hcol : (m'.body b).colliders = (m.body b).colliders := by
      rw [h5 b (hl.inside b hb')]
      show (body b).colliders.update (st.body b).pos.1.toWorldSpace.app = _
      rw [hb b hb', hpos b hb']
      exact Colliders.update_synced hs
    have hd : (m'.body b).dominance = (m.body b).dominance ∧ (m'.body b).attached = (m.body b).attached := by
      rw [h5 b (hl.inside b hb')]
      show (body b).dominance = _ ∧ (body b).attached = _
      rw [hb b hb']; exact ⟨rfl, rfl⟩
    obtain ⟨r1, r2⟩ := hr.velocity b hb'
    obtain ⟨q1, q2, q3⟩ := keep b hb'
    obtain ⟨d1, d2⟩ := hd
    cases e : m.body b
    cases e' : m'.body b
    rw [e, e'] at hcol d1 d2 q1
    rw [e] at r1 r2
    rw [e'] at q2 q3
    simp only at hcol d1 d2 q1 q2 q3 r1 r2
    simp only [hcol, d1, d2, q1, q2, q3, r1, r2]
  · rw [(keep b hb').1]; exact hr.orient b hb'
  · rw [h4]
    refine sat _ _ _ (fun b' hb'' => ?_) b hb' l hlb ha (k2 b hb' l hlb ha)
    show Pose.of (body b').position = _
    rw [hb b' hb'', (keep b' hb'').1]

/-- C78: a group at rest is where it was after any number of undisturbed steps. -/
theorem C78_still {L : Library K} {A : Link → Bool} {group : Finset Nat} {dt : K} {sl : Sleep.Settings K} {n : Nat} {m m' : Motion L} (h : Undisturbed A group dt sl n m m') {c : CallCfg K}
    (hr : AtRest c A group m) :
    (∀ b ∈ group, (m'.body b).position = (m.body b).position ∧ (m'.body b).velocity = 0 ∧ (m'.body b).angular = 0 ∧
      ((m.body b).Synced → m'.body b = { m.body b with asleep := (m'.body b).asleep })) ∧
    AtRest c A group m' := by
  induction h with
  | start m => exact ⟨fun b hb => ⟨rfl, (hr.velocity b hb).1, (hr.velocity b hb).2, fun _ => rfl⟩, hr⟩
  | @step n m0 m1 before m m' c' cfg fields tree world fuel log evals hdt same states hl hs hA ih =>
    obtain ⟨i1, i2⟩ := ih hr
    have hends : ∀ b ∈ group, ∀ l ∈ linksOf (L.net c) b, A l = true → (L.bodies l).i0 ∈ group ∧ (L.bodies l).i1 ∈ group := hl.isolated
    have hr' : AtRest c' A group m := by
      refine ⟨fun b hb => ?_, fun b hb => ?_, fun b hb l hlb ha => ?_⟩
      · rw [(same b hb).1]; exact i2.velocity b hb
      · rw [(same b hb).1]; exact i2.orient b hb
      · have := i2.satisfied b hb l hlb ha
        obtain ⟨e0, e1⟩ := hends b hb l hlb ha
        unfold Library.Satisfied at this ⊢
        simp only [(same _ e0).1, (same _ e1).1, states b hb l hlb]
        exact this
    obtain ⟨j1, j2⟩ := C78_step hr' hl hs hA
    refine ⟨fun b hb => ?_, ⟨j2.velocity, j2.orient, j2.satisfied⟩⟩
    obtain ⟨a1, a2, a3, a4⟩ := i1 b hb
    obtain ⟨b1, b2, b3, -, b5⟩ := j1 b hb
    rw [(same b hb).1] at b1 b5
    refine ⟨b1.trans a1, b2, b3, fun hsy => ?_⟩
    have hm := a4 hsy
    have hsy' : (m1.body b).Synced := by
      rw [hm]; exact hsy
    rw [b5 hsy', hm]

/-- C78: with sleeping enabled (and thresholds that are positive), a group at rest is asleep once it has been undisturbed for the delay. -/
theorem C78_sleeps {L : Library K} {A : Link → Bool} {group : Finset Nat} {dt : K} {sl : Sleep.Settings K} {n : Nat} {m m' : Motion L} (h : Undisturbed A group dt sl n m m') {c : CallCfg K}
    (hr : AtRest c A group m) (hen : sl.enableSleeping = true) (hv : sl.velocitySleepThreshold ≠ 0) (hw : 0 < sl.angularVelocitySleepThreshold) (ht : ∀ b ∈ group, 0 ≤ m.timeImmobile b)
    (hn : 0 < n) (hd : sl.inactivitySleepDelay ≤ n * dt) : ∀ b ∈ group, (m'.body b).asleep = true := by
  have key : ∀ b ∈ group, n * dt ≤ m'.timeImmobile b ∧ (0 < n → sl.inactivitySleepDelay ≤ m'.timeImmobile b → (m'.body b).asleep = true) := by
    clear hn hd
    induction h with
    | start m => exact fun b hb => ⟨by simpa using ht b hb, fun h => absurd h (lt_irrefl _)⟩
    | @step n m0 m1 before m m' c' cfg fields tree world fuel log evals hdt same states hl hs hA ih =>
      intro b hb
      obtain ⟨-, e⟩ := C78_still (.step before hdt same states hl hs hA) hr
      obtain ⟨i1, -⟩ := ih hr ht b hb
      obtain ⟨a, hc⟩ := Motion.step_clock hs (hl.inside b hb)
      obtain ⟨v1, v2⟩ := e.velocity b hb
      rw [v1, v2] at hc
      have him : Sleep.isImmobile sl (0 : Vec2 K).x (0 : Vec2 K).y 0 = true := by
        have : 0 < sl.velocitySleepThreshold * sl.velocitySleepThreshold := mul_self_pos.2 hv
        simp [Sleep.isImmobile, hw, this]
      unfold Sleep.update Sleep.updateTimeImmobile at hc
      rw [if_pos hen, him, if_pos rfl] at hc
      dsimp only at hc
      have ht' : m'.timeImmobile b = m.timeImmobile b + c'.dt := by
        have := congrArg Sleep.Clock.timeImmobile hc
        split at this <;> exact this
      refine ⟨?_, fun _ hd => ?_⟩
      · rw [ht', (same b hb).2, hdt]
        push_cast
        linarith
      · have := congrArg Sleep.Clock.asleep hc
        rw [if_pos (by simp only [Sleep.canSleep, decide_eq_true_eq]; rw [← ht']; exact hd)] at this
        exact this
  exact fun b hb => (key b hb).2 hn (hd.trans (key b hb).1)

/-- A world of constraints that can be solved is solved, and each constraint answers as before. -/
theorem C73_answers {L : Library K} {body : Nat → Body K} (hL : L.MadeFor body) {c : CallCfg K} (hc : ∀ x, 0 ≤ x → c.sqrt x * c.sqrt x = x)
    {world : List Nat} (hg : WellFormed (L.net c) world) {st : St (Pose K) (Velocity K) ((l : Link) → (L.kind l).State)} (hr : Ready st) (he : st.evals = [])
    (hs : L.Firm c world st.s) {A : Link → Bool} (hA : ∀ b ∈ world, ∀ l ∈ linksOf (L.net c) b, (L.kind l).answer (st.s l) = A l) (cfg : Settings) (p : Pose K) (v : Velocity K)
    {fuel : Nat} (hf : 2 * world.length < fuel) :
    ∃ st' log, solveIslands (L.net c) cfg fuel p v world st = some (.ok (st', log)) ∧ L.Firm c world st'.s ∧
      (∀ b ∈ world, ∀ l ∈ linksOf (L.net c) b, (L.kind l).answer (st'.s l) = A l) ∧ Solved (L.net c) A world st st' log := by
  obtain ⟨st', log, h1, h2, h3⟩ := C73_completes (C37_library hL c) hg hr
    (L.sound hc (fun l => ∃ b ∈ world, l ∈ linksOf (L.net c) b) A fun l ⟨b, hb, hl⟩ => (hs b hb l hl).1)
    (fun b hb l hl => ⟨b, hb, hl⟩) (fun l ⟨b, hb, hl⟩ => ⟨(hs b hb l hl).2, hA b hb l hl⟩) (by simp [he]) cfg p v hf
  exact ⟨st', log, h1, fun b hb l hl => ⟨(hs b hb l hl).1, (h2 l ⟨b, hb, hl⟩).1⟩, fun b hb l hl => (h2 l ⟨b, hb, hl⟩).2, h3⟩

/-- C78: a world whose constraints can be solved wherever the bodies are, and whose fields can be applied, can be stepped for ever with a group in it that is left alone: there are any number
of undisturbed steps. -/
theorem C78_for_ever {L : Library K} {m : Motion L} {c : CallCfg K} {fields : List (ForceField K)} {tree : List (Nat × Collider K)} {world : List Nat} {A : Link → Bool}
    {group : Finset Nat} (hr : AtRest c A group m) (hl : LeftAlone c fields tree world A group m)
    (hu : ∀ b ∈ group, (m.body b).dominance = 0 ∨ ∀ f ∈ fields, ∀ e ∈ tree, e.1 = b → inRegion f.region e = false) (hf : L.Firm c world m.s)
    (hA : ∀ b ∈ world, ∀ l ∈ linksOf (L.net c) b, (L.kind l).answer (m.s l) = A l) (hforce : ∀ body, ∃ body', applyForces fields c.dt tree body = .ok body')
    (cfg : Island.Settings) (sl : Sleep.Settings K) {fuel : Nat} (hfuel : 2 * world.length < fuel) (n : Nat) :
    ∃ m', Undisturbed A group c.dt sl n m m' := by
  suffices ∃ m' : Motion L, Undisturbed A group c.dt sl n m m' ∧ LeftAlone c fields tree world A group m' ∧
      (∀ b ∈ group, (m'.body b).dominance = 0 ∨ ∀ f ∈ fields, ∀ e ∈ tree, e.1 = b → inRegion f.region e = false) ∧ L.Firm c world m'.s ∧
      (∀ b ∈ world, ∀ l ∈ linksOf (L.net c) b, (L.kind l).answer (m'.s l) = A l) from this.imp fun m' h => h.1
  induction n with
  | zero => exact ⟨m, .start _, hl, hu, hf, hA⟩
  | succ n ih =>
    obtain ⟨m1, i1, i2, i3, i4, i5⟩ := ih
    obtain ⟨body, hb⟩ := hforce m1.body
    obtain ⟨st, log, h1, h2, h3, h4⟩ := C73_answers i2.made hl.sqrt hl.wellFormed (st := ({ m1 with body := body } : Motion L).start) ⟨fun _ => rfl, fun _ => rfl⟩ rfl i4 i5 cfg
      (.of (body 0).position) ⟨0, 0⟩ hfuel
    obtain ⟨m', hstep, hs'⟩ := Motion.step_of (sl := sl) hb h1
    have hkm := Motion.step_masses hstep
    have hu' : ∀ b ∈ group, (m'.body b).dominance = 0 ∨ ∀ f ∈ fields, ∀ e ∈ tree, e.1 = b → inRegion f.region e = false := fun b hb => by
      rw [(hkm b).2.2]; exact i3 b hb
    exact ⟨m', .step i1 rfl (fun _ _ => ⟨rfl, rfl⟩) (fun _ _ _ _ => rfl) i2 hstep h4.stable,
      ⟨hl.sqrt, hl.forward, hl.wellFormed, i2.made.same hkm, hl.inside, hl.isolated, fun b hb => Or.inr (hu' b hb)⟩, hu', by rw [hs']; exact h2, by rw [hs']; exact h3⟩

/-- C78: which joints are satisfied by bodies at positions `p` and `q`, when nothing is left of an impulse: hinges whose points coincide, rotation constraints of bodies at the angle
of the beginning, the mouse where its point of the body is. -/
theorem C78_joints (m : InvMasses K) (p q : Position K) :
    (∀ l0 l1 (e : EqualitySolver K 2), e.base.lambda = Mat.zero →
      ((Kind.equality 2 (hingeFun l0 l1)).Satisfied m p q e ↔ p.toWorldSpace.app l0 = q.toWorldSpace.app l1)) ∧
    (∀ a (e : EqualitySolver K 1), e.base.lambda = Mat.zero → ((Kind.equality 1 (rotationFun a)).Satisfied m p q e ↔ q.orient.theta - p.orient.theta = a)) ∧
    (∀ a x (e : EqualitySolver K 2), e.base.lambda = Mat.zero → ((Kind.mouse (mouseFun a x)).Satisfied m p q e ↔ p.toWorldSpace.app a = x)) := by
  have two : ∀ v w : Vec2 K, (v - w).toMVec = (Mat.zero : MVec K 2) ↔ v = w := fun v w => by
    refine ⟨fun h => ?_, fun h => ?_⟩
    · have h0 := congrArg (fun x => Mat.at_ x 0) h
      have h1 := congrArg (fun x => Mat.at_ x 1) h
      simp only [Vec2.toMVec, Mat.at_ofFn, Mat.at_zero] at h0 h1
      exact Vec2.ext (sub_eq_zero.1 h0) (sub_eq_zero.1 h1)
    · subst h
      refine Mat.ext_at fun i => ?_
      rw [Mat.at_zero, Vec2.toMVec, Mat.at_ofFn]
      fin_cases i <;> simp
  refine ⟨fun l0 l1 e he => ?_, fun a e he => ?_, fun a x e he => ?_⟩
  · refine ⟨fun h => ?_, fun h => ⟨⟨fun _ _ => rfl, fun _ => rfl, rfl⟩, fun i0 i1 s h0 h1 => ?_, he⟩⟩
    · have := h.2.1 0 1 ⟨fun i => if i = 0 then p else q, fun _ => ⟨0, 0⟩⟩ rfl rfl
      exact ((two _ _).1 this).symm
    · show (Vec2.toMVec _) = _
      rw [two, h0, h1, h]
  · refine ⟨fun h => ?_, fun h => ⟨⟨fun _ _ => rfl, fun _ => rfl, rfl⟩, fun i0 i1 s h0 h1 => ?_, he⟩⟩
    · have := congrArg (fun x => Mat.at_ x 0) (h.2.1 0 1 ⟨fun i => if i = 0 then p else q, fun _ => ⟨0, 0⟩⟩ rfl rfl)
      simp only [rotationFun, Mat.at_sub, Mat.at_ofFn, Mat.at_zero] at this
      exact sub_eq_zero.1 this
    · refine Mat.ext_at fun i => ?_
      fin_cases i
      simp only [rotationFun, Mat.at_sub, Mat.at_ofFn, Mat.at_zero]
      show (s.pos i1).orient.theta - (s.pos i0).orient.theta - a = 0
      rw [h0, h1, h, sub_self]
  · refine ⟨fun h => ?_, fun h => ⟨⟨fun _ _ => rfl, fun _ => rfl, rfl⟩, fun i0 i1 s h0 h1 => ?_, he⟩⟩
    · exact (two _ _).1 (h.2.1 0 1 ⟨fun i => if i = 0 then p else q, fun _ => ⟨0, 0⟩⟩ rfl rfl)
    · show (Vec2.toMVec _) = _
      rw [two, h0, h]

/-- C78: a distance constraint is satisfied if the distance of its points is between its limits. -/
theorem C78_distance {m : InvMasses K} (hm : m.Nonneg) (ha : 0 < m.m0 + m.m1) (p q : Position K) (l0 l1 : Vec2 K) {lo hi : K} {e : LimitsSolver K}
    (he : distanceLimits (some lo) (some hi) = .ok e) {D : K} (hD : D * D = (p.toWorldSpace.app l0 - q.toWorldSpace.app l1).normSquared) (h0 : lo ≤ D) (h1 : D ≤ hi) :
    (Kind.limits (distanceFun l0 l1)).Satisfied m p q e := by
  rw [C48_distance_limits_partial] at he
  simp only at he
  split_ifs at he with hab
  obtain ⟨hlo, -⟩ := hab
  cases Outcome.ok.inj he
  have hDp : 0 < D := lt_of_lt_of_le hlo h0
  refine ⟨⟨fun _ _ => rfl, fun _ => rfl, rfl⟩, fun i0 i1 s e0 e1 r => ?_, le_of_eq (Mat.at_zero 0).symm, rfl, Or.inl (by simp), ?_⟩
  · have hK : ∀ J : Mat K 1 6, ((J.mul (⟨i0, i1, m⟩ : Proxies K).inverseMass).mul J.transpose).get r r = Contact.inner (⟨i0, i1, m⟩ : Proxies K) (J.get r) (J.get r) := fun J => by
      simp only [Contact.inner, Proxies.inverseMass, Mat.get_mul, Mat.get_transpose, Mat.get_diagonal, Fin.sum_univ_six]
      simp
      ring
    rw [hK, Contact.inner_eq]
    simp only [distance_get]
    rw [show (s.pos (⟨i0, i1, m⟩ : Proxies K).i0) = p from e0, show (s.pos (⟨i0, i1, m⟩ : Proxies K).i1) = q from e1]
    have hn := hD
    simp only [Vec2.normSquared, Vec2.dot] at hn
    obtain ⟨g1, g2, g3, g4⟩ := hm
    have := mul_pos ha (mul_pos hDp hDp)
    have i1' := mul_nonneg g2 (mul_self_nonneg (Vec2.cross (p.toWorldSpace.app l0 - p.centroid) (p.toWorldSpace.app l0 - q.toWorldSpace.app l1)))
    have i2' := mul_nonneg g4 (mul_self_nonneg (Vec2.cross (q.toWorldSpace.app l1 - q.centroid) (p.toWorldSpace.app l0 - q.toWorldSpace.app l1)))
    generalize Vec2.cross (p.toWorldSpace.app l0 - p.centroid) (p.toWorldSpace.app l0 - q.toWorldSpace.app l1) = A at *
    generalize Vec2.cross (q.toWorldSpace.app l1 - q.centroid) (p.toWorldSpace.app l0 - q.toWorldSpace.app l1) = B at *
    generalize p.toWorldSpace.app l0 - q.toWorldSpace.app l1 = d at *
    rw [hn] at this
    simp
    linarith
  · refine ⟨Mat.ofFn ![D * D], fun i0 i1 s e0 e1 => ?_, ?_, ?_⟩
    · show Mat.ofFn ![((s.pos i0).toWorldSpace.app l0 - (s.pos i1).toWorldSpace.app l1).normSquared] = _
      rw [e0, e1, hD]
    · intro l hl
      cases hl
      rw [Mat.at_ofFn, Mat.at_ofFn]
      exact mul_self_le_mul_self hlo.le h0
    · intro u hu
      cases hu
      rw [Mat.at_ofFn, Mat.at_ofFn]
      exact mul_self_le_mul_self hDp.le h1

/-- C78: hinges, rotation constraints, welds and the mouse are satisfied by the bodies they are made for, until these are moved. -/
theorem C78_new [LawfulTrig K] (bodies : Nat → Body K) (b : Bodies K) (m : InvMasses K) (shared : Vec2 K) (h0 : (bodies b.i0).position.orient.Reachable)
    (h1 : (bodies b.i1).position.orient.Reachable) (s : ∀ d, KSolver K d) :
    let p := (bodies b.i0).position; let q := (bodies b.i1).position;
    (Kind.equality 2 (hingeFunOf bodies b shared)).Satisfied m p q ⟨.init, s 2⟩ ∧
    (Kind.equality 1 (rotationFunOf bodies b)).Satisfied m p q ⟨.init, s 1⟩ ∧
    (Kind.equality 3 (weldFunOf bodies b)).Satisfied m p q ⟨.init, s 3⟩ ∧
    (Kind.mouse (mouseFunOf (bodies b.i0) shared)).Satisfied m p q ⟨mouseBase, s 2⟩ := by
  intro p q
  obtain ⟨j1, j2, j3⟩ := C78_joints m p q
  have hh : ∀ x s, (Kind.equality 2 (hingeFunOf bodies b x)).Satisfied m p q ⟨.init, s⟩ := fun x s => (j1 _ _ ⟨.init, s⟩ rfl).2 ((C27_inverse h0 _).2.1.trans (C27_inverse h1 _).2.1.symm)
  have hr : (Kind.equality 1 (rotationFunOf bodies b)).Satisfied m p q ⟨.init, s 1⟩ := (j2 _ ⟨.init, s 1⟩ rfl).2 rfl
  refine ⟨hh _ _, hr, ⟨⟨fun P S => ?_, fun dt => ?_, ?_⟩, fun i0 i1 S e0 e1 => ?_, rfl⟩, (j3 _ _ ⟨mouseBase, s 2⟩ rfl).2 (C27_inverse h0 _).2.1⟩
  all_goals
    refine Mat.ext_at fun i => ?_
  · obtain ⟨-, -, c1, c2, -⟩ := C50_composite (hingeFunOf bodies b (((bodies b.i0).centroid + (bodies b.i1).centroid).sdiv 2)) (rotationFunOf bodies b) P S
    rw [Mat.at_zero]
    refine Fin.addCases (m := 2) (n := 1) (fun j => ?_) (fun j => ?_) i
    · exact (c1 j).trans (Mat.at_zero j)
    · exact (c2 j).trans (Mat.at_zero j)
  · obtain ⟨-, -, -, -, -, -, c1, c2, -⟩ := C50_composite (hingeFunOf bodies b (((bodies b.i0).centroid + (bodies b.i1).centroid).sdiv 2)) (rotationFunOf bodies b) b.proxies
      ⟨fun _ => p, fun _ => ⟨0, 0⟩⟩
    rw [Mat.at_zero]
    refine Fin.addCases (m := 2) (n := 1) (fun j => ?_) (fun j => ?_) i
    · exact (c1 _ dt j).trans ((Mat.at_ofFn _ j).trans (Mat.at_zero _))
    · exact (c2 _ dt j).trans ((Mat.at_ofFn _ j).trans (Mat.at_zero _))
  · obtain ⟨-, -, -, -, -, -, -, -, c1, c2⟩ := C50_composite (hingeFunOf bodies b (((bodies b.i0).centroid + (bodies b.i1).centroid).sdiv 2)) (rotationFunOf bodies b) b.proxies
      ⟨fun _ => p, fun _ => ⟨0, 0⟩⟩
    rw [Mat.at_zero]
    refine Fin.addCases (m := 2) (n := 1) (fun j => ?_) (fun j => ?_) i
    · exact (c1 _ j).trans ((Mat.at_ofFn _ j).trans (Mat.at_zero _))
    · exact (c2 _ j).trans ((Mat.at_ofFn _ j).trans (Mat.at_zero _))
  · obtain ⟨c1, c2, -⟩ := C50_composite (hingeFunOf bodies b (((bodies b.i0).centroid + (bodies b.i1).centroid).sdiv 2)) (rotationFunOf bodies b) ⟨i0, i1, m⟩ S
    rw [Mat.at_zero]
    refine Fin.addCases (m := 2) (n := 1) (fun j => ?_) (fun j => ?_) i
    · refine (c1 j).trans ?_
      rw [(hh _ (s 2)).2.1 i0 i1 S e0 e1, Mat.at_zero]
    · refine (c2 j).trans ?_
      rw [hr.2.1 i0 i1 S e0 e1, Mat.at_zero]

/-- C78: a contact is satisfied if its points are apart or not deeper in the other body than what is left uncorrected, three times the least penetration. -/
theorem C78_contact {m : InvMasses K} (p q : Position K) (e : Contact K) (hf : e.frame.nContacts = e.manifold.nContacts) (hz : e.tangentLambda = Mat.zero ∧ e.normalLambda = Mat.zero)
    (hs : Solvable (e.manifold.frame ![p.toWorldSpace, q.toWorldSpace]) ⟨0, 1, m⟩) (hp : 0 < e.manifold.minPen)
    (hd : ∀ c : Fin 2, c.val < e.manifold.nContacts → let f := e.manifold.frame ![p.toWorldSpace, q.toWorldSpace];
      -3 * e.manifold.minPen < Vec2.dot f.normal (f.contacts 0 c - f.contacts 1 c)) :
    (Kind.contact : Kind K).Satisfied m p q e := by
  refine ⟨hf, hs, ?_, hz.1, hz.2, hp, hd⟩
  intro h
  apply hs.normal
  have perp0 : ∀ v : Vec2 K, v.perp = 0 → v = 0 := fun v h => by
    have hx := congrArg Vec2.x h
    have hy := congrArg Vec2.y h
    simp [Vec2.perp] at hx hy
    exact Vec2.ext hy hx
  unfold Manifold.frame at h ⊢
  dsimp only at h ⊢
  split_ifs at h ⊢ with hr
  · rw [perp0 _ (neg_eq_zero.1 h), neg_zero]
  · exact perp0 _ h

end

/-! ### The two squares of `fly_launched`, at rest -/
section

/-- The hinge and the squares, at rest and awake or asleep. -/
theorem still_world (z : Bool) : ∃ (B : Nat → Body ℝ) (tree : List (Nat × Collider ℝ)) (m : Motion (flyLib B)),
    (∀ b, (m.body b).mass = 4 ∧ (m.body b).dominance = 1 ∧ (m.body b).asleep = z ∧ m.timeImmobile b = 0 ∧ (m.body b).centroid = ⟨2 * b, 0⟩) ∧
    AtRest libCfg (fun _ => true) {0, 1} m ∧
    (∀ fields, z = true ∨ fields = [] → LeftAlone libCfg fields tree [0, 1] (fun _ => true) {0, 1} m) ∧ (flyLib B).Firm libCfg [0, 1] m.s := by
  obtain ⟨B, tree, hl, hf, -, hB⟩ := fly_launched
  have hreach : ∀ b ∈ ({0, 1} : Finset Nat), (B b).position.orient.Reachable := fun b hb => by
    obtain ⟨ps, hw⟩ := hl.solid b hb
    exact hw.inv.orient
  let m : Motion (flyLib B) := { flyMotion B with body := fun b => { B b with velocity := 0, angular := 0, asleep := z } }
  refine ⟨B, tree, m, fun b => ⟨(hB b).1, (hB b).2.2.1, rfl, rfl, (hB b).2.2.2.2.2⟩, ⟨fun _ _ => ⟨rfl, rfl⟩, fun b hb => C26_rotation_wf (hreach b hb), ?_⟩, fun fields h =>
    ⟨sqrt_lawful, by norm_num [libCfg], hl.wellFormed, hl.made.same fun _ => ⟨rfl, rfl, rfl⟩, hl.inside, hl.isolated, fun b _ => ?_⟩, hf⟩
  · intro b hb l h _
    obtain ⟨-, rfl⟩ := fly_links B b l h
    have := (C78_new B (Bodies.make B 0 1 none) ((flyLib B).bodies (.joint 0)).masses ⟨1, 0⟩ (hreach 0 (by simp)) (hreach 1 (by simp)) (fun d => ⟨false, fun _ => .throw⟩)).1
    show (Kind.equality 2 (hingeFunOf B (Bodies.make B 0 1 none) ⟨1, 0⟩)).Satisfied ((flyLib B).bodies (.joint 0)).masses (Pose.of (B 0).position).1 (Pose.of (B 1).position).1 _
    rw [Pose.of_eq (C26_rotation_wf (by exact hreach 0 (by simp))), Pose.of_eq (C26_rotation_wf (by exact hreach 1 (by simp)))]
    exact this
  · rcases h with h | rfl
    · exact Or.inl h
    · exact Or.inr (Or.inr (by simp))

/-- C78: sleeping, the two squares hang in the air under gravity: a step does not move them. -/
example : ∃ (B : Nat → Body ℝ) (tree : List (Nat × Collider ℝ)) (m m' : Motion (flyLib B)) (log : List Record) (evals : List (Link × Bool)),
    m.step libCfg ⟨8, 2, true⟩ ⟨true, 1, 1, 1⟩ [.gravity ⟨0, -10⟩] tree [0, 1] 5 = some (.ok (m', log, evals)) ∧
    ∀ b ∈ ({0, 1} : Finset Nat), (m'.body b).position = (m.body b).position ∧ (m'.body b).velocity = 0 ∧ (m'.body b).angular = 0 := by
  obtain ⟨B, tree, m, hm, hr, hl, hf⟩ := still_world true
  have hl := hl [.gravity ⟨0, -10⟩] (Or.inl rfl)
  obtain ⟨body, hforce⟩ : ∃ body, applyForces [.gravity ⟨0, -10⟩] libCfg.dt tree m.body = .ok body := by
    have : ∀ (f : ForceField ℝ) (l : List (Nat × Collider ℝ)), foldlO (applyToCollider f libCfg.dt) m.body l = .ok m.body := by
      intro f l
      induction l with
      | nil => rfl
      | cons e l ih =>
        refine (bind_ok_iff.2 ⟨m.body, ?_, ih⟩)
        simp [applyToCollider, (hm _).2.2.1]
    exact ⟨m.body, bind_ok_iff.2 ⟨m.body, this _ _, rfl⟩⟩
  obtain ⟨st, log, h1, -, -, h4⟩ := C73_answers hl.made hl.sqrt hl.wellFormed (st := ({ m with body := body } : Motion (flyLib B)).start) ⟨fun _ => rfl, fun _ => rfl⟩ rfl hf
    (A := fun _ => true) (fun _ _ _ _ => rfl) ⟨8, 2, true⟩ (.of (body 0).position) ⟨0, 0⟩ (fuel := 5) (by decide)
  obtain ⟨m', hstep, -⟩ := Motion.step_of (sl := ⟨true, 1, 1, 1⟩) hforce h1
  exact ⟨B, tree, m, m', log, st.evals, hstep, fun b hb => by
    obtain ⟨a1, a2, a3, -⟩ := (C78_step hr hl hstep h4.stable).1 b hb
    exact ⟨a1, a2, a3⟩⟩

/-- C78: without gravity the two squares, joined by their hinge, are for ever where they are; after half a second they sleep. -/
example : ∃ (B : Nat → Body ℝ) (m : Motion (flyLib B)), (∀ b, (m.body b).asleep = false) ∧
    ∀ n, ∃ m', Undisturbed (fun _ => true) {0, 1} libCfg.dt ⟨true, 1, 1, 1 / 2⟩ n m m' ∧
      (∀ b ∈ ({0, 1} : Finset Nat), (m'.body b).position = (m.body b).position ∧ (m'.body b).velocity = 0 ∧ (m'.body b).angular = 0) ∧
      (30 ≤ n → ∀ b ∈ ({0, 1} : Finset Nat), (m'.body b).asleep = true) := by
  obtain ⟨B, tree, m, hm, hr, hl, hf⟩ := still_world false
  have hl := hl [] (Or.inr rfl)
  refine ⟨B, m, fun b => (hm b).2.2.1, fun n => ?_⟩
  obtain ⟨m', h⟩ := C78_for_ever hr hl (fun b _ => Or.inr (by simp)) hf (fun _ _ _ _ => rfl) (fun body => ⟨body, rfl⟩) ⟨8, 2, true⟩ ⟨true, 1, 1, 1 / 2⟩ (fuel := 5) (by decide) n
  refine ⟨m', h, fun b hb => ?_, fun hn b hb => ?_⟩
  · obtain ⟨a1, a2, a3, -⟩ := (C78_still h hr).1 b hb
    exact ⟨a1, a2, a3⟩
  · refine C78_sleeps h hr rfl one_ne_zero one_pos (fun b _ => le_of_eq (hm b).2.2.2.1.symm) (by omega) ?_ b hb
    have : (30 : ℝ) ≤ n := by exact_mod_cast hn
    show (1 / 2 : ℝ) ≤ n * (1 / 60)
    linarith

/-- C78: a contact at two points, of a box that stands on another. -/
example : (Kind.contact : Kind ℝ).Satisfied ⟨1 / 2, 1 / 3, 0, 0⟩ (.make ⟨0, 1⟩ 0 ⟨0, 0⟩) (.make ⟨0, 0⟩ 0 ⟨0, 0⟩) ({ contactSample 2 0 (1 / 2) with frame := ⟨2, fun _ _ => 0, 0, 0⟩ } : Contact ℝ) := by
  have app0 : ∀ (x v : Vec2 ℝ), (Position.make x 0 ⟨0, 0⟩).toWorldSpace.app v = x + v := fun x v => by
    rw [C27_placement]; ext <;> simp [rotateAbout, Trig.cos, Trig.sin, add_comm]
  have rot0 : ∀ (x v : Vec2 ℝ), (Position.make x 0 ⟨0, 0⟩).toWorldSpace.r.app v = v := fun x v => by
    ext <;> simp [Position.make, Position.toWorldSpace, Transform.mulTranslation, Translation.mulRotation, Rotation.app, Rotation.ofAngle, Trig.cos, Trig.sin]
  refine C78_contact _ _ _ rfl ⟨rfl, rfl⟩ ⟨by norm_num, by norm_num, by norm_num, by norm_num, by norm_num, ?_, fun _ => Or.inl ⟨by norm_num, ?_⟩⟩ (by norm_num [contactSample]) ?_
  · simp [Manifold.frame, contactSample, rot0]
    intro h
    have := congrArg Vec2.y h
    simp at this
  · simp [Manifold.frame, contactSample, rot0, app0, Vec2.cross]
    norm_num
  · intro c hc
    have hc : c.val < 2 := hc
    fin_cases c <;> norm_num [Manifold.frame, contactSample, rot0, app0, Vec2.dot]

end
end Simu
