import Verif.Spec.Motion
import Verif.Props.Library
/-
Lemmas on a step seen by a group of bodies.
-/
namespace Simu
open Island Finset

namespace Island
variable {P V S M : Type*} [AddCommGroup M] {N : Net P V S} {A : Link → Bool} {world : List Nat} {st st' : St P V S} {log : List Record}

/-- What solving keeps of the states of constraints. -/
theorem Solved.steady (h : Solved N A world st st' log) {good : S → Prop} (hg : Steady N good) (hs : good st.s) : good st'.s := by
  obtain ⟨cfg, fuel, p, v, he⟩ := h.ran
  have h0 : GroupKept good (fun _ _ => (0 : ℤ)) (fun _ _ => (0 : ℤ)) 0 ∅ st st [] := ⟨hs, rfl, by simp [doneIn]⟩
  obtain ⟨k, -, -⟩ := solveLoop_group (qv := fun _ _ => (0 : ℤ)) (qp := fun _ _ => (0 : ℤ)) (group := ∅) (τ := 0) h.behaved.lawful hg h.graph.consistent (by intro b hb; simp at hb)
    (by intro b hb; simp at hb) (by simp) fuel (progress_start h.ready.idle) h0 ⟨rfl, rfl, rfl⟩ he h.stable
  exact k

end Island

variable {K : Type*} [Field K] [LinearOrder K] [IsStrictOrderedRing K] [Trig K]

/-- The parts of a step. -/
theorem Motion.step_ok {L : Library K} {m m' : Motion L} {c : CallCfg K} {cfg : Island.Settings} {sl : Sleep.Settings K} {fields : List (ForceField K)}
    {tree : List (Nat × Collider K)} {world : List Nat} {fuel : Nat} {log : List Record} {evals : List (Link × Bool)}
    (h : m.step c cfg sl fields tree world fuel = some (.ok (m', log, evals))) :
    ∃ body st, applyForces fields c.dt tree m.body = .ok body ∧
      solveIslands (L.net c) cfg fuel (.of (body 0).position) ⟨0, 0⟩ world ({ m with body := body } : Motion L).start = some (.ok (st, log)) ∧ evals = st.evals ∧ m'.s = st.s ∧
      ∀ b ∈ world, m'.body b = (((body b).settle (st.body b)).rest sl c.dt (m.timeImmobile b)).1 := by
  unfold Motion.step at h
  split at h
  · simp at h
  · simp at h
  rename_i body hbody
  dsimp only at h
  split at h
  · simp at h
  · simp at h
  · simp at h
  rename_i st log' hs
  simp only [Option.some.injEq, Outcome.ok.injEq, Prod.mk.injEq] at h
  obtain ⟨h1, h2, h3⟩ := h
  subst h2 h3
  refine ⟨body, st, hbody, hs, rfl, by rw [← h1], fun b hb => ?_⟩
  rw [← h1]
  dsimp only
  rw [if_pos hb]

theorem Motion.step_of {L : Library K} {m : Motion L} {c : CallCfg K} {cfg : Island.Settings} {sl : Sleep.Settings K} {fields : List (ForceField K)}
    {tree : List (Nat × Collider K)} {world : List Nat} {fuel : Nat} {log : List Record} {body : Nat → Body K} {st : St (Pose K) (Velocity K) ((l : Link) → (L.kind l).State)}
    (h1 : applyForces fields c.dt tree m.body = .ok body)
    (h2 : solveIslands (L.net c) cfg fuel (.of (body 0).position) ⟨0, 0⟩ world ({ m with body := body } : Motion L).start = some (.ok (st, log))) :
    ∃ m', m.step c cfg sl fields tree world fuel = some (.ok (m', log, st.evals)) ∧ m'.s = st.s := by
  unfold Motion.step
  rw [h1]
  dsimp only
  rw [h2]
  exact ⟨_, rfl, rfl⟩

/-- Constraints leave the local centroids. -/
theorem Library.exchanges_local (L : Library K) (c : CallCfg K) {body : Nat → Body K} {l : Link} (h : L.Mutual body l) :
    Exchanges (L.net c) L.Fit (fun _ _ => (0 : Nat → Vec2 K)) (fun b p => Pi.single b p.1.localCentroid.offset) l := by
  refine ⟨h.1, ?_⟩
  intro ph i0 i1 s ps vs s' ps' vs' _ _ ha
  obtain ⟨e', t, hk, -, -, hp⟩ := Library.act_ok ha
  obtain ⟨⟨dv, dp, he, -⟩, -⟩ := Kind.act_acts c _ ph hk
  refine ⟨rfl, ?_⟩
  rw [hp, hp, he.local_, he.local_]

theorem Good.followed {c : Collider K} {p : MassProperties K} (h : c.Good p) (f : Vec2 K → Vec2 K) : ({ c with geom := c.geom.update f } : Collider K).Good p := h

theorem PiecesOf.followed {i : Nat} {l : List (Nat × Collider K)} {ps : List (MassProperties K)} (h : PiecesOf i l ps) (body : Nat → Body K) :
    PiecesOf i (Simu.followed l body) ps := by
  induction h with
  | nil => exact .nil
  | skip hj hg _ ih =>
    obtain ⟨q, hq⟩ := hg
    exact .skip hj ⟨q, Good.followed hq _⟩ ih
  | take hp _ ih => exact .take (Good.followed hp _) ih

theorem Motion.start_pose [LawfulTrig K] {L : Library K} {m : Motion L} {b : Nat} (h : (m.body b).position.orient.Reachable) : (m.start.body b).pos.1 = (m.body b).position := by
  show (Pose.of (m.body b).position).1 = _
  rw [Pose.of_eq (C26_rotation_wf h)]

theorem Body.settle_rest (b : Body K) (x : BodyState (Pose K) (Velocity K)) (sl : Sleep.Settings K) (dt t : K) :
    let r := ((b.settle x).rest sl dt t).1;
    r.position = x.pos.1 ∧ r.velocity = x.vel.linear ∧ r.angular = x.vel.angular ∧ r.dominance = b.dominance ∧ r.attached = b.attached ∧
      r.colliders = b.colliders.update x.pos.1.toWorldSpace.app ∧ (sl.enableSleeping = false → r.asleep = x.asleep) := by
  refine ⟨rfl, rfl, rfl, rfl, rfl, rfl, fun h => ?_⟩
  show (Sleep.update sl dt _ _ _ ⟨_, t⟩).asleep = _
  unfold Sleep.update
  rw [h]
  rfl

/-- What the two halves of a step do to a group. -/
theorem Launched.parts {L : Library K} {m m' : Motion L} {c : CallCfg K} {cfg : Island.Settings} {sl : Sleep.Settings K} {fields : List (ForceField K)}
    {tree : List (Nat × Collider K)} {world : List Nat} {fuel : Nat} {A : Link → Bool} {group : Finset Nat} {log : List Record} {evals : List (Link × Bool)}
    (hl : Launched c tree world A group m) (hcov : ∀ b ∈ group, ∀ f ∈ fields, ∀ e ∈ tree, e.1 = b → inRegion f.region e = true)
    (h : m.step c cfg sl fields tree world fuel = some (.ok (m', log, evals))) (hA : ∀ e ∈ evals, e.2 = A e.1) :
    ∃ (body : Nat → Body K) (st : St (Pose K) (Velocity K) ((l : Link) → (L.kind l).State)),
      (∀ b ∈ group, body b = { m.body b with velocity := (m.body b).velocity + (fields.map (ForceField.promised (m.body b).mass c.dt)).sum }) ∧
      Solved (L.net c) A world ({ m with body := body } : Motion L).start st log ∧ m'.s = st.s ∧
      ∀ b ∈ group, m'.body b = (((body b).settle (st.body b)).rest sl c.dt (m.timeImmobile b)).1 := by
  obtain ⟨body, st, h1, h2, rfl, h4, h5⟩ := Motion.step_ok h
  refine ⟨body, st, fun b hb => ?_, ⟨C37_library hl.made c, hl.wellFormed, ⟨fun _ => rfl, fun _ => rfl⟩, ⟨_, _, _, _, h2⟩, hA⟩, h4, fun b hb => h5 b (hl.inside b hb)⟩
  obtain ⟨ps, hw⟩ := hl.solid b hb
  obtain ⟨body', e1, e2⟩ := C30_superposition hw fields c.dt (hcov b hb) (hl.awake b hb) (hl.movable b hb)
  rw [h1] at e1
  obtain rfl := Outcome.ok.inj e1
  exact e2

/-- Force fields leave everything of a body but its velocities. -/
theorem applyForces_keeps (fields : List (ForceField K)) (dt : K) (tree : List (Nat × Collider K)) {bodies bodies' : Nat → Body K}
    (h : applyForces fields dt tree bodies = .ok bodies') (i : Nat) :
    (bodies' i).colliders = (bodies i).colliders ∧ (bodies' i).dominance = (bodies i).dominance ∧ (bodies' i).position = (bodies i).position := by
  have inner : ∀ (f : ForceField K) (l : List (Nat × Collider K)) (b b' : Nat → Body K), foldlO (applyToCollider f dt) b l = .ok b' →
      (b' i).colliders = (b i).colliders ∧ (b' i).dominance = (b i).dominance ∧ (b' i).position = (b i).position := by
    intro f l
    induction l with
    | nil => intro b b' h; cases Outcome.ok.inj h; exact ⟨rfl, rfl, rfl⟩
    | cons e l ih =>
      intro b b' h
      obtain ⟨b1, h1, h2⟩ := bind_ok_iff.1 h
      obtain ⟨k1, k2, k3⟩ := ih b1 b' h2
      have : (b1 i).colliders = (b i).colliders ∧ (b1 i).dominance = (b i).dominance ∧ (b1 i).position = (b i).position := by
        unfold applyToCollider at h1
        dsimp only at h1
        split at h1
        · obtain ⟨p, -, h3⟩ := bind_ok_iff.1 h1
          cases Outcome.ok.inj h3
          by_cases hi : i = e.1
          · subst hi
            rw [Function.update_self]
            cases f <;> exact ⟨rfl, rfl, rfl⟩
          · rw [Function.update_of_ne hi]; exact ⟨rfl, rfl, rfl⟩
        · cases Outcome.ok.inj h1; exact ⟨rfl, rfl, rfl⟩
      exact ⟨k1.trans this.1, k2.trans this.2.1, k3.trans this.2.2⟩
  unfold applyForces at h
  induction fields generalizing bodies with
  | nil => cases Outcome.ok.inj h; exact ⟨rfl, rfl, rfl⟩
  | cons f fields ih =>
    obtain ⟨b1, h1, h2⟩ := bind_ok_iff.1 h
    obtain ⟨k1, k2, k3⟩ := ih h2
    obtain ⟨j1, j2, j3⟩ := inner f _ _ _ h1
    exact ⟨k1.trans j1, k2.trans j2, k3.trans j3⟩

/-- A step keeps the masses and dominances of all bodies. -/
theorem Motion.step_masses {L : Library K} {m m' : Motion L} {c : CallCfg K} {cfg : Island.Settings} {sl : Sleep.Settings K} {fields : List (ForceField K)}
    {tree : List (Nat × Collider K)} {world : List Nat} {fuel : Nat} {log : List Record} {evals : List (Link × Bool)}
    (h : m.step c cfg sl fields tree world fuel = some (.ok (m', log, evals))) (b : Nat) :
    (m'.body b).mass = (m.body b).mass ∧ (m'.body b).inertia = (m.body b).inertia ∧ (m'.body b).dominance = (m.body b).dominance := by
  unfold Motion.step at h
  split at h
  · simp at h
  · simp at h
  rename_i body hbody
  obtain ⟨k1, k2, -⟩ := applyForces_keeps fields c.dt tree hbody b
  dsimp only at h
  split at h
  · simp at h
  · simp at h
  · simp at h
  simp only [Option.some.injEq, Outcome.ok.injEq, Prod.mk.injEq] at h
  rw [← h.1]
  dsimp only
  split
  · refine ⟨?_, ?_, k2⟩
    · show (body b).colliders.properties.m = _
      rw [k1]; rfl
    · show (body b).colliders.properties.I = _
      rw [k1]; rfl
  · exact ⟨by rw [Body.mass, k1]; rfl, by rw [Body.inertia, k1]; rfl, k2⟩

/-- The constraints stay those made for the bodies. -/
theorem Library.MadeFor.same {L : Library K} {B B' : Nat → Body K} (h : L.MadeFor B)
    (hm : ∀ b, (B' b).mass = (B b).mass ∧ (B' b).inertia = (B b).inertia ∧ (B' b).dominance = (B b).dominance) : L.MadeFor B' := by
  intro l
  obtain ⟨dom, e, h0, h1, h2⟩ := h l
  refine ⟨dom, ?_, by rw [(hm _).1]; exact h0, by rw [(hm _).1]; exact h1, h2⟩
  have : Bodies.make B' (L.bodies l).i0 (L.bodies l).i1 dom = Bodies.make B (L.bodies l).i0 (L.bodies l).i1 dom := by
    simp only [Bodies.make, Body.invMass, Body.invInertia, (hm _).1, (hm _).2.1, (hm _).2.2]
  rw [this]
  exact e

end Simu
