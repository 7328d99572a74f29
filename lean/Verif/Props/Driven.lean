import Verif.Lemmas.Driven
import Verif.Props.Standing
import Verif.Props.Tumbler
/-
C109: a motor turns a body that nothing pushes at its speed, whatever the load.
-/
namespace Simu
open Island Mat

section
variable {K : Type*} [Field K] [LinearOrder K] [IsStrictOrderedRing K] [Trig K]

/-- What the islands do to the body. -/
theorem Driven.solved {L : Library K} {m m' : Motion L} {c : CallCfg K} {cfg : Island.Settings} {sl : Sleep.Settings K} {fields : List (ForceField K)} {tree : List (Nat × Collider K)}
    {world : List Nat} {fuel : Nat} {A : Link → Bool} {log : List Record} {evals : List (Link × Bool)} {mo : Motor K 1} {b : Nat} {l : Link} (hd : Driven c world A mo b l m)
    (hit : 1 ≤ cfg.nVelocityIterations) (h : m.step c cfg sl fields tree world fuel = some (.ok (m', log, evals))) (hA : ∀ e ∈ evals, e.2 = A e.1) :
    ∃ (body : Nat → Body K) (st : St (Pose K) (Velocity K) ((l : Link) → (L.kind l).State)), body b = m.body b ∧ m'.s = st.s ∧
      (∀ b ∈ world, m'.body b = (((body b).settle (st.body b)).rest sl c.dt (m.timeImmobile b)).1) ∧ (L.bodies l).masses.I0 = 1 / (m.body b).inertia ∧
      GroupTurns L c mo b l ({ m with body := body } : Motion L).start st [⟨[b], [], true⟩] := by
  obtain ⟨body, st, h1, h2, rfl, h4, h5⟩ := Motion.step_ok h
  have hsame : body b = m.body b := applyForces_untouched (Or.inr (Or.inl hd.dominance)) h1
  have hends : (L.net c).ends l = (b, b) := by
    show ((L.bodies l).i0, (L.bodies l).i1) = _
    rw [hd.single]; rfl
  have hI : (L.bodies l).masses.I0 = 1 / (m.body b).inertia := by
    rw [hd.single]; simp [Bodies.singleBody, Bodies.make, Body.invInertia]
  have hm0 : (L.net c).structuralIn l b = false := by
    obtain ⟨-, -, hm, -⟩ := hd.made l
    rw [hd.single] at hm
    have hm : (m.body b).mass ≠ 0 := hm
    show (match (L.bodies l).isBodyStructural b with
    | .ok r => r
    | _ => false) = false
    rw [hd.single]
    simp [Bodies.singleBody, Bodies.make, Bodies.isBodyStructural, Body.invMass, hm]
  have hf : interactsAsStructural (L.net c) ({ m with body := body } : Motion L).start b = false := by
    by_contra hf
    have := ((structural_iff _ _ _).1 (by simpa using hf : interactsAsStructural (L.net c) ({ m with body := body } : Motion L).start b = true)).2 l hd.listed
    rw [hm0] at this
    cases this
  have k := solveLoop_turns (mo := mo) (C37_library hd.made c).lawful hd.wellFormed.consistent hd.sqrt hd.inside hd.listed hd.active hends (by rw [hI]; exact one_div_pos.2 hd.inertia) hf hd.others hit
    fuel (progress_start (Ready.idle ⟨fun _ => rfl, fun _ => rfl⟩)) ⟨hd.motor, fun hD => by simp at hD⟩ ⟨rfl, rfl, rfl⟩ h2 hA
  exact ⟨body, st, hsame, h4, h5, hI, k⟩

/-- C109: in a step, the motor brings a body of dominance zero as close to its speed as its torque allows. Forces, contacts and joints with other bodies have no influence, and the linear velocity does
not change. -/
theorem C109_step {L : Library K} {m m' : Motion L} {c : CallCfg K} {cfg : Island.Settings} {sl : Sleep.Settings K} {fields : List (ForceField K)} {tree : List (Nat × Collider K)}
    {world : List Nat} {fuel : Nat} {A : Link → Bool} {log : List Record} {evals : List (Link × Bool)} {mo : Motor K 1} {b : Nat} {l : Link} (hd : Driven c world A mo b l m)
    (hit : 1 ≤ cfg.nVelocityIterations) (h : m.step c cfg sl fields tree world fuel = some (.ok (m', log, evals))) (hA : ∀ e ∈ evals, e.2 = A e.1) :
    (m'.body b).angular = (m.body b).angular + Algo.clamp ((m.body b).inertia * (mo.speed - (m.body b).angular)) (mo.lo c.dt 0) (mo.hi c.dt 0) / (m.body b).inertia ∧
    (m'.body b).velocity = (m.body b).velocity ∧
    (m'.body b).position = (m.body b).position.advance (c.dt • (m'.body b).velocity) ((m'.body b).angular * c.dt) ∧
    (m'.body b).inertia = (m.body b).inertia ∧ (m'.body b).dominance = (m.body b).dominance := by
  obtain ⟨body, st, hsame, h4, h5, hI, kk⟩ := hd.solved hit h hA
  have k := kk.turned ⟨_, List.mem_singleton_self _, List.mem_singleton_self _⟩
  obtain ⟨k1, k2⟩ := k
  have ea : (m'.body b).angular = (st.body b).vel.angular := by rw [h5 b hd.inside]; rfl
  have ev : (m'.body b).velocity = (st.body b).vel.linear := by rw [h5 b hd.inside]; rfl
  have ep : (m'.body b).position = (st.body b).pos.1 := by rw [h5 b hd.inside]; rfl
  have hva : (({ m with body := body } : Motion L).start.body b).vel = ⟨(m.body b).velocity, (m.body b).angular⟩ := by
    show (⟨(body b).velocity, (body b).angular⟩ : Velocity K) = _
    rw [hsame]
  have hpo : (({ m with body := body } : Motion L).start.body b).pos = Pose.of (m.body b).position := by
    show Pose.of (body b).position = _
    rw [hsame]
  rw [hva, hI] at k1
  refine ⟨?_, ?_, ?_, ?_, ?_⟩
  · rw [ea, k1]
    simp only [div_div_eq_mul_div, div_one]
    rw [mul_comm (mo.speed - (m.body b).angular)]
    ring
  · rw [ev, k1]
  · rw [ep, ev, ea, k2, hpo]
    show ((Pose.of ((Pose.of (m.body b).position).1.advance _ _)).1 : Position K) = _
    rw [Pose.of_eq hd.orient, Pose.of_eq (Position.advance_wf _ _ _)]
  · rw [h5 b hd.inside, hsame.symm]; rfl
  · rw [h5 b hd.inside, hsame.symm]; rfl

/-- C109: after a step, the motor still turns the body. -/
theorem Driven.next {L : Library K} {m m' : Motion L} {c : CallCfg K} {cfg : Island.Settings} {sl : Sleep.Settings K} {fields : List (ForceField K)} {tree : List (Nat × Collider K)}
    {world : List Nat} {fuel : Nat} {A : Link → Bool} {log : List Record} {evals : List (Link × Bool)} {mo : Motor K 1} {b : Nat} {l : Link} (hd : Driven c world A mo b l m)
    (hit : 1 ≤ cfg.nVelocityIterations) (h : m.step c cfg sl fields tree world fuel = some (.ok (m', log, evals))) (hA : ∀ e ∈ evals, e.2 = A e.1) :
    Driven c world A mo b l m' := by
  obtain ⟨body, st, hsame, h4, h5, hI, kk⟩ := hd.solved hit h hA
  obtain ⟨-, -, k3, -⟩ := C109_step hd hit h hA
  have hm := Motion.step_masses h
  refine ⟨hd.sqrt, hd.wellFormed, hd.made.same hm, hd.inside, by rw [k3]; exact Position.advance_wf _ _ _, (hm b).2.2.trans hd.dominance, by rw [(hm b).2.1]; exact hd.inertia, ?_, hd.listed,
    by rw [h4]; exact kk.drives, hd.active, hd.others⟩
  rw [hd.single]
  simp only [Bodies.singleBody, Bodies.make, Body.invMass, Body.invInertia, (hm _).1, (hm _).2.1, (hm _).2.2]

/-- C109: without forces, the motor can turn the body for any number of steps: none of them fails. -/
theorem C109_goes_on {L : Library K} {m : Motion L} {c : CallCfg K} {cfg : Island.Settings} {sl : Sleep.Settings K} {world : List Nat} {A : Link → Bool} {mo : Motor K 1} {b : Nat} {l : Link}
    (hd : Driven c world A mo b l m) (hit : 1 ≤ cfg.nVelocityIterations) (hf : L.Firm c world m.s) (hA : ∀ b ∈ world, ∀ l ∈ linksOf (L.net c) b, (L.kind l).answer (m.s l) = A l)
    {fuel : Nat} (hfuel : 2 * world.length < fuel) (n : Nat) :
    ∃ m' : Motion L, Turned c mo n (m.body b) (m'.body b) ∧ Driven c world A mo b l m' ∧ L.Firm c world m'.s ∧ ∀ b ∈ world, ∀ l ∈ linksOf (L.net c) b, (L.kind l).answer (m'.s l) = A l := by
  induction n with
  | zero => exact ⟨m, .start _, hd, hf, hA⟩
  | succ n ih =>
    obtain ⟨m1, i1, i2, i3, i4⟩ := ih
    obtain ⟨st, log, h1, h2, h3, h4⟩ := C73_answers i2.made i2.sqrt i2.wellFormed (st := m1.start) ⟨fun _ => rfl, fun _ => rfl⟩ rfl i3 (A := A) i4 cfg (.of (m1.body 0).position) ⟨0, 0⟩ hfuel
    obtain ⟨m', hstep, hs⟩ := Motion.step_of (m := m1) (sl := sl) (fields := []) (tree := []) (body := m1.body) rfl h1
    exact ⟨m', .step i1 hit i2 hstep h4.stable, i2.next hit hstep h4.stable, by rw [hs]; exact h2, by rw [hs]; exact h3⟩

/-- C109: a body slower than the motor wants it to be gains speed evenly, with all the torque, until it has the speed of the motor. Its centroid moves on as if it were alone. -/
theorem C109_gains {c : CallCfg K} {mo : Motor K 1} {n : Nat} {x y : Body K} (h : Turned c mo n x y) (hx : x.angular ≤ mo.speed) :
    y.angular = min mo.speed (x.angular + n * (mo.hi c.dt 0 / x.inertia)) ∧ y.velocity = x.velocity ∧ y.inertia = x.inertia ∧
    y.position.centroid = x.position.centroid + (n * c.dt) • x.velocity := by
  induction h with
  | start x => exact ⟨by simp [hx], rfl, rfl, by ext <;> simp⟩
  | @step n x L m m' b l A cfg sl fields tree world fuel log evals before hit hd hs hA ih =>
    obtain ⟨i1, i2, i3, i4⟩ := ih hx
    obtain ⟨k1, k2, k3, k4, -⟩ := C109_step hd hit hs hA
    have hI := hd.inertia
    have hle : (m.body b).angular ≤ mo.speed := by rw [i1]; exact min_le_left _ _
    have hlo : mo.lo c.dt 0 ≤ 0 := min_le_left _ _
    have hhi : 0 ≤ mo.hi c.dt 0 := le_max_left _ _
    have hc : Algo.clamp ((m.body b).inertia * (mo.speed - (m.body b).angular)) (mo.lo c.dt 0) (mo.hi c.dt 0) = min ((m.body b).inertia * (mo.speed - (m.body b).angular)) (mo.hi c.dt 0) := by
      have h0 : 0 ≤ (m.body b).inertia * (mo.speed - (m.body b).angular) := mul_nonneg hI.le (sub_nonneg.2 hle)
      unfold Algo.clamp
      rw [if_neg (not_lt.2 (hlo.trans h0))]
      dsimp only
      split_ifs with h
      · exact (min_eq_right h.le).symm
      · exact (min_eq_left (not_lt.1 h)).symm
    have hmin : (m'.body b).angular = min mo.speed ((m.body b).angular + mo.hi c.dt 0 / (m.body b).inertia) := by
      rw [k1, hc, ← min_div_div_right hI.le, mul_div_cancel_left₀ _ hI.ne', ← min_add_add_left]
      congr 1; ring
    refine ⟨?_, k2.trans i2, k4.trans i3, ?_⟩
    · have hq : 0 ≤ mo.hi c.dt 0 / x.inertia := div_nonneg hhi (by rw [← i3]; exact hI.le)
      rw [hmin, i3, i1]
      rcases le_total mo.speed (x.angular + n * (mo.hi c.dt 0 / x.inertia)) with hm | hm
      · rw [min_eq_left hm, min_eq_left (by linarith), min_eq_left (by push_cast; linarith)]
      · rw [min_eq_right hm]; congr 1; push_cast; ring
    · rw [k3, Position.centroid_sum]
      rw [Position.centroid_sum] at i4
      show (m.body b).position.pos.offset + c.dt • (m'.body b).velocity + (m.body b).position.localCentroid.offset = _
      rw [k2, i2]
      have : (m.body b).position.pos.offset + c.dt • x.velocity + (m.body b).position.localCentroid.offset = ((m.body b).position.pos.offset + (m.body b).position.localCentroid.offset) + c.dt • x.velocity := by
        ext <;> simp <;> ring
      rw [this, i4]
      ext <;> simp <;> ring

/-- C109: a body faster than the motor wants it to be loses speed in the same way, until it has the speed of the motor. Its centroid moves on as if it were alone. -/
theorem C109_loses {c : CallCfg K} {mo : Motor K 1} {n : Nat} {x y : Body K} (h : Turned c mo n x y) (hx : mo.speed ≤ x.angular) :
    y.angular = max mo.speed (x.angular + n * (mo.lo c.dt 0 / x.inertia)) ∧ y.velocity = x.velocity ∧ y.inertia = x.inertia ∧
    y.position.centroid = x.position.centroid + (n * c.dt) • x.velocity := by
  induction h with
  | start x => exact ⟨by simp [hx], rfl, rfl, by ext <;> simp⟩
  | @step n x L m m' b l A cfg sl fields tree world fuel log evals before hit hd hs hA ih =>
    obtain ⟨i1, i2, i3, i4⟩ := ih hx
    obtain ⟨k1, k2, k3, k4, -⟩ := C109_step hd hit hs hA
    have hI := hd.inertia
    have hle : mo.speed ≤ (m.body b).angular := by rw [i1]; exact le_max_left _ _
    have hlo : mo.lo c.dt 0 ≤ 0 := min_le_left _ _
    have hhi : 0 ≤ mo.hi c.dt 0 := le_max_left _ _
    have hc : Algo.clamp ((m.body b).inertia * (mo.speed - (m.body b).angular)) (mo.lo c.dt 0) (mo.hi c.dt 0) = max ((m.body b).inertia * (mo.speed - (m.body b).angular)) (mo.lo c.dt 0) := by
      have h0 : (m.body b).inertia * (mo.speed - (m.body b).angular) ≤ 0 := mul_nonpos_of_nonneg_of_nonpos hI.le (sub_nonpos.2 hle)
      unfold Algo.clamp
      by_cases h : (m.body b).inertia * (mo.speed - (m.body b).angular) < mo.lo c.dt 0
      · rw [if_pos h, max_eq_right h.le]
        exact if_neg (not_lt.2 (hlo.trans hhi))
      · rw [if_neg h, max_eq_left (not_lt.1 h)]
        exact if_neg (not_lt.2 (h0.trans hhi))
    have hmin : (m'.body b).angular = max mo.speed ((m.body b).angular + mo.lo c.dt 0 / (m.body b).inertia) := by
      rw [k1, hc, ← max_div_div_right hI.le, mul_div_cancel_left₀ _ hI.ne', ← max_add_add_left]
      congr 1; ring
    refine ⟨?_, k2.trans i2, k4.trans i3, ?_⟩
    · have hq : mo.lo c.dt 0 / x.inertia ≤ 0 := div_nonpos_of_nonpos_of_nonneg hlo (by rw [← i3]; exact hI.le)
      rw [hmin, i3, i1]
      rcases le_total (x.angular + n * (mo.lo c.dt 0 / x.inertia)) mo.speed with hm | hm
      · rw [max_eq_left hm, max_eq_left (by linarith), max_eq_left (by push_cast; linarith)]
      · rw [max_eq_right hm]; congr 1; push_cast; ring
    · rw [k3, Position.centroid_sum]
      rw [Position.centroid_sum] at i4
      show (m.body b).position.pos.offset + c.dt • (m'.body b).velocity + (m.body b).position.localCentroid.offset = _
      rw [k2, i2]
      have : (m.body b).position.pos.offset + c.dt • x.velocity + (m.body b).position.localCentroid.offset = ((m.body b).position.pos.offset + (m.body b).position.localCentroid.offset) + c.dt • x.velocity := by
        ext <;> simp <;> ring
      rw [this, i4]
      ext <;> simp <;> ring

/-- C109: if the torque suffices to reach the speed in one step, the body has it after every step and turns by the same angle each time, however often, whatever it carries; at rest, it turns around its
centroid, which does not move. -/
theorem C109_turns {c : CallCfg K} {mo : Motor K 1} {n : Nat} {x y : Body K} (h : Turned c mo n x y) (hlo : mo.lo c.dt 0 ≤ x.inertia * (mo.speed - x.angular))
    (hhi : x.inertia * (mo.speed - x.angular) ≤ mo.hi c.dt 0) :
    (n ≠ 0 → y.angular = mo.speed) ∧ y.position.orient.theta = x.position.orient.theta + n * (mo.speed * c.dt) ∧ y.velocity = x.velocity ∧ y.inertia = x.inertia ∧
    y.position.centroid = x.position.centroid + (n * c.dt) • x.velocity := by
  induction h with
  | start x => exact ⟨by simp, by simp, rfl, rfl, by ext <;> simp⟩
  | @step n x L m m' b l A cfg sl fields tree world fuel log evals before hit hd hs hA ih =>
    obtain ⟨i1, i2, i3, i4, i5⟩ := ih hlo hhi
    obtain ⟨k1, k2, k3, k4, -⟩ := C109_step hd hit hs hA
    have hI := hd.inertia
    have hc : Algo.clamp ((m.body b).inertia * (mo.speed - (m.body b).angular)) (mo.lo c.dt 0) (mo.hi c.dt 0) = (m.body b).inertia * (mo.speed - (m.body b).angular) := by
      have hl : mo.lo c.dt 0 ≤ (m.body b).inertia * (mo.speed - (m.body b).angular) ∧ (m.body b).inertia * (mo.speed - (m.body b).angular) ≤ mo.hi c.dt 0 := by
        by_cases hn : n = 0
        · subst hn
          cases before
          exact ⟨hlo, hhi⟩
        · rw [i1 hn, sub_self, mul_zero]
          exact ⟨min_le_left _ _, le_max_left _ _⟩
      unfold Algo.clamp
      rw [if_neg (not_lt.2 hl.1), if_neg (not_lt.2 hl.2)]
    have hang : (m'.body b).angular = mo.speed := by
      rw [k1, hc, mul_div_cancel_left₀ _ hI.ne']; ring
    refine ⟨fun _ => hang, ?_, k2.trans i3, k4.trans i4, ?_⟩
    · rw [k3, hang]
      show (m.body b).position.orient.theta + mo.speed * c.dt = _
      rw [i2]; push_cast; ring
    · rw [k3, Position.centroid_sum]
      rw [Position.centroid_sum] at i5
      show (m.body b).position.pos.offset + c.dt • (m'.body b).velocity + (m.body b).position.localCentroid.offset = _
      rw [k2, i3]
      have : (m.body b).position.pos.offset + c.dt • x.velocity + (m.body b).position.localCentroid.offset = ((m.body b).position.pos.offset + (m.body b).position.localCentroid.offset) + c.dt • x.velocity := by
        ext <;> simp <;> ring
      rw [this, i5]
      ext <;> simp <;> ring

/-- C49, C109: a rotation motor specified by a speed and an acceleration gives its body this acceleration until it has the speed. With a target inertia, it gives it to bodies of that inertia; others
are accelerated in proportion. -/
theorem C49_accelerates {c : CallCfg K} (hdt : 0 ≤ c.dt) {target : Option K} {v a : K} (hv : 0 ≤ v) (ha : 0 ≤ a) (ht : ∀ t, target = some t → 0 ≤ t) {x y : Body K} (hI : 0 < x.inertia)
    {mo : Motor K 1} (hm : rotationMotorOf x (.fromAccel v a target) = .ok mo) {n : Nat} (h : Turned c { mo with direction := Mat.ofFn fun _ => 1 } n x y) (hx : x.angular ≤ v) :
    y.angular = min v (x.angular + n * (a * (target.getD x.inertia / x.inertia) * c.dt)) := by
  have key : mo.throttle = 1 ∧ mo.maxVelocity = v ∧ mo.maxForce = a * target.getD x.inertia := by
    cases target with
    | none =>
      cases hm
      exact ⟨rfl, abs_of_nonneg hv, abs_of_nonneg (mul_nonneg ha hI.le)⟩
    | some t =>
      cases hm
      exact ⟨rfl, abs_of_nonneg hv, abs_of_nonneg (mul_nonneg ha (ht t rfl))⟩
  obtain ⟨k1, k2, k3⟩ := key
  have hs : ({ mo with direction := Mat.ofFn fun _ => 1 } : Motor K 1).speed = v := by simp [Motor.speed, k2]
  have h0 : 0 ≤ target.getD x.inertia := by
    cases target with
    | none => exact hI.le
    | some t => exact ht t rfl
  have hh : ({ mo with direction := Mat.ofFn fun _ => 1 } : Motor K 1).hi c.dt 0 = a * target.getD x.inertia * c.dt := by
    simp only [Motor.hi, k1, k3, at_ofFn, one_mul]
    exact max_eq_right (mul_nonneg (mul_nonneg ha h0) hdt)
  rw [(C109_gains h (by rw [hs]; exact hx)).1, hs, hh]
  congr 2
  ring

/-- What does not change. -/
theorem Turned.shape {c : CallCfg K} {mo : Motor K 1} {n : Nat} {x y : Body K} (h : Turned c mo n x y) (hx : x.position.orient.WF) :
    y.position.orient.WF ∧ y.position.localCentroid = x.position.localCentroid := by
  induction h with
  | start x => exact ⟨hx, rfl⟩
  | step before hit hd hs hA ih =>
    obtain ⟨-, i2⟩ := ih hx
    obtain ⟨-, -, k3, -⟩ := C109_step hd hit hs hA
    exact ⟨by rw [k3]; exact Position.advance_wf _ _ _, by rw [k3]; exact i2⟩

end

/-- C109: if the body rests and the torque suffices, each point of the body goes around the centroid, by the angle of the motor in each step. -/
theorem C109_points {c : CallCfg ℝ} {mo : Motor ℝ 1} {n : Nat} {x y : Body ℝ} (h : Turned c mo n x y) (hlo : mo.lo c.dt 0 ≤ x.inertia * (mo.speed - x.angular))
    (hhi : x.inertia * (mo.speed - x.angular) ≤ mo.hi c.dt 0) (hx : x.position.orient.WF) (hv : x.velocity = 0) (p : Vec2 ℝ) :
    y.position.toWorldSpace.app p = rotateAbout (Real.cos (n * (mo.speed * c.dt))) (Real.sin (n * (mo.speed * c.dt))) x.position.centroid (x.position.toWorldSpace.app p) := by
  obtain ⟨-, t, -, -, e⟩ := C109_turns h hlo hhi
  obtain ⟨⟨w1, w2⟩, w3⟩ := h.shape hx
  have w1 : y.position.orient.cosine = Real.cos y.position.orient.theta := w1
  have w2 : y.position.orient.sine = Real.sin y.position.orient.theta := w2
  have x1 : x.position.orient.cosine = Real.cos x.position.orient.theta := hx.1
  have x2 : x.position.orient.sine = Real.sin x.position.orient.theta := hx.2
  rw [hv, Position.centroid_sum, Position.centroid_sum, w3] at e
  have ex := congrArg Vec2.x e
  have ey := congrArg Vec2.y e
  simp at ex ey
  rw [Position.centroid_sum]
  ext <;> simp only [Position.toWorldSpace, Transform.app, Transform.mulTranslation, Translation.mulRotation, Translation.mul, Translation.inverse, Rotation.app, rotateAbout,
      w1, w2, x1, x2, t, w3, Real.cos_add, Real.sin_add, Vec2.add_x, Vec2.add_y, Vec2.neg_x, Vec2.neg_y, Vec2.sub_x, Vec2.sub_y, ex, ey] <;> ring

/-- C109: after a whole number of turns, every point is where it was. -/
theorem C109_round {c : CallCfg ℝ} {mo : Motor ℝ 1} {n : Nat} {x y : Body ℝ} (h : Turned c mo n x y) (hlo : mo.lo c.dt 0 ≤ x.inertia * (mo.speed - x.angular))
    (hhi : x.inertia * (mo.speed - x.angular) ≤ mo.hi c.dt 0) (hx : x.position.orient.WF) (hv : x.velocity = 0) (k : ℤ) (hk : n * (mo.speed * c.dt) = k * (2 * Real.pi)) (p : Vec2 ℝ) :
    y.position.toWorldSpace.app p = x.position.toWorldSpace.app p := by
  rw [C109_points h hlo hhi hx hv, hk, Real.cos_int_mul_two_pi]
  have : Real.sin (k * (2 * Real.pi)) = 0 := by
    have := Real.sin_int_mul_pi (k * 2)
    push_cast at this
    rwa [mul_assoc] at this
  rw [this]
  ext <;> simp [rotateAbout]

theorem Tumbler.drum_wf {b : Body ℝ} (hb : Tumbler.drum = .ok b) : b.position.orient.WF := by
  obtain ⟨b', k1, -, -, -, -, -, ⟨o, k7⟩, -⟩ := Tumbler.addWalls_ok Tumbler.walls (by simp [Tumbler.walls]) (b := Body.born 0 0 0) (ps := [])
    ⟨⟨.nil, rfl⟩, fun h => absurd rfl h, .ofAngle _, rfl⟩ (Body.update_synced _) 0
  have e : b' = b := Outcome.ok.inj (k1.symm.trans hb)
  rw [← e, k7]
  exact ⟨rfl, rfl⟩

/-- C109: the drum of the demonstration Tumbler (C108; the motor of Tumbler.cpp:79-83) turns once in 40 seconds, whatever is in it: after every 2400 steps of a 60th of a second it is where it was. -/
theorem C109_tumbler {c : CallCfg ℝ} (hdt : c.dt = 1 / 60) {b y : Body ℝ} (hb : Tumbler.drum = .ok b) {n : Nat}
    (h : Turned c ⟨1, Mat.ofFn fun _ => -1, 5 / 100 * Real.pi, 100000000⟩ (2400 * n) b y) (p : Vec2 ℝ) : y.position.toWorldSpace.app p = b.position.toWorldSpace.app p := by
  obtain ⟨b', h1, -, h3, -, h5, h6, -⟩ := Tumbler.C108_drum
  cases Outcome.ok.inj (h1.symm.trans hb)
  have hI : b.inertia = 160100 / 3 := h3
  have ha : b.angular = 0 := h6
  have hs : (⟨1, Mat.ofFn fun _ => -1, 5 / 100 * Real.pi, 100000000⟩ : Motor ℝ 1).speed = -(5 / 100 * Real.pi) := by simp [Motor.speed]
  have h3 := Real.pi_pos
  have h4 := Real.pi_le_four
  refine C109_round h ?_ ?_ ?_ h5 (-n) ?_ p
  · rw [hI, ha, hs, hdt]
    refine (min_le_right _ _).trans ?_
    simp
    nlinarith
  · rw [hI, ha, hs, hdt]
    refine le_trans ?_ (le_max_left _ _)
    nlinarith
  · exact Tumbler.drum_wf hb
  · rw [hs, hdt]; push_cast; ring

/-! ### A wheel that pulls a cart -/
section

/-- The cart (0) moves; the wheel (1) has dominance zero. -/
noncomputable def wheelBody (b : Nat) : Body ℝ :=
  ⟨.make ⟨2 * b, 0⟩ 0 0, if b = 0 then ⟨3, 1⟩ else 0, 0, ⟨[], ⟨4, 8 / 3, 0⟩⟩, if b = 0 then 1 else 0, false, true⟩

/-- A motor that turns at half a radian per second, in the direction `d`. -/
noncomputable def wheelMotor (d force : ℝ) : Motor ℝ 1 := ⟨1, Mat.ofFn fun _ => d, 1 / 2, force⟩

/-- The cart and the wheel are hinged; the wheel has a motor. -/
noncomputable def wheelLib (d force : ℝ) : Library ℝ where
  kind := fun
    | .joint 1 => .equality 1 (rotationMotor (wheelMotor d force))
    | _ => .equality 2 (hingeFun ⟨1, 0⟩ ⟨-1, 0⟩)
  bodies := fun
    | .joint 1 => Bodies.singleBody wheelBody 1
    | _ => Bodies.make wheelBody 0 1 none
  joints := fun
    | 0 => [0]
    | 1 => [0, 1]
    | _ => []
  contacts _ := []

noncomputable def wheel (d force : ℝ) : Motion (wheelLib d force) where
  body := wheelBody
  timeImmobile _ := 0
  s := fun
    | .joint 0 => (⟨SolverBase.init, ⟨false, fun _ => .throw⟩⟩ : EqualitySolver ℝ 2)
    | .joint 1 => (⟨SolverBase.init, ⟨false, fun _ => .throw⟩⟩ : EqualitySolver ℝ 1)
    | .joint (_ + 2) => (⟨SolverBase.init, ⟨false, fun _ => .throw⟩⟩ : EqualitySolver ℝ 2)
    | .contact _ => (⟨SolverBase.init, ⟨false, fun _ => .throw⟩⟩ : EqualitySolver ℝ 2)

theorem wheel_links (d force : ℝ) (b : Nat) (l : Link) (h : l ∈ linksOf ((wheelLib d force).net libCfg) b) : (b = 0 ∧ l = .joint 0) ∨ (b = 1 ∧ (l = .joint 0 ∨ l = .joint 1)) := by
  have hj : ((wheelLib d force).net libCfg).joints = (wheelLib d force).joints := rfl
  have hc : ((wheelLib d force).net libCfg).contacts = (wheelLib d force).contacts := rfl
  unfold linksOf at h
  rw [hj, hc] at h
  rcases b with _ | _ | b <;> simp [wheelLib] at h ⊢ <;> exact h

theorem wheel_masses (d force : ℝ) : ((wheelLib d force).bodies (.joint 0)).masses = ⟨1 / 4, 3 / 8, 0, 0⟩ ∧ ((wheelLib d force).bodies (.joint 1)).masses = ⟨1 / 4, 3 / 8, 1 / 4, 3 / 8⟩ := by
  have e0 : ∀ b, (wheelBody b).mass = 4 := fun b => rfl
  have e1 : ∀ b, (wheelBody b).inertia = 8 / 3 := fun b => rfl
  have e2 : (wheelBody 0).dominance = 1 := by simp [wheelBody]
  have e3 : (wheelBody 1).dominance = 0 := by simp [wheelBody]
  constructor <;> simp [wheelLib, Bodies.singleBody, Bodies.make, Body.invMass, Body.invInertia, e0, e1, e2, e3]

/-- C109: the wheel pulls the cart. -/
theorem wheel_driven (d force : ℝ) : Driven libCfg [0, 1] (fun _ => true) (wheelMotor d force) 1 (.joint 1) (wheel d force) ∧ (wheelLib d force).Firm libCfg [0, 1] (wheel d force).s := by
  obtain ⟨m0, m1⟩ := wheel_masses d force
  have s0 : ((wheelLib d force).net libCfg).structuralIn (.joint 0) 0 = false := by
    show (match ((wheelLib d force).bodies (.joint 0)).isBodyStructural 0 with | .ok r => r | _ => false) = false
    unfold Bodies.isBodyStructural
    rw [m0]
    simp [wheelLib, Bodies.make]
  have s1 : ((wheelLib d force).net libCfg).structuralIn (.joint 0) 1 = true := by
    show (match ((wheelLib d force).bodies (.joint 0)).isBodyStructural 1 with | .ok r => r | _ => false) = true
    unfold Bodies.isBodyStructural
    rw [m0]
    simp [wheelLib, Bodies.make]
  have s2 : ((wheelLib d force).net libCfg).structuralIn (.joint 1) 1 = false := by
    show (match ((wheelLib d force).bodies (.joint 1)).isBodyStructural 1 with | .ok r => r | _ => false) = false
    unfold Bodies.isBodyStructural
    rw [m1]
    simp [wheelLib, Bodies.singleBody, Bodies.make]
  have e0 : ((wheelLib d force).net libCfg).ends (.joint 0) = (0, 1) := rfl
  have e1 : ((wheelLib d force).net libCfg).ends (.joint 1) = (1, 1) := rfl
  have hlist : Link.joint 0 ∈ linksOf ((wheelLib d force).net libCfg) 0 ∧ Link.joint 0 ∈ linksOf ((wheelLib d force).net libCfg) 1 ∧ Link.joint 1 ∈ linksOf ((wheelLib d force).net libCfg) 1 := by
    simp [linksOf, Library.net, wheelLib]
  have four : ∀ b, (wheelBody b).mass ≠ 0 := fun b => by show (4 : ℝ) ≠ 0; norm_num
  refine ⟨⟨sqrt_lawful, ⟨fun b _ l h => ?_, fun b _ l h => ?_, fun b _ l h => ?_, fun b _ l h => ?_⟩, fun l => ?_, by simp, ⟨rfl, rfl⟩, by simp [wheel, wheelBody], ?_, rfl, hlist.2.2, ⟨rfl, rfl⟩, rfl,
    fun k hk hne => ?_⟩, fun b _ l h => ?_⟩
  · rcases wheel_links d force b l h with ⟨rfl, rfl⟩ | ⟨rfl, rfl | rfl⟩ <;> simp [e0, e1]
  · rcases wheel_links d force b l h with ⟨rfl, rfl⟩ | ⟨rfl, rfl | rfl⟩ <;> simp [e0, e1]
  · rcases wheel_links d force b l h with ⟨rfl, rfl⟩ | ⟨rfl, rfl | rfl⟩ <;> simp only [e0, e1] <;> simp [hlist]
  · rcases wheel_links d force b l h with ⟨rfl, rfl⟩ | ⟨rfl, rfl | rfl⟩ <;> simp only [e0, e1]
    · exact Or.inl s0
    · exact Or.inl s0
    · exact Or.inl s2
  · by_cases hl : l = .joint 1
    · subst hl
      exact ⟨_, rfl, four _, four _, by simp⟩
    · have : (wheelLib d force).bodies l = Bodies.make wheelBody 0 1 none := by
        unfold wheelLib
        dsimp only
        split
        · exact absurd rfl hl
        · rfl
      rw [this]
      exact ⟨none, rfl, four _, four _, by simp⟩
  · show (0 : ℝ) < 8 / 3
    norm_num
  · rcases wheel_links d force 1 k hk with ⟨h, -⟩ | ⟨-, rfl | rfl⟩
    · cases h
    · exact s1
    · exact absurd rfl hne
  · have n0 : (⟨1 / 4, 3 / 8, 0, 0⟩ : InvMasses ℝ).Nonneg := by constructor <;> norm_num
    have n1 : (⟨1 / 4, 3 / 8, 1 / 4, 3 / 8⟩ : InvMasses ℝ).Nonneg := by constructor <;> norm_num
    have k0 : (Kind.equality 2 (hingeFun ⟨1, 0⟩ ⟨-1, 0⟩)).Firm (⟨1 / 4, 3 / 8, 0, 0⟩ : InvMasses ℝ) ((wheel d force).s (.joint 0)) :=
      ⟨(C73_effective sqrt_lawful n0).2.1 _ _ (Or.inl (by norm_num)), fun r => le_of_eq (Mat.at_zero r).symm⟩
    have k1 : (Kind.equality 1 (rotationMotor (wheelMotor d force))).Firm (⟨1 / 4, 3 / 8, 1 / 4, 3 / 8⟩ : InvMasses ℝ) ((wheel d force).s (.joint 1)) :=
      ⟨(C73_effective sqrt_lawful n1).2.2.2.1 _ (by norm_num), fun r => le_of_eq (Mat.at_zero r).symm⟩
    rcases wheel_links d force b l h with ⟨rfl, rfl⟩ | ⟨rfl, rfl | rfl⟩
    · exact ⟨by rw [m0]; exact n0, by rw [m0]; exact k0⟩
    · exact ⟨by rw [m0]; exact n0, by rw [m0]; exact k0⟩
    · exact ⟨by rw [m1]; exact n1, by rw [m1]; exact k1⟩

theorem wheel_turned (d force : ℝ) (n : Nat) : ∃ m' : Motion (wheelLib d force), Turned libCfg (wheelMotor d force) n (wheelBody 1) (m'.body 1) := by
  obtain ⟨hd, hf⟩ := wheel_driven d force
  obtain ⟨m', h, -⟩ := C109_goes_on hd (cfg := ⟨8, 2, true⟩) (sl := ⟨true, 1, 1, 1⟩) (by decide) hf
    (fun b _ l h => by rcases wheel_links d force b l h with ⟨rfl, rfl⟩ | ⟨rfl, rfl | rfl⟩ <;> rfl) (fuel := 5) (by decide) n
  exact ⟨m', h⟩

/-- C109: with force 100 the wheel has its speed at once; after ten seconds it has turned by 5. -/
example : ∃ m' : Motion (wheelLib 1 100), Turned libCfg (wheelMotor 1 100) 600 (wheelBody 1) (m'.body 1) ∧ (m'.body 1).angular = 1 / 2 ∧ (m'.body 1).position.orient.theta = 5 ∧
    (m'.body 1).position.centroid = (wheelBody 1).position.centroid := by
  obtain ⟨m', h⟩ := wheel_turned 1 100 600
  have hI : (wheelBody 1).inertia = 8 / 3 := rfl
  have ha : (wheelBody 1).angular = 0 := rfl
  have hv : (wheelBody 1).velocity = 0 := by simp [wheelBody]
  have ht : (wheelBody 1).position.orient.theta = 0 := rfl
  have hs : (wheelMotor 1 100).speed = 1 / 2 := by simp [Motor.speed, wheelMotor]
  obtain ⟨a, b, -, -, e⟩ := C109_turns h (by rw [hI, ha, hs]; norm_num [Motor.lo, wheelMotor, libCfg]) (by rw [hI, ha, hs]; norm_num [Motor.hi, wheelMotor, libCfg])
  refine ⟨m', h, (a (by decide)).trans hs, ?_, ?_⟩
  · rw [b, ht, hs]; norm_num [libCfg]
  · rw [e, hv]; ext <;> simp

/-- C109: with force 60 it gains three quarters of its speed in the first step. -/
example : ∃ m' : Motion (wheelLib 1 60), Turned libCfg (wheelMotor 1 60) 1 (wheelBody 1) (m'.body 1) ∧ (m'.body 1).angular = 3 / 8 := by
  obtain ⟨m', h⟩ := wheel_turned 1 60 1
  have hI : (wheelBody 1).inertia = 8 / 3 := rfl
  have ha : (wheelBody 1).angular = 0 := rfl
  have hs : (wheelMotor 1 60).speed = 1 / 2 := by simp [Motor.speed, wheelMotor]
  refine ⟨m', h, ?_⟩
  rw [(C109_gains h (by rw [ha, hs]; norm_num)).1, hI, ha, hs]
  norm_num [Motor.hi, wheelMotor, libCfg]

/-- C49, C109: the motor of force 60 is that with an acceleration of 22.5, or with one of 30 for bodies of inertia 2. -/
example : (∃ mo, rotationMotorOf (wheelBody 1) (.fromAccel (1 / 2) (45 / 2) none) = .ok mo ∧ { mo with direction := Mat.ofFn fun _ => 1 } = wheelMotor 1 60) ∧
    ∃ mo, rotationMotorOf (wheelBody 1) (.fromAccel (1 / 2) 30 (some 2)) = .ok mo ∧ { mo with direction := Mat.ofFn fun _ => 1 } = wheelMotor 1 60 := by
  have hI : (wheelBody 1).inertia = 8 / 3 := rfl
  refine ⟨⟨_, rfl, ?_⟩, ⟨_, rfl, ?_⟩⟩ <;> simp [Motor.make, wheelMotor, MotorSpecs.fromAccel, MotorSpecs.fromForce, hI] <;> norm_num [abs_of_pos]

/-- C109: in the other direction. -/
example : ∃ m' : Motion (wheelLib (-1) 60), Turned libCfg (wheelMotor (-1) 60) 1 (wheelBody 1) (m'.body 1) ∧ (m'.body 1).angular = -3 / 8 := by
  obtain ⟨m', h⟩ := wheel_turned (-1) 60 1
  have hI : (wheelBody 1).inertia = 8 / 3 := rfl
  have ha : (wheelBody 1).angular = 0 := rfl
  have hs : (wheelMotor (-1) 60).speed = -(1 / 2) := by simp [Motor.speed, wheelMotor]
  refine ⟨m', h, ?_⟩
  rw [(C109_loses h (by rw [ha, hs]; norm_num)).1, hI, ha, hs]
  norm_num [Motor.lo, wheelMotor, libCfg]

/-- The motor of the demonstration Tumbler, for the drum `b`. -/
noncomputable def drumLib (b : Body ℝ) : Library ℝ where
  kind _ := .equality 1 (rotationMotor ⟨1, Mat.ofFn fun _ => -1, 5 / 100 * Real.pi, 100000000⟩)
  bodies _ := Bodies.singleBody (fun _ => b) 0
  joints := fun
    | 0 => [0]
    | _ => []
  contacts _ := []

/-- C109: the drum turns, however long, and comes back after each turn. -/
example (n : Nat) : ∃ (b : Body ℝ) (m' : Motion (drumLib b)), Tumbler.drum = .ok b ∧
    Turned libCfg ⟨1, Mat.ofFn fun _ => -1, 5 / 100 * Real.pi, 100000000⟩ (2400 * n) b (m'.body 0) ∧ ∀ p, (m'.body 0).position.toWorldSpace.app p = b.position.toWorldSpace.app p := by
  obtain ⟨b, h1, h2, h3, -, -, -, h7, -⟩ := Tumbler.C108_drum
  let m : Motion (drumLib b) := ⟨fun _ => b, fun _ => 0, fun _ => (⟨SolverBase.init, ⟨false, fun _ => .throw⟩⟩ : EqualitySolver ℝ 1)⟩
  have hw : b.position.orient.WF := Tumbler.drum_wf h1
  have hmass : ∀ l, ((drumLib b).bodies l).masses = ⟨1 / 400, 3 / 160100, 1 / 400, 3 / 160100⟩ := fun l => by
    simp [drumLib, Bodies.singleBody, Bodies.make, Body.invMass, Body.invInertia, h2, h3]
  have hl : ∀ k l, l ∈ linksOf ((drumLib b).net libCfg) k → k = 0 ∧ l = .joint 0 := fun k l h => by
    rcases k with _ | k <;> simp [linksOf, Library.net, drumLib] at h ⊢ <;> exact h
  have hmem : Link.joint 0 ∈ linksOf ((drumLib b).net libCfg) 0 := by simp [linksOf, Library.net, drumLib]
  have hst : ((drumLib b).net libCfg).structuralIn (.joint 0) 0 = false := by
    show (match ((drumLib b).bodies (.joint 0)).isBodyStructural 0 with | .ok r => r | _ => false) = false
    unfold Bodies.isBodyStructural
    rw [hmass]
    simp [drumLib, Bodies.singleBody, Bodies.make]
  have hn : (⟨1 / 400, 3 / 160100, 1 / 400, 3 / 160100⟩ : InvMasses ℝ).Nonneg := by constructor <;> norm_num
  have hd : Driven libCfg [0] (fun _ => true) ⟨1, Mat.ofFn fun _ => -1, 5 / 100 * Real.pi, 100000000⟩ 0 (.joint 0) m := by
    have own : ∀ k l, l ∈ linksOf ((drumLib b).net libCfg) k → ((drumLib b).net libCfg).ends l = (0, 0) := fun _ _ _ => rfl
    refine ⟨sqrt_lawful, ⟨fun k _ l h => ?_, fun k _ l h => ?_, fun k _ l h => ?_, fun k _ l h => ?_⟩, fun l => ⟨_, rfl, ?_, ?_, by simp⟩, by simp, hw, h7, ?_, rfl, hmem, ⟨rfl, rfl⟩, rfl,
      fun k hk hne => absurd (hl 0 k hk).2 hne⟩
    · rw [own k l h]; exact Or.inl (hl k l h).1
    · rw [own k l h]; simp
    · rw [own k l h, (hl k l h).2]; exact ⟨hmem, hmem⟩
    · rw [own k l h, (hl k l h).2]; exact Or.inl hst
    · show b.mass ≠ 0
      rw [h2]; norm_num
    · show b.mass ≠ 0
      rw [h2]; norm_num
    · show 0 < b.inertia
      rw [h3]; norm_num
  obtain ⟨m', h, -⟩ := C109_goes_on hd (cfg := ⟨8, 2, true⟩) (sl := ⟨true, 1, 1, 1⟩) (by decide)
    (fun k _ l _ => by rw [hmass]; exact ⟨hn, (C73_effective sqrt_lawful hn).2.2.2.1 _ (by norm_num), fun r => le_of_eq (Mat.at_zero r).symm⟩) (fun _ _ _ _ => rfl) (fuel := 5) (by decide) (2400 * n)
  exact ⟨b, m', h1, h, C109_tumbler (by norm_num [libCfg]) h1 h⟩

end
end Simu
