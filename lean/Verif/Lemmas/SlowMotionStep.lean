import Verif.Lemmas.SlowMotionContact
import Verif.Lemmas.StepHeavier
/-
A step of bodies that are all faster by the same factor.
-/
namespace Simu
open Island Mat

section
variable {K : Type*} [Field K] [LinearOrder K] [IsStrictOrderedRing K] [Trig K] {p : Proxies K} {s t s1 t1 : SolveState K} {σ : K}

theorem Kind.act_faster {x y : Σ k : Kind K, k.State} (hσ : 0 < σ) (hm : Kind.Faster σ x y) {c : CallCfg K} (hl : ∀ x, 0 ≤ x → c.sqrt x * c.sqrt x = x) (ph : Phase)
    (hs : SeesFaster σ p s t) {e1 : x.1.State} {f1 : y.1.State} (h1 : x.1.act c ph p x.2 s = .ok (e1, s1)) (h2 : y.1.act (c.faster σ) ph p y.2 t = .ok (f1, t1)) :
    Kind.Faster σ ⟨x.1, e1⟩ ⟨y.1, f1⟩ ∧ SeesFaster σ p s1 t1 := by
  have h0 : σ ≠ 0 := hσ.ne'
  cases hm with
  | @equality n f f' hf e =>
    obtain ⟨k1, k2, k3, k4⟩ := EqualitySolver.fast h0 hf hs hl c.dt e
    suffices h : f1 = EqualitySolver.faster e1 σ ∧ SeesFaster σ p s1 t1 by
      obtain ⟨h, h'⟩ := h
      subst h
      exact ⟨.equality hf _, h'⟩
    cases ph
    · obtain ⟨a, ha, h1⟩ := bind_ok_iff.1 h1
      obtain ⟨b, hb, h2⟩ := bind_ok_iff.1 h2
      cases Outcome.ok.inj h1
      cases Outcome.ok.inj h2
      dsimp only at hb ha
      rw [show (c.faster σ).sqrt = c.sqrt from rfl, k1, ha] at hb
      exact ⟨(Outcome.ok.inj hb).symm, hs⟩
    · exact k2 _ _ h1 h2
    · exact k3 _ _ h1 h2
    · exact k4 _ _ h1 h2
  | @inequality f f' hf e =>
    obtain ⟨k1, k2, k3, k4⟩ := InequalitySolver.fast (sqrt := c.sqrt) hf hs c.epsilon c.fuel c.dt e
    suffices h : f1 = InequalitySolver.faster e1 σ ∧ SeesFaster σ p s1 t1 by
      obtain ⟨h, h'⟩ := h
      subst h
      exact ⟨.inequality hf _, h'⟩
    cases ph
    · cases Outcome.ok.inj h1
      cases Outcome.ok.inj h2
      exact ⟨k1, hs⟩
    · exact k2 _ _ h1 h2
    · exact k3 _ _ h1 h2
    · exact k4 _ _ h1 h2
  | @limits f f' hf e =>
    obtain ⟨-, k1, k2, k3, k4⟩ := LimitsSolver.fast hσ hf hs hl c.epsilon c.fuel c.dt e
    suffices h : f1 = LimitsSolver.faster e1 σ ∧ SeesFaster σ p s1 t1 by
      obtain ⟨h, h'⟩ := h
      subst h
      exact ⟨.limits hf _, h'⟩
    cases ph
    · obtain ⟨a, ha, h1⟩ := bind_ok_iff.1 h1
      obtain ⟨b, hb, h2⟩ := bind_ok_iff.1 h2
      cases Outcome.ok.inj h1
      cases Outcome.ok.inj h2
      dsimp only at hb ha
      rw [show (c.faster σ).sqrt = c.sqrt from rfl, k1, ha] at hb
      exact ⟨(Outcome.ok.inj hb).symm, hs⟩
    · exact k2 _ _ h1 h2
    · exact k3 _ _ h1 h2
    · exact k4 _ _ h1 h2
  | @mouse f f' hf e =>
    obtain ⟨k1, k2, k3, -⟩ := EqualitySolver.fast h0 hf hs hl c.dt e
    suffices h : f1 = EqualitySolver.faster e1 σ ∧ SeesFaster σ p s1 t1 by
      obtain ⟨h, h'⟩ := h
      subst h
      exact ⟨.mouse hf _, h'⟩
    cases ph
    · obtain ⟨a, ha, h1⟩ := bind_ok_iff.1 h1
      obtain ⟨b, hb, h2⟩ := bind_ok_iff.1 h2
      cases Outcome.ok.inj h1
      cases Outcome.ok.inj h2
      dsimp only at hb ha
      rw [show (c.faster σ).sqrt = c.sqrt from rfl, k1, ha] at hb
      exact ⟨(Outcome.ok.inj hb).symm, hs⟩
    · exact k2 _ _ h1 h2
    · exact k3 _ _ h1 h2
    · cases Outcome.ok.inj h1
      cases Outcome.ok.inj h2
      exact ⟨rfl, hs⟩
  | contact e he =>
    suffices h : f1 = Contact.faster e1 σ ∧ SeesFaster σ p s1 t1 by
      obtain ⟨h, h'⟩ := h
      subst h
      exact ⟨.contact _ ((Contact.keeps_restitution h1).trans he), h'⟩
    obtain ⟨k1, k2, k3⟩ := Contact.fast hσ hs e he
    have k4 := Contact.solvePositions_fast hs e
    cases ph
    · cases Outcome.ok.inj h1
      cases Outcome.ok.inj h2
      exact ⟨k1, hs⟩
    · exact k2 _ _ h1 h2
    · exact k3 _ _ h1 h2
    · exact k4 _ _ h1 h2

theorem Kind.isActive_faster {x y : Σ k : Kind K, k.State} (hm : Kind.Faster σ x y) (hs : SeesFaster σ p s t) :
    Kind.Faster σ ⟨x.1, (x.1.isActive p x.2 s).1⟩ ⟨y.1, (y.1.isActive p y.2 t).1⟩ ∧ (x.1.isActive p x.2 s).2 = (y.1.isActive p y.2 t).2 := by
  cases hm with
  | equality hf e => exact ⟨.equality hf _, rfl⟩
  | inequality hf e => exact ⟨.inequality hf _, rfl⟩
  | @limits f f' hf e =>
    refine ⟨.limits hf _, ?_⟩
    show e.isActive p f s = (e.faster σ).isActive p f' t
    unfold LimitsSolver.isActive LimitsSolver.nextFunc LimitsSolver.faster
    rw [hf.eval p s t hs]
  | mouse hf e => exact ⟨.mouse hf _, rfl⟩
  | contact e he =>
    obtain ⟨h1, h2⟩ := Contact.isActive_fast (σ := σ) (e := e) hs.pos0 hs.pos1
    refine ⟨?_, h2.symm⟩
    show Kind.Faster σ ⟨.contact, (e.isActive p s).1⟩ ⟨.contact, ((e.faster σ).isActive p t).1⟩
    rw [h1]; exact .contact _ he

variable {L L' : Library K}

/-- In a second world positions are the same and velocities larger. -/
def fasterFrames (σ : K) : Frames (Pose K) (Velocity K) where
  before p q := q.1 = p.1
  after p q := q.1 = p.1
  vel v w := w = v.faster σ

theorem Library.acts_faster (hσ : 0 < σ) {c : CallCfg K} (hl : ∀ x, 0 ≤ x → c.sqrt x * c.sqrt x = x) (ph : Phase) {l : Link} (hb : L'.bodies l = L.bodies l) {i0 i1 : Nat}
    {s s' : (l : Link) → (L.kind l).State} {t t' : (l : Link) → (L'.kind l).State} {ps ps' qs qs' : Nat → Pose K} {vs vs' ws ws' : Nat → Velocity K}
    (hk : Kind.Faster σ ⟨L.kind l, s l⟩ ⟨L'.kind l, t l⟩) (e0 : (qs i0).1 = (ps i0).1) (e1 : (qs i1).1 = (ps i1).1) (e2 : ws i0 = (vs i0).faster σ) (e3 : ws i1 = (vs i1).faster σ)
    (h : (L.net c).act ph l i0 i1 s ps vs = .ok (s', ps', vs')) (h' : (L'.net (c.faster σ)).act ph l i0 i1 t qs ws = .ok (t', qs', ws')) :
    Kind.Faster σ ⟨L.kind l, s' l⟩ ⟨L'.kind l, t' l⟩ ∧ (qs' i0).1 = (ps' i0).1 ∧ (qs' i1).1 = (ps' i1).1 ∧ ws' i0 = (vs' i0).faster σ ∧ ws' i1 = (vs' i1).faster σ := by
  obtain ⟨e', x, ha, rfl, rfl, hp⟩ := Library.act_ok h
  obtain ⟨f', y, ha', rfl, rfl, hq⟩ := Library.act_ok h'
  rw [hb] at ha'
  have hs : SeesFaster σ ⟨i0, i1, (L.bodies l).masses⟩ ⟨fun i => (ps i).1, vs⟩ ⟨fun i => (qs i).1, ws⟩ := ⟨e0, e1, e2, e3⟩
  obtain ⟨k1, k3⟩ := Kind.act_faster hσ hk hl ph hs ha ha'
  rw [Function.update_self, Function.update_self]
  refine ⟨k1, ?_, ?_, k3.vel0, k3.vel1⟩
  · rw [hp, hq]; exact k3.pos0
  · rw [hp, hq]; exact k3.pos1

theorem Library.matched_faster (hσ : 0 < σ) {c : CallCfg K} (hl : ∀ x, 0 ≤ x → c.sqrt x * c.sqrt x = x) {l : Link} (hb : L'.bodies l = L.bodies l) :
    Matched (L.net c) (L'.net (c.faster σ)) (fasterFrames σ) (fun l s t => Kind.Faster σ ⟨L.kind l, s l⟩ ⟨L'.kind l, t l⟩) (fun l s t => Kind.Faster σ ⟨L.kind l, s l⟩ ⟨L'.kind l, t l⟩) l := by
  constructor
  · show ((L'.bodies l).i0, (L'.bodies l).i1) = _
    rw [hb]; rfl
  · intro s t p q p' q' h hp hq
    have hp : p'.1 = p.1 := hp
    have hq : q'.1 = q.1 := hq
    have hs : SeesFaster σ ⟨0, 1, (L.bodies l).masses⟩ ⟨fun i => if i = 0 then p.1 else q.1, fun _ => ⟨0, 0⟩⟩ ⟨fun i => if i = 0 then p'.1 else q'.1, fun _ => ⟨0, 0⟩⟩ := ⟨hp, hq, by simp [Velocity.faster], by simp [Velocity.faster]⟩
    obtain ⟨k1, k3⟩ := Kind.isActive_faster h hs
    unfold Library.net
    dsimp only
    rw [Function.update_self, Function.update_self, hb]
    exact ⟨k1, k3⟩
  · exact fun s t h => h
  · intro ph hph i0 i1 s ps vs s' ps' vs' t qs ws t' qs' ws' ha e0 e1 e2 e3 h h'
    exact Library.acts_faster hσ hl ph hb ha e0 e1 e2 e3 h h'
  · intro i0 i1 s ps vs s' ps' vs' t qs ws t' qs' ws' ha e0 e1 e2 e3 h h'
    exact Library.acts_faster hσ hl .solvePositions hb ha e0 e1 e2 e3 h h'

end



section
variable {K : Type*} [Field K] [LinearOrder K] [IsStrictOrderedRing K] {σ : K}

omit [IsStrictOrderedRing K] in
theorem inRegion_faster (f : ForceField K) : inRegion (f.faster σ).region = inRegion f.region := by
  cases f <;> rfl

theorem Body.applyImpulse_faster (b : Body K) (i w : Vec2 K) : (b.faster σ).applyImpulse (σ • i) w = (b.applyImpulse i w).faster σ := by
  unfold Body.applyImpulse
  dsimp only
  have e1 : (b.faster σ).velocity + (b.faster σ).invMass • σ • i = σ • (b.velocity + b.invMass • i) := by
    show σ • b.velocity + b.invMass • σ • i = _
    ext <;> simp <;> ring
  have e2 : (b.faster σ).angular + Vec2.cross w (σ • i) * (b.faster σ).invInertia = (b.angular + Vec2.cross w i * b.invInertia) * σ := by
    show b.angular * σ + Vec2.cross w (σ • i) * b.invInertia = _
    rw [show Vec2.cross w (σ • i) = Vec2.cross w i * σ by simp [Vec2.cross]; ring]
    ring
  rw [e1]
  show ((b.faster σ).setVelocity _).setAngularVelocity ((b.faster σ).angular + Vec2.cross w (σ • i) * (b.faster σ).invInertia) = _
  rw [e2]
  rfl

theorem ForceField.apply_faster [Trig K] (hσ : σ ≠ 0) (f : ForceField K) (b : Body K) (p : MassProperties K) (dt : K) : (f.faster σ).apply (b.faster σ) p (dt / σ) = (f.apply b p dt).faster σ := by
  cases f with
  | linear force region =>
    have : (dt / σ) • ((b.faster σ).invMass • (p.m • σ ^ 2 • force)) = σ • (dt • (b.invMass • (p.m • force))) := by
      show (dt / σ) • b.invMass • p.m • σ ^ 2 • force = _
      simp only [smul_smul]
      congr 1
      field_simp
    show (b.faster σ).applyImpulse ((dt / σ) • ((b.faster σ).invMass • (p.m • σ ^ 2 • force))) _ = _
    rw [this]
    exact Body.applyImpulse_faster b _ _
  | gravity a =>
    have : (dt / σ) • (p.m • σ ^ 2 • a) = σ • (dt • (p.m • a)) := by
      simp only [smul_smul]
      congr 1
      field_simp
    show (b.faster σ).applyImpulse ((dt / σ) • (p.m • σ ^ 2 • a)) _ = _
    rw [this]
    exact Body.applyImpulse_faster b _ _

variable {group : Finset Nat}

theorem applyToCollider_faster [Trig K] (hσ : σ ≠ 0) (f : ForceField K) (dt : K) : ∀ (l : List (Nat × Collider K)), (∀ e ∈ l, e.1 ∈ group) → ∀ {B B1 B' B1' : Nat → Body K},
    (∀ b ∈ group, (B b).asleep = false ∧ B' b = (B b).faster σ) → foldlO (applyToCollider f dt) B l = .ok B1 →
    foldlO (applyToCollider (f.faster σ) (dt / σ)) B' l = .ok B1' → ∀ b ∈ group, (B1 b).asleep = false ∧ B1' b = (B1 b).faster σ
  | [], _, B, B1, B', B1', hB, h, h' => by cases Outcome.ok.inj h; cases Outcome.ok.inj h'; exact hB
  | e :: l, hl, B, B1, B', B1', hB, h, h' => by
    obtain ⟨B2, h1, h2⟩ := bind_ok_iff.1 h
    obtain ⟨B2', h1', h2'⟩ := bind_ok_iff.1 h'
    refine applyToCollider_faster hσ f dt l (fun e he => hl e (List.mem_cons_of_mem _ he)) ?_ h2 h2'
    have he := hl e List.mem_cons_self
    obtain ⟨k1, k2⟩ := hB e.1 he
    unfold applyToCollider at h1 h1'
    dsimp only at h1 h1'
    rw [k2] at h1'
    have hc : (!((B e.1).faster σ).asleep && !((B e.1).faster σ).isStructural) = (!(B e.1).asleep && !(B e.1).isStructural) := rfl
    rw [hc] at h1'
    split at h1
    · rename_i h3
      rw [if_pos h3] at h1'
      obtain ⟨p, hp, h1⟩ := bind_ok_iff.1 h1
      obtain ⟨p', hp', h1'⟩ := bind_ok_iff.1 h1'
      rw [hp] at hp'
      cases Outcome.ok.inj hp'
      cases Outcome.ok.inj h1
      cases Outcome.ok.inj h1'
      intro b hb
      simp only [Function.update_apply]
      split
      · refine ⟨?_, ForceField.apply_faster hσ f _ _ _⟩
        cases f <;> rfl
      · exact hB b hb
    · rename_i h3
      rw [if_neg h3] at h1'
      cases Outcome.ok.inj h1
      cases Outcome.ok.inj h1'
      exact hB

theorem applyForces_faster [Trig K] (hσ : σ ≠ 0) (fields : List (ForceField K)) (dt : K) {tree tree' : List (Nat × Collider K)}
    (ht : tree'.filter (·.1 ∈ group) = tree.filter (·.1 ∈ group)) {B B1 B' B1' : Nat → Body K}
    (hB : ∀ b ∈ group, (B b).asleep = false ∧ B' b = (B b).faster σ) (h : applyForces fields dt tree B = .ok B1) (h' : applyForces (fields.map (·.faster σ)) (dt / σ) tree' B' = .ok B1') :
    ∀ b ∈ group, (B1 b).asleep = false ∧ B1' b = (B1 b).faster σ := by
  unfold applyForces at h h'
  induction fields generalizing B B' with
  | nil => cases Outcome.ok.inj h; cases Outcome.ok.inj h'; exact hB
  | cons f fields ih =>
    obtain ⟨B2, h1, h2⟩ := bind_ok_iff.1 h
    obtain ⟨B2', h1', h2'⟩ := bind_ok_iff.1 h'
    refine ih ?_ h2 h2'
    obtain ⟨C, k1, k2⟩ := applyToCollider_twin f dt group _ h1 (fun _ _ => rfl)
    obtain ⟨C', k1', k2'⟩ := applyToCollider_twin (f.faster σ) (dt / σ) group _ h1' (fun _ _ => rfl)
    have : (tree'.filter (inRegion (f.faster σ).region)).filter (·.1 ∈ group) = (tree.filter (inRegion f.region)).filter (·.1 ∈ group) := by
      have e1 : (tree'.filter (inRegion (f.faster σ).region)).filter (·.1 ∈ group) = (tree'.filter (·.1 ∈ group)).filter (inRegion (f.faster σ).region) := by
        rw [List.filter_filter, List.filter_filter]; simp only [Bool.and_comm]
      have e2 : (tree.filter (inRegion f.region)).filter (·.1 ∈ group) = (tree.filter (·.1 ∈ group)).filter (inRegion f.region) := by
        rw [List.filter_filter, List.filter_filter]; simp only [Bool.and_comm]
      rw [e1, e2, ht, inRegion_faster]
    rw [this] at k1'
    have := applyToCollider_faster hσ f dt _ (fun e he => by simpa using (List.mem_filter.1 he).2) hB k1 k1'
    intro b hb
    rw [k2 b hb, k2' b hb]
    exact this b hb

theorem Body.settle_faster [Trig K] (b : Body K) (x y : BodyState (Pose K) (Velocity K)) (hp : y.pos.1 = x.pos.1) (hv : y.vel = x.vel.faster σ) :
    (b.faster σ).settle y = { (b.settle x).faster σ with asleep := y.asleep } := by
  unfold Body.settle Body.update Body.faster Colliders.update
  dsimp only
  rw [hp, hv]
  rfl

theorem Sleep.update_faster (hσ : 0 < σ) (sl : Sleep.Settings K) (dt x y w : K) (a : Bool) (t : K) :
    Sleep.update (sl.faster σ) (dt / σ) (σ * x) (σ * y) (w * σ) ⟨a, t / σ⟩ = ⟨(Sleep.update sl dt x y w ⟨a, t⟩).asleep, (Sleep.update sl dt x y w ⟨a, t⟩).timeImmobile / σ⟩ := by
  have h1 : Sleep.isImmobile (sl.faster σ) (σ * x) (σ * y) (w * σ) = Sleep.isImmobile sl x y w := by
    unfold Sleep.isImmobile Sleep.Settings.faster
    dsimp only
    have e1 : σ * x * (σ * x) + σ * y * (σ * y) < sl.velocitySleepThreshold * σ * (sl.velocitySleepThreshold * σ) ↔ x * x + y * y < sl.velocitySleepThreshold * sl.velocitySleepThreshold := by
      rw [show σ * x * (σ * x) + σ * y * (σ * y) = (x * x + y * y) * (σ * σ) by ring,
        show sl.velocitySleepThreshold * σ * (sl.velocitySleepThreshold * σ) = sl.velocitySleepThreshold * sl.velocitySleepThreshold * (σ * σ) by ring, mul_lt_mul_iff_left₀ (by positivity)]
    have e2 : w * σ < sl.angularVelocitySleepThreshold * σ ↔ w < sl.angularVelocitySleepThreshold := mul_lt_mul_iff_left₀ hσ
    simp only [e1, e2]
  have h2 : ∀ t, Sleep.canSleep (sl.faster σ) ⟨a, t / σ⟩ = Sleep.canSleep sl ⟨a, t⟩ := by
    intro t
    unfold Sleep.canSleep Sleep.Settings.faster
    simp only [div_le_div_iff_of_pos_right hσ]
  unfold Sleep.update
  rw [show (sl.faster σ).enableSleeping = sl.enableSleeping from rfl]
  cases sl.enableSleeping
  · rfl
  · simp only [if_true]
    have h3 : Sleep.updateTimeImmobile (sl.faster σ) (dt / σ) (σ * x) (σ * y) (w * σ) ⟨a, t / σ⟩ = ⟨a, (if Sleep.isImmobile sl x y w then t + dt else 0) / σ⟩ := by
      unfold Sleep.updateTimeImmobile
      dsimp only
      rw [h1]
      split
      · rw [add_div]
      · rw [zero_div]
    rw [h3, h2]
    unfold Sleep.updateTimeImmobile
    dsimp only
    generalize (if Sleep.isImmobile sl x y w then t + dt else 0) = u
    split <;> rfl

theorem Contact.updateContacts_faster [Trig K] (sqrt : K → K) (pen : List (Vec2 K) → List (Vec2 K) → Vec2 K → Outcome (Vec2 K)) (e : Contact K) (sides : Fin 2 → Side K) :
    (e.faster σ).updateContacts sqrt pen sides = (e.updateContacts sqrt pen sides).bind fun e => .ok (e.faster σ) := by
  unfold Contact.updateContacts
  dsimp only
  rw [show (e.faster σ).manifold = e.manifold from rfl]
  generalize (e.manifold.frame fun i => (sides i).position.toWorldSpace) = fr
  show Outcome.bind (({ e with frame := fr } : Contact K).needsNewManifold fun i => (sides i).geom.transformed) _ = _
  cases ({ e with frame := fr } : Contact K).needsNewManifold fun i => (sides i).geom.transformed with
  | throw => rfl
  | ub => rfl
  | ok a =>
    cases a
    · rfl
    · simp only [Outcome.bind_ok, if_true]
      cases e.manifold.update sqrt pen sides with
      | throw => rfl
      | ub => rfl
      | ok m =>
        simp only [Outcome.bind_ok]
        unfold Contact.faster
        dsimp only
        rw [Mat.smul_zero, carryOver_heavier]

theorem Contact.updateContacts_restitution [Trig K] {sqrt : K → K} {pen : List (Vec2 K) → List (Vec2 K) → Vec2 K → Outcome (Vec2 K)} {e e1 : Contact K} {sides : Fin 2 → Side K}
    (h : e.updateContacts sqrt pen sides = .ok e1) : e1.restitution = e.restitution := by
  unfold Contact.updateContacts at h
  obtain ⟨a, -, h⟩ := bind_ok_iff.1 h
  cases a
  · cases Outcome.ok.inj h; rfl
  · simp only [if_true] at h
    obtain ⟨m, -, h⟩ := bind_ok_iff.1 h
    cases Outcome.ok.inj h; rfl

theorem Contact.make_faster [Trig K] {sqrt : K → K} {pen : List (Vec2 K) → List (Vec2 K) → Vec2 K → Outcome (Vec2 K)} {first second : Material K} {sides : Fin 2 → Side K} {e : Contact K}
    (h : Contact.make sqrt pen first second sides = .ok e) : e.faster σ = e := by
  unfold Contact.make at h
  obtain ⟨m, -, h⟩ := bind_ok_iff.1 h
  cases Outcome.ok.inj h
  unfold Contact.faster
  dsimp only
  rw [Mat.smul_zero]

end

end Simu
