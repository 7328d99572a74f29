import Verif.Lemmas.ContactHeavier
import Verif.Lemmas.ContactMoved
/-
A step of bodies that are all heavier by the same factor.
-/
namespace Simu
open Island Mat

section
variable {K : Type*} [Field K] [LinearOrder K] [IsStrictOrderedRing K] [Trig K] {p : Proxies K} {s t s1 t1 : SolveState K} {κ : K}

theorem Kind.act_heavier {x y : Σ k : Kind K, k.State} (hκ : 0 < κ) (hm : Kind.Heavier κ x y) {c : CallCfg K} (hl : ∀ x, 0 ≤ x → c.sqrt x * c.sqrt x = x) (ph : Phase)
    (hs : SeesSame p s t) {e1 : x.1.State} {f1 : y.1.State} (h1 : x.1.act c ph p x.2 s = .ok (e1, s1)) (h2 : y.1.act c ph (p.heavier κ) y.2 t = .ok (f1, t1)) :
    Kind.Heavier κ ⟨x.1, e1⟩ ⟨y.1, f1⟩ ∧ SeesSame p s1 t1 := by
  have h0 : κ ≠ 0 := hκ.ne'
  cases hm with
  | @equality n f f' hf e =>
    obtain ⟨k1, k2, k3, k4⟩ := EqualitySolver.heavy h0 hf hs hl c.dt e
    suffices h : f1 = EqualitySolver.heavier e1 κ ∧ SeesSame p s1 t1 by
      obtain ⟨h, h'⟩ := h
      subst h
      exact ⟨.equality hf _, h'⟩
    cases ph
    · obtain ⟨a, ha, h1⟩ := bind_ok_iff.1 h1
      obtain ⟨b, hb, h2⟩ := bind_ok_iff.1 h2
      cases Outcome.ok.inj h1
      cases Outcome.ok.inj h2
      dsimp only at hb ha
      rw [k1, ha] at hb
      exact ⟨(Outcome.ok.inj hb).symm, hs⟩
    · exact k2 _ _ h1 h2
    · exact k3 _ _ h1 h2
    · exact k4 _ _ h1 h2
  | @inequality f f' hf e =>
    obtain ⟨k1, k2, k3, k4⟩ := InequalitySolver.heavy h0 hf hs hl c.epsilon c.fuel c.dt e
    suffices h : f1 = InequalitySolver.heavier e1 κ ∧ SeesSame p s1 t1 by
      obtain ⟨h, h'⟩ := h
      subst h
      exact ⟨.inequality hf _, h'⟩
    cases ph
    · cases Outcome.ok.inj h1
      cases Outcome.ok.inj h2
      exact ⟨k1, hs⟩
    · exact k2 _ _ h1 h2
    · exact k3 _ _ h1 h2
    · exact k4 _ _ h1 h2
  | @limits f f' hf e =>
    obtain ⟨-, k1, k2, k3, k4⟩ := LimitsSolver.heavy hκ hf hs hl c.epsilon c.fuel c.dt e
    suffices h : f1 = LimitsSolver.heavier e1 κ ∧ SeesSame p s1 t1 by
      obtain ⟨h, h'⟩ := h
      subst h
      exact ⟨.limits hf _, h'⟩
    cases ph
    · obtain ⟨a, ha, h1⟩ := bind_ok_iff.1 h1
      obtain ⟨b, hb, h2⟩ := bind_ok_iff.1 h2
      cases Outcome.ok.inj h1
      cases Outcome.ok.inj h2
      dsimp only at hb ha
      rw [k1, ha] at hb
      exact ⟨(Outcome.ok.inj hb).symm, hs⟩
    · exact k2 _ _ h1 h2
    · exact k3 _ _ h1 h2
    · exact k4 _ _ h1 h2
  | @mouse f f' hf e =>
    obtain ⟨k1, k2, k3, -⟩ := EqualitySolver.heavy h0 hf hs hl c.dt e
    suffices h : f1 = EqualitySolver.heavier e1 κ ∧ SeesSame p s1 t1 by
      obtain ⟨h, h'⟩ := h
      subst h
      exact ⟨.mouse hf _, h'⟩
    cases ph
    · obtain ⟨a, ha, h1⟩ := bind_ok_iff.1 h1
      obtain ⟨b, hb, h2⟩ := bind_ok_iff.1 h2
      cases Outcome.ok.inj h1
      cases Outcome.ok.inj h2
      dsimp only at hb ha
      rw [k1, ha] at hb
      exact ⟨(Outcome.ok.inj hb).symm, hs⟩
    · exact k2 _ _ h1 h2
    · exact k3 _ _ h1 h2
    · cases Outcome.ok.inj h1
      cases Outcome.ok.inj h2
      exact ⟨rfl, hs⟩
  | contact e =>
    suffices h : f1 = Contact.heavier e1 κ ∧ SeesSame p s1 t1 by
      obtain ⟨h, h'⟩ := h
      subst h
      exact ⟨.contact _, h'⟩
    obtain ⟨k1, k2, k3⟩ := Contact.heavy hκ hs e
    have k4 := Contact.solvePositions_heavy hκ hs e
    cases ph
    · cases Outcome.ok.inj h1
      cases Outcome.ok.inj h2
      exact ⟨k1, hs⟩
    · exact k2 _ _ h1 h2
    · exact k3 _ _ h1 h2
    · exact k4 _ _ h1 h2

theorem Kind.isActive_heavier {x y : Σ k : Kind K, k.State} (hm : Kind.Heavier κ x y) (hs : SeesSame p s t) :
    Kind.Heavier κ ⟨x.1, (x.1.isActive p x.2 s).1⟩ ⟨y.1, (y.1.isActive (p.heavier κ) y.2 t).1⟩ ∧ (x.1.isActive p x.2 s).2 = (y.1.isActive (p.heavier κ) y.2 t).2 := by
  cases hm with
  | equality hf e => exact ⟨.equality hf _, rfl⟩
  | inequality hf e => exact ⟨.inequality hf _, rfl⟩
  | @limits f f' hf e =>
    refine ⟨.limits hf _, ?_⟩
    show e.isActive p f s = (e.heavier κ).isActive (p.heavier κ) f' t
    unfold LimitsSolver.isActive LimitsSolver.nextFunc LimitsSolver.heavier
    rw [hf.eval p s t hs]
  | mouse hf e => exact ⟨.mouse hf _, rfl⟩
  | contact e =>
    obtain ⟨h1, h2⟩ := Contact.isActive_heavy (κ := κ) (e := e) hs.pos0 hs.pos1
    refine ⟨?_, h2.symm⟩
    show Kind.Heavier κ ⟨.contact, (e.isActive p s).1⟩ ⟨.contact, ((e.heavier κ).isActive (p.heavier κ) t).1⟩
    rw [h1]; exact .contact _

variable {L L' : Library K}

/-- Positions and velocities are the same in a second world. -/
def sameFrames : Frames (Pose K) (Velocity K) where
  before p q := q.1 = p.1
  after p q := q.1 = p.1
  vel v w := w = v

theorem Library.acts_heavier (hκ : 0 < κ) {c : CallCfg K} (hl : ∀ x, 0 ≤ x → c.sqrt x * c.sqrt x = x) (ph : Phase) {l : Link} (hb : L'.bodies l = (L.bodies l).heavier κ) {i0 i1 : Nat}
    {s s' : (l : Link) → (L.kind l).State} {t t' : (l : Link) → (L'.kind l).State} {ps ps' qs qs' : Nat → Pose K} {vs vs' ws ws' : Nat → Velocity K}
    (hk : Kind.Heavier κ ⟨L.kind l, s l⟩ ⟨L'.kind l, t l⟩) (e0 : (qs i0).1 = (ps i0).1) (e1 : (qs i1).1 = (ps i1).1) (e2 : ws i0 = vs i0) (e3 : ws i1 = vs i1)
    (h : (L.net c).act ph l i0 i1 s ps vs = .ok (s', ps', vs')) (h' : (L'.net c).act ph l i0 i1 t qs ws = .ok (t', qs', ws')) :
    Kind.Heavier κ ⟨L.kind l, s' l⟩ ⟨L'.kind l, t' l⟩ ∧ (qs' i0).1 = (ps' i0).1 ∧ (qs' i1).1 = (ps' i1).1 ∧ ws' i0 = vs' i0 ∧ ws' i1 = vs' i1 := by
  obtain ⟨e', x, ha, rfl, rfl, hp⟩ := Library.act_ok h
  obtain ⟨f', y, ha', rfl, rfl, hq⟩ := Library.act_ok h'
  rw [hb] at ha'
  have hs : SeesSame ⟨i0, i1, (L.bodies l).masses⟩ ⟨fun i => (ps i).1, vs⟩ ⟨fun i => (qs i).1, ws⟩ := ⟨e0.symm, e1.symm, e2.symm, e3.symm⟩
  obtain ⟨k1, k3⟩ := Kind.act_heavier hκ hk hl ph hs ha ha'
  rw [Function.update_self, Function.update_self]
  refine ⟨k1, ?_, ?_, k3.vel0.symm, k3.vel1.symm⟩
  · rw [hp, hq]; exact k3.pos0.symm
  · rw [hp, hq]; exact k3.pos1.symm

theorem Library.matched_heavier (hκ : 0 < κ) {c : CallCfg K} (hl : ∀ x, 0 ≤ x → c.sqrt x * c.sqrt x = x) {l : Link} (hb : L'.bodies l = (L.bodies l).heavier κ) :
    Matched (L.net c) (L'.net c) sameFrames (fun l s t => Kind.Heavier κ ⟨L.kind l, s l⟩ ⟨L'.kind l, t l⟩) (fun l s t => Kind.Heavier κ ⟨L.kind l, s l⟩ ⟨L'.kind l, t l⟩) l := by
  constructor
  · show ((L'.bodies l).i0, (L'.bodies l).i1) = _
    rw [hb]; rfl
  · intro s t p q p' q' h hp hq
    have hp : p'.1 = p.1 := hp
    have hq : q'.1 = q.1 := hq
    have hs : SeesSame ⟨0, 1, (L.bodies l).masses⟩ ⟨fun i => if i = 0 then p.1 else q.1, fun _ => ⟨0, 0⟩⟩ ⟨fun i => if i = 0 then p'.1 else q'.1, fun _ => ⟨0, 0⟩⟩ := ⟨hp.symm, hq.symm, rfl, rfl⟩
    obtain ⟨k1, k3⟩ := Kind.isActive_heavier h hs
    unfold Library.net
    dsimp only
    rw [Function.update_self, Function.update_self, hb]
    exact ⟨k1, k3⟩
  · exact fun s t h => h
  · intro ph hph i0 i1 s ps vs s' ps' vs' t qs ws t' qs' ws' ha e0 e1 e2 e3 h h'
    exact Library.acts_heavier hκ hl ph hb ha e0 e1 e2 e3 h h'
  · intro i0 i1 s ps vs s' ps' vs' t qs ws t' qs' ws' ha e0 e1 e2 e3 h h'
    exact Library.acts_heavier hκ hl .solvePositions hb ha e0 e1 e2 e3 h h'

end

section
variable {K : Type*} [Field K] [LinearOrder K] [IsStrictOrderedRing K] {κ : K}

omit [IsStrictOrderedRing K] in
theorem inRegion_heavier (f : ForceField K) (e : Nat × Collider K) : inRegion (f.heavier κ).region (e.1, e.2.heavier κ) = inRegion f.region e := by
  cases f <;> rfl

theorem MassProperties.ofGeometry_heavier (hκ : 0 < κ) (verts : List (Vec2 K)) (density : K) :
    MassProperties.ofGeometry verts (κ * density) = (MassProperties.ofGeometry verts density).bind fun p => .ok (p.heavier κ) := by
  unfold MassProperties.ofGeometry
  have h : decide (0 < κ * density) = decide (0 < density) := by simp [hκ]
  rw [h]
  cases Outcome.check (decide (0 < density)) with
  | throw => rfl
  | ub => rfl
  | ok a =>
    simp only [Outcome.bind_ok]
    cases GeometricProperties.of verts with
    | throw => rfl
    | ub => rfl
    | ok g =>
      simp only [Outcome.bind_ok]
      cases Outcome.check (!g.isDegenerate) with
      | throw => rfl
      | ub => rfl
      | ok a =>
        show Outcome.ok _ = Outcome.ok _
        congr 1
        unfold MassProperties.heavier
        ext <;> dsimp only <;> ring

theorem Collider.properties_heavier (hκ : 0 < κ) (c : Collider K) : (c.heavier κ).properties = c.properties.bind fun p => .ok (p.heavier κ) :=
  MassProperties.ofGeometry_heavier hκ _ _

theorem MassProperties.combine_heavier (hκ : κ ≠ 0) (p q : MassProperties K) : (p.heavier κ).combine (q.heavier κ) = (p.combine q).heavier κ := by
  unfold MassProperties.combine MassProperties.heavier
  dsimp only
  rw [← mul_add]
  by_cases h : p.m + q.m = 0
  · rw [if_pos h, if_pos (by rw [h, mul_zero])]
    simp
  · rw [if_neg h, if_neg (mul_ne_zero hκ h)]
    have e : Vec2.sdiv ((κ * p.m) • p.centroid + (κ * q.m) • q.centroid) (κ * (p.m + q.m)) = Vec2.sdiv (p.m • p.centroid + q.m • q.centroid) (p.m + q.m) := by
      ext <;> simp [Vec2.sdiv] <;> field_simp
    rw [e]
    ext <;> dsimp only
    ring

theorem Body.heavier_invMass (b : Body K) : (b.heavier κ).invMass = b.invMass / κ ∧ (b.heavier κ).invInertia = b.invInertia / κ := by
  have h : ∀ x : K, 1 / (κ * x) = 1 / x / κ := fun x => by rw [div_div, mul_comm]
  exact ⟨h _, h _⟩

theorem Body.applyImpulse_heavier (hκ : κ ≠ 0) (b : Body K) (i w : Vec2 K) : (b.heavier κ).applyImpulse (κ • i) w = (b.applyImpulse i w).heavier κ := by
  unfold Body.applyImpulse
  dsimp only
  have e1 : (b.heavier κ).velocity + (b.heavier κ).invMass • κ • i = b.velocity + b.invMass • i := by
    rw [b.heavier_invMass.1, smul_smul, div_mul_cancel₀ _ hκ]; rfl
  have e2 : (b.heavier κ).angular + Vec2.cross w (κ • i) * (b.heavier κ).invInertia = b.angular + Vec2.cross w i * b.invInertia := by
    rw [b.heavier_invMass.2, show Vec2.cross w (κ • i) = Vec2.cross w i * κ by simp [Vec2.cross]; ring, mul_assoc, mul_div_cancel₀ _ hκ]; rfl
  rw [e1]
  show ((b.heavier κ).setVelocity _).setAngularVelocity ((b.heavier κ).angular + Vec2.cross w (κ • i) * (b.heavier κ).invInertia) = _
  rw [e2]
  rfl

theorem ForceField.apply_heavier [Trig K] (hκ : κ ≠ 0) (f : ForceField K) (b : Body K) (p : MassProperties K) (dt : K) : (f.heavier κ).apply (b.heavier κ) (p.heavier κ) dt = (f.apply b p dt).heavier κ := by
  cases f with
  | linear force region =>
    have : dt • ((b.heavier κ).invMass • ((p.heavier κ).m • κ • force)) = κ • (dt • (b.invMass • (p.m • force))) := by
      rw [b.heavier_invMass.1]
      show dt • (b.invMass / κ) • (κ * p.m) • κ • force = _
      simp only [smul_smul]
      congr 1
      field_simp
    show (b.heavier κ).applyImpulse (dt • ((b.heavier κ).invMass • ((p.heavier κ).m • κ • force))) _ = _
    rw [this]
    exact Body.applyImpulse_heavier hκ b _ _
  | gravity a =>
    have : dt • ((p.heavier κ).m • a) = κ • (dt • (p.m • a)) := by
      show dt • (κ * p.m) • a = _
      simp only [smul_smul]
      congr 1
      ring
    show (b.heavier κ).applyImpulse (dt • ((p.heavier κ).m • a)) _ = _
    rw [this]
    exact Body.applyImpulse_heavier hκ b _ _

variable {group : Finset Nat}

theorem applyToCollider_heavier [Trig K] (hκ : 0 < κ) (f : ForceField K) (dt : K) : ∀ (l : List (Nat × Collider K)), (∀ e ∈ l, e.1 ∈ group) → ∀ {B B1 B' B1' : Nat → Body K},
    (∀ b ∈ group, (B b).asleep = false ∧ B' b = (B b).heavier κ) → foldlO (applyToCollider f dt) B l = .ok B1 →
    foldlO (applyToCollider (f.heavier κ) dt) B' (l.map fun e => (e.1, e.2.heavier κ)) = .ok B1' → ∀ b ∈ group, (B1 b).asleep = false ∧ B1' b = (B1 b).heavier κ
  | [], _, B, B1, B', B1', hB, h, h' => by cases Outcome.ok.inj h; cases Outcome.ok.inj h'; exact hB
  | e :: l, hl, B, B1, B', B1', hB, h, h' => by
    obtain ⟨B2, h1, h2⟩ := bind_ok_iff.1 h
    obtain ⟨B2', h1', h2'⟩ := bind_ok_iff.1 h'
    refine applyToCollider_heavier hκ f dt l (fun e he => hl e (List.mem_cons_of_mem _ he)) ?_ h2 h2'
    have he := hl e List.mem_cons_self
    obtain ⟨k1, k2⟩ := hB e.1 he
    unfold applyToCollider at h1 h1'
    dsimp only at h1 h1'
    rw [k2] at h1'
    have hc : (!((B e.1).heavier κ).asleep && !((B e.1).heavier κ).isStructural) = (!(B e.1).asleep && !(B e.1).isStructural) := rfl
    rw [hc, Collider.properties_heavier hκ] at h1'
    split at h1
    · rename_i h3
      rw [if_pos h3] at h1'
      obtain ⟨p, hp, h1⟩ := bind_ok_iff.1 h1
      obtain ⟨p', hp', h1'⟩ := bind_ok_iff.1 h1'
      rw [hp] at hp'
      cases Outcome.ok.inj hp'
      cases Outcome.ok.inj h1
      cases Outcome.ok.inj h1'
      intro b hb
      simp only [Function.update_apply]
      split
      · refine ⟨?_, ForceField.apply_heavier hκ.ne' f _ _ _⟩
        cases f <;> rfl
      · exact hB b hb
    · rename_i h3
      rw [if_neg h3] at h1'
      cases Outcome.ok.inj h1
      cases Outcome.ok.inj h1'
      exact hB

theorem applyForces_heavier [Trig K] (hκ : 0 < κ) (fields : List (ForceField K)) (dt : K) {tree tree' : List (Nat × Collider K)}
    (ht : tree'.filter (·.1 ∈ group) = (tree.filter (·.1 ∈ group)).map fun e => (e.1, e.2.heavier κ)) {B B1 B' B1' : Nat → Body K}
    (hB : ∀ b ∈ group, (B b).asleep = false ∧ B' b = (B b).heavier κ) (h : applyForces fields dt tree B = .ok B1) (h' : applyForces (fields.map (·.heavier κ)) dt tree' B' = .ok B1') :
    ∀ b ∈ group, (B1 b).asleep = false ∧ B1' b = (B1 b).heavier κ := by
  unfold applyForces at h h'
  induction fields generalizing B B' with
  | nil => cases Outcome.ok.inj h; cases Outcome.ok.inj h'; exact hB
  | cons f fields ih =>
    obtain ⟨B2, h1, h2⟩ := bind_ok_iff.1 h
    obtain ⟨B2', h1', h2'⟩ := bind_ok_iff.1 h'
    refine ih ?_ h2 h2'
    obtain ⟨C, k1, k2⟩ := applyToCollider_twin f dt group _ h1 (fun _ _ => rfl)
    obtain ⟨C', k1', k2'⟩ := applyToCollider_twin (f.heavier κ) dt group _ h1' (fun _ _ => rfl)
    have : (tree'.filter (inRegion (f.heavier κ).region)).filter (·.1 ∈ group) = ((tree.filter (inRegion f.region)).filter (·.1 ∈ group)).map fun e => (e.1, e.2.heavier κ) := by
      have e1 : (tree'.filter (inRegion (f.heavier κ).region)).filter (·.1 ∈ group) = (tree'.filter (·.1 ∈ group)).filter (inRegion (f.heavier κ).region) := by
        rw [List.filter_filter, List.filter_filter]; simp only [Bool.and_comm]
      have e2 : (tree.filter (inRegion f.region)).filter (·.1 ∈ group) = (tree.filter (·.1 ∈ group)).filter (inRegion f.region) := by
        rw [List.filter_filter, List.filter_filter]; simp only [Bool.and_comm]
      rw [e1, e2, ht, List.filter_map]
      congr 2
      funext e
      exact inRegion_heavier f e
    rw [this] at k1'
    have := applyToCollider_heavier hκ f dt _ (fun e he => by simpa using (List.mem_filter.1 he).2) hB k1 k1'
    intro b hb
    rw [k2 b hb, k2' b hb]
    exact this b hb

theorem Body.settle_heavier [Trig K] (b : Body K) (x y : BodyState (Pose K) (Velocity K)) (hp : y.pos.1 = x.pos.1) (hv : y.vel = x.vel) :
    (b.heavier κ).settle y = { (b.settle x).heavier κ with asleep := y.asleep } := by
  unfold Body.settle Body.update Body.heavier Colliders.update
  dsimp only
  rw [hp, hv, List.map_map, List.map_map]
  rfl

theorem carryOver_heavier (before after : Nat) (l : MVec K 2) : Contact.carryOver before after (l.smul κ) = (Contact.carryOver before after l).smul κ := by
  unfold Contact.carryOver
  by_cases h0 : before = 0
  · rw [if_pos h0, if_pos h0, Mat.smul_zero]
  · rw [if_neg h0, if_neg h0]
    by_cases h1 : before = 1 ∧ after = 2
    · rw [if_pos h1, if_pos h1]
      apply ext_at; intro i
      simp only [at_smul, at_ofFn]
      fin_cases i <;> simp <;> ring
    · rw [if_neg h1, if_neg h1]
      by_cases h2 : before = 2 ∧ after = 1
      · rw [if_pos h2, if_pos h2, Mat.smul_setAt, Mat.smul_setAt, at_smul, at_smul, zero_mul, add_mul]
      · rw [if_neg h2, if_neg h2]

theorem Contact.updateContacts_heavier [Trig K] (sqrt : K → K) (pen : List (Vec2 K) → List (Vec2 K) → Vec2 K → Outcome (Vec2 K)) (e : Contact K) (sides : Fin 2 → Side K) :
    (e.heavier κ).updateContacts sqrt pen sides = (e.updateContacts sqrt pen sides).bind fun e => .ok (e.heavier κ) := by
  unfold Contact.updateContacts
  dsimp only
  rw [show (e.heavier κ).manifold = e.manifold from rfl]
  generalize (e.manifold.frame fun i => (sides i).position.toWorldSpace) = fr
  have hn : ({ e.heavier κ with frame := fr } : Contact K).needsNewManifold (fun i => (sides i).geom.transformed) = ({ e with frame := fr } : Contact K).needsNewManifold fun i => (sides i).geom.transformed := rfl
  show Outcome.bind (({ e with frame := fr } : Contact K).needsNewManifold fun i => (sides i).geom.transformed) _ = _
  cases ({ e with frame := fr } : Contact K).needsNewManifold fun i => (sides i).geom.transformed with
  | throw => rfl
  | ub => rfl
  | ok a =>
    cases a
    · rfl
    · simp only [Outcome.bind_ok, if_true]
      cases e.manifold.update sqrt pen sides with
      | throw => rfl
      | ub => rfl
      | ok m =>
        simp only [Outcome.bind_ok]
        unfold Contact.heavier
        dsimp only
        rw [Mat.smul_zero, carryOver_heavier]

theorem Contact.make_heavier [Trig K] (sqrt : K → K) (pen : List (Vec2 K) → List (Vec2 K) → Vec2 K → Outcome (Vec2 K)) (first second : Material K) (sides : Fin 2 → Side K) :
    Contact.make sqrt pen (first.heavier κ) (second.heavier κ) sides = (Contact.make sqrt pen first second sides).bind fun e => .ok (e.heavier κ) := by
  unfold Contact.make
  rw [show Manifold.make sqrt pen (first.heavier κ) (second.heavier κ) sides = Manifold.make sqrt pen first second sides from rfl]
  cases Manifold.make sqrt pen first second sides with
  | throw => rfl
  | ub => rfl
  | ok m =>
    show Outcome.ok _ = Outcome.ok _
    unfold Contact.heavier
    dsimp only
    rw [Mat.smul_zero]
    rfl

end

end Simu
