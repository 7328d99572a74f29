import Verif.Props.Contact
import Verif.Props.Momentum
import Verif.Lemmas.ContactSample
/-
C36: contacts separate with the requested restitution, and energy. C51: impulses of contacts.
-/
namespace Simu
open Mat Contact
section
variable {K : Type*} [Field K] [LinearOrder K] [Trig K]

theorem Contact.prepared_totalImpulse (e : Contact K) (p : Proxies K) (s : SolveState K) (c : Fin 6) :
    totalImpulse (e.prepared p s) c = 0 := by
  obtain ⟨h1, h2, _⟩ := prepared_lambda e p s
  simp [totalImpulse, h1, h2, pull, at_zero, toV]

/-- What stays fixed while a contact is being solved. -/
theorem Contact.run_ready {p : Proxies K} {f : Frame K} {pos : Nat → Position K} {l : List (SolveEvent K)}
    {es es' : Contact K × SolveState K} (hr : Ready p f pos es.1) (h : Contact.runEvents p l es = .ok es') :
    Ready p f pos es'.1 ∧ es'.1.bounce = es.1.bounce ∧ es'.1.friction = es.1.friction := by
  induction l generalizing es with
  | nil => simp only [Contact.runEvents, Outcome.ok.injEq] at h; subst h; exact ⟨hr, rfl, rfl⟩
  | cons a l ih =>
    cases a with
    | warmstart => exact ih (es := es.1.warmstart p es.2) (hr.warmstart es.2) h
    | other c => exact ih (es := (es.1, es.2.change c)) hr h
    | solve =>
      simp only [Contact.runEvents] at h
      cases hs : es.1.solveVelocities p es.2 with
      | throw => simp [hs] at h
      | ub => simp [hs] at h
      | ok es1 =>
        simp only [hs, Outcome.bind_ok] at h
        obtain ⟨e1, s1⟩ := es1
        obtain ⟨h1, h2, h3⟩ := ih (es := (e1, s1)) (hr.solveVelocities es.2 hs) h
        obtain ⟨l, v', hn, he', hs'⟩ := solveVelocities_eq _ p _ hs
        have hb : e1.bounce = es.1.bounce := by rw [he']
        have hf : e1.friction = es.1.friction := by rw [he']
        exact ⟨h1, h2.trans hb, h3.trans hf⟩

theorem Contact.run_velocity {p : Proxies K} (hi : p.i0 ≠ p.i1) {l : List (SolveEvent K)} (hl : .warmstart ∉ l)
    {es es' : Contact K × SolveState K} (h : Contact.runEvents p l es = .ok es') (V : Nat → Velocity K)
    (hV : ∀ i, es.2.vel i = V i + kick p (totalImpulse es.1) i) (i : Nat) :
    es'.2.vel i = V i + others l i + kick p (totalImpulse es'.1) i := by
  induction l generalizing es V with
  | nil =>
    simp only [Contact.runEvents, Outcome.ok.injEq] at h
    subst h
    rw [hV, others, add_zero]
  | cons a l ih =>
    simp only [List.mem_cons, not_or] at hl
    cases a with
    | warmstart => exact absurd rfl hl.1
    | other c =>
      have := ih hl.2 (es := (es.1, es.2.change c)) h (fun i => V i + c i) (fun i => by
        simp only [SolveState.change, hV]
        abel)
      rw [this]
      simp only [others]
      abel
    | solve =>
      simp only [Contact.runEvents] at h
      cases hs : es.1.solveVelocities p es.2 with
      | throw => simp [hs] at h
      | ub => simp [hs] at h
      | ok es1 =>
        simp only [hs, Outcome.bind_ok] at h
        obtain ⟨e1, s1⟩ := es1
        refine ih hl.2 (es := (e1, s1)) h V ?_
        intro i
        rw [solveVelocities_kick es.1 p hi es.2 hs i, hV, add_assoc, ← kick_add]
        congr 2
        funext c
        ring

/-- C51: in a solve of a contact (an optional warm start, then any number of iterations, with other constraints changing the
velocities in between), the change of velocity that is due to the contact is that of pairs of opposite impulses at the contact
points: the final normal multipliers along the normal and the final tangential multipliers along the tangent. -/
theorem C51_contact_impulse (e₀ : Contact K) (p : Proxies K) (hi : p.i0 ≠ p.i1) (s₀ : SolveState K)
    (l pre post : List (SolveEvent K)) (hpre : ∀ a ∈ pre, ∃ c, a = SolveEvent.other c) (hpost : .warmstart ∉ post)
    (hl : l = post ∨ l = pre ++ .warmstart :: post) {e : Contact K} {s : SolveState K}
    (h : Contact.runEvents p l (e₀.prepared p s₀, s₀) = .ok (e, s)) (i : Nat) :
    s.vel i = s₀.vel i + others l i + kick p ((e₀.manifold.frame ![(s₀.pos p.i0).toWorldSpace, (s₀.pos p.i1).toWorldSpace]).impulse
      p s₀.pos e.normalLambda.toV e.tangentLambda.toV) i := by
  have hr := prepared_ready e₀ p s₀
  have hr' := (run_ready hr h).1
  have heq : (fun c => (e₀.manifold.frame ![(s₀.pos p.i0).toWorldSpace, (s₀.pos p.i1).toWorldSpace]).impulse
      p s₀.pos e.normalLambda.toV e.tangentLambda.toV c) = totalImpulse e := by
    funext c; rw [← hr'.totalImpulse_eq]
  have heq' : (e₀.manifold.frame ![(s₀.pos p.i0).toWorldSpace, (s₀.pos p.i1).toWorldSpace]).impulse
      p s₀.pos e.normalLambda.toV e.tangentLambda.toV = totalImpulse e := heq
  rw [heq']
  have h0 : totalImpulse (e₀.prepared p s₀) = fun _ => 0 := funext (prepared_totalImpulse e₀ p s₀)
  rcases hl with hl | hl
  · subst hl
    exact run_velocity hi hpost h s₀.vel (fun i => by rw [h0, kick_zero, add_zero]) i
  · subst hl
    suffices key : ∀ (s1 : SolveState K), Contact.runEvents p (pre ++ .warmstart :: post) (e₀.prepared p s₀, s1) = .ok (e, s) →
        s.vel i = s1.vel i + others (pre ++ .warmstart :: post) i + kick p (totalImpulse e) i from key s₀ h
    clear h hr' heq heq'
    induction pre with
    | nil =>
      intro s1 h
      simp only [List.nil_append, Contact.runEvents] at h
      simp only [List.nil_append, others]
      refine run_velocity hi hpost h s1.vel ?_ i
      intro i
      have := warmstart_kick (e₀.prepared p s₀) p s1 (prepared_totalImpulse e₀ p s₀) i
      rw [this, h0]
      simp only [sub_zero]
    | cons a pre ih =>
      intro s1 h
      obtain ⟨c, rfl⟩ := hpre a (by simp)
      simp only [List.cons_append, Contact.runEvents] at h
      rw [ih (fun a ha => hpre a (by simp [ha])) (s1.change c) h]
      simp only [List.cons_append, others, SolveState.change]
      abel

end

section
variable {K : Type*} [Field K] [LinearOrder K] [IsStrictOrderedRing K] [Trig K]

/-- The restitution requested for a contact point that separates with speed `u` when the solve starts. -/
def requested (restitution u : K) : K := if u ≤ -1 then -(restitution * u) else 0

omit [LinearOrder K] [IsStrictOrderedRing K] [Trig K] in
theorem inner_row (p : Proxies K) (n a0 a1 b0 b1 x0 x1 : Vec2 K) :
    inner p (row n a0 a1 x0 x1) (row n b0 b1 x0 x1) = (p.masses.m0 + p.masses.m1) * n.normSquared +
      p.masses.I0 * (Vec2.cross (a0 - x0) n * Vec2.cross (b0 - x0) n) + p.masses.I1 * (Vec2.cross (a1 - x1) n * Vec2.cross (b1 - x1) n) := by
  rw [inner_eq]
  simp [row, Vec2.normSquared, Vec2.dot]
  ring

/-- Masses for which the bodies can respond to the contacts of a frame: the inverse masses are not negative, one of
the bodies can be moved, the normal is not zero and, for two contacts, one of the bodies can be turned and the contact points
are not in line with the normal. -/
structure Solvable (f : Frame K) (p : Proxies K) : Prop where
  m0 : 0 ≤ p.masses.m0
  m1 : 0 ≤ p.masses.m1
  I0 : 0 ≤ p.masses.I0
  I1 : 0 ≤ p.masses.I1
  moves : 0 < p.masses.m0 + p.masses.m1
  normal : f.normal ≠ 0
  turns : f.nContacts = 2 →
    (0 < p.masses.I0 ∧ Vec2.cross (f.contacts 0 0 - f.contacts 0 1) f.normal ≠ 0) ∨
    (0 < p.masses.I1 ∧ Vec2.cross (f.contacts 1 0 - f.contacts 1 1) f.normal ≠ 0)

omit [Trig K] in
theorem normSquared_pos_of_ne {v : Vec2 K} (h : v ≠ 0) : 0 < v.normSquared := by
  have e : v.normSquared = v.x * v.x + v.y * v.y := by simp [Vec2.normSquared, Vec2.dot]
  rw [e]
  by_contra hn
  rw [not_lt] at hn
  have hx := mul_self_nonneg v.x; have hy := mul_self_nonneg v.y
  apply h
  have e1 : v.x * v.x = 0 := by linarith
  have e2 : v.y * v.y = 0 := by linarith
  ext
  · exact mul_self_eq_zero.1 e1
  · exact mul_self_eq_zero.1 e2

theorem Solvable.positive' {f : Frame K} {p : Proxies K} (hs : Solvable f p) {pos : Nat → Position K} {e : Contact K}
    (hr : ∀ c i, e.Jn.get c i = if c.val < f.nContacts then rowOf f p pos f.normal c i else 0) : (∀ c : Fin 2, c.val < f.nContacts → 0 < inner p (e.Jn.get c) (e.Jn.get c)) ∧
      (f.nContacts = 2 → 0 < (normalK p e.Jn).toM.det) := by
  have hn := normSquared_pos_of_ne hs.normal
  have hM := mul_pos hs.moves hn
  have hget : ∀ c : Fin 2, c.val < f.nContacts → e.Jn.get c = rowOf f p pos f.normal c := by
    intro c hc; funext i; rw [hr, if_pos hc]
  constructor
  · intro c hc
    rw [hget c hc, rowOf, inner_row]
    have h0 := mul_nonneg hs.I0 (mul_self_nonneg (Vec2.cross (f.contacts 0 c - (pos p.i0).centroid) f.normal))
    have h1 := mul_nonneg hs.I1 (mul_self_nonneg (Vec2.cross (f.contacts 1 c - (pos p.i1).centroid) f.normal))
    linarith
  · intro h2
    rw [Matrix.det_fin_two]
    have g0 := hget 0 (by simp [h2]); have g1 := hget 1 (by simp [h2])
    have hM' : ∀ r c, (normalK p e.Jn).toM r c = inner p (e.Jn.get r) (e.Jn.get c) := fun r c => normalK_get p e.Jn r c
    rw [hM', hM', hM', hM', g0, g1]
    simp only [rowOf, inner_row]
    set M := (p.masses.m0 + p.masses.m1) * f.normal.normSquared
    set a0 := Vec2.cross (f.contacts 0 0 - (pos p.i0).centroid) f.normal with ha0
    set a1 := Vec2.cross (f.contacts 0 1 - (pos p.i0).centroid) f.normal with ha1
    set b0 := Vec2.cross (f.contacts 1 0 - (pos p.i1).centroid) f.normal with hb0
    set b1 := Vec2.cross (f.contacts 1 1 - (pos p.i1).centroid) f.normal with hb1
    have key : (M + p.masses.I0 * (a0 * a0) + p.masses.I1 * (b0 * b0)) * (M + p.masses.I0 * (a1 * a1) + p.masses.I1 * (b1 * b1)) -
        (M + p.masses.I0 * (a0 * a1) + p.masses.I1 * (b0 * b1)) * (M + p.masses.I0 * (a1 * a0) + p.masses.I1 * (b1 * b0)) =
        M * (p.masses.I0 * ((a0 - a1) * (a0 - a1))) + M * (p.masses.I1 * ((b0 - b1) * (b0 - b1))) +
          p.masses.I0 * p.masses.I1 * ((a0 * b1 - a1 * b0) * (a0 * b1 - a1 * b0)) := by ring
    rw [key]
    have n0 : 0 ≤ M * (p.masses.I0 * ((a0 - a1) * (a0 - a1))) := mul_nonneg hM.le (mul_nonneg hs.I0 (mul_self_nonneg _))
    have n1 : 0 ≤ M * (p.masses.I1 * ((b0 - b1) * (b0 - b1))) := mul_nonneg hM.le (mul_nonneg hs.I1 (mul_self_nonneg _))
    have n2 : 0 ≤ p.masses.I0 * p.masses.I1 * ((a0 * b1 - a1 * b0) * (a0 * b1 - a1 * b0)) :=
      mul_nonneg (mul_nonneg hs.I0 hs.I1) (mul_self_nonneg _)
    have da : a0 - a1 = Vec2.cross (f.contacts 0 0 - f.contacts 0 1) f.normal := by
      simp only [ha0, ha1, Vec2.cross, Vec2.sub_x, Vec2.sub_y]; ring
    have db : b0 - b1 = Vec2.cross (f.contacts 1 0 - f.contacts 1 1) f.normal := by
      simp only [hb0, hb1, Vec2.cross, Vec2.sub_x, Vec2.sub_y]; ring
    rcases hs.turns h2 with ⟨hI, hx⟩ | ⟨hI, hx⟩
    · rw [← da] at hx
      have := mul_pos hM (mul_pos hI (mul_self_pos.2 hx))
      linarith
    · rw [← db] at hx
      have := mul_pos hM (mul_pos hI (mul_self_pos.2 hx))
      linarith

theorem Solvable.positive {f : Frame K} {p : Proxies K} (hs : Solvable f p) {pos : Nat → Position K} {e : Contact K}
    (hr : Ready p f pos e) : (∀ c : Fin 2, c.val < f.nContacts → 0 < inner p (e.Jn.get c) (e.Jn.get c)) ∧
      (f.nContacts = 2 → 0 < (normalK p e.Jn).toM.det) := hs.positive' hr.Jn

/-- C36: each time a contact with one or two points is solved - whatever happened since the solve was started, in particular
whatever multipliers have been accumulated and whatever other constraints did - the call succeeds and afterwards every contact
point separates with at least the requested restitution, non-negative multipliers, and exactly the requested restitution where
the multiplier is not zero. -/
theorem C36_restitution (e₀ : Contact K) (p : Proxies K) (hi : p.i0 ≠ p.i1) (s₀ : SolveState K) (f : Frame K)
    (hf : f = e₀.manifold.frame ![(s₀.pos p.i0).toWorldSpace, (s₀.pos p.i1).toWorldSpace])
    (hn : f.nContacts = 1 ∨ f.nContacts = 2) (hs : Solvable f p) (l : List (SolveEvent K)) {e : Contact K} {s : SolveState K}
    (h : Contact.runEvents p l (e₀.prepared p s₀, s₀) = .ok (e, s)) :
    ∃ e' s', e.solveVelocities p s = .ok (e', s') ∧ s'.pos = s.pos ∧ ∀ c : Fin 2, c.val < f.nContacts →
      let goal := requested e₀.restitution (f.separationSpeed p s₀.pos s₀.vel c)
      goal ≤ f.separationSpeed p s₀.pos s'.vel c ∧ 0 ≤ e'.normalLambda.at_ c ∧
      (0 < e'.normalLambda.at_ c → f.separationSpeed p s₀.pos s'.vel c = goal) := by
  have hr0 := prepared_ready e₀ p s₀
  rw [← hf] at hr0
  obtain ⟨hr, hb, _⟩ := run_ready hr0 h
  simp only at hr hb
  obtain ⟨hK, hdet⟩ := hs.positive hr
  obtain ⟨ln, v', hsol, hcomp⟩ := solveNormal_complement hr hn hK hdet (e.frictionLoop p (p.velocity s)).2
  refine ⟨{ e with tangentLambda := (e.frictionLoop p (p.velocity s)).1, normalLambda := ln },
    (s.setVel p.i0 ⟨v'.at_ 0, v'.at_ 1⟩ (v'.at_ 2)).setVel p.i1 ⟨v'.at_ 3, v'.at_ 4⟩ (v'.at_ 5), ?_, rfl, ?_⟩
  · unfold Contact.solveVelocities
    dsimp only
    rw [hsol]
    rfl
  · intro c hc
    have hv := velocity_setVel p hi s v'
    set s' := (s.setVel p.i0 ⟨v'.at_ 0, v'.at_ 1⟩ (v'.at_ 2)).setVel p.i1 ⟨v'.at_ 3, v'.at_ 4⟩ (v'.at_ 5)
    obtain ⟨h1, h2, h3⟩ := hcomp c hc
    have hp := hr.push_Jn s' c hc
    rw [hv] at hp
    have hcm : c.val < e₀.manifold.nContacts := by rw [hf] at hc; exact hc
    have hbv := prepared_bounce e₀ p s₀ c hcm
    rw [hr0.push_Jn s₀ c hc] at hbv
    have hreq : e.bounce.at_ c = -requested e₀.restitution (f.separationSpeed p s₀.pos s₀.vel c) := by
      rw [hb, hbv, requested]
      by_cases hu : f.separationSpeed p s₀.pos s₀.vel c ≤ -1
      · rw [if_pos hu, if_neg (not_lt.2 hu)]; ring
      · rw [if_neg hu, if_pos (not_le.1 hu)]; ring
    rw [hp, hreq] at h2 h3
    refine ⟨by linarith, h1, ?_⟩
    intro hpos
    have := (mul_eq_zero.1 h3).resolve_left hpos.ne'
    linarith

/-! ### Momentum -/

omit [LinearOrder K] [IsStrictOrderedRing K] in
theorem impulse_at (f : Frame K) (p : Proxies K) (pos : Nat → Position K) (a b : Fin 2 → K) :
    f.impulse p pos a b 3 = -f.impulse p pos a b 0 ∧ f.impulse p pos a b 4 = -f.impulse p pos a b 1 := by
  constructor <;>
  · simp only [Frame.impulse, Fin.sum_univ_two, pairImpulse]
    simp
    split_ifs <;> ring

/-- Force at contact `c`. -/
def Frame.force (f : Frame K) (normal tangent : Fin 2 → K) (c : Fin 2) : Vec2 K :=
  normal c • f.normal + tangent c • f.tangent

/-- C51: the contact between two bodies of dominance 1 keeps their linear momentum, and their angular momentum changes by the
moments of the contact forces about the gaps between the contact points (none for a normal force along the gap). -/
theorem C51_momentum (bodies : Nat → Body K) (i0 i1 : Nat) (hi : i0 ≠ i1) (dom : Option (Vec2 K))
    (hd : FullDominance bodies i0 i1 dom) (h0 : (bodies i0).mass ≠ 0) (h1 : (bodies i1).mass ≠ 0)
    (hI0 : (bodies i0).inertia ≠ 0) (hI1 : (bodies i1).inertia ≠ 0)
    (p : Proxies K) (hp : p = (Bodies.make bodies i0 i1 dom).proxies) (e₀ : Contact K) (s₀ : SolveState K) (f : Frame K)
    (hf : f = e₀.manifold.frame ![(s₀.pos i0).toWorldSpace, (s₀.pos i1).toWorldSpace])
    (l pre post : List (SolveEvent K)) (hpre : ∀ a ∈ pre, ∃ c, a = SolveEvent.other c) (hpost : .warmstart ∉ post)
    (hl : l = post ∨ l = pre ++ .warmstart :: post) {e : Contact K} {s : SolveState K}
    (h : Contact.runEvents p l (e₀.prepared p s₀, s₀) = .ok (e, s)) :
    momentum (bodies i0).mass (bodies i1).mass i0 i1 s = momentum (bodies i0).mass (bodies i1).mass i0 i1 s₀ +
      momentumChange (bodies i0).mass (bodies i1).mass i0 i1 (others l) ∧
    (let L := fun v : Nat → Velocity K => angularMomentum (bodies i0).mass (bodies i1).mass (bodies i0).inertia (bodies i1).inertia
      (s₀.pos i0).centroid (s₀.pos i1).centroid (v i0) (v i1);
    L s.vel = L s₀.vel + L (others l) + ∑ c : Fin 2, if c.val < f.nContacts then
      Vec2.cross (f.contacts 0 c - f.contacts 1 c) (f.force e.normalLambda.toV e.tangentLambda.toV c) else 0) := by
  have e0 : p.i0 = i0 := by rw [hp]; rfl
  have e1 : p.i1 = i1 := by rw [hp]; rfl
  have hi' : p.i0 ≠ p.i1 := by rw [e0, e1]; exact hi
  have hv := C51_contact_impulse e₀ p hi' s₀ l pre post hpre hpost hl h
  rw [e0, e1, ← hf] at hv
  obtain ⟨k0, k1⟩ := kick_masses p (f.impulse p s₀.pos e.normalLambda.toV e.tangentLambda.toV) hi'
  rw [e0] at k0
  rw [e1] at k1
  have hm : p.masses = ⟨1 / (bodies i0).mass, 1 / (bodies i0).inertia, 1 / (bodies i1).mass, 1 / (bodies i1).inertia⟩ := by
    rw [hp]; exact hd.masses
  obtain ⟨o3, o4⟩ := impulse_at f p s₀.pos e.normalLambda.toV e.tangentLambda.toV
  constructor
  · simp only [momentum, momentumChange, hv, k0, k1, hm, o3, o4]
    ext
    · simp; field_simp; ring
    · simp; field_simp; ring
  · simp only [angularMomentum, hv, k0, k1, hm, o3, o4]
    simp only [Vec2.cross, Velocity.add_linear, Velocity.add_angular, Vec2.add_x, Vec2.add_y]
    field_simp
    simp only [Frame.impulse, Fin.sum_univ_two, pairImpulse, Frame.force, Vec2.cross, e0, e1]
    simp
    split_ifs <;> ring

/-! ### Energy -/

/-- Twice the energy of the generalised velocity `v`. -/
def energyOf (m : Fin 6 → K) (v : Fin 6 → K) : K := ∑ i, m i * (v i * v i)

/-- Each coordinate can be moved by impulses according to its mass, or is fixed and at rest. -/
def Backed (p : Proxies K) (m v : Fin 6 → K) : Prop :=
  ∀ i, (p.invMassVec.at_ i = 0 ∧ v i = 0) ∨ m i * p.invMassVec.at_ i = 1

omit [LinearOrder K] [IsStrictOrderedRing K] [Trig K] in
theorem Backed.step {p : Proxies K} {m v : Fin 6 → K} (h : Backed p m v) (P : Fin 6 → K) :
    Backed p m (fun i => v i + p.invMassVec.at_ i * P i) ∧
    energyOf m (fun i => v i + p.invMassVec.at_ i * P i) = energyOf m v + 2 * (∑ i, P i * v i) + inner p P P := by
  constructor
  · intro i
    rcases h i with ⟨a, b⟩ | a
    · left; exact ⟨a, by simp only [a, b]; ring⟩
    · exact Or.inr a
  · have : ∀ i, m i * ((v i + p.invMassVec.at_ i * P i) * (v i + p.invMassVec.at_ i * P i)) =
        m i * (v i * v i) + 2 * (P i * v i) + p.invMassVec.at_ i * (P i * P i) := by
      intro i
      rcases h i with ⟨a, b⟩ | a
      · rw [a, b]; ring
      · linear_combination (2 * v i * P i + p.invMassVec.at_ i * P i * P i) * a
    simp only [energyOf, this, Finset.sum_add_distrib, inner, Finset.mul_sum]

omit [Trig K] in
/-- A friction step whose multiplier starts within its bounds does not create energy. -/
theorem frictionStep_energy (e : Contact K) (p : Proxies K) (c : Fin 2) (st : MVec K 2 × MVec K 6) (m : Fin 6 → K)
    (hB : Backed p m st.2.toV) (hk : 0 ≤ inner p ((e.Jf c).get 0) ((e.Jf c).get 0))
    (hi : e.invTangentKs.at_ c = 1 / inner p ((e.Jf c).get 0) ((e.Jf c).get 0))
    (ht : |st.1.at_ c| ≤ e.friction * e.normalLambda.at_ c) :
    Backed p m (frictionStep e p c st).2.toV ∧ energyOf m (frictionStep e p c st).2.toV ≤ energyOf m st.2.toV := by
  obtain ⟨h1, h2⟩ := frictionStep_eq e p c st
  set k := inner p ((e.Jf c).get 0) ((e.Jf c).get 0) with hkd
  set vt := ∑ i, (e.Jf c).get 0 i * st.2.at_ i with hvt
  set t := st.1.at_ c with htd
  set B := e.friction * e.normalLambda.at_ c with hBd
  have hst : (frictionStep e p c st).1.at_ c = Algo.clamp (t + -vt * (1 / k)) (-B) B := by
    rw [h1, at_setAt, if_pos rfl, hi]
  set d := (frictionStep e p c st).1.at_ c - t with hd
  have hfun : (frictionStep e p c st).2.toV = fun i => st.2.toV i + p.invMassVec.at_ i * ((e.Jf c).get 0 i * d) := by
    funext i; exact h2 i
  obtain ⟨hb, he⟩ := hB.step (fun i => (e.Jf c).get 0 i * d)
  rw [hfun]
  refine ⟨hb, ?_⟩
  rw [he]
  have e1 : ∑ i, (e.Jf c).get 0 i * d * st.2.toV i = vt * d := by
    rw [hvt, Finset.sum_mul]; exact Finset.sum_congr rfl fun i _ => by simp only [toV]; ring
  have e2 : inner p (fun i => (e.Jf c).get 0 i * d) (fun i => (e.Jf c).get 0 i * d) = k * (d * d) := by
    rw [hkd, inner, inner, Finset.sum_mul]; exact Finset.sum_congr rfl fun i _ => by ring
  rw [e1, e2]
  suffices key : d * (2 * vt + k * d) ≤ 0 by linarith
  obtain ⟨hl, hu⟩ := abs_le.1 ht
  rcases hk.eq_or_lt with hk0 | hk0
  · have : d = 0 := by
      rw [hd, hst, ← hk0]
      rcases clamp_three (t + -vt * (1 / 0)) (-B) B (by linarith) with ⟨a, hc⟩ | ⟨a, hc⟩ | hc <;> rw [hc] <;> simp at * <;> linarith
    rw [this, zero_mul]
  · have hkk : k * (1 / k) = 1 := by rw [mul_one_div, div_self hk0.ne']
    have e1 : k * (t + -vt * (1 / k)) = k * t - vt := by linear_combination -vt * hkk
    rcases clamp_three (t + -vt * (1 / k)) (-B) B (by linarith) with ⟨a, hc⟩ | ⟨a, hc⟩ | hc
    · have hd' : d = -B - t := by rw [hd, hst, hc]
      have h3 := mul_lt_mul_of_pos_left a hk0
      rw [e1] at h3
      have h4 : d ≤ 0 := by linarith
      have h5 : k * d = k * -B - k * t := by rw [hd']; ring
      have h6 : k * d ≤ 0 := mul_nonpos_of_nonneg_of_nonpos hk0.le h4
      exact mul_nonpos_of_nonpos_of_nonneg h4 (by linarith)
    · have hd' : d = B - t := by rw [hd, hst, hc]
      have h3 := mul_lt_mul_of_pos_left a hk0
      rw [e1] at h3
      have h4 : 0 ≤ d := by linarith
      have h5 : k * d = k * B - k * t := by rw [hd']; ring
      have h6 : 0 ≤ k * d := mul_nonneg hk0.le h4
      exact mul_nonpos_of_nonneg_of_nonpos h4 (by linarith)
    · have hd' : d = -vt * (1 / k) := by rw [hd, hst, hc]; ring
      have h5 : k * d = -vt := by rw [hd']; linear_combination -vt * hkk
      have h6 := mul_nonneg hk0.le (mul_self_nonneg d)
      have : d * (2 * vt + k * d) = -(k * (d * d)) := by linear_combination 2 * d * h5
      linarith

omit [LinearOrder K] [IsStrictOrderedRing K] [Trig K] in
theorem inner_pull (p : Proxies K) (J : Mat K 2 6) (d : Fin 2 → K) : inner p (pull J d) (pull J d) =
    (inner p (J.get 0) (J.get 0) * d 0 + inner p (J.get 0) (J.get 1) * d 1) * d 0 +
    (inner p (J.get 1) (J.get 0) * d 0 + inner p (J.get 1) (J.get 1) * d 1) * d 1 := by
  simp only [inner, pull, Fin.sum_univ_six, Fin.sum_univ_two]
  ring

omit [Trig K] in
theorem inner_nonneg (p : Proxies K) (h : ∀ i, 0 ≤ p.invMassVec.at_ i) (x : Fin 6 → K) : 0 ≤ inner p x x :=
  Finset.sum_nonneg fun i _ => mul_nonneg (h i) (mul_self_nonneg _)

/-- What a normal solve does to the energy, in terms of the separation speeds afterwards: `w` are these speeds. -/
theorem solveNormal_energy (e : Contact K) (p : Proxies K) (v : MVec K 6) {l : MVec K 2} {v' : MVec K 6}
    (h : e.solveNormal p v = .ok (l, v')) (m : Fin 6 → K) (hB : Backed p m v.toV) :
    Backed p m v'.toV ∧ ∃ d : Fin 2 → K, (∀ c, d c = l.at_ c - e.normalLambda.at_ c) ∧
      energyOf m v'.toV = energyOf m v.toV + 2 * (push e.Jn v'.toV 0 * d 0 + push e.Jn v'.toV 1 * d 1) -
        inner p (pull e.Jn d) (pull e.Jn d) := by
  have hv := solveNormal_velocity e p v h
  set d : Fin 2 → K := fun c => l.at_ c - e.normalLambda.at_ c with hd
  have hfun : v'.toV = fun i => v.toV i + p.invMassVec.at_ i * pull e.Jn d i := by funext i; exact hv i
  obtain ⟨hb, he⟩ := hB.step (pull e.Jn d)
  rw [hfun]
  refine ⟨hb, d, fun c => rfl, ?_⟩
  rw [he, push_pull, push_pull, inner_pull]
  have : ∑ i, pull e.Jn d i * v.toV i = push e.Jn v.toV 0 * d 0 + push e.Jn v.toV 1 * d 1 := by
    simp only [pull, push, Fin.sum_univ_six, Fin.sum_univ_two]; ring
  rw [this]
  ring

omit [LinearOrder K] [IsStrictOrderedRing K] [Trig K] in
theorem weight_at (p : Proxies K) (i : Fin 6) : p.invMassVec.at_ i =
    ![p.masses.m0, p.masses.m0, p.masses.I0, p.masses.m1, p.masses.m1, p.masses.I1] i := by
  fin_cases i <;> rfl

omit [LinearOrder K] [IsStrictOrderedRing K] [Trig K] in
theorem backed_of_movable {p : Proxies K} {m0 I0 m1 I1 : K} {s : SolveState K}
    (h0 : Movable m0 I0 p.masses.m0 p.masses.I0 (s.vel p.i0)) (h1 : Movable m1 I1 p.masses.m1 p.masses.I1 (s.vel p.i1)) :
    Backed p ![m0, m0, I0, m1, m1, I1] (p.velocity s).toV := by
  intro i
  rw [weight_at]
  simp only [toV, velocity_toV]
  rcases h0 with ⟨a, b⟩ | ⟨a, b, c⟩ <;> rcases h1 with ⟨a', b'⟩ | ⟨a', b', c'⟩ <;> fin_cases i <;> simp_all <;> first | exact Or.inl rfl | rfl

omit [LinearOrder K] [IsStrictOrderedRing K] [Trig K] in
theorem energyOf_velocity (p : Proxies K) (m0 I0 m1 I1 : K) (s : SolveState K) :
    energyOf ![m0, m0, I0, m1, m1, I1] (p.velocity s).toV = energy2 m0 I0 m1 I1 (s.vel p.i0) (s.vel p.i1) := by
  simp only [energyOf, Fin.sum_univ_six, toV, velocity_toV, energy2, Vec2.normSquared, Vec2.dot]
  simp
  ring

/-- The friction of all contacts does not create energy if the tangential multipliers are within their bounds. -/
theorem frictionLoop_energy {p : Proxies K} {f : Frame K} {pos : Nat → Position K} {e : Contact K} (hr : Ready p f pos e)
    (hw : ∀ i, 0 ≤ p.invMassVec.at_ i) (v : MVec K 6) (m : Fin 6 → K) (hB : Backed p m v.toV)
    (ht : ∀ c : Fin 2, c.val < f.nContacts → |e.tangentLambda.at_ c| ≤ e.friction * e.normalLambda.at_ c) :
    Backed p m (e.frictionLoop p v).2.toV ∧ energyOf m (e.frictionLoop p v).2.toV ≤ energyOf m v.toV := by
  unfold frictionLoop
  rw [forFin_two, hr.frame]
  have step : ∀ (c : Fin 2) (st : MVec K 2 × MVec K 6), c.val < f.nContacts → Backed p m st.2.toV →
      st.1.at_ c = e.tangentLambda.at_ c →
      Backed p m (frictionStep e p c st).2.toV ∧ energyOf m (frictionStep e p c st).2.toV ≤ energyOf m st.2.toV := by
    intro c st hc hb hst
    exact frictionStep_energy e p c st m hb (inner_nonneg p hw _) (hr.tangentK c hc) (by rw [hst]; exact ht c hc)
  have hst : ∀ (c d : Fin 2) (st), d ≠ c → (frictionStep e p c st).1.at_ d = st.1.at_ d := by
    intro c d st hd
    rw [(frictionStep_eq e p c st).1, at_setAt, if_neg hd]
  split_ifs with h1 h0 h0
  · obtain ⟨b0, e0⟩ := step 0 (e.tangentLambda, v) h0 hB rfl
    obtain ⟨b1, e1⟩ := step 1 (frictionStep e p 0 (e.tangentLambda, v)) h1 b0 (hst 0 1 _ (by decide))
    exact ⟨b1, e1.trans e0⟩
  · exact step 1 (e.tangentLambda, v) h1 hB rfl
  · exact step 0 (e.tangentLambda, v) h0 hB rfl
  · exact ⟨hB, le_refl _⟩

omit [IsStrictOrderedRing K] in
theorem Solvable.weights {f : Frame K} {p : Proxies K} (hs : Solvable f p) (i : Fin 6) : 0 ≤ p.invMassVec.at_ i := by
  rw [weight_at]
  have := hs.m0; have := hs.m1; have := hs.I0; have := hs.I1
  fin_cases i <;> simpa

/-- C36: a solve of a contact without restitution never creates energy, provided that the tangential multipliers it starts with are within
the friction cone (always the case without friction, and when all multipliers are zero). -/
theorem C36_energy (e₀ : Contact K) (p : Proxies K) (hi : p.i0 ≠ p.i1) (s₀ : SolveState K) (f : Frame K)
    (hf : f = e₀.manifold.frame ![(s₀.pos p.i0).toWorldSpace, (s₀.pos p.i1).toWorldSpace])
    (hn : f.nContacts = 1 ∨ f.nContacts = 2) (hs : Solvable f p) (he : e₀.restitution = 0)
    (l : List (SolveEvent K)) {e : Contact K} {s : SolveState K}
    (h : Contact.runEvents p l (e₀.prepared p s₀, s₀) = .ok (e, s))
    (hpush : ∀ c : Fin 2, c.val < f.nContacts → 0 ≤ e.normalLambda.at_ c)
    (hcone : ∀ c : Fin 2, c.val < f.nContacts → |e.tangentLambda.at_ c| ≤ e₀.friction * e.normalLambda.at_ c)
    (m0 I0 m1 I1 : K) (h0 : Movable m0 I0 p.masses.m0 p.masses.I0 (s.vel p.i0))
    (h1 : Movable m1 I1 p.masses.m1 p.masses.I1 (s.vel p.i1)) {e' : Contact K} {s' : SolveState K}
    (hsol : e.solveVelocities p s = .ok (e', s')) :
    energy2 m0 I0 m1 I1 (s'.vel p.i0) (s'.vel p.i1) ≤ energy2 m0 I0 m1 I1 (s.vel p.i0) (s.vel p.i1) := by
  have hr0 := prepared_ready e₀ p s₀
  rw [← hf] at hr0
  obtain ⟨hr, hb, hfr⟩ := run_ready hr0 h
  simp only at hr hb hfr
  have hfr' : e.friction = e₀.friction := hfr.trans (prepared_lambda e₀ p s₀).2.2.2.2
  obtain ⟨hK, hdet⟩ := hs.positive hr
  obtain ⟨l1, v1, hn1, he', hs'⟩ := solveVelocities_eq e p s hsol
  obtain ⟨ln, v', hsn, hcomp⟩ := solveNormal_complement hr hn hK hdet (e.frictionLoop p (p.velocity s)).2
  obtain ⟨rfl, rfl⟩ : ln = l1 ∧ v' = v1 := by
    rw [hsn] at hn1
    simp only [Outcome.ok.injEq, Prod.mk.injEq] at hn1
    exact hn1
  have hv := velocity_setVel p hi s v'
  rw [← hs'] at hv
  have hB := backed_of_movable h0 h1
  obtain ⟨hB1, hE1⟩ := frictionLoop_energy hr hs.weights (p.velocity s) _ hB (by rw [hfr']; exact hcone)
  obtain ⟨_, d, hd, hE2⟩ := solveNormal_energy e p _ hsn _ hB1
  rw [← energyOf_velocity, ← energyOf_velocity, hv, hE2]
  have hq := inner_nonneg p hs.weights (pull e.Jn d)
  have hw : ∀ c : Fin 2, push e.Jn v'.toV c * d c ≤ 0 := by
    intro c
    by_cases hc : c.val < f.nContacts
    · obtain ⟨a1, a2, a3⟩ := hcomp c hc
      have hcm : c.val < e₀.manifold.nContacts := by rw [hf] at hc; exact hc
      have hbv : e.bounce.at_ c = 0 := by rw [hb, prepared_bounce e₀ p s₀ c hcm, he, mul_zero]
      rw [hbv, add_zero] at a2 a3
      rw [hd c]
      have := mul_nonneg a2 (hpush c hc)
      linarith
    · have : push e.Jn v'.toV c = 0 := by simp [push, hr.Jn, hc]
      rw [this, zero_mul]
  have := hw 0; have := hw 1
  linarith

omit [LinearOrder K] [IsStrictOrderedRing K] [Trig K] in
theorem others_solves {l : List (SolveEvent K)} (h : ∀ a ∈ l, a = .solve) (i : Nat) : others l i = 0 := by
  induction l with
  | nil => rfl
  | cons a l ih =>
    have ha := h a (by simp)
    subst ha
    exact ih fun a ha => h a (by simp [ha])

/-- C36: solving a frictionless contact with a single point never creates energy, for restitutions from 0 to 1: after a start of the
solve, an optional warm start and any positive number of iterations the energy is at most that at the start. -/
theorem C36_energy_single (e₀ : Contact K) (p : Proxies K) (hi : p.i0 ≠ p.i1) (s₀ : SolveState K) (f : Frame K)
    (hf : f = e₀.manifold.frame ![(s₀.pos p.i0).toWorldSpace, (s₀.pos p.i1).toWorldSpace])
    (hn : f.nContacts = 1) (hs : Solvable f p) (he0 : 0 ≤ e₀.restitution) (he1 : e₀.restitution ≤ 1) (hμ : e₀.friction = 0)
    (l solves : List (SolveEvent K)) (hsolves : ∀ a ∈ solves, a = .solve) (hl : l = solves ∨ l = .warmstart :: solves)
    {e : Contact K} {s : SolveState K} (h : Contact.runEvents p l (e₀.prepared p s₀, s₀) = .ok (e, s))
    (m0 I0 m1 I1 : K) (h0 : Movable m0 I0 p.masses.m0 p.masses.I0 (s₀.vel p.i0))
    (h1 : Movable m1 I1 p.masses.m1 p.masses.I1 (s₀.vel p.i1)) {e' : Contact K} {s' : SolveState K}
    (hsol : e.solveVelocities p s = .ok (e', s')) :
    energy2 m0 I0 m1 I1 (s'.vel p.i0) (s'.vel p.i1) ≤ energy2 m0 I0 m1 I1 (s₀.vel p.i0) (s₀.vel p.i1) := by
  have hr0 := prepared_ready e₀ p s₀
  rw [← hf] at hr0
  obtain ⟨hr, hb, hfr⟩ := run_ready hr0 h
  simp only at hr hb hfr
  have hfr' : e.friction = 0 := (hfr.trans (prepared_lambda e₀ p s₀).2.2.2.2).trans hμ
  obtain ⟨e1, s1, hsol', hpos, hC⟩ := C36_restitution e₀ p hi s₀ f hf (Or.inl hn) hs l h
  obtain ⟨rfl, rfl⟩ : e1 = e' ∧ s1 = s' := by
    rw [hsol] at hsol'
    simp only [Outcome.ok.injEq, Prod.mk.injEq] at hsol'
    exact ⟨hsol'.1.symm, hsol'.2.symm⟩
  obtain ⟨hC1, hC2, hC3⟩ := hC 0 (by simp [hn])
  have hr' := hr.solveVelocities s hsol
  have ht : e1.tangentLambda.at_ 0 = 0 := by
    obtain ⟨ln, v1, _, he', _⟩ := solveVelocities_eq e p s hsol
    rw [he']
    have := (frictionLoop_bound e p (p.velocity s) 0).1 (by rw [hr.frame, hn]; exact Nat.one_pos) (by rw [hfr', zero_mul])
    rw [hfr', zero_mul] at this
    exact abs_nonpos_iff.1 this
  set lam := e1.normalLambda.at_ 0 with hlam
  have hP : totalImpulse e1 = fun i => e1.Jn.get 0 i * lam := by
    funext i
    have hJn1 : e1.Jn.get 1 i = 0 := by rw [hr'.Jn, if_neg (by simp [hn])]
    have hJf1 : (e1.Jf 1).get 0 i = 0 := by rw [hr'.Jf, if_neg (by simp [hn])]
    simp only [totalImpulse, pull, Fin.sum_univ_two, ht, hJn1, hJf1, toV, hlam]
    ring
  -- the velocities at the end
  have hrun : Contact.runEvents p (l ++ [.solve]) (e₀.prepared p s₀, s₀) = .ok (e1, s1) := by
    suffices key : ∀ (l : List (SolveEvent K)) (es : Contact K × SolveState K), Contact.runEvents p l es = .ok (e, s) →
        Contact.runEvents p (l ++ [.solve]) es = .ok (e1, s1) from key l _ h
    intro l
    induction l with
    | nil =>
      intro es h
      simp only [Contact.runEvents, Outcome.ok.injEq] at h
      subst h
      simp only [List.nil_append, Contact.runEvents, hsol, Outcome.bind_ok]
    | cons a l ih =>
      intro es h
      cases a with
      | warmstart => exact ih _ h
      | other c => exact ih _ h
      | solve =>
        simp only [Contact.runEvents] at h
        cases hs1 : es.1.solveVelocities p es.2 with
        | throw => simp [hs1] at h
        | ub => simp [hs1] at h
        | ok es1 =>
          simp only [hs1, Outcome.bind_ok] at h
          simp only [List.cons_append, Contact.runEvents, hs1, Outcome.bind_ok]
          exact ih _ h
  have hso : ∀ a ∈ solves ++ [SolveEvent.solve], a = .solve := by
    intro a ha
    rcases List.mem_append.1 ha with ha | ha
    · exact hsolves a ha
    · simpa using ha
  have hnw : SolveEvent.warmstart ∉ solves ++ [SolveEvent.solve] := fun hm => by cases hso _ hm
  have hl' : l ++ [.solve] = solves ++ [.solve] ∨ l ++ [.solve] = [] ++ .warmstart :: (solves ++ [.solve]) := by
    rcases hl with hl | hl
    · left; rw [hl]
    · right; rw [hl]; rfl
  have hoth : ∀ i, others (l ++ [.solve]) i = 0 := by
    intro i
    rcases hl' with hl' | hl' <;> rw [hl']
    · exact others_solves hso i
    · exact others_solves hso i
  have hvel := C51_contact_impulse e₀ p hi s₀ (l ++ [.solve]) [] (solves ++ [.solve]) (by simp) hnw hl' hrun
  have heq' : (e₀.manifold.frame ![(s₀.pos p.i0).toWorldSpace, (s₀.pos p.i1).toWorldSpace]).impulse
      p s₀.pos e1.normalLambda.toV e1.tangentLambda.toV = totalImpulse e1 := by
    rw [← hf]; funext c; rw [← hr'.totalImpulse_eq]
  rw [heq', hP] at hvel
  obtain ⟨k0, k1⟩ := kick_masses p (fun i => e1.Jn.get 0 i * lam) hi
  have hfun : (p.velocity s1).toV = fun i => (p.velocity s₀).toV i + p.invMassVec.at_ i * (e1.Jn.get 0 i * lam) := by
    funext i
    simp only [toV, velocity_toV, weight_at, hvel, hoth, k0, k1, add_zero]
    fin_cases i <;> rfl
  obtain ⟨_, hE⟩ := (backed_of_movable h0 h1).step (fun i => e1.Jn.get 0 i * lam)
  rw [← energyOf_velocity, ← energyOf_velocity, hfun, hE]
  have hsep0 := hr'.push_Jn s₀ 0 (by simp [hn])
  have hsep1 := hr'.push_Jn s1 0 (by simp [hn])
  set k := inner p (e1.Jn.get 0) (e1.Jn.get 0) with hk
  have e1' : push e1.Jn (p.velocity s1).toV 0 = push e1.Jn (p.velocity s₀).toV 0 + k * lam := by
    rw [hfun]
    simp only [push, inner, hk, Fin.sum_univ_six]
    ring
  rw [hsep0, hsep1] at e1'
  have e2 : ∑ i, e1.Jn.get 0 i * lam * (p.velocity s₀).toV i = lam * f.separationSpeed p s₀.pos s₀.vel 0 := by
    rw [← hsep0]
    simp only [push, Fin.sum_univ_six]
    ring
  have e3 : inner p (fun i => e1.Jn.get 0 i * lam) (fun i => e1.Jn.get 0 i * lam) = lam * (k * lam) := by
    simp only [inner, hk, Fin.sum_univ_six]
    ring
  rw [e2, e3]
  set u := f.separationSpeed p s₀.pos s₀.vel 0 with hu
  set u' := f.separationSpeed p s₀.pos s1.vel 0 with hu'
  suffices key : lam * (u + u') ≤ 0 by
    have : lam * (u + u') = 2 * (lam * u) + lam * (k * lam) := by rw [e1']; ring
    linarith
  rcases hC2.eq_or_lt with hz | hpos'
  · rw [← hz, zero_mul]
  · have hgoal := hC3 hpos'
    have hkpos : 0 ≤ k := inner_nonneg p hs.weights _
    have hkl : 0 ≤ k * lam := mul_nonneg hkpos hC2
    apply mul_nonpos_of_nonneg_of_nonpos hC2
    unfold requested at hgoal
    split_ifs at hgoal with hth
    · have : 0 ≤ (1 - e₀.restitution) * -u := mul_nonneg (by linarith) (by linarith)
      linarith
    · linarith

end

section Samples

theorem contactSample_solvable (n : Nat) : Solvable (contactFrame n) contactBodies.proxies := by
  have hm : contactBodies.proxies.masses = ⟨1 / 2, 1 / 3, 1 / 2, 1 / 3⟩ := contactBodies_masses
  constructor <;> (try rw [hm])
  · norm_num
  · norm_num
  · norm_num
  · norm_num
  · norm_num
  · intro h; have := congrArg Vec2.y h; simp [contactFrame] at this
  · intro h
    left
    have h' : n = 2 := h
    subst h'
    refine ⟨by norm_num, ?_⟩
    simp [contactFrame, Vec2.cross]
    norm_num

/-- The sample can be warm started, solved, disturbed and solved again. -/
theorem contactSample_run (n : Nat) (hn : n = 1 ∨ n = 2) (r f : ℝ) (v : Velocity ℝ) (l : List (SolveEvent ℝ)) :
    ∃ e s, Contact.runEvents contactBodies.proxies l
      ((contactSample n r f).prepared contactBodies.proxies (contactState v), contactState v) = .ok (e, s) := by
  suffices key : ∀ (pre post : List (SolveEvent ℝ)) (es : Contact ℝ × SolveState ℝ), Contact.runEvents contactBodies.proxies pre
      ((contactSample n r f).prepared contactBodies.proxies (contactState v), contactState v) = .ok es →
      ∃ e s, Contact.runEvents contactBodies.proxies post es = .ok (e, s) from key [] l _ rfl
  intro pre post
  have happ : ∀ (a : SolveEvent ℝ) (l : List (SolveEvent ℝ)) (es : Contact ℝ × SolveState ℝ) (es' : Contact ℝ × SolveState ℝ),
      Contact.runEvents contactBodies.proxies l es = .ok es' →
      Contact.runEvents contactBodies.proxies (l ++ [a]) es = Contact.runEvents contactBodies.proxies [a] es' := by
    intro a l
    induction l with
    | nil =>
      intro es es' h
      simp only [Contact.runEvents, Outcome.ok.injEq] at h
      subst h; rfl
    | cons b l ih =>
      intro es es' h
      cases b with
      | warmstart => exact ih _ _ h
      | other c => exact ih _ _ h
      | solve =>
        simp only [Contact.runEvents] at h
        cases hs1 : es.1.solveVelocities contactBodies.proxies es.2 with
        | throw => simp [hs1] at h
        | ub => simp [hs1] at h
        | ok es1 =>
          simp only [hs1, Outcome.bind_ok] at h
          have : Contact.runEvents contactBodies.proxies (SolveEvent.solve :: l ++ [a]) es =
              Contact.runEvents contactBodies.proxies (l ++ [a]) es1 := by
            simp only [List.cons_append, Contact.runEvents, hs1, Outcome.bind_ok]
          rw [this]
          exact ih _ _ h
  induction post generalizing pre with
  | nil => intro es _; exact ⟨es.1, es.2, rfl⟩
  | cons a post ih =>
    intro es h
    have ha := happ a pre _ es h
    cases a with
    | warmstart => exact ih (pre ++ [.warmstart]) _ ha
    | other c => exact ih (pre ++ [.other c]) _ ha
    | solve =>
      obtain ⟨e', s', hs', _⟩ := C36_restitution (contactSample n r f) contactBodies.proxies (by decide) (contactState v)
        (contactFrame n) (contactFrame_eq n r f v) hn (contactSample_solvable n) pre (e := es.1) (s := es.2) h
      have h1 : Contact.runEvents contactBodies.proxies [.solve] es = .ok (e', s') := by
        simp only [Contact.runEvents, hs', Outcome.bind_ok]
      rw [h1] at ha
      obtain ⟨e2, s2, h2⟩ := ih (pre ++ [.solve]) _ ha
      exact ⟨e2, s2, by simp only [Contact.runEvents, hs', Outcome.bind_ok]; exact h2⟩

/-- Events of a sample history: a change by others, the warm start, two iterations with a change by others in between. -/
noncomputable def contactEvents : List (SolveEvent ℝ) :=
  [.other fun _ => ⟨⟨0, 1⟩, 0⟩, .warmstart, .solve, .other fun i => if i = 0 then ⟨⟨1, -1⟩, 2⟩ else 0, .solve]

-- C51: after the events, the second body has the velocity due to the others and to the contact.
example (n : Nat) (hn : n = 1 ∨ n = 2) : ∃ e s, Contact.runEvents contactBodies.proxies contactEvents
      ((contactSample n 1 (1 / 2)).prepared contactBodies.proxies (contactState ⟨⟨1, -2⟩, 1⟩), contactState ⟨⟨1, -2⟩, 1⟩) = .ok (e, s) ∧
    s.vel 1 = (⟨⟨0, 1⟩, 0⟩ : Velocity ℝ) + kick contactBodies.proxies
      ((contactFrame n).impulse contactBodies.proxies (contactState ⟨⟨1, -2⟩, 1⟩).pos e.normalLambda.toV e.tangentLambda.toV) 1 := by
  obtain ⟨e, s, h⟩ := contactSample_run n hn 1 (1 / 2) ⟨⟨1, -2⟩, 1⟩ contactEvents
  refine ⟨e, s, h, ?_⟩
  have := C51_contact_impulse (contactSample n 1 (1 / 2)) contactBodies.proxies (by decide) (contactState ⟨⟨1, -2⟩, 1⟩) contactEvents
    [.other fun _ => ⟨⟨0, 1⟩, 0⟩] [.solve, .other fun i => if i = 0 then ⟨⟨1, -1⟩, 2⟩ else 0, .solve] (by simp)
    (by simp) (Or.inr rfl) h 1
  rw [contactFrame_eq n 1 (1 / 2) ⟨⟨1, -2⟩, 1⟩]
  refine this.trans ?_
  congr 1
  ext <;> simp [contactState, contactEvents, others]

theorem contactBodies_full : FullDominance contactBody 0 1 none := Or.inr ⟨rfl, rfl, rfl⟩

-- C51: without changes by others the momentum is that at the start.
example (n : Nat) (hn : n = 1 ∨ n = 2) : ∃ e s, Contact.runEvents contactBodies.proxies [.warmstart, .solve, .solve]
      ((contactSample n 1 (1 / 2)).prepared contactBodies.proxies (contactState ⟨⟨1, -2⟩, 1⟩), contactState ⟨⟨1, -2⟩, 1⟩) = .ok (e, s) ∧
    momentum 2 2 0 1 s = ⟨2, -4⟩ := by
  obtain ⟨e, s, h⟩ := contactSample_run n hn 1 (1 / 2) ⟨⟨1, -2⟩, 1⟩ [.warmstart, .solve, .solve]
  refine ⟨e, s, h, ?_⟩
  have h2 : (contactBody 0).mass ≠ 0 := by simp [contactBody, Body.mass]
  have h3 : (contactBody 0).inertia ≠ 0 := by simp [contactBody, Body.inertia]
  have := (C51_momentum contactBody 0 1 (by decide) none contactBodies_full h2 h2 h3 h3 contactBodies.proxies rfl
    (contactSample n 1 (1 / 2)) (contactState ⟨⟨1, -2⟩, 1⟩) _ rfl [.warmstart, .solve, .solve] [] [.solve, .solve] (by simp)
    (by simp) (Or.inr rfl) h).1
  have hm : ∀ i, (contactBody i).mass = 2 := fun i => rfl
  simp only [hm] at this
  rw [this]
  ext <;> simp [momentum, momentumChange, others, contactState] <;> norm_num

-- C36: restitution 1/2: body 0 comes in at 2 and each contact point leaves at 1 or more.
example (n : Nat) (hn : n = 1 ∨ n = 2) : ∃ e s e' s', Contact.runEvents contactBodies.proxies contactEvents
      ((contactSample n (1 / 2) 0).prepared contactBodies.proxies (contactState ⟨⟨0, -2⟩, 0⟩), contactState ⟨⟨0, -2⟩, 0⟩) = .ok (e, s) ∧
    e.solveVelocities contactBodies.proxies s = .ok (e', s') ∧
    1 ≤ (contactFrame n).separationSpeed contactBodies.proxies (contactState ⟨⟨0, -2⟩, 0⟩).pos s'.vel 0 := by
  obtain ⟨e, s, h⟩ := contactSample_run n hn (1 / 2) 0 ⟨⟨0, -2⟩, 0⟩ contactEvents
  obtain ⟨e', s', hs, _, hc⟩ := C36_restitution (contactSample n (1 / 2) 0) contactBodies.proxies (by decide) (contactState ⟨⟨0, -2⟩, 0⟩)
    (contactFrame n) (contactFrame_eq n (1 / 2) 0 _) hn (contactSample_solvable n) contactEvents h
  refine ⟨e, s, e', s', h, hs, ?_⟩
  have hn0 : 0 < n := by omega
  have h0 := (hc 0 (by simpa [contactFrame] using hn0)).1
  have hu : (contactFrame n).separationSpeed contactBodies.proxies (contactState ⟨⟨0, -2⟩, 0⟩).pos (contactState ⟨⟨0, -2⟩, 0⟩).vel 0 = -2 := by
    have i0 : contactBodies.proxies.i0 = 0 := rfl
    have i1 : contactBodies.proxies.i1 = 1 := rfl
    simp only [Frame.separationSpeed, relativeSpeed, i0, i1, contactState_centroid, contactFrame, pointVelocity, Vec2.dot, contactState]
    simp [hn0]
  rw [hu] at h0
  have : requested (contactSample n (1 / 2) 0).restitution (-2 : ℝ) = 1 := by
    simp only [requested, contactSample]; norm_num
  rwa [this] at h0

theorem contactSample_movable (v : Velocity ℝ) : Movable 2 3 contactBodies.proxies.masses.m0 contactBodies.proxies.masses.I0 v ∧
    Movable 2 3 contactBodies.proxies.masses.m1 contactBodies.proxies.masses.I1 v := by
  have hm : contactBodies.proxies.masses = ⟨1 / 2, 1 / 3, 1 / 2, 1 / 3⟩ := contactBodies_masses
  rw [hm]
  constructor <;> left <;> norm_num

-- C36: the first solve with friction and no restitution does not create energy.
example (n : Nat) (hn : n = 1 ∨ n = 2) : ∃ e' s',
    ((contactSample n 0 1).prepared contactBodies.proxies (contactState ⟨⟨3, -2⟩, 1⟩)).solveVelocities contactBodies.proxies
      (contactState ⟨⟨3, -2⟩, 1⟩) = .ok (e', s') ∧
    energy2 2 3 2 3 (s'.vel 0) (s'.vel 1) ≤ 29 := by
  obtain ⟨e', s', h⟩ := contactSample_run n hn 0 1 ⟨⟨3, -2⟩, 1⟩ [.solve]
  have hs : ((contactSample n 0 1).prepared contactBodies.proxies (contactState ⟨⟨3, -2⟩, 1⟩)).solveVelocities contactBodies.proxies
      (contactState ⟨⟨3, -2⟩, 1⟩) = .ok (e', s') := by
    simp only [Contact.runEvents] at h
    cases hh : ((contactSample n 0 1).prepared contactBodies.proxies (contactState ⟨⟨3, -2⟩, 1⟩)).solveVelocities contactBodies.proxies
      (contactState ⟨⟨3, -2⟩, 1⟩) with
    | throw => simp [hh] at h
    | ub => simp [hh] at h
    | ok es => simp only [hh, Outcome.bind_ok, Contact.runEvents] at h; rw [h]
  refine ⟨e', s', hs, ?_⟩
  obtain ⟨ht, hnl, _⟩ := prepared_lambda (contactSample n 0 1) contactBodies.proxies (contactState ⟨⟨3, -2⟩, 1⟩)
  have := C36_energy (contactSample n 0 1) contactBodies.proxies (by decide) (contactState ⟨⟨3, -2⟩, 1⟩)
    (contactFrame n) (contactFrame_eq n 0 1 _) hn (contactSample_solvable n) rfl [] rfl
    (fun c _ => by rw [hnl]; exact le_refl _) (fun c _ => by rw [hnl, ht]; simp [at_zero])
    2 3 2 3 (contactSample_movable _).1 (contactSample_movable _).2 hs
  refine this.trans (le_of_eq ?_)
  have i0 : contactBodies.proxies.i0 = 0 := rfl
  have i1 : contactBodies.proxies.i1 = 1 := rfl
  simp only [energy2, contactState, Vec2.normSquared, Vec2.dot, i0, i1]
  simp
  norm_num

-- C36: a full bounce on one point after a warm start and two iterations.
example : ∃ e s e' s', Contact.runEvents contactBodies.proxies [.warmstart, .solve]
      ((contactSample 1 1 0).prepared contactBodies.proxies (contactState ⟨⟨3, -2⟩, 1⟩), contactState ⟨⟨3, -2⟩, 1⟩) = .ok (e, s) ∧
    e.solveVelocities contactBodies.proxies s = .ok (e', s') ∧
    energy2 2 3 2 3 (s'.vel 0) (s'.vel 1) ≤ 29 := by
  obtain ⟨e, s, h⟩ := contactSample_run 1 (Or.inl rfl) 1 0 ⟨⟨3, -2⟩, 1⟩ [.warmstart, .solve]
  obtain ⟨e', s', hs, _⟩ := C36_restitution (contactSample 1 1 0) contactBodies.proxies (by decide) (contactState ⟨⟨3, -2⟩, 1⟩)
    (contactFrame 1) (contactFrame_eq 1 1 0 _) (Or.inl rfl) (contactSample_solvable 1) [.warmstart, .solve] h
  refine ⟨e, s, e', s', h, hs, ?_⟩
  have := C36_energy_single (contactSample 1 1 0) contactBodies.proxies (by decide) (contactState ⟨⟨3, -2⟩, 1⟩)
    (contactFrame 1) (contactFrame_eq 1 1 0 _) rfl (contactSample_solvable 1) (by norm_num [contactSample]) (by norm_num [contactSample]) rfl
    [.warmstart, .solve] [.solve] (by simp) (Or.inr rfl) h
    2 3 2 3 (contactSample_movable _).1 (contactSample_movable _).2 hs
  refine this.trans (le_of_eq ?_)
  have i0 : contactBodies.proxies.i0 = 0 := rfl
  have i1 : contactBodies.proxies.i1 = 1 := rfl
  simp only [energy2, contactState, Vec2.normSquared, Vec2.dot, i0, i1]
  simp
  norm_num

section Flat
attribute [local instance] flatTrig

-- C35: the contact of the two squares, solved once with friction 1/2.
example (s : SolveState ℚ) (hs : ∀ i, (s.pos i).orient = .ofAngle 0) : ∃ (e e' : Contact ℚ) (s' : SolveState ℚ),
    e.Reachable id (fun _ _ _ => .ok ⟨0, -1 / 10⟩) sampleMaterial sampleMaterial ∧ e.frame.nContacts = 2 ∧
    e.solveVelocities ⟨0, 1, ⟨1, 1, 1, 1⟩⟩ s = .ok (e', s') ∧ |e'.tangentLambda.at_ 0| ≤ 1 / 2 * e.normalLambda.at_ 0 := by
  obtain ⟨e, h, hn, hr, hno, hc0, hc1, hc2, _⟩ := twoSquares_contact
  have happ : ∀ i v, (s.pos i).toWorldSpace.r.app v = v := by
    intro i v
    have : (s.pos i).toWorldSpace.r = .ofAngle 0 := hs i
    rw [this]
    ext <;> simp [Rotation.app, Rotation.ofAngle, Trig.cos, Trig.sin]
  set f := e.manifold.frame ![(s.pos 0).toWorldSpace, (s.pos 1).toWorldSpace] with hf
  have hfn : f.normal = ⟨0, 1⟩ := by
    rw [hf]
    simp only [Manifold.frame, hr, hno]
    exact happ 1 _
  have hfc : f.contacts 0 0 - f.contacts 0 1 = ⟨3 / 4, 0⟩ := by
    have e0 : f.contacts 0 0 = (s.pos 0).toWorldSpace.app ⟨3 / 4, 0⟩ := by
      rw [hf]; simp only [Manifold.frame, hn, hc0]; rfl
    have e1 : f.contacts 0 1 = (s.pos 0).toWorldSpace.app ⟨0, 0⟩ := by
      rw [hf]; simp only [Manifold.frame, hn, hc2]; rfl
    rw [e0, e1]
    simp only [Transform.app, happ]
    ext <;> simp
  have hsol : Solvable f ⟨0, 1, ⟨1, 1, 1, 1⟩⟩ := by
    constructor
    · norm_num
    · norm_num
    · norm_num
    · norm_num
    · norm_num
    · rw [hfn]; intro hz; have := congrArg Vec2.y hz; simp at this
    · intro _
      left
      rw [hfn, hfc]
      norm_num [Vec2.cross]
  have hn' : f.nContacts = 2 := hn
  obtain ⟨e', s', hs', _⟩ := C36_restitution e ⟨0, 1, ⟨1, 1, 1, 1⟩⟩ (by decide) s f hf (Or.inr hn') hsol [] rfl
  have hreach : (e.prepared ⟨0, 1, ⟨1, 1, 1, 1⟩⟩ s).Reachable id (fun _ _ _ => .ok ⟨0, -1 / 10⟩) sampleMaterial sampleMaterial :=
    .initSolve _ s (.isActive _ s (.make twoSquares h))
  have hfr : (e.prepared ⟨0, 1, ⟨1, 1, 1, 1⟩⟩ s).frame.nContacts = 2 := by
    rw [(prepared_ready e ⟨0, 1, ⟨1, 1, 1, 1⟩⟩ s).frame]; exact hn
  refine ⟨_, e', s', hreach, hfr, hs', ?_⟩
  have hμ : (CombinableProperty.combine sampleMaterial.friction sampleMaterial.friction).value = 1 / 2 := by decide +kernel
  have := C35_friction_cone hreach (by rw [hμ]; norm_num) hs' 0 (by rw [hfr]; decide)
  rwa [hμ] at this

end Flat

/-- C36: restitution at two points at once can create energy: a bar of mass 1 falling flat on the floor while turning, so that one
end comes in and the other one leaves, with restitution 1 and without friction. -/
theorem C36_two_contacts_gain : ∃ (e₀ : Contact ℝ) (p : Proxies ℝ) (s₀ : SolveState ℝ) (f : Frame ℝ),
    f = e₀.manifold.frame ![(s₀.pos p.i0).toWorldSpace, (s₀.pos p.i1).toWorldSpace] ∧ f.nContacts = 2 ∧ Solvable f p ∧
    e₀.restitution = 1 ∧ e₀.friction = 0 ∧
    Movable 1 (1 / 3) p.masses.m0 p.masses.I0 (s₀.vel p.i0) ∧ Movable 1 1 p.masses.m1 p.masses.I1 (s₀.vel p.i1) ∧
    ∃ e s, (e₀.prepared p s₀).solveVelocities p s₀ = .ok (e, s) ∧
      energy2 1 (1 / 3) 1 1 (s₀.vel p.i0) (s₀.vel p.i1) < energy2 1 (1 / 3) 1 1 (s.vel p.i0) (s.vel p.i1) := by
  set v : Velocity ℝ := ⟨⟨0, -3 / 4⟩, 5 / 4⟩ with hv
  set p : Proxies ℝ := ⟨0, 1, ⟨1, 3, 0, 0⟩⟩ with hp
  have hs : Solvable (contactFrame 2) p := by
    constructor <;> (try simp only [hp])
    · norm_num
    · norm_num
    · norm_num
    · norm_num
    · norm_num
    · intro h; have := congrArg Vec2.y h; simp [contactFrame] at this
    · intro h
      left
      refine ⟨by norm_num, ?_⟩
      simp [contactFrame, Vec2.cross]
      norm_num
  have hfe := contactFrame_eq 2 1 0 v
  obtain ⟨e, s, hsol, _, hc⟩ := C36_restitution (contactSample 2 1 0) p (by decide) (contactState v) (contactFrame 2) hfe (Or.inr rfl) hs
    [] (e := (contactSample 2 1 0).prepared p (contactState v)) (s := contactState v) rfl
  refine ⟨contactSample 2 1 0, p, contactState v, contactFrame 2, hfe, rfl, hs, rfl, rfl, ?_, ?_, e, s, hsol, ?_⟩
  · left; simp only [hp]; norm_num
  · right; simp [hp, contactState]
  have hrun : Contact.runEvents p [.solve] ((contactSample 2 1 0).prepared p (contactState v), contactState v) = .ok (e, s) := by
    simp only [Contact.runEvents, hsol, Outcome.bind_ok]
  have hvel := C51_contact_impulse (contactSample 2 1 0) p (by decide) (contactState v) [.solve] [] [.solve] (by simp) (by simp)
    (Or.inl rfl) hrun
  have i0 : p.i0 = 0 := rfl
  have i1 : p.i1 = 1 := rfl
  rw [i0, i1, ← hfe] at hvel
  have ht : ∀ c : Fin 2, e.tangentLambda.at_ c = 0 := by
    intro c
    obtain ⟨ln, v1, _, he', _⟩ := solveVelocities_eq _ p _ hsol
    have hr := prepared_ready (contactSample 2 1 0) p (contactState v)
    have hfr := (prepared_lambda (contactSample 2 1 0) p (contactState v)).2.2.2.2
    have hfr' : ((contactSample 2 1 0).prepared p (contactState v)).friction = 0 := hfr
    rw [he']
    have := (frictionLoop_bound ((contactSample 2 1 0).prepared p (contactState v)) p (p.velocity (contactState v)) c).1
      (by rw [hr.frame, i0, i1, ← hfe]; exact c.isLt) (by rw [hfr', zero_mul])
    rw [hfr', zero_mul] at this
    exact abs_nonpos_iff.1 this
  set a := e.normalLambda.at_ 0 with ha
  set b := e.normalLambda.at_ 1 with hb
  have hP : (contactFrame 2).impulse p (contactState v).pos e.normalLambda.toV e.tangentLambda.toV =
      ![0, a + b, -a + b, 0, -(a + b), a - b] := by
    funext i
    simp only [Frame.impulse, Fin.sum_univ_two, pairImpulse, i0, i1, contactState_centroid, toV, ht, ← ha, ← hb, Vec2.cross, contactFrame]
    fin_cases i <;> simp <;> ring
  obtain ⟨k0, k1⟩ := kick_masses p ![0, a + b, -a + b, 0, -(a + b), a - b] (by decide)
  rw [i0] at k0
  rw [i1] at k1
  have hv0 : s.vel 0 = ⟨⟨0, -3 / 4 + (a + b)⟩, 5 / 4 + 3 * (-a + b)⟩ := by
    rw [hvel 0, hP, k0]
    ext <;> simp [others, contactState, hv, hp]
  have hv1 : s.vel 1 = 0 := by
    rw [hvel 1, hP, k1]
    ext <;> simp [others, contactState, hp]
  have hsep : ∀ w : Nat → Velocity ℝ, w 1 = 0 → (contactFrame 2).separationSpeed p (contactState v).pos w 0 = (w 0).linear.y - (w 0).angular ∧
      (contactFrame 2).separationSpeed p (contactState v).pos w 1 = (w 0).linear.y + (w 0).angular := by
    intro w hw
    simp only [Frame.separationSpeed, relativeSpeed, i0, i1, contactState_centroid, contactFrame, pointVelocity, Vec2.dot, hw]
    constructor <;> simp <;> ring
  obtain ⟨u0, u1⟩ := hsep s.vel hv1
  obtain ⟨w0, w1⟩ := hsep (contactState v).vel rfl
  obtain ⟨c1, c2, c3⟩ := hc 0 (by decide)
  obtain ⟨d1, d2, d3⟩ := hc 1 (by decide)
  have g0 : requested (contactSample 2 1 0).restitution ((contactFrame 2).separationSpeed p (contactState v).pos (contactState v).vel 0) = 2 := by
    rw [w0]; simp only [requested, contactSample, contactState, hv]; norm_num
  have g1 : requested (contactSample 2 1 0).restitution ((contactFrame 2).separationSpeed p (contactState v).pos (contactState v).vel 1) = 0 := by
    rw [w1]; simp only [requested, contactSample, contactState, hv]; norm_num
  rw [g0, u0, hv0] at c1 c3
  rw [g1, u1, hv0] at d1 d3
  simp only at c1 c3 d1 d3
  have hapos : 0 < a := by linarith
  have ha' := c3 hapos
  have hbpos : 0 < b := by linarith
  have hb' := d3 hbpos
  have hbv : b = 1 / 2 := by linarith
  have hav : a = 5 / 4 := by linarith
  rw [i0, i1, hv0, hv1, hav, hbv]
  simp only [energy2, contactState, Vec2.normSquared, Vec2.dot, hv]
  simp
  norm_num

end Samples
end Simu
