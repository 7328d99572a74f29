import Verif.Props.Converged
import Verif.Spec.Unique
/-
What the constraints of an island add to the velocities, and how the laws compare two states.
-/
namespace Simu
open Mat Contact Island
variable {K : Type*} [Field K] [LinearOrder K] [IsStrictOrderedRing K] [Trig K]

/-- What a constraint has added to the momenta of its bodies since its solve was started. -/
def Kind.given : (k : Kind K) → k.State → Six K
  | .equality _ _, e => pull (e : EqualitySolver _ _).base.J (e : EqualitySolver _ _).base.lambda.toV
  | .mouse _, e => pull (e : EqualitySolver _ _).base.J (e : EqualitySolver _ _).base.lambda.toV
  | .inequality _ _, e => pull (e : InequalitySolver _ _).base.J (e : InequalitySolver _ _).base.lambda.toV
  | .limits _, e => pull (e : LimitsSolver _).base.J (fun r => Func.sign (e : LimitsSolver _).func * (e : LimitsSolver _).base.lambda.at_ r)
  | .contact, e => totalImpulse (e : Contact _)

/-- A constraint that has not acted yet. -/
def Kind.Blank : (k : Kind K) → k.State → Prop
  | .equality _ _, e => (e : EqualitySolver _ _).base.lambda = Mat.zero
  | .mouse _, e => (e : EqualitySolver _ _).base.lambda = Mat.zero
  | .inequality _ _, e => (e : InequalitySolver _ _).base.lambda = Mat.zero
  | .limits _, e => (e : LimitsSolver _).base.lambda = Mat.zero
  | .contact, e => (e : Contact _).normalLambda = Mat.zero ∧ (e : Contact _).tangentLambda = Mat.zero

/-- A limit that is not in force adds nothing, now and later. -/
def Kind.Idle : (k : Kind K) → k.State → Prop
  | .limits _, e => (e : LimitsSolver _).func = .off → (e : LimitsSolver _).canWarmstart = false ∧ (e : LimitsSolver _).base.lambda = Mat.zero
  | _, _ => True

omit [LinearOrder K] [IsStrictOrderedRing K] [Trig K] in
theorem Kind.Same.refl (k : Kind K) (e : k.State) : k.Same e e := by
  cases k with
  | equality d f => exact ⟨rfl, rfl⟩
  | mouse f => exact ⟨rfl, rfl⟩
  | inequality d f => rfl
  | limits f => exact ⟨rfl, rfl, rfl, rfl⟩
  | contact => exact ⟨rfl, rfl, rfl⟩

omit [LinearOrder K] [IsStrictOrderedRing K] [Trig K] in
theorem Kind.Same.trans {k : Kind K} {a b c : k.State} (h : k.Same a b) (h' : k.Same b c) : k.Same a c := by
  cases k with
  | equality d f => exact ⟨h'.1.trans h.1, h'.2.trans h.2⟩
  | mouse f => exact ⟨h'.1.trans h.1, h'.2.trans h.2⟩
  | inequality d f => exact Eq.trans h' h
  | limits f => exact ⟨h'.1.trans h.1, h'.2.1.trans h.2.1, h'.2.2.1.trans h.2.2.1, h'.2.2.2.trans h.2.2.2⟩
  | contact => exact ⟨h'.1.trans h.1, h'.2.1.trans h.2.1, h'.2.2.trans h.2.2⟩

omit [LinearOrder K] [IsStrictOrderedRing K] [Trig K] in
theorem Kind.Same.symm {k : Kind K} {a b : k.State} (h : k.Same a b) : k.Same b a := by
  cases k with
  | equality d f => exact ⟨h.1.symm, h.2.symm⟩
  | mouse f => exact ⟨h.1.symm, h.2.symm⟩
  | inequality d f => exact Eq.symm h
  | limits f => exact ⟨h.1.symm, h.2.1.symm, h.2.2.1.symm, h.2.2.2.symm⟩
  | contact => exact ⟨h.1.symm, h.2.1.symm, h.2.2.symm⟩

/-- Starting a solve. -/
theorem Kind.blank_init {c : CallCfg K} {p : Proxies K} (k : Kind K) {e e' : k.State} {s s' : SolveState K}
    (h : k.act c .initSolve p e s = .ok (e', s')) : k.Blank e' ∧ k.Same e e' := by
  cases k with
  | equality d f =>
    obtain ⟨e1, h1, h⟩ := bind_ok_iff.1 h
    obtain ⟨rfl, rfl⟩ := Prod.mk.inj (Outcome.ok.inj h)
    obtain ⟨-, hl, -, hda, hre, -⟩ := EqualitySolver.initSolve_ok c.sqrt e _ _ f _ h1
    exact ⟨hl, hda, hre⟩
  | mouse f =>
    obtain ⟨e1, h1, h⟩ := bind_ok_iff.1 h
    obtain ⟨rfl, rfl⟩ := Prod.mk.inj (Outcome.ok.inj h)
    obtain ⟨-, hl, -, hda, hre, -⟩ := EqualitySolver.initSolve_ok c.sqrt e _ _ f _ h1
    exact ⟨hl, hda, hre⟩
  | inequality d f =>
    obtain ⟨rfl, rfl⟩ := Prod.mk.inj (Outcome.ok.inj h)
    exact ⟨rfl, rfl⟩
  | limits f =>
    obtain ⟨e1, h1, h⟩ := bind_ok_iff.1 h
    obtain ⟨rfl, rfl⟩ := Prod.mk.inj (Outcome.ok.inj h)
    obtain ⟨-, hl, hL, hU, -, hda, hre, -⟩ := LimitsSolver.initSolve_ok c.sqrt e _ _ f _ h1
    exact ⟨hl, hL, hU, hda, hre⟩
  | contact =>
    obtain ⟨rfl, rfl⟩ := Prod.mk.inj (Outcome.ok.inj h)
    obtain ⟨k1, -, k3, k4, -, k6, k7⟩ := Contact.initSolve_keeps e p s
    exact ⟨⟨k6, k7⟩, k1, k3, k4⟩

theorem Kind.given_blank (k : Kind K) {e : k.State} (h : k.Blank e) : k.given e = fun _ => 0 := by
  have hz : ∀ {d : Nat}, (Mat.zero : MVec K d).toV = fun _ => 0 := fun {d} => funext fun r => at_zero r
  cases k with
  | equality d f =>
    show pull _ _ = _
    rw [show (e : EqualitySolver K d).base.lambda = Mat.zero from h, hz, pull_zero]
  | mouse f =>
    show pull _ _ = _
    rw [show (e : EqualitySolver K 2).base.lambda = Mat.zero from h, hz, pull_zero]
  | inequality d f =>
    show pull _ _ = _
    rw [show (e : InequalitySolver K d).base.lambda = Mat.zero from h, hz, pull_zero]
  | limits f =>
    show pull _ _ = _
    rw [show (e : LimitsSolver K).base.lambda = Mat.zero from h]
    simp only [at_zero, mul_zero]
    exact pull_zero _
  | contact =>
    funext c
    show ((e : Contact K).Jf 0).get 0 c * (e : Contact K).tangentLambda.at_ 0 + ((e : Contact K).Jf 1).get 0 c * (e : Contact K).tangentLambda.at_ 1 +
      pull (e : Contact K).Jn (e : Contact K).normalLambda.toV c = 0
    rw [h.1, h.2, hz, pull_zero]
    simp only [at_zero, mul_zero, add_zero]

theorem LimitsSolver.initSolve_off {sqrt : K → K} {e e' : LimitsSolver K} {p : Proxies K} {f : CFun K 1} {s : SolveState K}
    (h : e.initSolve sqrt p f s = .ok e') (ho : e'.func = .off) : e'.canWarmstart = false := by
  unfold LimitsSolver.initSolve at h
  simp only at h
  split at h
  · rename_i hf
    obtain ⟨k, -, h⟩ := bind_ok_iff.1 h
    cases Outcome.ok.inj h
    exact absurd (hf.symm.trans ho) (by decide)
  · rename_i hf
    cases Outcome.ok.inj h
    exact absurd (hf.symm.trans ho) (by decide)
  · rename_i hf
    cases Outcome.ok.inj h
    exact absurd (hf.symm.trans ho) (by decide)
  · rename_i hf
    cases Outcome.ok.inj h
    simp [hf]

theorem Kind.idle_init {c : CallCfg K} {p : Proxies K} (k : Kind K) {e e' : k.State} {s s' : SolveState K}
    (h : k.act c .initSolve p e s = .ok (e', s')) : k.Idle e' := by
  cases k with
  | limits f =>
    obtain ⟨e1, h1, h⟩ := bind_ok_iff.1 h
    obtain ⟨rfl, rfl⟩ := Prod.mk.inj (Outcome.ok.inj h)
    obtain ⟨-, hl, -⟩ := LimitsSolver.initSolve_ok c.sqrt e _ _ f _ h1
    intro ho
    exact ⟨LimitsSolver.initSolve_off h1 ho, hl⟩
  | _ => trivial

theorem Kind.idle_act {c : CallCfg K} {p : Proxies K} (k : Kind K) {e e' : k.State} {s s' : SolveState K} (ph : Phase)
    (hph : ph = .warmstart ∨ ph = .solveVelocities) (hi : k.Idle e) (h : k.act c ph p e s = .ok (e', s')) : k.Idle e' := by
  cases k with
  | limits f =>
    by_cases hoff : (e : LimitsSolver K).func = .off
    · obtain ⟨i1, i2⟩ := hi hoff
      suffices e' = e by rw [this]; exact fun _ => ⟨i1, i2⟩
      rcases hph with rfl | rfl
      · have ha : LimitsSolver.warmstart e p f c.dt s = (e', s') := Outcome.ok.inj h
        unfold LimitsSolver.warmstart at ha
        rw [i1] at ha
        cases ha; rfl
      · obtain ⟨o, ho, ha⟩ := bind_ok_iff.1 h
        obtain rfl := returned_ok ha
        unfold LimitsSolver.solveVelocity at ho
        obtain ⟨err, -, ho⟩ := bind_ok_iff.1 ho
        rw [hoff] at ho
        cases Option.some.inj (Outcome.ok.inj ho); rfl
    · suffices hf : (e' : LimitsSolver K).func = (e : LimitsSolver K).func from fun h => (hoff (hf.symm.trans h)).elim
      rcases hph with rfl | rfl
      · have ha : LimitsSolver.warmstart e p f c.dt s = (e', s') := Outcome.ok.inj h
        unfold LimitsSolver.warmstart at ha
        split at ha
        · split at ha
          · cases ha; rfl
          · cases ha; rfl
        · cases ha; rfl
      · obtain ⟨o, ho, ha⟩ := bind_ok_iff.1 h
        obtain rfl := returned_ok ha
        unfold LimitsSolver.solveVelocity at ho
        obtain ⟨err, -, ho⟩ := bind_ok_iff.1 ho
        split at ho
        · obtain ⟨x, -, ho⟩ := bind_ok_iff.1 ho
          cases Option.some.inj (Outcome.ok.inj ho); rfl
        · obtain ⟨x, -, ho⟩ := Option.map_eq_some_iff.1 (Outcome.ok.inj ho)
          cases ho; rfl
        · obtain ⟨x, -, ho⟩ := Option.map_eq_some_iff.1 (Outcome.ok.inj ho)
          cases ho; rfl
        · cases Option.some.inj (Outcome.ok.inj ho); rfl
        · cases ho
  | _ => trivial

/-- Warm starting, and velocity iterations: what a constraint does to the velocities. -/
theorem Kind.telescope {c : CallCfg K} {p : Proxies K} (k : Kind K) {e e' : k.State} {s s' : SolveState K} (ph : Phase)
    (hph : (ph = .warmstart ∧ k.Blank e) ∨ ph = .solveVelocities) (hi : k = .contact → p.i0 ≠ p.i1)
    (h : k.act c ph p e s = .ok (e', s')) :
    k.Same e e' ∧ s'.pos = s.pos ∧
      ∀ V : Nat → Velocity K, (∀ i, s.vel i = V i + kick p (k.given e) i) → ∀ i, s'.vel i = V i + kick p (k.given e') i := by
  cases k with
  | equality d f =>
    rcases hph with ⟨rfl, -⟩ | rfl
    · cases Outcome.ok.inj h
      exact ⟨⟨rfl, rfl⟩, rfl, fun V hV => SolverBase.updateLambda_telescope _ _ _ _ _ _ V hV⟩
    · obtain ⟨x, -, h⟩ := bind_ok_iff.1 h
      cases Outcome.ok.inj h
      exact ⟨⟨rfl, rfl⟩, rfl, fun V hV => SolverBase.updateLambda_telescope _ _ _ _ _ _ V hV⟩
  | mouse f =>
    rcases hph with ⟨rfl, -⟩ | rfl
    · cases Outcome.ok.inj h
      exact ⟨⟨rfl, rfl⟩, rfl, fun V hV => SolverBase.updateLambda_telescope _ _ _ _ _ _ V hV⟩
    · obtain ⟨x, -, h⟩ := bind_ok_iff.1 h
      cases Outcome.ok.inj h
      exact ⟨⟨rfl, rfl⟩, rfl, fun V hV => SolverBase.updateLambda_telescope _ _ _ _ _ _ V hV⟩
  | inequality d f =>
    rcases hph with ⟨rfl, -⟩ | rfl
    · cases Outcome.ok.inj h
      exact ⟨rfl, rfl, fun V hV => SolverBase.updateLambda_telescope _ _ _ _ _ _ V hV⟩
    · obtain ⟨x, -, hx⟩ := Option.map_eq_some_iff.1 (returned_ok h)
      cases hx
      exact ⟨rfl, rfl, fun V hV => SolverBase.updateLambda_telescope _ _ _ _ _ _ V hV⟩
  | limits f =>
    rcases hph with ⟨rfl, hb⟩ | rfl
    · obtain ⟨a, b, d⟩ := LimitsSolver.warmstart_spec e p f c.dt s hb
      have ha : LimitsSolver.warmstart e p f c.dt s = (e', s') := Outcome.ok.inj h
      rw [ha] at a b d
      refine ⟨⟨a.2.1, a.2.2.1, a.2.2.2.2.2.1, a.2.2.2.2.2.2⟩, b, fun V hV i => ?_⟩
      have h0 := Kind.given_blank (.limits f) hb
      rw [h0] at hV
      have : s.vel i = V i := by rw [hV, kick_zero, add_zero]
      rw [← this]
      exact d i
    · obtain ⟨o, ho, ha⟩ := bind_ok_iff.1 h
      obtain rfl := returned_ok ha
      have key := fun V hV => LimitsSolver.solve_spec c.epsilon c.fuel e e' p f c.dt s s' V hV ho
      have hV0 : ∀ i, s.vel i = (⟨⟨(s.vel i).linear.x - (kick p ((Kind.limits f).given e) i).linear.x,
          (s.vel i).linear.y - (kick p ((Kind.limits f).given e) i).linear.y⟩, (s.vel i).angular - (kick p ((Kind.limits f).given e) i).angular⟩ : Velocity K) +
          kick p ((Kind.limits f).given e) i := by
        intro i
        ext <;> simp
      obtain ⟨a, b, -⟩ := key _ hV0
      exact ⟨⟨a.2.1, a.2.2.1, a.2.2.2.2.2.1, a.2.2.2.2.2.2⟩, b, fun V hV => (key V hV).2.2⟩
  | contact =>
    have hi := hi rfl
    rcases hph with ⟨rfl, hb⟩ | rfl
    · have h0 := congrFun (Kind.given_blank .contact hb)
      have hk := warmstart_kick e p s h0
      have ha : Contact.warmstart e p s = (e', s') := Outcome.ok.inj h
      have hsame : (Kind.contact : Kind K).Same e e' := by cases ha; exact ⟨rfl, rfl, rfl⟩
      have hpos : s'.pos = s.pos := by cases ha; rfl
      rw [ha] at hk
      refine ⟨hsame, hpos, fun V hV i => ?_⟩
      rw [hk, hV, add_assoc, ← kick_add]
      congr 2
      funext c
      show totalImpulse (e : Contact K) c + (totalImpulse (e' : Contact K) c - totalImpulse (e : Contact K) c) = totalImpulse (e' : Contact K) c
      ring
    · have hk := solveVelocities_kick e p hi s h
      obtain ⟨l, v', -, he', hs'⟩ := Contact.solveVelocities_eq e p s h
      refine ⟨by rw [he']; exact ⟨rfl, rfl, rfl⟩, by rw [hs']; rfl, fun V hV i => ?_⟩
      rw [hk, hV, add_assoc, ← kick_add]
      congr 2
      funext c
      show totalImpulse (e : Contact K) c + (totalImpulse (e' : Contact K) c - totalImpulse (e : Contact K) c) = totalImpulse (e' : Contact K) c
      ring

omit [IsStrictOrderedRing K] [Trig K] in
/-- Two multipliers that are best for different velocities. -/
theorem Best.antitone [IsStrictOrderedRing K] {A : Set K} {l u l' u' : K} (h : Best A l u) (h' : Best A l' u') : (l - l') * (u - u') ≤ 0 := by
  have h1 := h.2 l' h'.1
  have h2 := h'.2 l h.1
  have : (l - l') * (u - u') = -(u * (l' - l)) - u' * (l - l') := by ring
  rw [this]; linarith

omit [LinearOrder K] [IsStrictOrderedRing K] [Trig K] in
/-- Work of the rows. -/
theorem pull_work {d : Nat} (J : Mat K d 6) (a b : Fin d → K) (v w : Fin 6 → K) :
    ∑ c, (pull J a c - pull J b c) * (v c - w c) = ∑ r, (a r - b r) * (push J v r - push J w r) := by
  have h1 : ∀ c, (pull J a c - pull J b c) * (v c - w c) = ∑ r, J.get r c * (a r - b r) * (v c - w c) := by
    intro c
    rw [← pull_sub, pull, Finset.sum_mul]
  have h2 : ∀ r, (a r - b r) * (push J v r - push J w r) = ∑ c, J.get r c * (a r - b r) * (v c - w c) := by
    intro r
    rw [push, push, ← Finset.sum_sub_distrib, Finset.mul_sum]
    exact Finset.sum_congr rfl fun c _ => by ring
  simp only [h1, h2]
  exact Finset.sum_comm

omit [LinearOrder K] [IsStrictOrderedRing K] [Trig K] in
theorem rowError_diff {d : Nat} {c : CallCfg K} {p : Proxies K} {f : CFun K d} {R : MVec K d} {s0 s s' : SolveState K}
    (h : f.eval p s = f.eval p s' ∧ f.bias p s = f.bias p s') (r : Fin d) :
    rowError c p f R s0 s r - rowError c p f R s0 s' r = push (f.jacobian p s0) (p.velocity s).toV r - push (f.jacobian p s0) (p.velocity s').toV r := by
  rw [rowError, rowError, h.1, h.2]; ring

theorem Kind.plain_same {k : Kind K} {p : Proxies K} {e e' : k.State} (h : k.Same e e') (hp : k.Plain p e) : k.Plain p e' := by
  cases k with
  | equality d f => exact hp
  | mouse f => exact hp
  | inequality d f => exact hp
  | limits f =>
    refine ⟨hp.1, ?_⟩
    rw [h.2.2.1]; exact hp.2
  | contact => exact h.2.2.trans hp

/-- The impulses of a constraint for which the law holds in two states oppose the difference of the velocities. -/
theorem Kind.antitone {c : CallCfg K} {p : Proxies K} {s0 : SolveState K} (k : Kind K) {e e' : k.State} (hr : k.Regular c p s0 e)
    (hst : k.Started c p s0 e) (hst' : k.Started c p s0 e') (hsame : k.Same e e') (hid : k.Idle e) (hid' : k.Idle e') (hpl : k.Plain p e) {s s' : SolveState K}
    (hpos : s.pos = s'.pos) (hl : k.Law c p s0 s e) (hl' : k.Law c p s0 s' e') :
    ∑ i, (k.given e i - k.given e' i) * ((p.velocity s).toV i - (p.velocity s').toV i) ≤ 0 := by
  have eqn : ∀ {d : Nat} {f : CFun K d} {e e' : EqualitySolver K d}, (f.eval p s = f.eval p s' ∧ f.bias p s = f.bias p s') →
      e.base.J = f.jacobian p s0 → e'.base.J = f.jacobian p s0 → e'.base.damping = e.base.damping → e'.base.restitution = e.base.restitution →
      (∀ r, 0 ≤ e.base.damping.at_ r) →
      (∀ r, Best (f.allowed c.dt r) (e.base.lambda.at_ r) (rowError c p f e.base.restitution s0 s r + e.base.damping.at_ r * e.base.lambda.at_ r)) →
      (∀ r, Best (f.allowed c.dt r) (e'.base.lambda.at_ r) (rowError c p f e'.base.restitution s0 s' r + e'.base.damping.at_ r * e'.base.lambda.at_ r)) →
      ∑ i, (pull e.base.J e.base.lambda.toV i - pull e'.base.J e'.base.lambda.toV i) * ((p.velocity s).toV i - (p.velocity s').toV i) ≤ 0 := by
    intro d f e e' hf hJ hJ' hD hR hd h h'
    rw [hJ, hJ', pull_work]
    refine Finset.sum_nonpos fun r _ => ?_
    have h1 := Best.antitone (h r) (h' r)
    rw [hD, hR] at h1
    have h2 := rowError_diff (c := c) (R := e.base.restitution) (s0 := s0) hf r
    have h3 := mul_nonneg (hd r) (mul_self_nonneg (e.base.lambda.at_ r - e'.base.lambda.at_ r))
    simp only [toV] at h2 ⊢
    rw [← h2]
    have : (e.base.lambda.at_ r - e'.base.lambda.at_ r) * (rowError c p f e.base.restitution s0 s r - rowError c p f e.base.restitution s0 s' r) =
      (e.base.lambda.at_ r - e'.base.lambda.at_ r) * (rowError c p f e.base.restitution s0 s r + e.base.damping.at_ r * e.base.lambda.at_ r -
        (rowError c p f e.base.restitution s0 s' r + e.base.damping.at_ r * e'.base.lambda.at_ r)) -
        e.base.damping.at_ r * ((e.base.lambda.at_ r - e'.base.lambda.at_ r) * (e.base.lambda.at_ r - e'.base.lambda.at_ r)) := by ring
    rw [this]; linarith
  cases k with
  | equality d f => exact eqn (hpl s s' hpos) hst.1 hst'.1 hsame.1 hsame.2 hr.1 hl hl'
  | mouse f => exact eqn (hpl s s' hpos) hst.1 hst'.1 hsame.1 hsame.2 hr.1 hl hl'
  | inequality d f =>
    show ∑ i, (pull (e : InequalitySolver K d).base.J (e : InequalitySolver K d).base.lambda.toV i -
      pull (e' : InequalitySolver K d).base.J (e' : InequalitySolver K d).base.lambda.toV i) * _ ≤ 0
    rw [hst.1, hst'.1, pull_work]
    refine Finset.sum_nonpos fun r _ => ?_
    have h1 := Best.antitone (hl r) (hl' r)
    rw [show (e' : InequalitySolver K d).base.restitution = (e : InequalitySolver K d).base.restitution from hsame, rowError_diff (hpl s s' hpos)] at h1
    exact h1
  | limits f =>
    obtain ⟨hL, hU, hD, hR⟩ := hsame
    obtain ⟨hf, hd⟩ := hpl
    have hev := hf s s' hpos
    have hnext : (e' : LimitsSolver K).nextFunc p f s0 = (e : LimitsSolver K).nextFunc p f s0 := by
      unfold LimitsSolver.nextFunc; rw [hL, hU]
    show ∑ i, (pull (e : LimitsSolver K).base.J (fun r => Func.sign (e : LimitsSolver K).func * (e : LimitsSolver K).base.lambda.at_ r) i -
      pull (e' : LimitsSolver K).base.J (fun r => Func.sign (e' : LimitsSolver K).func * (e' : LimitsSolver K).base.lambda.at_ r) i) * _ ≤ 0
    rw [hst.J, hst'.J, hst.func, hst'.func, hnext, pull_work, Fin.sum_univ_one]
    simp only [Kind.Law] at hl hl'
    rw [hnext, hL, hU, hD, hR] at hl'
    set x := (e : LimitsSolver K).base.lambda.at_ 0
    set x' := (e' : LimitsSolver K).base.lambda.at_ 0
    set D := (e : LimitsSolver K).base.damping.at_ 0
    set u := push (f.jacobian p s0) (p.velocity s).toV 0 with hu
    set u' := push (f.jacobian p s0) (p.velocity s').toV 0 with hu'
    have hdiff : ∀ limit, velocityError p f (f.jacobian p s0) ((e : LimitsSolver K).base.restitution.at_ 0) c.dt limit s -
        velocityError p f (f.jacobian p s0) ((e : LimitsSolver K).base.restitution.at_ 0) c.dt limit s' = u - u' := by
      intro limit; rw [velocityError, velocityError, hev.1, hev.2]; ring
    have hsq := mul_nonneg hd (mul_self_nonneg (x - x'))
    cases hn : (e : LimitsSolver K).nextFunc p f s0 with
    | equality =>
      simp only [hn] at hl hl'
      simp only [Func.sign, one_mul]
      have q : ∀ limit, velocityError p f (f.jacobian p s0) ((e : LimitsSolver K).base.restitution.at_ 0) c.dt limit s + D * x = 0 →
          velocityError p f (f.jacobian p s0) ((e : LimitsSolver K).base.restitution.at_ 0) c.dt limit s' + D * x' = 0 →
          u - u' = -(D * x) + D * x' := by
        intro limit a b
        have := hdiff limit
        linarith
      rw [q _ hl hl']
      have : (x - x') * (-(D * x) + D * x') = -(D * ((x - x') * (x - x'))) := by ring
      rw [this]; linarith
    | lower =>
      simp only [hn] at hl hl'
      obtain ⟨l, h1, h2⟩ := hl
      obtain ⟨l', h1', h2'⟩ := hl'
      obtain rfl : l = l' := Option.some.inj (h1.symm.trans h1')
      have := Best.antitone h2 h2'
      have hq := hdiff (l.at_ 0)
      simp only [Func.sign, one_mul]
      rw [← hq]
      have e2 : ∀ a b : K, (x - x') * (a - b) = (x - x') * (a + D * x - (b + D * x')) - D * ((x - x') * (x - x')) := fun a b => by ring
      rw [e2]; linarith
    | upper =>
      simp only [hn] at hl hl'
      obtain ⟨l, h1, h2⟩ := hl
      obtain ⟨l', h1', h2'⟩ := hl'
      obtain rfl : l = l' := Option.some.inj (h1.symm.trans h1')
      have := Best.antitone h2 h2'
      have hq := hdiff (l.at_ 0)
      simp only [Func.sign]
      rw [← hq]
      have e2 : ∀ a b : K, (-1 * x - -1 * x') * (a - b) = (-x - -x') * (a + D * -x - (b + D * -x')) - D * ((x - x') * (x - x')) := fun a b => by ring
      rw [e2]; linarith
    | off =>
      have z1 : x = 0 := by
        have := (hid (by rw [hst.func, hn])).2
        show (e : LimitsSolver K).base.lambda.at_ 0 = 0
        rw [this, at_zero]
      have z2 : x' = 0 := by
        have := (hid' (by rw [hst'.func, hnext, hn])).2
        show (e' : LimitsSolver K).base.lambda.at_ 0 = 0
        rw [this, at_zero]
      simp [z1, z2]
  | contact =>
    obtain ⟨hma, hre, hfr⟩ := hsame
    have hzero : (e : Contact K).friction = 0 := hpl
    obtain ⟨r1, -⟩ := hst
    obtain ⟨r2, -⟩ := hst'
    rw [hma] at r2
    set f := (e : Contact K).manifold.frame ![(s0.pos p.i0).toWorldSpace, (s0.pos p.i1).toWorldSpace] with hfd
    have hJn : (e' : Contact K).Jn = (e : Contact K).Jn := by
      apply ext_get; intro r i; rw [r1.Jn, r2.Jn]
    have tot : ∀ {e : Contact K} {s : SolveState K}, Contact.Ready p f s0.pos e → (∀ i : Fin 2, i.val < f.nContacts → e.tangentLambda.at_ i = 0) →
        totalImpulse e = pull e.Jn e.normalLambda.toV := by
      intro e s hr ht
      funext c
      rw [totalImpulse, hr.Jf, hr.Jf]
      have : ∀ i : Fin 2, (if i.val < f.nContacts then rowOf f p s0.pos f.tangent i c else 0) * e.tangentLambda.at_ i = 0 := by
        intro i
        split_ifs with h
        · rw [ht i h, mul_zero]
        · rw [zero_mul]
      rw [this, this, add_zero, zero_add]
    have hlaw : ∀ i : Fin 2, i.val < f.nContacts → Best {m | 0 ≤ m} ((e : Contact K).normalLambda.at_ i)
        (f.separationSpeed p s0.pos s.vel i - requested (e : Contact K).restitution (f.separationSpeed p s0.pos s0.vel i)) ∧
        (e : Contact K).tangentLambda.at_ i = 0 := by
      intro i hi
      obtain ⟨h1, h2⟩ := hl i hi
      refine ⟨h1, ?_⟩
      have h3 : |(e : Contact K).tangentLambda.at_ i| ≤ (e : Contact K).friction * _ := h2.1
      rw [hzero, zero_mul] at h3
      exact abs_eq_zero.1 (le_antisymm h3 (abs_nonneg _))
    have hlaw' : ∀ i : Fin 2, i.val < f.nContacts → Best {m | 0 ≤ m} ((e' : Contact K).normalLambda.at_ i)
        (f.separationSpeed p s0.pos s'.vel i - requested (e : Contact K).restitution (f.separationSpeed p s0.pos s0.vel i)) ∧
        (e' : Contact K).tangentLambda.at_ i = 0 := by
      simp only [Kind.Law] at hl'
      rw [hma, ← hfd, hre] at hl'
      intro i hi
      obtain ⟨h1, h2⟩ := hl' i hi
      refine ⟨h1, ?_⟩
      have h3 : |(e' : Contact K).tangentLambda.at_ i| ≤ (e' : Contact K).friction * _ := h2.1
      rw [hfr, hzero, zero_mul] at h3
      exact abs_eq_zero.1 (le_antisymm h3 (abs_nonneg _))
    show ∑ i, (totalImpulse (e : Contact K) i - totalImpulse (e' : Contact K) i) * _ ≤ 0
    rw [tot (s := s) r1 (fun i hi => (hlaw i hi).2), tot (s := s) r2 (fun i hi => (hlaw' i hi).2), hJn, pull_work]
    refine Finset.sum_nonpos fun r _ => ?_
    by_cases hc : r.val < f.nContacts
    · have h1 := Best.antitone (hlaw r hc).1 (hlaw' r hc).1
      rw [r1.push_Jn s r hc, r1.push_Jn s' r hc]
      simp only [toV]
      have e2 : ∀ a b : K, (a - requested (e : Contact K).restitution (f.separationSpeed p s0.pos s0.vel r) -
        (b - requested (e : Contact K).restitution (f.separationSpeed p s0.pos s0.vel r))) = a - b := fun a b => by ring
      rw [e2] at h1
      exact h1
    · have : ∀ v : Fin 6 → K, push (e : Contact K).Jn v r = 0 := by
        intro v; simp [push, r1.Jn, hc]
      rw [this, this, sub_self, mul_zero]

end Simu
