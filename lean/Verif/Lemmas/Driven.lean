import Verif.Spec.Driven
import Verif.Lemmas.StandingLoop
/-
Islands with a body that is only moved by a motor.
-/
namespace Simu
open Island Mat
variable {K : Type*} [Field K] [LinearOrder K] [IsStrictOrderedRing K] [Trig K] {L : Library K} {c : CallCfg K} {mo : Motor K 1}

/-- While a step is solved: the motor has given the impulse `x` to a body of inverse inertia `I` and velocity `v`, and `Q x`. -/
def Kind.Giving (mo : Motor K 1) (I : K) (v : Velocity K) (Q : K → Prop) (w : Velocity K) : (k : Kind K) → k.State → Prop
  | .equality 1 f, e => f = rotationMotor mo ∧ (e : EqualitySolver K 1).base.damping = Mat.zero ∧ (e : EqualitySolver K 1).base.J = ⟨![0, 0, 1, 0, 0, 0]⟩ ∧
    (∀ b x, (e : EqualitySolver K 1).solver.solve b = .ok x → I * x.at_ 0 = b.at_ 0) ∧ Q ((e : EqualitySolver K 1).base.lambda.at_ 0) ∧
    w = ⟨v.linear, v.angular + I * (e : EqualitySolver K 1).base.lambda.at_ 0⟩
  | _, _ => False

omit [IsStrictOrderedRing K] in
theorem Kind.Giving.drives {I : K} {v w : Velocity K} {Q : K → Prop} {k : Kind K} {e : k.State} (h : k.Giving mo I v Q w e) : k.Drives mo e := by
  unfold Kind.Giving at h
  split at h
  · exact ⟨h.1, h.2.1⟩
  · exact h.elim

omit [Field K] [LinearOrder K] [IsStrictOrderedRing K] [Trig K] in
theorem velocity_same {v w : Velocity K} (h : v.linear = w.linear) (h' : v.angular = w.angular) : v = w := by
  cases v; cases w; simp only at h h'; rw [h, h']

omit [LinearOrder K] [IsStrictOrderedRing K] [Trig K] in
/-- An impulse of a rotation motor. -/
theorem turn_vel (i : Nat) (m : InvMasses K) (x : MVec K 1) (s : SolveState K) :
    ((⟨i, i, m⟩ : Proxies K).applyImpulse (SolverBase.impulse ⟨![0, 0, 1, 0, 0, 0]⟩ x) s).vel i = ⟨(s.vel i).linear, (s.vel i).angular + m.I0 * x.at_ 0⟩ := by
  have g : ∀ c, (⟨![0, 0, 1, 0, 0, 0]⟩ : Mat K 1 6).get 0 c = (![0, 0, 1, 0, 0, 0] : Fin 6 → K) c := by
    intro c; fin_cases c <;> rfl
  rw [Proxies.applyImpulse_vel, toV_impulse]
  refine velocity_same ?_ ?_
  · rw [Velocity.add_linear]
    simp only [kick, if_true, pull, g, Finset.univ_unique, Fin.default_eq_zero, Finset.sum_singleton, toV, Velocity.add_linear]
    ext <;> simp
  · rw [Velocity.add_angular]
    simp only [kick, if_true, pull, g, Finset.univ_unique, Fin.default_eq_zero, Finset.sum_singleton, toV, Velocity.add_angular]
    simp

theorem Kind.drives_init {k : Kind K} {i : Nat} {m : InvMasses K} {v : Velocity K} (hs : ∀ x, 0 ≤ x → c.sqrt x * c.sqrt x = x) {e e' : k.State} {s s' : SolveState K}
    (h : k.Drives mo e) (hv : s.vel i = v) (ha : k.act c .initSolve ⟨i, i, m⟩ e s = .ok (e', s')) :
    k.Giving mo m.I0 v (fun _ => True) (s'.vel i) e' ∧ s' = s := by
  unfold Kind.Drives at h
  split at h
  · rename_i f e
    obtain ⟨rfl, hd⟩ := h
    have ha : ((EqualitySolver.initSolve c.sqrt e ⟨i, i, m⟩ (rotationMotor mo) s).bind fun e => .ok (e, s)) = .ok (e', s') := ha
    obtain ⟨e1, h1, h2⟩ := bind_ok_iff.1 ha
    cases Outcome.ok.inj h2
    obtain ⟨a1, a2, a3, a4, a5, a6, a7⟩ := EqualitySolver.initSolve_ok _ _ _ _ _ _ h1
    obtain ⟨k, hk', hvalid, hx, -⟩ := KSolver.mk_spec hs ((((rotationMotor mo).jacobian (⟨i, i, m⟩ : Proxies K) s).mul (⟨i, i, m⟩ : Proxies K).inverseMass).mul
      ((rotationMotor mo).jacobian (⟨i, i, m⟩ : Proxies K) s).transpose |>.add (Mat.diagonal (e : EqualitySolver K 1).base.damping))
    have hke : k = (e' : EqualitySolver K 1).solver := Outcome.ok.inj (hk'.symm.trans a6)
    subst hke
    refine ⟨⟨rfl, by rw [a4, hd], a1, fun b x hb => ?_, trivial, ?_⟩, rfl⟩
    · obtain ⟨x', q1, q2, -⟩ := hx (hvalid.1 a7) b
      cases Outcome.ok.inj (q1.symm.trans hb)
      have g : ∀ c, (⟨![0, 0, 1, 0, 0, 0]⟩ : Mat K 1 6).get 0 c = (![0, 0, 1, 0, 0, 0] : Fin 6 → K) c := by
        intro c; fin_cases c <;> rfl
      rw [← q2, hd, add_mul_at, diag_mul_at, at_zero, effectiveMass_mul]
      show _ = push (⟨![0, 0, 1, 0, 0, 0]⟩ : Mat K 1 6) (fun c => (⟨i, i, m⟩ : Proxies K).invMassVec.at_ c * pull (⟨![0, 0, 1, 0, 0, 0]⟩ : Mat K 1 6) x.toV c) 0 + _
      simp only [push, pull, Fin.sum_univ_six, g, Finset.univ_unique, Fin.default_eq_zero, Finset.sum_singleton, (invMassVec_at (⟨i, i, m⟩ : Proxies K)).2.2.1, toV]
      simp
    · rw [hv, a2, at_zero, mul_zero, add_zero]
  · exact h.elim

omit [IsStrictOrderedRing K] in
theorem Kind.giving_warm {k : Kind K} {i : Nat} {m : InvMasses K} {v : Velocity K} {Q : K → Prop} {e e' : k.State} {s s' : SolveState K}
    (h : k.Giving mo m.I0 v Q (s.vel i) e) (ha : k.act c .warmstart ⟨i, i, m⟩ e s = .ok (e', s')) :
    k.Giving mo m.I0 v (fun _ => True) (s'.vel i) e' ∧ s'.pos = s.pos := by
  unfold Kind.Giving at h
  split at h
  · rename_i f e
    obtain ⟨rfl, hd, hJ, hsol, hQ, hw⟩ := h
    cases Outcome.ok.inj (show Outcome.ok (EqualitySolver.warmstart e ⟨i, i, m⟩ (rotationMotor mo) c.dt s) = .ok (e', s') from ha)
    refine ⟨⟨rfl, hd, hJ, hsol, trivial, ?_⟩, Proxies.applyImpulse_pos _ _ _⟩
    show ((⟨i, i, m⟩ : Proxies K).applyImpulse (SolverBase.impulse (e : EqualitySolver K 1).base.J _) s).vel i = _
    rw [hJ, turn_vel, hw, at_sub]
    refine velocity_same rfl ?_
    show v.angular + m.I0 * (e : EqualitySolver K 1).base.lambda.at_ 0 + m.I0 * (_ - (e : EqualitySolver K 1).base.lambda.at_ 0) = v.angular + m.I0 * _
    ring
  · exact h.elim

theorem Kind.giving_solve {k : Kind K} {i : Nat} {m : InvMasses K} (hI : 0 < m.I0) {v : Velocity K} {Q : K → Prop} {e e' : k.State} {s s' : SolveState K}
    (h : k.Giving mo m.I0 v Q (s.vel i) e) (ha : k.act c .solveVelocities ⟨i, i, m⟩ e s = .ok (e', s')) :
    k.Giving mo m.I0 v (· = Algo.clamp ((mo.speed - v.angular) / m.I0) (mo.lo c.dt 0) (mo.hi c.dt 0)) (s'.vel i) e' ∧ s'.pos = s.pos := by
  unfold Kind.Giving at h
  split at h
  · rename_i f e
    obtain ⟨rfl, hd, hJ, hsol, hQ, hw⟩ := h
    have ha : EqualitySolver.solveVelocity e ⟨i, i, m⟩ (rotationMotor mo) c.dt s = .ok (e', s') := ha
    obtain ⟨x, hx, h2⟩ := bind_ok_iff.1 ha
    cases Outcome.ok.inj h2
    have hx0 := hsol _ _ hx
    have g : ∀ c, (⟨![0, 0, 1, 0, 0, 0]⟩ : Mat K 1 6).get 0 c = (![0, 0, 1, 0, 0, 0] : Fin 6 → K) c := by
      intro c; fin_cases c <;> rfl
    have hr : (SolverBase.computeRhs (e : EqualitySolver K 1).base ⟨i, i, m⟩ s (rotationMotor mo) c.dt true).at_ 0 = mo.speed - (s.vel i).angular := by
      simp only [SolverBase.computeRhs, if_true, at_neg, at_add, at_sdiv, diag_mul_at, hd, hJ, at_zero]
      rw [show (rotationMotor mo).eval (⟨i, i, m⟩ : Proxies K) s = Mat.zero from rfl, show (rotationMotor mo).bias (⟨i, i, m⟩ : Proxies K) s = mo.bias from rfl, at_zero]
      simp only [at_mul, Fin.sum_univ_six, g, Motor.bias, at_smul, Motor.speed, Proxies.velocity]
      simp [Mat.at_ofFn]
      ring
    rw [hr, hw] at hx0
    have hl : (mo.clampLambda ((e : EqualitySolver K 1).base.lambda.add x) c.dt).at_ 0 = Algo.clamp ((mo.speed - v.angular) / m.I0) (mo.lo c.dt 0) (mo.hi c.dt 0) := by
      rw [Motor.clampLambda_at, at_add]
      congr 1
      rw [eq_div_iff hI.ne']
      linear_combination hx0
    refine ⟨⟨rfl, hd, hJ, hsol, hl, ?_⟩, Proxies.applyImpulse_pos _ _ _⟩
    show ((⟨i, i, m⟩ : Proxies K).applyImpulse (SolverBase.impulse (e : EqualitySolver K 1).base.J _) s).vel i = _
    rw [hJ, turn_vel, hw, at_sub]
    refine velocity_same rfl ?_
    show v.angular + m.I0 * (e : EqualitySolver K 1).base.lambda.at_ 0 + m.I0 * (_ - (e : EqualitySolver K 1).base.lambda.at_ 0) = v.angular + m.I0 * _
    ring
  · exact h.elim

omit [IsStrictOrderedRing K] in
theorem Kind.drives_positions {k : Kind K} {i : Nat} {m : InvMasses K} {e e' : k.State} {s s' : SolveState K} (hw : (s.pos i).orient.WF)
    (h : k.Drives mo e) (ha : k.act c .solvePositions ⟨i, i, m⟩ e s = .ok (e', s')) : k.Drives mo e' ∧ s' = s := by
  unfold Kind.Drives at h
  split at h
  · rename_i f e
    obtain ⟨rfl, hd⟩ := h
    have ha : EqualitySolver.solvePosition c.sqrt e ⟨i, i, m⟩ (rotationMotor mo) s = .ok (e', s') := ha
    unfold EqualitySolver.solvePosition at ha
    dsimp only [SolverBase.computeEffectiveMass] at ha
    obtain ⟨S, -, ha⟩ := bind_ok_iff.1 ha
    obtain ⟨l, -, ha⟩ := bind_ok_iff.1 ha
    rw [show (rotationMotor mo).clampPositionLambda l = Mat.zero from rfl, Mat.mul_zero_vec, Proxies.applyPositionCorrection_zero _ hw hw] at ha
    cases Outcome.ok.inj ha
    exact ⟨⟨rfl, hd⟩, rfl⟩
  · exact h.elim

omit [IsStrictOrderedRing K] in
theorem Kind.drives_isActive {k : Kind K} {p : Proxies K} {e : k.State} {s : SolveState K} (h : k.Drives mo e) : k.Drives mo (k.isActive p e s).1 := by
  unfold Kind.Drives at h
  split at h
  · exact h
  · exact h.elim

/-- The body `b` is only moved by the constraint `l`. -/
def OnlyBy (N : Net (Pose K) (Velocity K) ((l : Link) → (L.kind l).State)) (ls : List Link) (b : Nat) (l : Link) : Prop :=
  ∀ k ∈ ls, k ≠ l → (b = (N.ends k).1 → N.structuralIn k (N.ends k).1 = true) ∧ (b = (N.ends k).2 → N.structuralIn k (N.ends k).2 = true)

omit [IsStrictOrderedRing K] in
theorem act_aside (hN : Lawful (L.net c)) {ph : Phase} {b i : Nat} {l k : Link} (hk : k ≠ l)
    {bs : List Nat} (hb : bs[i]? = some b) {i0 i1 : Nat} (h0 : bs[i0]? = some ((L.net c).ends k).1) (h1 : bs[i1]? = some ((L.net c).ends k).2)
    (ho : (b = ((L.net c).ends k).1 → (L.net c).structuralIn k ((L.net c).ends k).1 = true) ∧ (b = ((L.net c).ends k).2 → (L.net c).structuralIn k ((L.net c).ends k).2 = true))
    {s s' : (l : Link) → (L.kind l).State} {ps ps' : Nat → Pose K} {vs vs' : Nat → Velocity K} (ha : (L.net c).act ph k i0 i1 s ps vs = .ok (s', ps', vs')) :
    s' l = s l ∧ ps' i = ps i ∧ vs' i = vs i := by
  refine ⟨act_apart ha (Ne.symm hk), hN.act ph k i0 i1 s ps vs s' ps' vs' ha i ?_ ?_⟩
  · rintro rfl; exact ho.1 (Option.some.inj (hb.symm.trans h0))
  · rintro rfl; exact ho.2 (Option.some.inj (hb.symm.trans h1))

omit [IsStrictOrderedRing K] in
theorem actAll_aside (hN : Lawful (L.net c)) {ph : Phase} {b i : Nat} {l : Link} :
    ∀ (ls : List Link) {x y : St (Pose K) (Velocity K) ((l : Link) → (L.kind l).State) × Isl (Pose K) (Velocity K)}, l ∉ ls → Linked (L.net c) x.1 x.2 → (∀ k ∈ ls, k ∈ x.2.links) →
      OnlyBy (L.net c) ls b l → x.2.bodies[i]? = some b → actAll (L.net c) ph ls x = .ok y → y.1.s l = x.1.s l ∧ y.2.ps i = x.2.ps i ∧ y.2.vs i = x.2.vs i
  | [], x, y, _, _, _, _, _, he => by cases Outcome.ok.inj he; exact ⟨rfl, rfl, rfl⟩
  | k :: ks, x, y, hn, hl, hls, ho, hb, he => by
    rw [List.mem_cons, not_or] at hn
    obtain ⟨i0, i1, s, ps, vs, hp, h0, h1, ha, he⟩ := actAll_cons hl (hls k (by simp)) he
    obtain ⟨a1, a2, a3⟩ := act_aside hN (Ne.symm hn.1) hb h0 h1 (ho k (by simp) (Ne.symm hn.1)) ha
    obtain ⟨r1, r2, r3⟩ := actAll_aside hN ks hn.2 (x := ({ x.1 with s := s }, { x.2 with ps := ps, vs := vs })) hl (fun k hk => hls k (List.mem_cons_of_mem _ hk))
      (fun k hk => ho k (List.mem_cons_of_mem _ hk)) hb he
    exact ⟨r1.trans a1, r2.trans a2, r3.trans a3⟩

omit [IsStrictOrderedRing K] in
/-- In a round the body and its motor only see the call of the motor. -/
theorem actAll_once (hN : Lawful (L.net c)) {ph : Phase} {b i : Nat} {l : Link} (he : (L.net c).ends l = (b, b)) :
    ∀ (ls : List Link) {x y : St (Pose K) (Velocity K) ((l : Link) → (L.kind l).State) × Isl (Pose K) (Velocity K)}, ls.Nodup → l ∈ ls → x.2.bodies.Nodup → Linked (L.net c) x.1 x.2 →
      (∀ k ∈ ls, k ∈ x.2.links) → OnlyBy (L.net c) ls b l → x.2.bodies[i]? = some b → actAll (L.net c) ph ls x = .ok y →
      ∃ s s', (L.kind l).act c ph ⟨i, i, (L.bodies l).masses⟩ (x.1.s l) s = .ok (y.1.s l, s') ∧ s.pos i = (x.2.ps i).1 ∧ s.vel i = x.2.vs i ∧ (y.2.ps i).1 = s'.pos i ∧ y.2.vs i = s'.vel i
  | [], x, y, _, hm, _, _, _, _, _, _ => (List.not_mem_nil hm).elim
  | k :: ks, x, y, hn, hm, hnb, hl, hls, ho, hb, h => by
    obtain ⟨n1, n2⟩ := List.nodup_cons.1 hn
    obtain ⟨i0, i1, s, ps, vs, hp, h0, h1, ha, h⟩ := actAll_cons hl (hls k (by simp)) h
    by_cases hk : k = l
    · subst hk
      rw [he] at h0 h1
      have e0 : i0 = i := (List.getElem?_inj (lt_of_get h0) hnb).1 (h0.trans hb.symm)
      have e1 : i1 = i := (List.getElem?_inj (lt_of_get h1) hnb).1 (h1.trans hb.symm)
      subst e0 e1
      obtain ⟨r1, r2, r3⟩ := actAll_aside hN ks n1 (x := ({ x.1 with s := s }, { x.2 with ps := ps, vs := vs })) hl (fun k hk => hls k (List.mem_cons_of_mem _ hk))
        (fun k hk => ho k (List.mem_cons_of_mem _ hk)) hb h
      obtain ⟨e', t, q1, q2, q3, q4⟩ := Library.act_ok ha
      refine ⟨⟨fun i => (x.2.ps i).1, x.2.vs⟩, t, ?_, rfl, rfl, ?_, ?_⟩
      · rw [r1]
        show _ = Outcome.ok (s k, t)
        rw [q2, Function.update_self]
        exact q1
      · rw [r2]; exact q4 _
      · rw [r3]; show vs _ = _; rw [q3]
    · obtain ⟨a1, a2, a3⟩ := act_aside hN hk hb h0 h1 (ho k (by simp) hk) ha
      obtain ⟨t, t', r1, r2, r3, r4, r5⟩ := actAll_once hN he ks n2 ((List.mem_cons.1 hm).resolve_left (Ne.symm hk)) (x := ({ x.1 with s := s }, { x.2 with ps := ps, vs := vs })) hnb hl
        (fun k hk => hls k (List.mem_cons_of_mem _ hk)) (fun k hk => ho k (List.mem_cons_of_mem _ hk)) hb h
      refine ⟨t, t', ?_, r2.trans (congrArg Subtype.val a2), r3.trans a3, r4, r5⟩
      rw [← a1]; exact r1

omit [IsStrictOrderedRing K] in
theorem actAll_linked {ph : Phase} {ls : List Link} {x y : St (Pose K) (Velocity K) ((l : Link) → (L.kind l).State) × Isl (Pose K) (Velocity K)} (hl : Linked (L.net c) x.1 x.2)
    (hls : ∀ k ∈ ls, k ∈ x.2.links) (h : actAll (L.net c) ph ls x = .ok y) : Linked (L.net c) y.1 y.2 ∧ y.2.bodies = x.2.bodies ∧ y.2.links = x.2.links := by
  obtain ⟨f1, f2, f3, f4⟩ := (actAll_run (Q := fun _ => True) trivial ls hls h).frame
  exact ⟨fun l hm => by rw [f1, f3]; exact hl l (by rw [← f4]; exact hm), f3, f4⟩

/-- An island with a driven body. -/
theorem solveIsland_driven (hN : Lawful (L.net c)) (hsq : ∀ x, 0 ≤ x → c.sqrt x * c.sqrt x = x) (cfg : Settings) (hit : 1 ≤ cfg.nVelocityIterations)
    {st0 st st' : St (Pose K) (Velocity K) ((l : Link) → (L.kind l).State)} {isl isl' : Isl (Pose K) (Velocity K)} (h : Building (L.net c) st0 st isl) {b : Nat} {l : Link} (hb : b ∈ isl.bodies)
    (hl : l ∈ isl.links) (hends : (L.net c).ends l = (b, b)) (hI : 0 < (L.bodies l).masses.I0) (hd : (L.kind l).Drives mo (st.s l)) (ho : OnlyBy (L.net c) isl.links b l)
    (he : solveIsland (L.net c) cfg st isl = .ok (st', isl')) :
    (L.kind l).Drives mo (st'.s l) ∧
    (st'.body b).vel = ⟨(st0.body b).vel.linear, (st0.body b).vel.angular +
      (L.bodies l).masses.I0 * Algo.clamp ((mo.speed - (st0.body b).vel.angular) / (L.bodies l).masses.I0) (mo.lo c.dt 0) (mo.hi c.dt 0)⟩ ∧
    (st'.body b).pos = (L.net c).advance (st0.body b).pos (st'.body b).vel := by
  obtain ⟨a, x1, x2, x, y, h1, h2, h3, h4, h5, e1, e2, e3, e4, h8, h9⟩ := solveIsland_phases cfg h he
  obtain ⟨i, hi⟩ := List.getElem?_of_mem hb
  have hls : ∀ k ∈ isl.links, k ∈ a.2.links := fun k hk => by rw [h3]; exact hk
  have hnb := h.indexed.nodup
  set I := (L.bodies l).masses.I0
  set v := (st0.body b).vel
  obtain ⟨p0, v0⟩ := h5 b i hi
  -- starting
  obtain ⟨s, s', q1, q2, q3, q4, q5⟩ := actAll_once hN hends isl.links h.nodup hl (by rw [h2]; exact hnb) h1 hls ho (by rw [h2]; exact hi) e1
  rw [h4] at q1
  obtain ⟨g1, rfl⟩ := Kind.drives_init hsq hd (q3.trans v0) q1
  obtain ⟨k1, k2, k3⟩ := actAll_linked h1 hls e1
  have hp1 : x1.2.ps i = (st0.body b).pos := (Subtype.ext (q4.trans q2)).trans p0
  rw [← q5] at g1
  -- warm starting
  obtain ⟨g2, hp2, l1, l2, l3⟩ : (L.kind l).Giving mo I v (fun _ => True) (x2.2.vs i) (x2.1.s l) ∧ x2.2.ps i = (st0.body b).pos ∧ Linked (L.net c) x2.1 x2.2 ∧ x2.2.bodies = isl.bodies ∧
      x2.2.links = isl.links := by
    split at e2
    · obtain ⟨s, s', q1, q2, q3, q4, q5⟩ := actAll_once hN hends isl.links h.nodup hl (by rw [k2, h2]; exact hnb) k1 (by rw [k3]; exact hls) ho (by rw [k2, h2]; exact hi) e2
      rw [← q3] at g1
      obtain ⟨g, hp⟩ := Kind.giving_warm g1 q1
      obtain ⟨l1, l2, l3⟩ := actAll_linked k1 (by rw [k3]; exact hls) e2
      refine ⟨by rw [q5]; exact g, ?_, l1, by rw [l2, k2, h2], by rw [l3, k3, h3]⟩
      rw [← hp1]
      exact Subtype.ext (q4.trans ((congrFun hp i).trans q2))
    · cases Outcome.ok.inj e2
      exact ⟨g1, hp1, k1, by rw [k2, h2], by rw [k3, h3]⟩
  -- velocities
  have rounds : ∀ (n : Nat) (Q : K → Prop) {z w : St (Pose K) (Velocity K) ((l : Link) → (L.kind l).State) × Isl (Pose K) (Velocity K)}, (L.kind l).Giving mo I v Q (z.2.vs i) (z.1.s l) →
      z.2.ps i = (st0.body b).pos → Linked (L.net c) z.1 z.2 → z.2.bodies = isl.bodies → z.2.links = isl.links → actRounds (L.net c) .solveVelocities isl.links n z = .ok w →
      (L.kind l).Giving mo I v (if n = 0 then Q else (· = Algo.clamp ((mo.speed - v.angular) / I) (mo.lo c.dt 0) (mo.hi c.dt 0))) (w.2.vs i) (w.1.s l) ∧ w.2.ps i = (st0.body b).pos ∧
      Linked (L.net c) w.1 w.2 ∧ w.2.bodies = isl.bodies ∧ w.2.links = isl.links := by
    intro n
    induction n with
    | zero => intro Q z w g hp l1 l2 l3 hr; cases Outcome.ok.inj hr; exact ⟨by rw [if_pos rfl]; exact g, hp, l1, l2, l3⟩
    | succ n ih =>
      intro Q z w g hp l1 l2 l3 hr
      obtain ⟨u, hu, hr⟩ := bind_ok_iff.1 hr
      have hzl : ∀ k ∈ isl.links, k ∈ z.2.links := fun k hk => by rw [l3]; exact hk
      obtain ⟨s, s', q1, q2, q3, q4, q5⟩ := actAll_once hN hends isl.links h.nodup hl (by rw [l2]; exact hnb) l1 hzl ho (by rw [l2]; exact hi) hu
      rw [← q3] at g
      obtain ⟨g', hp'⟩ := Kind.giving_solve hI g q1
      obtain ⟨m1, m2, m3⟩ := actAll_linked l1 hzl hu
      have := ih _ (by rw [q5]; exact g') (Subtype.ext (q4.trans ((congrFun hp' i).trans (q2.trans (congrArg Subtype.val hp))))) m1 (m2.trans l2) (m3.trans l3) hr
      rw [if_neg (Nat.succ_ne_zero n)]
      rwa [ite_self] at this
  obtain ⟨g3, hp3, m1, m2, m3⟩ := rounds _ _ g2 hp2 l1 l2 l3 e3
  rw [if_neg (by omega)] at g3
  have hv3 : x.2.vs i = ⟨v.linear, v.angular + I * Algo.clamp ((mo.speed - v.angular) / I) (mo.lo c.dt 0) (mo.hi c.dt 0)⟩ := by
    have := g3
    unfold Kind.Giving at this
    split at this
    · rw [this.2.2.2.2.2, this.2.2.2.2.1]
    · exact this.elim
  -- positions
  have corrections : ∀ (n : Nat) {z w : St (Pose K) (Velocity K) ((l : Link) → (L.kind l).State) × Isl (Pose K) (Velocity K)}, (L.kind l).Drives mo (z.1.s l) →
      Linked (L.net c) z.1 z.2 → z.2.bodies = isl.bodies → z.2.links = isl.links → actRounds (L.net c) .solvePositions isl.links n z = .ok w →
      (L.kind l).Drives mo (w.1.s l) ∧ w.2.ps i = z.2.ps i ∧ w.2.vs i = z.2.vs i := by
    intro n
    induction n with
    | zero => intro z w g _ _ _ hr; cases Outcome.ok.inj hr; exact ⟨g, rfl, rfl⟩
    | succ n ih =>
      intro z w g l1 l2 l3 hr
      obtain ⟨u, hu, hr⟩ := bind_ok_iff.1 hr
      have hzl : ∀ k ∈ isl.links, k ∈ z.2.links := fun k hk => by rw [l3]; exact hk
      obtain ⟨s, s', q1, q2, q3, q4, q5⟩ := actAll_once hN hends isl.links h.nodup hl (by rw [l2]; exact hnb) l1 hzl ho (by rw [l2]; exact hi) hu
      obtain ⟨g', rfl⟩ := Kind.drives_positions (by rw [q2]; exact (z.2.ps i).2) g q1
      obtain ⟨m1, m2, m3⟩ := actAll_linked l1 hzl hu
      obtain ⟨r1, r2, r3⟩ := ih g' m1 (m2.trans l2) (m3.trans l3) hr
      exact ⟨r1, r2.trans (Subtype.ext (q4.trans q2)), r3.trans (q5.trans q3)⟩
  obtain ⟨d, c1, c2⟩ := corrections _ (z := integrate (L.net c) x) g3.drives m1 m2 m3 e4
  obtain ⟨f1, f2⟩ := h9 b i hi
  have hvel : (st'.body b).vel = x.2.vs i := f2.trans c2
  refine ⟨by rw [h8]; exact d, hvel.trans hv3, ?_⟩
  rw [f1, c1, hvel, ← hp3]
  have hlt : i < x.2.bodies.length := by rw [m2]; exact lt_of_get hi
  show (if i < x.2.bodies.length then _ else _) = _
  rw [if_pos hlt]

/-- What is known of a driven body when the islands `done` are solved. -/
structure GroupTurns (L : Library K) (c : CallCfg K) (mo : Motor K 1) (b : Nat) (l : Link) (st0 st : St (Pose K) (Velocity K) ((l : Link) → (L.kind l).State)) (done : List Record) : Prop where
  drives : (L.kind l).Drives mo (st.s l)
  turned : (∃ D ∈ done, b ∈ D.bodies) → (st.body b).vel = ⟨(st0.body b).vel.linear, (st0.body b).vel.angular +
      (L.bodies l).masses.I0 * Algo.clamp ((mo.speed - (st0.body b).vel.angular) / (L.bodies l).masses.I0) (mo.lo c.dt 0) (mo.hi c.dt 0)⟩ ∧
    (st.body b).pos = (L.net c).advance (st0.body b).pos (st.body b).vel

variable {A : Link → Bool} {world : List Nat}

theorem GroupTurns.step (hN : Lawful (L.net c)) (hc : Consistent (L.net c) world) {b : Nat} {l : Link} (hsq : ∀ x, 0 ≤ x → c.sqrt x * c.sqrt x = x)
    {st0 st : St (Pose K) (Velocity K) ((l : Link) → (L.kind l).State)} (hbw : b ∈ world) (hl : l ∈ linksOf (L.net c) b) (ha : A l = true) (hends : (L.net c).ends l = (b, b))
    (hI : 0 < (L.bodies l).masses.I0) (hf : interactsAsStructural (L.net c) st0 b = false) (ho : ∀ k ∈ linksOf (L.net c) b, k ≠ l → (L.net c).structuralIn k b = true)
    {toProcess : List Nat} {done : List Record} (h : Progress (L.net c) A world st0 st toProcess done) (k : GroupTurns L c mo b l st0 st done) {isl : Isl (Pose K) (Velocity K)}
    (hz : isl.Empty) {root fuel : Nat} (hroot : root ∈ toProcess) {x : St (Pose K) (Velocity K) ((l : Link) → (L.kind l).State) × Isl (Pose K) (Velocity K)}
    (hi : init (L.net c) fuel st isl root = some (.ok x)) (cfg : Settings) (hit : 1 ≤ cfg.nVelocityIterations)
    {y : St (Pose K) (Velocity K) ((l : Link) → (L.kind l).State) × Isl (Pose K) (Velocity K)}
    (hs : solveIsland (L.net c) cfg x.1 x.2 = .ok y) (hA : ∀ e ∈ y.1.evals, e.2 = A e.1) :
    GroupTurns L c mo b l st0 y.1 (done ++ [⟨y.2.bodies, y.2.links, y.2.awake⟩]) := by
  obtain ⟨hrw, hrd⟩ := (h.remaining root).1 hroot
  obtain ⟨hb, ⟨ev, hev⟩, hrb, hbw', _, _⟩ := init_evals hc.closed hrw h.idle hz hi
  obtain ⟨q1, q2, q3, q4, q5, q6, q7, q8, q9⟩ := solveIsland_spec (st' := y.1) (isl' := y.2) hN cfg h.idle hb hs
  have hAx : ∀ e ∈ x.1.evals, e.2 = A e.1 := by rw [← q5]; exact hA
  obtain ⟨i1, i2⟩ := init_spec (A := A) hc.closed hrw h.idle hz hi hAx
  rw [touches_congr h.structural] at i1
  simp only [h.structural] at i2
  have hstep := (Progress.step hN hc h hz hroot hi cfg hs hA).1
  have hdx : (L.kind l).Drives mo (x.1.s l) := by
    refine init_placed (good := fun s => (L.kind l).Drives mo (s l)) ?_ h.idle hz hi k.drives
    intro l' s hg
    by_cases hll : l = l'
    · subst hll
      show (L.kind l).Drives mo (Function.update s l _ l)
      rw [Function.update_self]
      exact Kind.drives_isActive hg
    · have : ((L.net c).isActive l' s (st.body ((L.net c).ends l').1).pos (st.body ((L.net c).ends l').2).pos).1 l = s l := Function.update_of_ne hll _ _
      rw [this]; exact hg
  have hown : ∀ k ∈ x.2.links, b = ((L.net c).ends k).1 ∨ b = ((L.net c).ends k).2 → k ∈ linksOf (L.net c) b := by
    intro k hk hbk
    obtain ⟨-, d, hdx, -, hkd⟩ := (i2 k).1 hk
    obtain ⟨m0, m1⟩ := hc.listed d (hbw' d hdx) k hkd
    rcases hbk with e | e
    · rw [e]; exact m0
    · rw [e]; exact m1
  by_cases hbx : b ∈ x.2.bodies
  · have hlx : l ∈ x.2.links := (i2 l).2 ⟨ha, b, hbx, hf, hl⟩
    have hfresh : st.body b = st0.body b := h.pending b (fun D hD hbD => by
      have := (List.pairwise_append.1 hstep.disjoint).2.2 D hD _ (List.mem_singleton_self _) b hbD (by show b ∈ y.2.bodies; rw [q2]; exact hbx)
      rw [hf] at this
      cases this)
    obtain ⟨r1, r2, r3⟩ := solveIsland_driven (mo := mo) (st' := y.1) (isl' := y.2) hN hsq cfg hit hb hbx hlx hends hI hdx (fun k hk hkl => ⟨fun e => by
      have := ho k (hown k hk (Or.inl e)) hkl
      rwa [← e], fun e => by
      have := ho k (hown k hk (Or.inr e)) hkl
      rwa [← e]⟩) hs
    rw [hfresh] at r2 r3
    exact ⟨r1, fun _ => ⟨r2, r3⟩⟩
  · have hlx : l ∉ x.2.links := fun hlx => by
      obtain ⟨-, d, hdx, -, hld⟩ := (i2 l).1 hlx
      rcases hc.isEnd d (hbw' d hdx) l hld with e | e <;> rw [hends] at e <;> exact hbx (by have e : d = b := e; exact e ▸ hdx)
    refine ⟨by rw [solveIsland_others (st' := y.1) (isl' := y.2) cfg hb hlx hs]; exact hdx, ?_⟩
    rintro ⟨D, hD, hbD⟩
    rw [q7 b hbx]
    rcases List.mem_append.1 hD with hD | hD
    · exact k.turned ⟨D, hD, hbD⟩
    · rw [List.mem_singleton.1 hD] at hbD
      exact absurd (by rw [← q2]; exact hbD) hbx

theorem solveLoop_turns (hN : Lawful (L.net c)) (hc : Consistent (L.net c) world) {b : Nat} {l : Link} (hsq : ∀ x, 0 ≤ x → c.sqrt x * c.sqrt x = x)
    {st0 st st' : St (Pose K) (Velocity K) ((l : Link) → (L.kind l).State)} (hbw : b ∈ world) (hl : l ∈ linksOf (L.net c) b) (ha : A l = true) (hends : (L.net c).ends l = (b, b))
    (hI : 0 < (L.bodies l).masses.I0) (hf : interactsAsStructural (L.net c) st0 b = false) (ho : ∀ k ∈ linksOf (L.net c) b, k ≠ l → (L.net c).structuralIn k b = true)
    {cfg : Settings} (hit : 1 ≤ cfg.nVelocityIterations) (fuel : Nat) {toProcess : List Nat} {isl : Isl (Pose K) (Velocity K)} {done log : List Record}
    (h : Progress (L.net c) A world st0 st toProcess done) (k : GroupTurns L c mo b l st0 st done)
    (hz : isl.Empty) (he : solveLoop (L.net c) cfg fuel toProcess st isl done = some (.ok (st', log))) (hA : ∀ e ∈ st'.evals, e.2 = A e.1) :
    GroupTurns L c mo b l st0 st' [⟨[b], [], true⟩] := by
  induction fuel generalizing toProcess st isl done with
  | zero => simp [solveLoop] at he
  | succ fuel ih =>
    rcases solveLoop_cases he with ⟨rfl, rfl, rfl⟩ | ⟨n, root, x, y, hn, hroot, hi, hs, he'⟩
    · refine ⟨k.drives, fun _ => k.turned ?_⟩
      by_contra hno
      have := (h.remaining b).2 ⟨hbw, fun D hD hbD => hno ⟨D, hD, hbD⟩⟩
      simp at this
    · have hn : n = fuel := by omega
      subst hn
      have hb := (init_evals hc.closed ((h.remaining root).1 hroot).1 h.idle hz hi).1
      have q1 := (solveIsland_spec (st' := y.1) (isl' := y.2) hN cfg h.idle hb hs).1
      have hAy : ∀ e ∈ y.1.evals, e.2 = A e.1 := by
        obtain ⟨⟨ev, hev⟩, -⟩ := solveLoop_evals hN hc.closed n (fun b hb => ((h.remaining b).1 (List.mem_filter.1 hb).1).1) q1 (Isl.clear_empty _) he'
        intro e hm
        exact hA e (by rw [hev]; exact List.mem_append_left _ hm)
      exact ih (h.step hN hc hz hroot hi cfg hs hAy).1 (k.step hN hc hsq hbw hl ha hends hI hf ho h hz hroot hi cfg hit hs hAy) (Isl.clear_empty _) he'

end Simu
