import Verif.Lemmas.ConvergedContact
import Verif.Lemmas.LibraryEnergy
/-
The constraints of an island when a round of the velocity solver changes nothing.
-/
namespace Simu
open Mat Contact Island
variable {K : Type*} [Field K] [LinearOrder K] [IsStrictOrderedRing K] [Trig K]

/-- A constraint whose solve was started with the bodies in the state `s0`. -/
def Kind.Started (c : CallCfg K) (p : Proxies K) (s0 : SolveState K) : (k : Kind K) → k.State → Prop
  | .equality d f, e => (e : EqualitySolver _ _).base.J = f.jacobian p s0 ∧
      KSolver.mk' c.sqrt d (effectiveMass p (f.jacobian p s0) (e : EqualitySolver _ _).base.damping) = .ok (e : EqualitySolver _ _).solver ∧
      (e : EqualitySolver _ _).solver.isValid = true
  | .mouse f, e => (e : EqualitySolver _ _).base.J = f.jacobian p s0 ∧
      KSolver.mk' c.sqrt 2 (effectiveMass p (f.jacobian p s0) (e : EqualitySolver _ _).base.damping) = .ok (e : EqualitySolver _ _).solver ∧
      (e : EqualitySolver _ _).solver.isValid = true
  | .inequality _ f, e => (e : InequalitySolver _ _).base.J = f.jacobian p s0 ∧
      (e : InequalitySolver _ _).effectiveMass = effectiveMass p (f.jacobian p s0) (e : InequalitySolver _ _).base.damping
  | .limits f, e => (e : LimitsSolver _).PreparedAt c.sqrt p f s0
  | .contact, e => (e : Contact _).PreparedAt p s0

/-- Starting a solve. -/
theorem Kind.started {c : CallCfg K} {p : Proxies K} {s0 : SolveState K} (k : Kind K) {e e' : k.State} {s' : SolveState K} (hr : k.Regular c p s0 e)
    (h : k.act c .initSolve p e s0 = .ok (e', s')) : k.Regular c p s0 e' ∧ k.Started c p s0 e' ∧ s' = s0 := by
  cases k with
  | equality d f =>
    obtain ⟨e1, h1, h⟩ := bind_ok_iff.1 h
    obtain ⟨rfl, rfl⟩ := Prod.mk.inj (Outcome.ok.inj h)
    obtain ⟨hJ, -, -, hda, -, hk, hv⟩ := EqualitySolver.initSolve_ok c.sqrt e _ _ f _ h1
    refine ⟨?_, ⟨hJ, ?_, hv⟩, rfl⟩
    · simp only [Kind.Regular] at hr ⊢
      rw [hda]; exact hr
    · rw [hda]; exact hk
  | mouse f =>
    obtain ⟨e1, h1, h⟩ := bind_ok_iff.1 h
    obtain ⟨rfl, rfl⟩ := Prod.mk.inj (Outcome.ok.inj h)
    obtain ⟨hJ, -, -, hda, -, hk, hv⟩ := EqualitySolver.initSolve_ok c.sqrt e _ _ f _ h1
    refine ⟨?_, ⟨hJ, ?_, hv⟩, rfl⟩
    · simp only [Kind.Regular] at hr ⊢
      rw [hda]; exact hr
    · rw [hda]; exact hk
  | inequality d f =>
    obtain ⟨rfl, rfl⟩ := Prod.mk.inj (Outcome.ok.inj h)
    exact ⟨hr, ⟨rfl, rfl⟩, rfl⟩
  | limits f =>
    obtain ⟨e1, h1, h⟩ := bind_ok_iff.1 h
    obtain ⟨rfl, rfl⟩ := Prod.mk.inj (Outcome.ok.inj h)
    obtain ⟨hJ, -, hL, hU, hF, hda, -, hE, hM⟩ := LimitsSolver.initSolve_ok c.sqrt e _ _ f _ h1
    refine ⟨?_, ⟨hJ, ?_, ?_, ?_⟩, rfl⟩
    · simp only [Kind.Regular] at hr ⊢
      rw [hda]; exact hr
    · rw [hF]; unfold LimitsSolver.nextFunc; rw [hL, hU]
    · rw [hda]; exact hE
    · rw [hda]; exact hM
  | contact =>
    obtain ⟨rfl, rfl⟩ := Prod.mk.inj (Outcome.ok.inj h)
    obtain ⟨hf, hi, hn, hsv, ht, hμ, hl⟩ := hr
    obtain ⟨k1, k2, k3, k4, -⟩ := Contact.initSolve_keeps e p s0
    set f := (e : Contact K).manifold.frame ![(s0.pos p.i0).toWorldSpace, (s0.pos p.i1).toWorldSpace] with hfd
    have hprep : Contact.prepared e p s0 = Contact.initSolve e p s0 := by
      show Contact.initSolve { (e : Contact K) with frame := f } p s0 = _
      rw [← hf]; rfl
    have hrd := prepared_ready e p s0
    rw [hprep, ← hfd] at hrd
    have hz : (Contact.initSolve e p s0).normalLambda = Mat.zero := rfl
    have hp : (Contact.initSolve e p s0).previousNormalLambda = (e : Contact K).normalLambda :=
      (computeKs_eq ((e : Contact K).computeJacobians p s0 true) p true).2.2.2.2.2.1
    refine ⟨⟨?_, hi, ?_, ?_, ?_, ?_, ?_⟩, ⟨?_, ?_, ?_, ?_⟩, rfl⟩
    · rw [k1, k2]; exact hf
    · rw [k1]; exact hn
    · rw [k1]; exact hsv
    · rw [k1]; exact ht
    · rw [k4]; exact hμ
    · intro i; rw [hz, at_zero]
    · rw [k1]; exact hrd
    · intro i hc
      rw [k1] at hc
      rw [k1, k3]
      have hbv := prepared_bounce e p s0 i hc
      rw [hprep, hrd.push_Jn s0 i hc] at hbv
      rw [hbv, requested]
      by_cases hu : f.separationSpeed p s0.pos s0.vel i ≤ -1
      · rw [if_pos hu, if_neg (not_lt.2 hu)]; ring
      · rw [if_neg hu, if_pos (not_le.1 hu)]; ring
    · intro i; rw [hz, at_zero]
    · intro i; rw [hp]; exact hl i

theorem LimitsSolver.preparedAt_of {sqrt : K → K} {p : Proxies K} {f : CFun K 1} {s0 : SolveState K} {e e' : LimitsSolver K} (h : e.PreparedAt sqrt p f s0)
    (hJ : e'.base.J = e.base.J) (hD : e'.base.damping = e.base.damping) (hF : e'.func = e.func) (hL : e'.L = e.L) (hU : e'.U = e.U)
    (hd : e'.data = e.data) : e'.PreparedAt sqrt p f s0 := by
  refine ⟨by rw [hJ, h.J], ?_, ?_, ?_⟩
  · rw [hF, h.func]; unfold LimitsSolver.nextFunc; rw [hL, hU]
  · rw [hF, hD, hd]; exact h.solver
  · rw [hF, hD, hd]; exact h.mass

/-- Warm starting and rounds of the velocity solver. -/
theorem Kind.started_act {c : CallCfg K} {p : Proxies K} {s0 : SolveState K} (k : Kind K) {e e' : k.State} {s s' : SolveState K}
    (hr : k.Regular c p s0 e) (hst : k.Started c p s0 e) (ph : Phase) (hph : ph = .warmstart ∨ ph = .solveVelocities)
    (h : k.act c ph p e s = .ok (e', s')) : k.Regular c p s0 e' ∧ k.Started c p s0 e' := by
  cases k with
  | equality d f =>
    rcases hph with rfl | rfl
    · cases Outcome.ok.inj h; exact ⟨hr, hst⟩
    · obtain ⟨x, -, h⟩ := bind_ok_iff.1 h
      cases Outcome.ok.inj h; exact ⟨hr, hst⟩
  | mouse f =>
    rcases hph with rfl | rfl
    · cases Outcome.ok.inj h; exact ⟨hr, hst⟩
    · obtain ⟨x, -, h⟩ := bind_ok_iff.1 h
      cases Outcome.ok.inj h; exact ⟨hr, hst⟩
  | inequality d f =>
    rcases hph with rfl | rfl
    · cases Outcome.ok.inj h; exact ⟨hr, hst⟩
    · obtain ⟨x, -, hx⟩ := Option.map_eq_some_iff.1 (returned_ok h)
      cases hx; exact ⟨hr, hst⟩
  | limits f =>
    suffices hkeep : (e' : LimitsSolver K).base.J = (e : LimitsSolver K).base.J ∧
        (e' : LimitsSolver K).base.damping = (e : LimitsSolver K).base.damping ∧ (e' : LimitsSolver K).func = (e : LimitsSolver K).func ∧
        (e' : LimitsSolver K).L = (e : LimitsSolver K).L ∧ (e' : LimitsSolver K).U = (e : LimitsSolver K).U ∧
        (e' : LimitsSolver K).data = (e : LimitsSolver K).data by
      obtain ⟨k1, k2, k3, k4, k5, k6⟩ := hkeep
      refine ⟨?_, LimitsSolver.preparedAt_of hst k1 k2 k3 k4 k5 k6⟩
      simp only [Kind.Regular] at hr ⊢
      rw [k2]; exact hr
    rcases hph with rfl | rfl
    · have ha : LimitsSolver.warmstart e p f c.dt s = (e', s') := Outcome.ok.inj h
      unfold LimitsSolver.warmstart at ha
      split at ha
      · split at ha
        · cases ha; exact ⟨rfl, rfl, rfl, rfl, rfl, rfl⟩
        · cases ha; exact ⟨rfl, rfl, rfl, rfl, rfl, rfl⟩
      · cases ha; exact ⟨rfl, rfl, rfl, rfl, rfl, rfl⟩
    · obtain ⟨o, ho, ha⟩ := bind_ok_iff.1 h
      obtain rfl := returned_ok ha
      unfold LimitsSolver.solveVelocity at ho
      obtain ⟨err, -, ho⟩ := bind_ok_iff.1 ho
      split at ho
      · obtain ⟨x, -, ho⟩ := bind_ok_iff.1 ho
        cases Option.some.inj (Outcome.ok.inj ho); exact ⟨rfl, rfl, rfl, rfl, rfl, rfl⟩
      · obtain ⟨x, -, ho⟩ := Option.map_eq_some_iff.1 (Outcome.ok.inj ho)
        cases ho; exact ⟨rfl, rfl, rfl, rfl, rfl, rfl⟩
      · obtain ⟨x, -, ho⟩ := Option.map_eq_some_iff.1 (Outcome.ok.inj ho)
        cases ho; exact ⟨rfl, rfl, rfl, rfl, rfl, rfl⟩
      · cases Option.some.inj (Outcome.ok.inj ho); exact ⟨rfl, rfl, rfl, rfl, rfl, rfl⟩
      · cases ho
  | contact =>
    obtain ⟨hf, hi, hn, hsv, ht, hμ, hl⟩ := hr
    obtain ⟨r, b, l1, l2⟩ := hst
    rcases hph with rfl | rfl
    · cases Outcome.ok.inj h
      exact ⟨⟨hf, hi, hn, hsv, ht, hμ, l2⟩, ⟨⟨r.frame, r.Jf, r.Jn, r.tangentK, r.one, r.two⟩, b, l2, l2⟩⟩
    · obtain ⟨l, v', hsn, he', -⟩ := Contact.solveVelocities_eq e p s h
      have hl' := solveNormal_nonneg e p _ hsn hl
      rw [he']
      exact ⟨⟨hf, hi, hn, hsv, ht, hμ, hl'⟩, ⟨⟨r.frame, r.Jf, r.Jn, r.tangentK, r.one, r.two⟩, b, hl', l2⟩⟩

/-- Whatever the class of the constraint: another velocity solve changes nothing if and only if its law holds. -/
theorem Kind.fixed_iff {c : CallCfg K} (hs : ∀ x, 0 ≤ x → c.sqrt x * c.sqrt x = x) (he : 0 ≤ c.epsilon) (hfuel : 1 ≤ c.fuel) {p : Proxies K}
    (hm : ∀ i, 0 ≤ p.invMassVec.at_ i) {s0 : SolveState K} (k : Kind K) {e : k.State} (hr : k.Regular c p s0 e) (hst : k.Started c p s0 e)
    (s : SolveState K) :
    (k.act c .solveVelocities p e s = .ok (e, s) ↔ k.Law c p s0 s e) ∧ ∀ s', k.act c .solveVelocities p e s = .ok (e, s') → s' = s := by
  cases k with
  | equality d f => exact EqualitySolver.fixed_iff hs hm hst.1 hst.2.1 hst.2.2 hr.1 hr.2.1 hr.2.2 s
  | mouse f =>
    refine EqualitySolver.fixed_iff hs hm hst.1 hst.2.1 hst.2.2 hr.1 ?_ (Or.inl hr.2) s
    exact ⟨fun _ x => x, fun r x y => by simp, fun l r => by rw [hr.2]⟩
  | inequality d f =>
    obtain ⟨h1, h2⟩ := InequalitySolver.fixed_iff he hfuel hst.1 hst.2 hr.2 hr.1 s
    refine ⟨⟨fun h => h1.1 (returned_ok h), fun h => ?_⟩, fun s' h => h2 s' (returned_ok h)⟩
    show returned _ = _
    rw [h1.2 h]; rfl
  | limits f =>
    obtain ⟨h1, h2⟩ := LimitsSolver.fixed_iff hs he hfuel hst hr.1 hr.2 s
    have key : ∀ s', (Kind.limits f).act c .solveVelocities p e s = .ok (e, s') → LimitsSolver.solveVelocity c.epsilon c.fuel e p f c.dt s = .ok (some (e, s')) := by
      intro s' h
      obtain ⟨o, ho, ha⟩ := bind_ok_iff.1 h
      rw [ho]; exact congrArg _ (returned_ok ha)
    refine ⟨⟨fun h => h1.1 (key s h), fun h => ?_⟩, fun s' h => h2 s' (key s' h)⟩
    show Outcome.bind _ _ = _
    rw [h1.2 h]; rfl
  | contact => exact Contact.fixed_iff hst hr.2.1 _ rfl hr.2.2.1 hr.2.2.2.1 hr.2.2.2.2.1 hr.2.2.2.2.2.1 s

/-! ### Islands -/

variable {L : Library K} {c : CallCfg K}

omit [IsStrictOrderedRing K] in
/-- One call in a round. -/
theorem actAll_library_cons {ph : Phase} {l : Link} {ls : List Link} {x y : St (Pose K) (Velocity K) ((l : Link) → (L.kind l).State) × Isl (Pose K) (Velocity K)}
    (h : actAll (L.net c) ph (l :: ls) x = .ok y) :
    ∃ ends e' s', x.1.proxies l = some ends ∧ (L.kind l).act c ph (L.proxies l ends) (x.1.s l) x.2.view = .ok (e', s') ∧
      actAll (L.net c) ph ls ({ x.1 with s := Function.update x.1.s l e' }, { x.2 with ps := fun i => Pose.of (s'.pos i), vs := s'.vel }) = .ok y := by
  obtain ⟨st, isl⟩ := x
  unfold actAll at h
  cases hp : st.proxies l with
  | none => simp [hp] at h
  | some ends =>
    obtain ⟨i0, i1⟩ := ends
    simp only [hp] at h
    obtain ⟨r, h1, h2⟩ := bind_ok_iff.1 h
    obtain ⟨r', h3, h4⟩ := bind_ok_iff.1 h1
    obtain ⟨e', s'⟩ := r'
    cases Outcome.ok.inj h4
    exact ⟨_, e', s', rfl, h3, h2⟩

omit [IsStrictOrderedRing K] in
theorem actAll_library_of {ph : Phase} {l : Link} {ls : List Link} {x : St (Pose K) (Velocity K) ((l : Link) → (L.kind l).State) × Isl (Pose K) (Velocity K)}
    {ends : Nat × Nat} {e' : (L.kind l).State} {s' : SolveState K} (hp : x.1.proxies l = some ends)
    (ha : (L.kind l).act c ph (L.proxies l ends) (x.1.s l) x.2.view = .ok (e', s')) :
    actAll (L.net c) ph (l :: ls) x =
      actAll (L.net c) ph ls ({ x.1 with s := Function.update x.1.s l e' }, { x.2 with ps := fun i => Pose.of (s'.pos i), vs := s'.vel }) := by
  obtain ⟨st, isl⟩ := x
  rw [actAll]
  simp only at hp ha
  simp only [hp]
  show Outcome.bind (Outcome.bind ((L.kind l).act c ph (L.proxies l ends) (st.s l) isl.view) _) _ = _
  rw [ha]
  rfl

omit [LinearOrder K] [IsStrictOrderedRing K] in
theorem view_back (isl : Isl (Pose K) (Velocity K)) : { isl with ps := fun i => Pose.of (isl.view.pos i), vs := isl.view.vel } = isl := by
  have : (fun i => Pose.of (isl.view.pos i)) = isl.ps := by
    funext i
    apply Subtype.ext
    show (Pose.of (isl.ps i).1).1 = _
    rw [Pose.of_eq (isl.ps i).2]
  rw [this]
  rfl

omit [IsStrictOrderedRing K] in
/-- A property kept by each call is kept by a round. -/
theorem actAll_keeps {ph : Phase} {R : (l : Link) → Proxies K → (L.kind l).State → Prop}
    (hR : ∀ l p e s e' s', R l p e → (L.kind l).act c ph p e s = .ok (e', s') → R l p e') :
    ∀ (ls : List Link) {x y : St (Pose K) (Velocity K) ((l : Link) → (L.kind l).State) × Isl (Pose K) (Velocity K)} (ms : List Link),
      AllLinks L x.1 ms R → actAll (L.net c) ph ls x = .ok y → AllLinks L y.1 ms R ∧ y.1.proxies = x.1.proxies
  | [], x, y, ms, hx, h => by cases Outcome.ok.inj h; exact ⟨hx, rfl⟩
  | l :: ls, x, y, ms, hx, h => by
    obtain ⟨ends, e', s', hp, ha, h⟩ := actAll_library_cons h
    refine (fun hyp => actAll_keeps hR ls ms hyp h) ?_
    intro m hm
    obtain ⟨ends', hp', hr⟩ := hx m hm
    refine ⟨ends', hp', ?_⟩
    by_cases hml : m = l
    · subst hml
      have : ends' = ends := by rw [hp] at hp'; exact (Option.some.inj hp').symm
      subst this
      simp only [Function.update_self]
      exact hR _ _ _ _ _ _ hr ha
    · simp only [Function.update_of_ne hml]
      exact hr

theorem actRounds_keeps {ph : Phase} {R : (l : Link) → Proxies K → (L.kind l).State → Prop}
    (hR : ∀ l p e s e' s', R l p e → (L.kind l).act c ph p e s = .ok (e', s') → R l p e') (ls ms : List Link) :
    ∀ (n : Nat) {x y : St (Pose K) (Velocity K) ((l : Link) → (L.kind l).State) × Isl (Pose K) (Velocity K)},
      AllLinks L x.1 ms R → actRounds (L.net c) ph ls n x = .ok y → AllLinks L y.1 ms R ∧ y.1.proxies = x.1.proxies
  | 0, x, y, hx, h => by cases Outcome.ok.inj h; exact ⟨hx, rfl⟩
  | n + 1, x, y, hx, h => by
    obtain ⟨z, h1, h2⟩ := bind_ok_iff.1 h
    obtain ⟨a, b⟩ := actAll_keeps hR ls ms hx h1
    obtain ⟨a', b'⟩ := actRounds_keeps hR ls ms n a h2
    exact ⟨a', b'.trans b⟩

/-- Started, in the sense of `Kind.started`. -/
def Library.Going (L : Library K) (c : CallCfg K) (s0 : SolveState K) (l : Link) (p : Proxies K) (e : (L.kind l).State) : Prop :=
  (L.kind l).Regular c p s0 e ∧ (L.kind l).Started c p s0 e

/-- Starting the solve of all constraints. -/
theorem actAll_started (s0 : SolveState K) :
    ∀ (ls : List Link) {x y : St (Pose K) (Velocity K) ((l : Link) → (L.kind l).State) × Isl (Pose K) (Velocity K)}, x.2.view = s0 →
      AllLinks L x.1 ls (fun l p e => (L.kind l).Regular c p s0 e) → actAll (L.net c) .initSolve ls x = .ok y →
      AllLinks L y.1 ls (L.Going c s0) ∧ y.2.view = s0 ∧ (∀ m, m ∉ ls → y.1.s m = x.1.s m) ∧ y.1.proxies = x.1.proxies
  | [], x, y, hv, hx, h => by cases Outcome.ok.inj h; exact ⟨fun _ h => (List.not_mem_nil h).elim, hv, fun _ _ => rfl, rfl⟩
  | l :: ls, x, y, hv, hx, h => by
    obtain ⟨ends, e', s', hp, ha, h⟩ := actAll_library_cons h
    obtain ⟨ends', hp', hr⟩ := hx l List.mem_cons_self
    have : ends' = ends := by rw [hp] at hp'; exact (Option.some.inj hp').symm
    subst this
    rw [hv] at ha
    obtain ⟨h1, h2, rfl⟩ := Kind.started _ hr ha
    rw [← hv, view_back] at h
    subst hv
    obtain ⟨a, b, d, e⟩ := actAll_started _ ls (x := ({ x.1 with s := Function.update x.1.s l e' }, x.2)) rfl (by
      intro m hm
      obtain ⟨en, q1, q2⟩ := hx m (List.mem_cons_of_mem _ hm)
      refine ⟨en, q1, ?_⟩
      by_cases hml : m = l
      · subst hml
        have : en = ends' := by rw [hp] at q1; exact (Option.some.inj q1).symm
        subst this
        simp only [Function.update_self]
        exact h1
      · simp only [Function.update_of_ne hml]
        exact q2) h
    refine ⟨?_, b, ?_, e⟩
    · intro m hm
      by_cases hml : m ∈ ls
      · exact a m hml
      · have : m = l := (List.mem_cons.1 hm).resolve_right hml
        subst this
        refine ⟨ends', by rw [e]; exact hp, ?_⟩
        rw [d m hml]
        simp only [Function.update_self]
        exact ⟨h1, h2⟩
    · intro m hm
      rw [List.mem_cons, not_or] at hm
      rw [d m hm.2]
      simp only [Function.update_of_ne hm.1]

/-- A round changes nothing if and only if all laws hold. -/
theorem actAll_fixed (hs : ∀ x, 0 ≤ x → c.sqrt x * c.sqrt x = x) (he : 0 ≤ c.epsilon) (hfuel : 1 ≤ c.fuel) (s0 : SolveState K) :
    ∀ (ls : List Link) (x : St (Pose K) (Velocity K) ((l : Link) → (L.kind l).State) × Isl (Pose K) (Velocity K)), ls.Nodup →
      AllLinks L x.1 ls (L.Going c s0) → (∀ l ∈ ls, (L.bodies l).masses.Nonneg) →
      ((∃ y, actAll (L.net c) .solveVelocities ls x = .ok y ∧ ∀ l ∈ ls, y.1.s l = x.1.s l) →
        AllLinks L x.1 ls (fun l p e => (L.kind l).Law c p s0 x.2.view e)) ∧
      (AllLinks L x.1 ls (fun l p e => (L.kind l).Law c p s0 x.2.view e) → actAll (L.net c) .solveVelocities ls x = .ok x)
  | [], x, _, _, _ => ⟨fun _ _ h => (List.not_mem_nil h).elim, fun _ => rfl⟩
  | l :: ls, x, hnd, hx, hm => by
    obtain ⟨hl, hnd⟩ := List.nodup_cons.1 hnd
    obtain ⟨ends, hp, hr, hst⟩ := hx l List.mem_cons_self
    obtain ⟨f1, f2⟩ := Kind.fixed_iff hs he hfuel (p := L.proxies l ends) ((hm l List.mem_cons_self).vec _ _) (L.kind l) hr hst x.2.view
    have hself : ∀ e', e' = x.1.s l → ({ x.1 with s := Function.update x.1.s l e' } : St (Pose K) (Velocity K) ((l : Link) → (L.kind l).State)) = x.1 := by
      intro e' h
      rw [h, Function.update_eq_self]
    obtain ⟨ih1, ih2⟩ := actAll_fixed hs he hfuel s0 ls x hnd (fun m h => hx m (List.mem_cons_of_mem _ h)) fun m h => hm m (List.mem_cons_of_mem _ h)
    constructor
    · rintro ⟨y, h, hy⟩
      obtain ⟨ends', e', s', hp', ha, h⟩ := actAll_library_cons h
      have : ends' = ends := by rw [hp] at hp'; exact (Option.some.inj hp').symm
      subst this
      -- later calls leave this constraint alone
      have hown : ∀ (ls : List Link) (x y : St (Pose K) (Velocity K) ((l : Link) → (L.kind l).State) × Isl (Pose K) (Velocity K)), l ∉ ls →
          actAll (L.net c) .solveVelocities ls x = .ok y → y.1.s l = x.1.s l := by
        intro ls
        induction ls with
        | nil => intro x y _ h; cases Outcome.ok.inj h; rfl
        | cons k ks ih =>
          intro x y hk h
          rw [List.mem_cons, not_or] at hk
          obtain ⟨_, e'', s'', -, -, h⟩ := actAll_library_cons h
          rw [ih _ _ hk.2 h]
          simp only [Function.update_of_ne hk.1]
      have he' : e' = x.1.s l := by
        have h1 := hown ls _ _ hl h
        simp only [Function.update_self] at h1
        rw [← h1, hy l List.mem_cons_self]
      rw [he'] at ha
      obtain rfl := f2 s' ha
      rw [hself e' he', view_back] at h
      have := ih1 ⟨y, h, fun m h => hy m (List.mem_cons_of_mem _ h)⟩
      intro m hmem
      rcases List.mem_cons.1 hmem with rfl | hmem
      · exact ⟨ends', hp, f1.1 ha⟩
      · exact this m hmem
    · intro hlaw
      obtain ⟨ends', hp', hlw⟩ := hlaw l List.mem_cons_self
      have : ends' = ends := by rw [hp] at hp'; exact (Option.some.inj hp').symm
      subst this
      rw [actAll_library_of hp (f1.2 hlw), hself _ rfl, view_back]
      exact ih2 fun m h => hlaw m (List.mem_cons_of_mem _ h)

/-- The calls of a round succeed if each call does. -/
theorem actAll_exists (hs : ∀ x, 0 ≤ x → c.sqrt x * c.sqrt x = x) (ph : Phase) :
    ∀ (ls : List Link) (x : St (Pose K) (Velocity K) ((l : Link) → (L.kind l).State) × Isl (Pose K) (Velocity K)),
      (∀ l ∈ ls, (L.bodies l).masses.Nonneg) →
      AllLinks L x.1 ls (fun l p e => (L.kind l).Firm p.masses e ∧ (ph ≠ .initSolve → (L.kind l).Ready e)) →
      ∃ y, actAll (L.net c) ph ls x = .ok y ∧ AllLinks L y.1 ls (fun l p e => (L.kind l).Firm p.masses e ∧ (L.kind l).Ready e) ∧
        (∀ m, m ∉ ls → y.1.s m = x.1.s m) ∧ y.1.proxies = x.1.proxies
  | [], x, _, hx => ⟨x, rfl, fun _ h => (List.not_mem_nil h).elim, fun _ _ => rfl, rfl⟩
  | l :: ls, x, hm, hx => by
    obtain ⟨ends, hp, hF, hR⟩ := hx l List.mem_cons_self
    obtain ⟨e', s', ha, f1, f2, -⟩ := Kind.act_sound hs (hm l List.mem_cons_self) (L.kind l) (x.1.s l) hF ph hR ends.1 ends.2 x.2.ps x.2.vs
    have hx' : AllLinks L { x.1 with s := Function.update x.1.s l e' } ls
        (fun l p e => (L.kind l).Firm p.masses e ∧ (ph ≠ .initSolve → (L.kind l).Ready e)) := by
      intro m hmem
      obtain ⟨en, q1, q2⟩ := hx m (List.mem_cons_of_mem _ hmem)
      refine ⟨en, q1, ?_⟩
      by_cases hml : m = l
      · subst hml
        simp only [Function.update_self]
        exact ⟨f1, fun _ => f2⟩
      · simp only [Function.update_of_ne hml]
        exact q2
    obtain ⟨y, a, b, d, e⟩ := actAll_exists hs ph ls
      ({ x.1 with s := Function.update x.1.s l e' }, { x.2 with ps := fun i => Pose.of (s'.pos i), vs := s'.vel })
      (fun m h => hm m (List.mem_cons_of_mem _ h)) hx'
    refine ⟨y, by rw [actAll_library_of hp ha]; exact a, ?_, ?_, e⟩
    · intro m hmem
      by_cases hml : m ∈ ls
      · exact b m hml
      · have : m = l := (List.mem_cons.1 hmem).resolve_right hml
        subst this
        refine ⟨ends, by rw [e]; exact hp, ?_⟩
        rw [d m hml]
        simp only [Function.update_self]
        exact ⟨f1, f2⟩
    · intro m hmem
      rw [List.mem_cons, not_or] at hmem
      rw [d m hmem.2]
      simp only [Function.update_of_ne hmem.1]

theorem actRounds_exists (hs : ∀ x, 0 ≤ x → c.sqrt x * c.sqrt x = x) (ph : Phase) (ls : List Link) (hm : ∀ l ∈ ls, (L.bodies l).masses.Nonneg) :
    ∀ (n : Nat) (x : St (Pose K) (Velocity K) ((l : Link) → (L.kind l).State) × Isl (Pose K) (Velocity K)),
      AllLinks L x.1 ls (fun l p e => (L.kind l).Firm p.masses e ∧ (L.kind l).Ready e) → ∃ y, actRounds (L.net c) ph ls n x = .ok y
  | 0, x, _ => ⟨x, rfl⟩
  | n + 1, x, hx => by
    obtain ⟨y, h1, h2, -⟩ := actAll_exists (c := c) hs ph ls x hm fun l h => by
      obtain ⟨en, a, b, d⟩ := hx l h
      exact ⟨en, a, b, fun _ => d⟩
    obtain ⟨z, h3⟩ := actRounds_exists hs ph ls hm n y h2
    exact ⟨z, by rw [actRounds, h1]; exact h3⟩

end Simu
