import Verif.Lemmas.ContractIsland
import Verif.Props.Unique
/-
C104: the velocity iterations of joints converge.
-/
namespace Simu
open Island Mat Contact

section
variable {K : Type*} [Field K] [LinearOrder K] [IsStrictOrderedRing K] [Trig K] {L : Library K} {c : CallCfg K} {ls : List Link} {M : Nat → K × K} {n m : Nat}
  {x0 y0 y : St (Pose K) (Velocity K) ((l : Link) → (L.kind l).State) × Isl (Pose K) (Velocity K)}

/-- An island of `n` bodies held by joints only, without dominance, and a state `y` it can settle at. -/
structure Island.Jointed (L : Library K) (c : CallCfg K) (ls : List Link) (M : Nat → K × K) (n : Nat)
    (x0 y0 y : St (Pose K) (Velocity K) ((l : Link) → (L.kind l).State) × Isl (Pose K) (Velocity K)) : Prop where
  posed : Posed L c ls x0
  masses : ∀ i < n, 0 ≤ (M i).1 ∧ 0 ≤ (M i).2
  own : OwnMasses L ls x0.1 M
  low : ∀ l ∈ ls, ∀ ends, x0.1.proxies l = some ends → ends.1 < n ∧ ends.2 < n
  joints : AllLinks L x0.1 ls fun l p e => (L.kind l).IsJoint c p x0.2.view ∧ (L.kind l).Plain p e
  alike : SameIsland L ls x0 y0
  settles : ∃ m, Reached L c ls m y0 y
  laws : Laws L c ls y0 y

theorem Island.Jointed.proxies (h : Jointed L c ls M n x0 y0 y) : ∃ P : Link → Proxies K, ∀ l ∈ ls, ∃ ends, x0.1.proxies l = some ends ∧ P l = L.proxies l ends := by
  have hex : ∀ l, ∃ p : Proxies K, l ∈ ls → ∃ ends, x0.1.proxies l = some ends ∧ p = L.proxies l ends := by
    intro l
    by_cases hl : l ∈ ls
    · obtain ⟨ends, q, -⟩ := h.joints l hl
      exact ⟨_, fun _ => ⟨ends, q, rfl⟩⟩
    · exact ⟨L.proxies l (0, 0), fun h' => (hl h').elim⟩
  choose P hP using hex
  exact ⟨P, hP⟩

theorem Kind.joint_regular {p : Proxies K} {s0 : SolveState K} (k : Kind K) {e e' : k.State} (hj : k.IsJoint c p s0) (hr : k.Regular c p s0 e) (same : k.Same e e') :
    k.Regular c p s0 e' := by
  cases k with
  | equality d f => exact ⟨by rw [same.1]; exact hr.1, hr.2.1, Or.inl hj.1⟩
  | mouse f => exact ⟨by rw [same.1]; exact hr.1, hj.1⟩
  | inequality d f => exact hj.elim
  | limits f => exact hj.elim
  | contact => exact hj.elim

theorem posed_alike (h : Jointed L c ls M n x0 y0 y) : Posed L c ls y0 := by
  refine ⟨h.posed.sqrt, h.posed.epsilon, h.posed.fuel, h.posed.nodup, h.posed.masses, fun l hl => ?_⟩
  obtain ⟨ends, q1, q2⟩ := h.posed.regular l hl
  obtain ⟨ends', q3, q4, -⟩ := h.joints l hl
  obtain rfl : ends = ends' := Option.some.inj (q1.symm.trans q3)
  refine ⟨ends, by rw [h.alike.proxies]; exact q1, ?_⟩
  rw [h.alike.bodies]
  exact Kind.joint_regular _ q4 q2 (h.alike.same l hl)

theorem Island.Jointed.comparable (h : Jointed L c ls M n x0 y0 y) {P : Link → Proxies K}
    (hP : ∀ l ∈ ls, ∃ ends, x0.1.proxies l = some ends ∧ P l = L.proxies l ends) : Comparable L c ls M n P x0 y := by
  obtain ⟨m, hm⟩ := h.settles
  have hp0 := posed_alike h
  have ty := hm.tallied hp0 (P := P) (fun l hl => by rw [h.alike.proxies]; exact hP l hl)
  have hps : y0.2.ps = x0.2.ps := funext fun i => Subtype.ext (congrFun (congrArg SolveState.pos h.alike.bodies) i)
  have hvs : y0.2.vs = x0.2.vs := congrArg SolveState.vel h.alike.bodies
  have gy := hm.going hp0
  refine ⟨h.posed.sqrt, hP, ?_, ?_, ?_, ?_, ?_, ?_, ?_⟩
  · intro l hl
    obtain ⟨ends, q1, q2⟩ := hP l hl
    rw [q2]; exact h.low l hl ends q1
  · intro l hl
    obtain ⟨ends, q1, q2⟩ := hP l hl
    rw [q2]; exact h.own l hl ends q1
  · intro l hl
    obtain ⟨ends, q1, q2⟩ := hP l hl
    obtain ⟨ends', q3, q4, -⟩ := h.joints l hl
    obtain rfl : ends = ends' := Option.some.inj (q1.symm.trans q3)
    rw [q2]; exact q4
  · intro l hl
    obtain ⟨ends, q1, q2⟩ := hP l hl
    obtain ⟨ends', q3, -, q4⟩ := h.joints l hl
    obtain rfl : ends = ends' := Option.some.inj (q1.symm.trans q3)
    rw [q2]; exact q4
  · exact ⟨ty.proxies.trans h.alike.proxies, ty.still.trans hps, fun l hl => (h.alike.same l hl).trans (ty.same l hl), ty.idle, fun i => by rw [← hvs]; exact ty.total i⟩
  · intro l hl
    obtain ⟨ends, q1, q2⟩ := hP l hl
    obtain ⟨ends', q3, -, q4⟩ := gy l hl
    rw [ty.proxies, h.alike.proxies] at q3
    obtain rfl : ends = ends' := Option.some.inj (q1.symm.trans q3)
    rw [q2, ← h.alike.bodies]; exact q4
  · intro l hl
    obtain ⟨ends, q1, q2⟩ := hP l hl
    obtain ⟨ends', q3, q4⟩ := h.laws l hl
    rw [ty.proxies, h.alike.proxies] at q3
    obtain rfl : ends = ends' := Option.some.inj (q1.symm.trans q3)
    rw [q2, ← h.alike.bodies]; exact q4

theorem Island.Jointed.underway (h : Jointed L c ls M n x0 y0 y) {P : Link → Proxies K}
    (hP : ∀ l ∈ ls, ∃ ends, x0.1.proxies l = some ends ∧ P l = L.proxies l ends) {k : Nat}
    {x : St (Pose K) (Velocity K) ((l : Link) → (L.kind l).State) × Isl (Pose K) (Velocity K)} (hx : Reached L c ls k x0 x) : Underway L c ls P x0 x := by
  have tx := hx.tallied h.posed (P := P) hP
  refine ⟨tx, fun l hl => ?_⟩
  obtain ⟨ends, q1, q2⟩ := hP l hl
  obtain ⟨ends', q3, q4⟩ := hx.going h.posed l hl
  rw [tx.proxies] at q3
  obtain rfl : ends = ends' := Option.some.inj (q1.symm.trans q3)
  rw [q2]; exact q4

theorem Island.Jointed.damp_nonneg (h : Jointed L c ls M n x0 y0 y) {l : Link} (hl : l ∈ ls) (r : Fin (L.kind l).rows) : 0 ≤ (L.kind l).damp (y.1.s l) r := by
  obtain ⟨P, hP⟩ := h.proxies
  have hc := h.comparable hP
  obtain ⟨m, hm⟩ := h.settles
  obtain ⟨ends, q1, q2⟩ := hP l hl
  obtain ⟨ends', q3, q4, -⟩ := hm.going (posed_alike h) l hl
  rw [hc.tallied.proxies] at q3
  obtain rfl : ends = ends' := Option.some.inj (q1.symm.trans q3)
  rw [h.alike.bodies] at q4
  exact Kind.joint_damp (e' := y.1.s l) _ (hc.joint l hl) (q2 ▸ q4) r

/-- C104: each velocity iteration brings the bodies nearer to where they settle, by a factor that is the same for all iterations and whatever the solvers remember. -/
theorem C104_contracts_partial (h : Jointed L c ls M n x0 y0 y) :
    ∃ ρ : K, 0 ≤ ρ ∧ ρ < 1 ∧ ∀ (k : Nat) (x x' : St (Pose K) (Velocity K) ((l : Link) → (L.kind l).State) × Isl (Pose K) (Velocity K)),
      Reached L c ls k x0 x → actAll (L.net c) .solveVelocities ls x = .ok x' → apart L M n ls x' y ≤ ρ * apart L M n ls x y := by
  obtain ⟨P, hP⟩ := h.proxies
  have hc := h.comparable hP
  have hm : ∀ i < n, ∀ q, 0 ≤ invMass3 M i q := by
    intro i hi q
    fin_cases q
    · exact (h.masses i hi).1
    · exact (h.masses i hi).1
    · exact (h.masses i hi).2
  have hD : ∀ (l : ls.toFinset) r, 0 ≤ (L.kind l).damp (y.1.s l) r := fun l r => h.damp_nonneg (List.mem_toFinset.1 l.2) r
  obtain ⟨ρ, h0, h1, h2⟩ := sweep_contracts (allMass_symm n (fun l : ls.toFinset => (P l).i0) (fun l => (P l).i1) (fun l => (L.kind l).jac (P l) x0.2.view)
    (invMass3 M) fun l => (L.kind l).damp (y.1.s l)) (allMass_nonneg n _ _ _ _ hm _ hD) (fun r => r.1.1) ls (fun r => List.mem_toFinset.1 r.1.2)
  refine ⟨ρ, h0, h1, fun k x x' hx hx' => ?_⟩
  have hu := h.underway hP hx
  obtain ⟨hu', hsw⟩ := round_sweep hc ls (fun _ h => h) hu hx'
  rw [← offsets_apart hc hu, ← offsets_apart hc hu']
  exact h2 _ _ hsw

theorem actRounds_snoc {P V : Type*} {S : Link → Type*} {N : Net P V ((l : Link) → S l)} {ph : Phase} {ks : List Link} :
    ∀ {k : Nat} {x z w : St P V ((l : Link) → S l) × Isl P V}, actRounds N ph ks k x = .ok z → actAll N ph ks z = .ok w → actRounds N ph ks (k + 1) x = .ok w
  | 0, x, z, w, h, h' => by cases Outcome.ok.inj h; rw [actRounds, h']; rfl
  | k + 1, x, z, w, h, h' => by
    obtain ⟨u, hu, h⟩ := bind_ok_iff.1 h
    rw [actRounds, hu]
    exact actRounds_snoc (k := k) h h'

/-- C104: after `k` iterations what is left of the distance is at most `ρ ^ k` of it. -/
theorem C104_rate_partial (h : Jointed L c ls M n x0 y0 y) :
    ∃ ρ : K, 0 ≤ ρ ∧ ρ < 1 ∧ ∀ (k : Nat) (x x' : St (Pose K) (Velocity K) ((l : Link) → (L.kind l).State) × Isl (Pose K) (Velocity K)),
      Reached L c ls 0 x0 x → actRounds (L.net c) .solveVelocities ls k x = .ok x' → apart L M n ls x' y ≤ ρ ^ k * apart L M n ls x y := by
  obtain ⟨ρ, h0, h1, h2⟩ := C104_contracts_partial h
  refine ⟨ρ, h0, h1, fun k x x' hx hx' => ?_⟩
  obtain ⟨x1, x2, r1, r2, r3⟩ := hx
  cases Outcome.ok.inj r3
  have key : ∀ (k j : Nat) (x : St (Pose K) (Velocity K) ((l : Link) → (L.kind l).State) × Isl (Pose K) (Velocity K)), Reached L c ls j x0 x →
      actRounds (L.net c) .solveVelocities ls k x = .ok x' → apart L M n ls x' y ≤ ρ ^ k * apart L M n ls x y := by
    intro k
    induction k with
    | zero => intro j x _ hx; cases Outcome.ok.inj hx; simp
    | succ k ih =>
      intro j x hx hr
      obtain ⟨z, hz, hr⟩ := bind_ok_iff.1 hr
      have hzR : Reached L c ls (j + 1) x0 z := by
        obtain ⟨a1, a2, q1, q2, q3⟩ := hx
        exact ⟨a1, a2, q1, q2, actRounds_snoc q3 hz⟩
      calc apart L M n ls x' y ≤ ρ ^ k * apart L M n ls z y := ih _ z hzR hr
        _ ≤ ρ ^ k * (ρ * apart L M n ls x y) := mul_le_mul_of_nonneg_left (h2 j x z hx hz) (pow_nonneg h0 k)
        _ = _ := by rw [pow_succ, mul_assoc]
  exact key k 0 _ ⟨x1, _, r1, r2, rfl⟩ hx'

/-- C104: the velocities are not further from settled than the energy of the difference allows; bodies that cannot be moved keep their velocities. -/
theorem C104_velocities_partial (h : Jointed L c ls M n x0 y0 y) {k : Nat}
    {x : St (Pose K) (Velocity K) ((l : Link) → (L.kind l).State) × Isl (Pose K) (Velocity K)} (hx : Reached L c ls k x0 x) :
    0 ≤ apart L M n ls x y ∧ ∀ i < n,
    ((x.2.vs i).linear.x - (y.2.vs i).linear.x) ^ 2 + ((x.2.vs i).linear.y - (y.2.vs i).linear.y) ^ 2 ≤ (M i).1 * apart L M n ls x y ∧
    ((x.2.vs i).angular - (y.2.vs i).angular) ^ 2 ≤ (M i).2 * apart L M n ls x y := by
  obtain ⟨P, hP⟩ := h.proxies
  have hc := h.comparable hP
  have hu := h.underway hP hx
  have hone : ∀ i < n, 0 ≤ Velocity.apart (M i) (x.2.vs i) (y.2.vs i) := fun i hi =>
    add_nonneg (div_nonneg (add_nonneg (mul_self_nonneg _) (mul_self_nonneg _)) (h.masses i hi).1) (div_nonneg (mul_self_nonneg _) (h.masses i hi).2)
  have hdamp : 0 ≤ ∑ l ∈ ls.toFinset, ∑ r, (L.kind l).damp (y.1.s l) r * (((L.kind l).mult (x.1.s l) r - (L.kind l).mult (y.1.s l) r) *
      ((L.kind l).mult (x.1.s l) r - (L.kind l).mult (y.1.s l) r)) := by
    refine Finset.sum_nonneg fun l hl => Finset.sum_nonneg fun r _ => mul_nonneg (h.damp_nonneg (List.mem_toFinset.1 hl) r) (mul_self_nonneg _)
  have hsum : 0 ≤ ∑ i ∈ Finset.range n, Velocity.apart (M i) (x.2.vs i) (y.2.vs i) := Finset.sum_nonneg fun i hi => hone i (Finset.mem_range.1 hi)
  refine ⟨add_nonneg hsum hdamp, fun i hi => ?_⟩
  have hle : Velocity.apart (M i) (x.2.vs i) (y.2.vs i) ≤ apart L M n ls x y :=
    (Finset.single_le_sum (f := fun i => Velocity.apart (M i) (x.2.vs i) (y.2.vs i)) (fun i hi => hone i (Finset.mem_range.1 hi)) (Finset.mem_range.2 hi)).trans
      (le_add_of_nonneg_right hdamp)
  have hv := offsets_velocity hc hu i
  obtain ⟨m0, m1⟩ := h.masses i hi
  have hx0 : (M i).1 = 0 → (x.2.vs i).linear.x - (y.2.vs i).linear.x = 0 := fun h0 => (hv 0).trans (by rw [show invMass3 M i 0 = (M i).1 from rfl, h0, zero_mul])
  have hy0 : (M i).1 = 0 → (x.2.vs i).linear.y - (y.2.vs i).linear.y = 0 := fun h0 => (hv 1).trans (by rw [show invMass3 M i 1 = (M i).1 from rfl, h0, zero_mul])
  have ha0 : (M i).2 = 0 → (x.2.vs i).angular - (y.2.vs i).angular = 0 := fun h0 => (hv 2).trans (by rw [show invMass3 M i 2 = (M i).2 from rfl, h0, zero_mul])
  rw [Velocity.apart] at hle
  constructor
  · rcases eq_or_lt_of_le m0 with h0 | h0
    · rw [hx0 h0.symm, hy0 h0.symm, ← h0]; simp
    · rw [mul_comm, ← div_le_iff₀ h0, sq, sq]
      exact (le_add_of_nonneg_right (div_nonneg (mul_self_nonneg _) m1)).trans hle
  · rcases eq_or_lt_of_le m1 with h0 | h0
    · rw [ha0 h0.symm, ← h0]; simp
    · rw [mul_comm, ← div_le_iff₀ h0, sq]
      exact (le_add_of_nonneg_left (div_nonneg (add_nonneg (mul_self_nonneg _) (mul_self_nonneg _)) m0)).trans hle

/-- C104: with enough iterations, the velocities of all bodies are as near to settled as one likes, whether the step is warm started or not. -/
theorem C104_converges_partial [Archimedean K] (h : Jointed L c ls M n x0 y0 y) {ε : K} (hε : 0 < ε) :
    ∃ N, ∀ k, N ≤ k → ∀ x, Reached L c ls k x0 x → ∀ i < n,
      ((x.2.vs i).linear.x - (y.2.vs i).linear.x) ^ 2 + ((x.2.vs i).linear.y - (y.2.vs i).linear.y) ^ 2 < ε ∧
      ((x.2.vs i).angular - (y.2.vs i).angular) ^ 2 < ε := by
  obtain ⟨ρ, h0, h1, h2⟩ := C104_rate_partial h
  -- the distance at the start
  have hS : ∃ S : K, 0 ≤ S ∧ ∀ x, Reached L c ls 0 x0 x → apart L M n ls x y ≤ S := by
    by_cases hi : ∃ x1, actAll (L.net c) .initSolve ls x0 = .ok x1
    · obtain ⟨x1, hx1⟩ := hi
      have n1 := (C104_velocities_partial h (k := 0) ⟨x1, x1, hx1, Or.inl rfl, rfl⟩).1
      by_cases hw : ∃ x2, actAll (L.net c) .warmstart ls x1 = .ok x2
      · obtain ⟨x2, hx2⟩ := hw
        have n2 := (C104_velocities_partial h (k := 0) ⟨x1, x2, hx1, Or.inr hx2, rfl⟩).1
        refine ⟨apart L M n ls x1 y + apart L M n ls x2 y, add_nonneg n1 n2, ?_⟩
        rintro x ⟨a, b, q1, q2, q3⟩
        cases Outcome.ok.inj q3
        cases Outcome.ok.inj (q1.symm.trans hx1)
        rcases q2 with rfl | q2
        · exact le_add_of_nonneg_right n2
        · cases Outcome.ok.inj (q2.symm.trans hx2)
          exact le_add_of_nonneg_left n1
      · refine ⟨apart L M n ls x1 y, n1, ?_⟩
        rintro x ⟨a, b, q1, q2, q3⟩
        cases Outcome.ok.inj q3
        cases Outcome.ok.inj (q1.symm.trans hx1)
        rcases q2 with rfl | q2
        · exact le_rfl
        · exact (hw ⟨_, q2⟩).elim
    · refine ⟨0, le_rfl, ?_⟩
      rintro x ⟨a, b, q1, -⟩
      exact (hi ⟨a, q1⟩).elim
  obtain ⟨S, hS0, hS⟩ := hS
  -- the largest inverse mass
  set Q : K := ∑ i ∈ Finset.range n, ((M i).1 + (M i).2) with hQ
  have hQ0 : ∀ i ∈ Finset.range n, 0 ≤ (M i).1 + (M i).2 := fun i hi => add_nonneg (h.masses i (Finset.mem_range.1 hi)).1 (h.masses i (Finset.mem_range.1 hi)).2
  have hQn : 0 ≤ Q := Finset.sum_nonneg hQ0
  have hB : 0 < Q * S + 1 := add_pos_of_nonneg_of_pos (mul_nonneg hQn hS0) one_pos
  obtain ⟨N, hN⟩ := exists_pow_lt_of_lt_one (div_pos hε hB) h1
  refine ⟨N, fun k hk x hx i hi => ?_⟩
  obtain ⟨n0, hv⟩ := C104_velocities_partial h hx
  obtain ⟨v1, v2⟩ := hv i hi
  obtain ⟨x1, x2, q1, q2, q3⟩ := hx
  have hstart : Reached L c ls 0 x0 x2 := ⟨x1, x2, q1, q2, rfl⟩
  have ha : apart L M n ls x y ≤ ρ ^ k * S := (h2 k x2 x hstart q3).trans (mul_le_mul_of_nonneg_left (hS x2 hstart) (pow_nonneg h0 k))
  have hpow : ρ ^ k * (Q * S + 1) < ε := by
    rw [← lt_div_iff₀ hB]
    exact (pow_le_pow_of_le_one h0 h1.le hk).trans_lt hN
  have hMQ : (M i).1 + (M i).2 ≤ Q := Finset.single_le_sum (f := fun i => (M i).1 + (M i).2) hQ0 (Finset.mem_range.2 hi)
  have hfin : Q * apart L M n ls x y < ε := by
    refine lt_of_le_of_lt ?_ hpow
    have hp := pow_nonneg h0 k
    calc Q * apart L M n ls x y ≤ Q * (ρ ^ k * S) := mul_le_mul_of_nonneg_left ha hQn
      _ = ρ ^ k * (Q * S) := by ring
      _ ≤ ρ ^ k * (Q * S + 1) := mul_le_mul_of_nonneg_left (le_add_of_nonneg_right zero_le_one) hp
  obtain ⟨m0, m1⟩ := h.masses i hi
  exact ⟨v1.trans_lt ((mul_le_mul_of_nonneg_right ((le_add_of_nonneg_right m1).trans hMQ) n0).trans_lt hfin),
    v2.trans_lt ((mul_le_mul_of_nonneg_right ((le_add_of_nonneg_left m0).trans hMQ) n0).trans_lt hfin)⟩

end

/-! ### Two bodies and two equations between their velocities -/
section

/-- `a` times the velocity of the first body to the right and `b` times that of the second one is zero. -/
noncomputable def linkFun (a b : ℝ) : CFun ℝ 1 := ⟨fun _ _ => Mat.zero, fun _ _ => Mat.zero, fun _ _ => ⟨![a, 0, 0, b, 0, 0]⟩, fun l _ => l, fun l => l⟩

/-- The first body is to be twice as fast as the second one, and the second one twice as fast as the first one. -/
noncomputable def linkLib (d0 d1 : Option (Vec2 ℝ)) : Library ℝ where
  kind := fun
    | .joint 0 => .equality 1 (linkFun 1 (-2))
    | .joint _ => .equality 1 (linkFun (-2) 1)
    | .contact _ => .contact
  bodies := fun
    | .joint 0 => Bodies.make gearBody 0 1 d0
    | _ => Bodies.make gearBody 0 1 d1
  joints := fun _ => [0, 1]
  contacts := fun _ => []

noncomputable def linkSolver (l : ℝ) : EqualitySolver ℝ 1 := ⟨{ SolverBase.init with lambda := Mat.ofFn fun _ => l }, ⟨false, fun _ => .throw⟩⟩

/-- The bodies rest; both solvers remember the impulse `l`. -/
noncomputable def linkState (d0 d1 : Option (Vec2 ℝ)) (l : ℝ) :
    St (Pose ℝ) (Velocity ℝ) ((l : Link) → ((linkLib d0 d1).kind l).State) × Isl (Pose ℝ) (Velocity ℝ) :=
  (⟨fun b => ⟨⟨(gearBody b).position, rfl, rfl⟩, 0, false, none⟩, fun _ => some (0, 1), fun
      | .joint 0 => linkSolver l
      | .joint (_ + 1) => linkSolver l
      | .contact _ => rodContact 0 0, [], []⟩,
   ⟨[0, 1], [0, 1], [], fun i => ⟨(gearBody i).position, rfl, rfl⟩, fun _ => 0, true⟩)

theorem link_regular (a b : ℝ) (p : Proxies ℝ) (s : SolveState ℝ) (l : ℝ) : (Kind.equality 1 (linkFun a b)).Regular libCfg p s (linkSolver l) :=
  ⟨fun r => le_of_eq (at_zero r).symm, ⟨fun _ x => x, fun _ z w => by simp, fun _ _ => rfl⟩, Or.inl fun _ => rfl⟩

theorem link_firm {a b : ℝ} {m : InvMasses ℝ} (h : m.m0 * a ≠ 0 ∨ m.m1 * b ≠ 0) (l : ℝ) : (Kind.equality 1 (linkFun a b)).Firm m (linkSolver l) := by
  refine ⟨fun i0 i1 s x hx => ext_at fun r => ?_, fun r => le_of_eq (at_zero r).symm⟩
  obtain ⟨v0, v1, v2, v3, v4, v5⟩ := invMassVec_at (⟨i0, i1, m⟩ : Proxies ℝ)
  have h0 := hx 0
  have h3 := hx 3
  have g0 : ((linkFun a b).jacobian ⟨i0, i1, m⟩ s).get 0 0 = a := rfl
  have g3 : ((linkFun a b).jacobian ⟨i0, i1, m⟩ s).get 0 3 = b := rfl
  simp only [pull, Fin.sum_univ_one, v0, v3, g0, g3, toV, ← mul_assoc] at h0 h3
  rw [Subsingleton.elim r 0, at_zero]
  rcases h with h | h
  · exact (mul_eq_zero.1 h0).resolve_left h
  · exact (mul_eq_zero.1 h3).resolve_left h

theorem EqualitySolver.initSolve_base {d : Nat} {sqrt : ℝ → ℝ} {p : Proxies ℝ} {f : CFun ℝ d} {s : SolveState ℝ} {e e' : EqualitySolver ℝ d}
    (h : e.initSolve sqrt p f s = .ok e') : e'.base = (e.base.initBase.computeEffectiveMass p s f true).1 := by
  obtain ⟨k, -, h⟩ := bind_ok_iff.1 h
  obtain ⟨-, -, h⟩ := bind_ok_iff.1 h
  cases Outcome.ok.inj h
  rfl

variable {d0 d1 : Option (Vec2 ℝ)} {m0 m1 : InvMasses ℝ}

theorem link_posed (h0 : ((linkLib d0 d1).bodies (.joint 0)).masses = m0) (h1 : ((linkLib d0 d1).bodies (.joint 1)).masses = m1) (n0 : m0.Nonneg) (n1 : m1.Nonneg)
    (l : ℝ) : Posed (linkLib d0 d1) libCfg [.joint 0, .joint 1] (linkState d0 d1 l) := by
  refine ⟨sqrt_lawful, by norm_num [libCfg], by decide, by decide, fun k hk => ?_, ?_⟩
  · simp only [List.mem_cons, List.not_mem_nil, or_false] at hk
    rcases hk with rfl | rfl
    · rw [h0]; exact n0
    · rw [h1]; exact n1
  · intro k hk
    simp only [List.mem_cons, List.not_mem_nil, or_false] at hk
    rcases hk with rfl | rfl
    · exact ⟨(0, 1), rfl, link_regular _ _ _ _ _⟩
    · exact ⟨(0, 1), rfl, link_regular _ _ _ _ _⟩

theorem link_joints (l : ℝ) : AllLinks (linkLib d0 d1) (linkState d0 d1 l).1 [.joint 0, .joint 1] fun k p e =>
    ((linkLib d0 d1).kind k).IsJoint libCfg p (linkState d0 d1 l).2.view ∧ ((linkLib d0 d1).kind k).Plain p e := by
  intro k hk
  simp only [List.mem_cons, List.not_mem_nil, or_false] at hk
  have hne : (0 : Nat) ≠ 1 := by decide
  rcases hk with rfl | rfl
  · exact ⟨(0, 1), rfl, ⟨fun _ => rfl, Or.inl hne⟩, fun s s' _ => ⟨rfl, rfl⟩⟩
  · exact ⟨(0, 1), rfl, ⟨fun _ => rfl, Or.inl hne⟩, fun s s' _ => ⟨rfl, rfl⟩⟩

/-- The calls before the iterations, and any number of iterations. -/
theorem link_runs (h0 : ((linkLib d0 d1).bodies (.joint 0)).masses = m0) (h1 : ((linkLib d0 d1).bodies (.joint 1)).masses = m1) (n0 : m0.Nonneg) (n1 : m1.Nonneg)
    (f0 : m0.m0 ≠ 0 ∨ m0.m1 ≠ 0) (f1 : m1.m0 ≠ 0 ∨ m1.m1 ≠ 0) (l : ℝ) :
    ∃ x1 x2, actAll ((linkLib d0 d1).net libCfg) .initSolve [.joint 0, .joint 1] (linkState d0 d1 l) = .ok x1 ∧
      actAll ((linkLib d0 d1).net libCfg) .warmstart [.joint 0, .joint 1] x1 = .ok x2 ∧
      ∀ k, ∃ x, actRounds ((linkLib d0 d1).net libCfg) .solveVelocities [.joint 0, .joint 1] k x2 = .ok x := by
  have hm : ∀ k ∈ ([.joint 0, .joint 1] : List Link), ((linkLib d0 d1).bodies k).masses.Nonneg := (link_posed h0 h1 n0 n1 l).masses
  obtain ⟨x1, a1, b1, -, -⟩ := actAll_exists (c := libCfg) sqrt_lawful .initSolve [.joint 0, .joint 1] (linkState d0 d1 l) hm (by
    intro k hk
    simp only [List.mem_cons, List.not_mem_nil, or_false] at hk
    rcases hk with rfl | rfl
    · refine ⟨(0, 1), rfl, ?_, fun h => (h rfl).elim⟩
      rw [Library.proxies, h0]
      exact link_firm (by rcases f0 with h | h; exact Or.inl (by simpa using h); exact Or.inr (by simpa using h)) l
    · refine ⟨(0, 1), rfl, ?_, fun h => (h rfl).elim⟩
      rw [Library.proxies, h1]
      exact link_firm (by rcases f1 with h | h; exact Or.inl (by simpa using h); exact Or.inr (by simpa using h)) l)
  obtain ⟨x2, a2, b2, -, -⟩ := actAll_exists (c := libCfg) sqrt_lawful .warmstart [.joint 0, .joint 1] x1 hm (by
    intro k hk
    obtain ⟨en, q1, q2, q3⟩ := b1 k hk
    exact ⟨en, q1, q2, fun _ => q3⟩)
  exact ⟨x1, x2, a1, a2, fun k => actRounds_exists sqrt_lawful .solveVelocities _ hm k x2 b2⟩

theorem link_warmed {f : CFun ℝ 1} {p p' : Proxies ℝ} {s s' t t' : SolveState ℝ} {l : ℝ} {e e' : EqualitySolver ℝ 1}
    (h : (Kind.equality 1 f).act libCfg .initSolve p (linkSolver l) s = .ok (e, s')) (hf : ∀ l dt, f.clampLambda l dt = l)
    (h' : (Kind.equality 1 f).act libCfg .warmstart p' e t = .ok (e', t')) :
    s' = s ∧ (Kind.equality 1 f).given e' = fun i => (f.jacobian p s).get 0 i * l := by
  obtain ⟨e1, h1, h⟩ := bind_ok_iff.1 h
  obtain ⟨rfl, rfl⟩ := Prod.mk.inj (Outcome.ok.inj h)
  obtain ⟨rfl, -⟩ := Prod.mk.inj (Outcome.ok.inj h')
  refine ⟨rfl, ?_⟩
  have hb := EqualitySolver.initSolve_base h1
  funext i
  show pull (e1.base.warmstartDefault p' f libCfg.dt t).1.J (e1.base.warmstartDefault p' f libCfg.dt t).1.lambda.at_ i = _
  rw [hb, pull, Fin.sum_univ_one]
  congr 1
  show (f.clampLambda ((Mat.zero : MVec ℝ 1).add (Mat.ofFn fun _ => l)) libCfg.dt).at_ 0 = l
  rw [hf, at_add, at_zero, at_ofFn, zero_add]

/-- After the warm start. -/
theorem link_velocities (h0 : ((linkLib d0 d1).bodies (.joint 0)).masses = m0) (h1 : ((linkLib d0 d1).bodies (.joint 1)).masses = m1) (n0 : m0.Nonneg) (n1 : m1.Nonneg)
    {l : ℝ} {x1 x2 : St (Pose ℝ) (Velocity ℝ) ((l : Link) → ((linkLib d0 d1).kind l).State) × Isl (Pose ℝ) (Velocity ℝ)}
    (hi : actAll ((linkLib d0 d1).net libCfg) .initSolve [.joint 0, .joint 1] (linkState d0 d1 l) = .ok x1)
    (hw : actAll ((linkLib d0 d1).net libCfg) .warmstart [.joint 0, .joint 1] x1 = .ok x2) :
    x1.2 = (linkState d0 d1 l).2 ∧ ∀ i, x2.2.vs i = kick ⟨0, 1, m0⟩ (fun i => ![1, 0, 0, -2, 0, 0] i * l) i + kick ⟨0, 1, m1⟩ (fun i => ![-2, 0, 0, 1, 0, 0] i * l) i := by
  have tx := Reached.tallied (link_posed h0 h1 n0 n1 l) (P := fun k => (linkLib d0 d1).proxies k (0, 1)) (fun k _ => ⟨(0, 1), rfl, rfl⟩)
    (⟨x1, x2, hi, Or.inr hw, rfl⟩ : Reached (linkLib d0 d1) libCfg [.joint 0, .joint 1] 0 (linkState d0 d1 l) x2)
  obtain ⟨en, e0, s0, hp0, ha0, hi⟩ := actAll_library_cons hi
  obtain ⟨en', e1, s1, hp1, ha1, hi⟩ := actAll_library_cons hi
  cases Outcome.ok.inj hi
  obtain ⟨en2, e2, s2, hp2, ha2, hw⟩ := actAll_library_cons hw
  obtain ⟨en3, e3, s3, hp3, ha3, hw⟩ := actAll_library_cons hw
  cases Outcome.ok.inj hw
  cases Option.some.inj hp0
  cases Option.some.inj hp1
  cases Option.some.inj hp2
  cases Option.some.inj hp3
  obtain ⟨rfl, g0⟩ := link_warmed (f := linkFun 1 (-2)) (e := e0) (e' := e2) ha0 (fun _ _ => rfl) ha2
  obtain ⟨rfl, g1⟩ := link_warmed (f := linkFun (-2) 1) (e := e1) (e' := e3) ha1 (fun _ _ => rfl) ha3
  refine ⟨by rw [view_back, view_back], fun i => ?_⟩
  have h := tx.total i
  rw [show ([Link.joint 0, Link.joint 1] : List Link).toFinset = {Link.joint 0, Link.joint 1} from rfl, Finset.sum_pair (by decide)] at h
  rw [h]
  have q0 : (linkLib d0 d1).proxies (.joint 0) (0, 1) = ⟨0, 1, m0⟩ := by rw [Library.proxies, h0]
  have q1 : (linkLib d0 d1).proxies (.joint 1) (0, 1) = ⟨0, 1, m1⟩ := by rw [Library.proxies, h1]
  have k0 : kick ((linkLib d0 d1).proxies (.joint 0) (0, 1)) ((Kind.equality 1 (linkFun 1 (-2))).given e2) i = kick ⟨0, 1, m0⟩ (fun i => ![1, 0, 0, -2, 0, 0] i * l) i := by
    rw [q0, g0]; rfl
  have k1 : kick ((linkLib d0 d1).proxies (.joint 1) (0, 1)) ((Kind.equality 1 (linkFun (-2) 1)).given e3) i = kick ⟨0, 1, m1⟩ (fun i => ![-2, 0, 0, 1, 0, 0] i * l) i := by
    rw [q1, g1]; rfl
  rw [← k0, ← k1, show (linkState d0 d1 l).2.vs i = 0 from rfl, zero_add]
  rfl

theorem link_error (a b : ℝ) (p : Proxies ℝ) (h0 : p.i0 = 0) (h1 : p.i1 = 1) (rest : MVec ℝ 1) (s0 s : SolveState ℝ) :
    rowError libCfg p (linkFun a b) rest s0 s 0 = a * (s.vel 0).linear.x + b * (s.vel 1).linear.x := by
  have g0 : ((linkFun a b).jacobian p s0).get 0 0 = a := rfl
  have g1 : ((linkFun a b).jacobian p s0).get 0 1 = 0 := rfl
  have g2 : ((linkFun a b).jacobian p s0).get 0 2 = 0 := rfl
  have g3 : ((linkFun a b).jacobian p s0).get 0 3 = b := rfl
  have g4 : ((linkFun a b).jacobian p s0).get 0 4 = 0 := rfl
  have g5 : ((linkFun a b).jacobian p s0).get 0 5 = 0 := rfl
  have v0 := (velocity_comp p s 0).1
  have v3 := (velocity_comp p s 0).2
  rw [h0] at v0
  rw [h1] at v3
  have hb : ((linkFun a b).bias p s).at_ 0 = 0 := at_zero 0
  have he : ((linkFun a b).eval p s).at_ 0 = 0 := at_zero 0
  rw [rowError, hb, he]
  simp only [push, Fin.sum_univ_six, g0, g1, g2, g3, g4, g5, zero_mul, add_zero, mul_zero, zero_div]
  exact congrArg₂ (fun x y => a * x + b * y) v0 v3

/-- Bodies at rest are settled. -/
theorem link_settled (h0 : ((linkLib d0 d1).bodies (.joint 0)).masses = m0) (h1 : ((linkLib d0 d1).bodies (.joint 1)).masses = m1) (n0 : m0.Nonneg) (n1 : m1.Nonneg)
    {l : ℝ} {x1 : St (Pose ℝ) (Velocity ℝ) ((l : Link) → ((linkLib d0 d1).kind l).State) × Isl (Pose ℝ) (Velocity ℝ)}
    (hi : actAll ((linkLib d0 d1).net libCfg) .initSolve [.joint 0, .joint 1] (linkState d0 d1 l) = .ok x1) (hx : x1.2 = (linkState d0 d1 l).2) :
    Laws (linkLib d0 d1) libCfg [.joint 0, .joint 1] (linkState d0 d1 l) x1 := by
  have tx := Reached.tallied (link_posed h0 h1 n0 n1 l) (P := fun k => (linkLib d0 d1).proxies k (0, 1)) (fun k _ => ⟨(0, 1), rfl, rfl⟩)
    (⟨x1, x1, hi, Or.inl rfl, rfl⟩ : Reached (linkLib d0 d1) libCfg [.joint 0, .joint 1] 0 (linkState d0 d1 l) x1)
  have hvel : ∀ i, x1.2.view.vel i = 0 := fun i => by rw [hx]; rfl
  have hne : (0 : Nat) ≠ 1 := by decide
  have law : ∀ (a b : ℝ) (p : Proxies ℝ) (e : EqualitySolver ℝ 1), p.i0 = 0 → p.i1 = 1 → e.base.damping = Mat.zero →
      (Kind.equality 1 (linkFun a b)).Law libCfg p (linkState d0 d1 l).2.view x1.2.view e := by
    intro a b p e hp0 hp1 hd
    have hj : (Kind.equality 1 (linkFun a b)).IsJoint libCfg p (linkState d0 d1 l).2.view := ⟨fun _ => rfl, Or.inl (by rw [hp0, hp1]; exact hne)⟩
    refine (Kind.joint_law _ hj _).2 fun r => ?_
    change Fin 1 at r
    show rowError libCfg p (linkFun a b) e.base.restitution _ _ r + e.base.damping.at_ r * e.base.lambda.at_ r = 0
    rw [Subsingleton.elim r (0 : Fin 1), link_error a b p hp0 hp1, hvel, hvel, hd, at_zero]
    show a * 0 + b * 0 + 0 * _ = (0 : ℝ)
    ring
  intro k hk
  refine ⟨(0, 1), by rw [tx.proxies]; rfl, ?_⟩
  have same := tx.same k hk
  simp only [List.mem_cons, List.not_mem_nil, or_false] at hk
  rcases hk with rfl | rfl
  · exact law 1 (-2) _ (x1.1.s (.joint 0)) rfl rfl same.1
  · exact law (-2) 1 _ (x1.1.s (.joint 1)) rfl rfl same.1

theorem link_free : ((linkLib none none).bodies (.joint 0)).masses = ⟨1, 1, 1, 1⟩ ∧ ((linkLib none none).bodies (.joint 1)).masses = ⟨1, 1, 1, 1⟩ := by
  constructor <;> simp [linkLib, Bodies.make, Body.invMass, Body.invInertia, Body.mass, Body.inertia, gearBody]

theorem link_dominant : ((linkLib (some ⟨1, 0⟩) (some ⟨0, 1⟩)).bodies (.joint 0)).masses = ⟨1, 1, 0, 0⟩ ∧
    ((linkLib (some ⟨1, 0⟩) (some ⟨0, 1⟩)).bodies (.joint 1)).masses = ⟨0, 0, 1, 1⟩ := by
  constructor <;> simp [linkLib, Bodies.make, Body.invMass, Body.invInertia, Body.mass, Body.inertia, gearBody]

/-- Case for `C104_contracts_partial`, `C104_rate_partial`, `C104_velocities_partial` and `C104_converges_partial`: two bodies of mass 1 at rest, joined by two equations, are set in motion by
the warm start; with enough iterations they are as slow as one likes. -/
example : ∃ x1 x2 : St (Pose ℝ) (Velocity ℝ) ((l : Link) → ((linkLib none none).kind l).State) × Isl (Pose ℝ) (Velocity ℝ),
    Jointed (linkLib none none) libCfg [.joint 0, .joint 1] (fun _ => (1, 1)) 2 (linkState none none 1) (linkState none none 1) x1 ∧
    Reached (linkLib none none) libCfg [.joint 0, .joint 1] 0 (linkState none none 1) x2 ∧ (x2.2.vs 0).linear.x = -1 ∧ (x1.2.vs 0).linear.x = 0 ∧
    (∀ k, ∃ x, actRounds ((linkLib none none).net libCfg) .solveVelocities [.joint 0, .joint 1] k x2 = .ok x) ∧
    ∀ ε > 0, ∃ N, ∀ x, actRounds ((linkLib none none).net libCfg) .solveVelocities [.joint 0, .joint 1] N x2 = .ok x → (x.2.vs 0).linear.x ^ 2 < ε := by
  have n1 : (⟨1, 1, 1, 1⟩ : InvMasses ℝ).Nonneg := by constructor <;> norm_num
  obtain ⟨x1, x2, a1, a2, a3⟩ := link_runs link_free.1 link_free.2 n1 n1 (Or.inl one_ne_zero) (Or.inl one_ne_zero) 1
  obtain ⟨b1, b2⟩ := link_velocities link_free.1 link_free.2 n1 n1 a1 a2
  have hJ : Jointed (linkLib none none) libCfg [.joint 0, .joint 1] (fun _ => (1, 1)) 2 (linkState none none 1) (linkState none none 1) x1 := by
    refine ⟨link_posed link_free.1 link_free.2 n1 n1 1, fun _ _ => ⟨zero_le_one, zero_le_one⟩, ?_, ?_, link_joints 1, ⟨rfl, rfl, ?_⟩, ⟨0, x1, x1, a1, Or.inl rfl, rfl⟩,
      link_settled link_free.1 link_free.2 n1 n1 a1 b1⟩
    · intro k hk ends _
      simp only [List.mem_cons, List.not_mem_nil, or_false] at hk
      rcases hk with rfl | rfl
      · exact link_free.1
      · exact link_free.2
    · intro k _ ends he
      cases Option.some.inj he
      exact ⟨by decide, by decide⟩
    · intro k hk
      simp only [List.mem_cons, List.not_mem_nil, or_false] at hk
      rcases hk with rfl | rfl
      · exact ⟨rfl, rfl⟩
      · exact ⟨rfl, rfl⟩
  have hv1 : (x1.2.vs 0).linear.x = 0 := by rw [b1]; rfl
  refine ⟨x1, x2, hJ, ⟨x1, x2, a1, Or.inr a2, rfl⟩, ?_, hv1, a3, fun ε hε => ?_⟩
  · rw [b2]; norm_num [kick]
  · obtain ⟨N, hN⟩ := C104_converges_partial hJ hε
    refine ⟨N, fun x hx => ?_⟩
    have h := (hN N le_rfl x ⟨x1, x2, a1, Or.inr a2, hx⟩ 0 (by decide)).1
    rw [hv1, sub_zero] at h
    exact lt_of_le_of_lt (le_add_of_nonneg_right (sq_nonneg _)) h

/-- C104, disagreement: with dominance the iterations can move the bodies ever further away from where they would settle. Each body dominates the other one in one
of two joints; all laws hold if the bodies rest, and each iteration makes them four times as fast. -/
theorem C104_dominance_disagreement :
    ∃ (L : Library ℝ) (x0 y : St (Pose ℝ) (Velocity ℝ) ((l : Link) → (L.kind l).State) × Isl (Pose ℝ) (Velocity ℝ)),
      Posed L libCfg [.joint 0, .joint 1] x0 ∧
      (AllLinks L x0.1 [.joint 0, .joint 1] fun l p e => (L.kind l).IsJoint libCfg p x0.2.view ∧ (L.kind l).Plain p e) ∧
      Reached L libCfg [.joint 0, .joint 1] 0 x0 y ∧ Laws L libCfg [.joint 0, .joint 1] x0 y ∧ (y.2.vs 1).linear.x = 0 ∧
      ∀ k, ∃ x, Reached L libCfg [.joint 0, .joint 1] k x0 x ∧ (x.2.vs 1).linear.x = 4 ^ k := by
  have n0 : (⟨1, 1, 0, 0⟩ : InvMasses ℝ).Nonneg := by constructor <;> norm_num
  have n1 : (⟨0, 0, 1, 1⟩ : InvMasses ℝ).Nonneg := by constructor <;> norm_num
  set L := linkLib (some ⟨1, 0⟩) (some ⟨0, 1⟩) with hL
  set x0 := linkState (some ⟨1, 0⟩) (some ⟨0, 1⟩) 1 with hx0
  obtain ⟨h0, h1⟩ := link_dominant
  obtain ⟨x1, x2, a1, a2, a3⟩ := link_runs h0 h1 n0 n1 (Or.inl one_ne_zero) (Or.inr one_ne_zero) 1
  obtain ⟨b1, b2⟩ := link_velocities h0 h1 n0 n1 a1 a2
  have hp := link_posed h0 h1 n0 n1 1
  have hj := link_joints (d0 := some ⟨1, 0⟩) (d1 := some ⟨0, 1⟩) 1
  refine ⟨L, x0, x1, hp, hj, ⟨x1, x1, a1, Or.inl rfl, rfl⟩, link_settled h0 h1 n0 n1 a1 b1, by rw [b1]; rfl, fun k => ?_⟩
  have hv2 : (x2.2.vs 1).linear.x = 1 := by
    have h3 : (![-2, 0, 0, 1, 0, 0] : Fin 6 → ℝ) 3 = 1 := rfl
    rw [b2]; norm_num [kick, h3]
  obtain ⟨x, hx⟩ := a3 k
  refine ⟨x, ⟨x1, x2, a1, Or.inr a2, hx⟩, ?_⟩
  -- one call
  have call : ∀ (a b : ℝ) (p : Proxies ℝ) (e e' : EqualitySolver ℝ 1) (s s' : SolveState ℝ), p.i0 = 0 → p.i1 = 1 → e.base.damping = Mat.zero →
      (Kind.equality 1 (linkFun a b)).Started libCfg p x0.2.view e → (Kind.equality 1 (linkFun a b)).act libCfg .solveVelocities p e s = .ok (e', s') →
      a * (s'.vel 0).linear.x + b * (s'.vel 1).linear.x = 0 ∧ (p.masses.m0 = 0 → (s'.vel 0).linear.x = (s.vel 0).linear.x) ∧
        (p.masses.m1 = 0 → (s'.vel 1).linear.x = (s.vel 1).linear.x) := by
    intro a b p e e' s s' hp0 hp1 hd hst ha
    have hne : p.i0 ≠ p.i1 := by rw [hp0, hp1]; decide
    have hj : (Kind.equality 1 (linkFun a b)).IsJoint libCfg p x0.2.view := ⟨fun _ => rfl, Or.inl hne⟩
    obtain ⟨t1, t2, t3⟩ := Kind.telescope _ .solveVelocities (Or.inr rfl) (fun h => by cases h) ha
    have hex := Kind.joint_solve sqrt_lawful _ hj hst (fun s s' _ => ⟨rfl, rfl⟩) t2 ha (0 : Fin 1)
    have hex : rowError libCfg p (linkFun a b) e'.base.restitution x0.2.view s' 0 + e'.base.damping.at_ 0 * e'.base.lambda.at_ 0 = 0 := hex
    have hd' : e'.base.damping = Mat.zero := (show e'.base.damping = e.base.damping from t1.1).trans hd
    rw [link_error a b p hp0 hp1, hd', at_zero, zero_mul, add_zero] at hex
    have hsub : ∀ v w : Velocity ℝ, v = ⟨⟨v.linear.x - w.linear.x, v.linear.y - w.linear.y⟩, v.angular - w.angular⟩ + w := by
      rintro ⟨⟨x, y⟩, o⟩ ⟨⟨x', y'⟩, o'⟩
      show (⟨⟨x, y⟩, o⟩ : Velocity ℝ) = ⟨⟨x - x' + x', y - y' + y'⟩, o - o' + o'⟩
      simp only [sub_add_cancel]
    have hv := t3 _ (fun i => hsub (s.vel i) (kick p ((Kind.equality 1 (linkFun a b)).given e) i))
    refine ⟨hex, fun hm => ?_, fun hm => ?_⟩
    · have h := congrArg (fun v : Velocity ℝ => v.linear.x) (hv 0)
      have hk : ∀ g : Six ℝ, (kick p g 0).linear.x = 0 := fun g => by simp [kick, hp0, hp1, hm]
      have h' : (s'.vel 0).linear.x = (s.vel 0).linear.x - (kick p _ 0).linear.x + (kick p _ 0).linear.x := h
      rw [hk, hk] at h'
      linarith
    · have h := congrArg (fun v : Velocity ℝ => v.linear.x) (hv 1)
      have hk : ∀ g : Six ℝ, (kick p g 1).linear.x = 0 := fun g => by simp [kick, hp0, hp1, hm]
      have h' : (s'.vel 1).linear.x = (s.vel 1).linear.x - (kick p _ 1).linear.x + (kick p _ 1).linear.x := h
      rw [hk, hk] at h'
      linarith
  have key : ∀ (k : Nat) (z : St (Pose ℝ) (Velocity ℝ) ((l : Link) → (L.kind l).State) × Isl (Pose ℝ) (Velocity ℝ)),
      Underway L libCfg [.joint 0, .joint 1] (fun k => L.proxies k (0, 1)) x0 z → actRounds (L.net libCfg) .solveVelocities [.joint 0, .joint 1] k z = .ok x →
      (x.2.vs 1).linear.x = 4 ^ k * (z.2.vs 1).linear.x := by
    intro k
    induction k with
    | zero => intro z _ hz; cases Outcome.ok.inj hz; simp
    | succ k ih =>
      intro z hu hz
      obtain ⟨w, hw, hz⟩ := bind_ok_iff.1 hz
      obtain ⟨en, e0, s0, hp0, ha0, hw⟩ := actAll_library_cons hw
      rw [hu.tallied.proxies] at hp0
      cases Option.some.inj hp0
      have hu' := hu.call (l := .joint 0) (by simp) ⟨fun _ => rfl, Or.inl (by decide)⟩ ha0
      obtain ⟨en, e1, s1, hp1, ha1, hw⟩ := actAll_library_cons hw
      rw [hu'.tallied.proxies] at hp1
      cases Option.some.inj hp1
      have hu'' := hu'.call (l := .joint 1) (by simp) ⟨fun _ => rfl, Or.inl (by decide)⟩ ha1
      cases Outcome.ok.inj hw
      rw [ih _ hu'' hz]
      obtain ⟨c1, -, c2⟩ := call 1 (-2) _ (z.1.s (.joint 0)) e0 z.2.view s0 rfl rfl (hu.tallied.same (.joint 0) (by simp)).1 (hu.started (.joint 0) (by simp)).2 ha0
      obtain ⟨c3, c4, -⟩ := call (-2) 1 _ (z.1.s (.joint 1)) e1 _ s1 rfl rfl (hu.tallied.same (.joint 1) (by simp)).1 (hu.started (.joint 1) (by simp)).2 ha1
      have c2 := c2 (by rw [Library.proxies, h0])
      have c4 := c4 (by rw [Library.proxies, h1])
      have c2 : (s0.vel 1).linear.x = (z.2.vs 1).linear.x := c2
      have c4 : (s1.vel 0).linear.x = (s0.vel 0).linear.x := c4
      show 4 ^ k * (s1.vel 1).linear.x = _
      rw [pow_succ]
      have : (s1.vel 1).linear.x = 4 * (z.2.vs 1).linear.x := by linarith
      rw [this]; ring
  have hR : Reached L libCfg [.joint 0, .joint 1] 0 x0 x2 := ⟨x1, x2, a1, Or.inr a2, rfl⟩
  have hu : Underway L libCfg [.joint 0, .joint 1] (fun k => L.proxies k (0, 1)) x0 x2 := by
    have tx := hR.tallied hp (P := fun k => L.proxies k (0, 1)) (fun k _ => ⟨(0, 1), rfl, rfl⟩)
    refine ⟨tx, fun l hl => ?_⟩
    obtain ⟨ends', q3, q4⟩ := hR.going hp l hl
    rw [tx.proxies] at q3
    cases Option.some.inj q3
    exact q4
  rw [key k x2 hu hx, hv2, mul_one]

end
end Simu
