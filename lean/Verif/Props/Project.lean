import Verif.Lemmas.ProjectIsland
import Verif.Props.Contract
/-
C105: the velocity iterations of an island with contacts, limits and motors converge.
-/
namespace Simu
open Island Mat Contact

section
variable {K : Type*} [Field K] [LinearOrder K] [IsStrictOrderedRing K] [Trig K] {L : Library K} {c : CallCfg K} {ls : List Link} {M : Nat → K × K} {n m : Nat}
  {x0 y0 y : St (Pose K) (Velocity K) ((l : Link) → (L.kind l).State) × Isl (Pose K) (Velocity K)}

/-- An island without friction and without dominance, and a state `y` at which it has settled; `y0` may remember other impulses of the last step than `x0`. -/
structure Island.Frictionless (L : Library K) (c : CallCfg K) (ls : List Link) (M : Nat → K × K) (n : Nat)
    (x0 y0 y : St (Pose K) (Velocity K) ((l : Link) → (L.kind l).State) × Isl (Pose K) (Velocity K)) : Prop where
  posed : Posed L c ls x0
  posed' : Posed L c ls y0
  masses : ∀ i < n, 0 ≤ (M i).1 ∧ 0 ≤ (M i).2
  own : OwnMasses L ls x0.1 M
  low : ∀ l ∈ ls, ∀ ends, x0.1.proxies l = some ends → ends.1 < n ∧ ends.2 < n
  tame : AllLinks L x0.1 ls fun l p e => (L.kind l).Tame p x0.2.view e ∧ (L.kind l).Plain p e
  alike : SameIsland L ls x0 y0
  settles : ∃ m, Reached L c ls m y0 y
  laws : Laws L c ls y0 y

theorem Island.Posed.proxies (h : Posed L c ls x0) : ∃ P : Link → Proxies K, ∀ l ∈ ls, ∃ ends, x0.1.proxies l = some ends ∧ P l = L.proxies l ends := by
  have hex : ∀ l, ∃ p : Proxies K, l ∈ ls → ∃ ends, x0.1.proxies l = some ends ∧ p = L.proxies l ends := by
    intro l
    by_cases hl : l ∈ ls
    · obtain ⟨ends, q, -⟩ := h.regular l hl
      exact ⟨_, fun _ => ⟨ends, q, rfl⟩⟩
    · exact ⟨L.proxies l (0, 0), fun h' => (hl h').elim⟩
  choose P hP using hex
  exact ⟨P, hP⟩

/-- A property of all constraints, in terms of their proxies. -/
theorem AllLinks.at {R : (l : Link) → Proxies K → (L.kind l).State → Prop} (h : AllLinks L x0.1 ls R) {P : Link → Proxies K}
    (hP : ∀ l ∈ ls, ∃ ends, x0.1.proxies l = some ends ∧ P l = L.proxies l ends) : ∀ l ∈ ls, R l (P l) (x0.1.s l) := by
  intro l hl
  obtain ⟨ends, q1, q2⟩ := hP l hl
  obtain ⟨ends', q3, q4⟩ := h l hl
  obtain rfl : ends = ends' := Option.some.inj (q1.symm.trans q3)
  rw [q2]; exact q4

theorem Island.Posed.setting (h : Posed L c ls x0) (ht : AllLinks L x0.1 ls fun l p e => (L.kind l).Tame p x0.2.view e ∧ (L.kind l).Plain p e) {P : Link → Proxies K}
    (hP : ∀ l ∈ ls, ∃ ends, x0.1.proxies l = some ends ∧ P l = L.proxies l ends) : Setting L c ls P x0 := by
  refine ⟨h.sqrt, hP, fun l hl => ?_, fun l hl hk => ?_, fun l hl => (ht.at hP l hl).2⟩
  · obtain ⟨ends, q1, q2⟩ := hP l hl
    rw [q2]
    exact (h.masses l hl).vec _ _
  · have q4 := h.regular.at hP l hl
    revert q4
    generalize x0.1.s l = e
    revert e
    rw [hk]
    intro e q4
    exact q4.2.1

theorem actAll_tame {ph : Phase} (hph : ph ≠ .solvePositions) {s0 : SolveState K} {ls ms : List Link}
    {x y : St (Pose K) (Velocity K) ((l : Link) → (L.kind l).State) × Isl (Pose K) (Velocity K)} (h : AllLinks L x.1 ms fun l p e => (L.kind l).Tame p s0 e)
    (ha : actAll (L.net c) ph ls x = .ok y) : AllLinks L y.1 ms fun l p e => (L.kind l).Tame p s0 e :=
  (actAll_keeps (R := fun l p e => (L.kind l).Tame p s0 e) (fun l p e s e' s' he ha => Kind.tame_act _ hph he ha) ls ms h ha).1

theorem Island.Reached.goes (h : Posed L c ls x0) (ht : AllLinks L x0.1 ls fun l p e => (L.kind l).Tame p x0.2.view e ∧ (L.kind l).Plain p e) {P : Link → Proxies K}
    (hP : ∀ l ∈ ls, ∃ ends, x0.1.proxies l = some ends ∧ P l = L.proxies l ends) {k : Nat}
    {x : St (Pose K) (Velocity K) ((l : Link) → (L.kind l).State) × Isl (Pose K) (Velocity K)} (hx : Reached L c ls k x0 x) : Going L c ls P x0 x := by
  have tx := hx.tallied h (P := P) hP
  have hP' : ∀ l ∈ ls, ∃ ends, x.1.proxies l = some ends ∧ P l = L.proxies l ends := by rw [tx.proxies]; exact hP
  refine ⟨tx, (hx.going h).at hP', AllLinks.at (R := fun l p e => (L.kind l).Tame p x0.2.view e) ?_ hP'⟩
  have h0 : AllLinks L x0.1 ls fun l p e => (L.kind l).Tame p x0.2.view e := fun l hl => by
    obtain ⟨ends, q1, q2, -⟩ := ht l hl
    exact ⟨ends, q1, q2⟩
  obtain ⟨x1, x2, h1, h2, h3⟩ := hx
  have t1 := actAll_tame (by decide) h0 h1
  have t2 : AllLinks L x2.1 ls fun l p e => (L.kind l).Tame p x0.2.view e := by
    rcases h2 with rfl | h2
    · exact t1
    · exact actAll_tame (by decide) t1 h2
  exact (actRounds_keeps (R := fun l p e => (L.kind l).Tame p x0.2.view e) (fun l p e s e' s' he ha => Kind.tame_act _ (by decide) he ha) ls ls k t2 h3).1

theorem Island.Frictionless.comparing (h : Frictionless L c ls M n x0 y0 y) {P : Link → Proxies K}
    (hP : ∀ l ∈ ls, ∃ ends, x0.1.proxies l = some ends ∧ P l = L.proxies l ends) : Comparing L c ls M n P x0 y := by
  obtain ⟨m, hm⟩ := h.settles
  have hP0 : ∀ l ∈ ls, ∃ ends, y0.1.proxies l = some ends ∧ P l = L.proxies l ends := by rw [h.alike.proxies]; exact hP
  have ty := hm.tallied h.posed' (P := P) hP0
  have hP' : ∀ l ∈ ls, ∃ ends, y.1.proxies l = some ends ∧ P l = L.proxies l ends := by rw [ty.proxies]; exact hP0
  have hps : y0.2.ps = x0.2.ps := funext fun i => Subtype.ext (congrFun (congrArg SolveState.pos h.alike.bodies) i)
  have hvs : y0.2.vs = x0.2.vs := congrArg SolveState.vel h.alike.bodies
  have gy := (hm.going h.posed').at hP'
  refine ⟨h.posed.setting h.tame hP, ?_, ?_, ?_, fun l hl => ?_, fun l hl => ?_, fun l hl => ?_⟩
  · intro l hl
    obtain ⟨ends, q1, q2⟩ := hP l hl
    rw [q2]; exact h.low l hl ends q1
  · intro l hl
    obtain ⟨ends, q1, q2⟩ := hP l hl
    rw [q2]; exact h.own l hl ends q1
  · exact ⟨ty.proxies.trans h.alike.proxies, ty.still.trans hps, fun l hl => (h.alike.same l hl).trans (ty.same l hl), ty.idle, fun i => by rw [← hvs]; exact ty.total i⟩
  · rw [← h.alike.bodies]; exact (gy l hl).1
  · rw [← h.alike.bodies]; exact (gy l hl).2
  · rw [← h.alike.bodies]; exact AllLinks.at (R := fun l p e => (L.kind l).Law c p y0.2.view y.2.view e) h.laws hP' l hl

theorem actAll_append {ph : Phase} {l : Link} :
    ∀ (ks : List Link) {x w : St (Pose K) (Velocity K) ((l : Link) → (L.kind l).State) × Isl (Pose K) (Velocity K)}, actAll (L.net c) ph (ks ++ [l]) x = .ok w →
      ∃ z, actAll (L.net c) ph ks x = .ok z ∧ actAll (L.net c) ph [l] z = .ok w
  | [], x, w, h => ⟨x, rfl, h⟩
  | k :: ks, x, w, h => by
    obtain ⟨ends, e', s', hp, ha, h⟩ := actAll_library_cons (l := k) (ls := ks ++ [l]) h
    obtain ⟨z, h1, h2⟩ := actAll_append ks h
    exact ⟨z, by rw [actAll_library_of hp ha]; exact h1, h2⟩

theorem actRounds_last {ph : Phase} {ks : List Link} :
    ∀ {k : Nat} {x w : St (Pose K) (Velocity K) ((l : Link) → (L.kind l).State) × Isl (Pose K) (Velocity K)}, actRounds (L.net c) ph ks (k + 1) x = .ok w →
      ∃ z, actRounds (L.net c) ph ks k x = .ok z ∧ actAll (L.net c) ph ks z = .ok w
  | 0, x, w, h => by
    obtain ⟨u, hu, h⟩ := bind_ok_iff.1 h
    cases Outcome.ok.inj h
    exact ⟨x, rfl, hu⟩
  | k + 1, x, w, h => by
    obtain ⟨u, hu, h⟩ := bind_ok_iff.1 h
    obtain ⟨z, h1, h2⟩ := actRounds_last h
    exact ⟨z, by rw [actRounds, hu]; exact h1, h2⟩

/-- C105: whatever else acts on the bodies, the constraint that was solved last is satisfied exactly, after any number of iterations, whether the step is warm started or not;
bodies may be dominated here. -/
theorem C105_last {l : Link} (h : Posed L c (ls ++ [l]) x0)
    (ht : AllLinks L x0.1 (ls ++ [l]) fun l p e => (L.kind l).Tame p x0.2.view e ∧ (L.kind l).Plain p e) {k : Nat}
    {x : St (Pose K) (Velocity K) ((l : Link) → (L.kind l).State) × Isl (Pose K) (Velocity K)} (hx : Reached L c (ls ++ [l]) (k + 1) x0 x) :
    ∃ ends, x0.1.proxies l = some ends ∧ (L.kind l).Law c (L.proxies l ends) x0.2.view x.2.view (x.1.s l) := by
  obtain ⟨P, hP⟩ := h.proxies
  have hc := h.setting ht hP
  obtain ⟨x1, x2, h1, h2, h3⟩ := hx
  obtain ⟨z, h3, h4⟩ := actRounds_last h3
  have hz : Going L c (ls ++ [l]) P x0 z := Reached.goes h ht hP ⟨x1, x2, h1, h2, h3⟩
  obtain ⟨u, h5, h6⟩ := actAll_append ls h4
  obtain ⟨hu, -⟩ := round_done hc ls (fun m hm => List.mem_append_left _ hm) hz h5
  obtain ⟨ends, e', s', hp, ha, h6⟩ := actAll_library_cons h6
  cases Outcome.ok.inj h6
  have hl : l ∈ ls ++ [l] := by simp
  obtain ⟨ends', q1, q2⟩ := hP l hl
  obtain rfl : ends' = ends := by rw [hu.tallied.proxies, q1] at hp; exact Option.some.inj hp
  rw [← q2] at ha
  obtain ⟨-, g2, -⟩ := hu.call hc.sqrt hl (hc.nonneg l hl) (hc.distinct l hl) (hc.plain l hl) ha rfl
  exact ⟨ends', q1, q2 ▸ g2⟩

/-- The states after each iteration. -/
theorem actRounds_states {ks : List Link} :
    ∀ {k : Nat} {z w : St (Pose K) (Velocity K) ((l : Link) → (L.kind l).State) × Isl (Pose K) (Velocity K)}, actRounds (L.net c) .solveVelocities ks k z = .ok w →
      ∃ f : Nat → St (Pose K) (Velocity K) ((l : Link) → (L.kind l).State) × Isl (Pose K) (Velocity K), f 0 = z ∧ f k = w ∧
        ∀ j < k, actAll (L.net c) .solveVelocities ks (f j) = .ok (f (j + 1))
  | 0, z, w, h => by cases Outcome.ok.inj h; exact ⟨fun _ => z, rfl, rfl, fun j hj => absurd hj (by omega)⟩
  | k + 1, z, w, h => by
    obtain ⟨u, hu, h⟩ := bind_ok_iff.1 h
    obtain ⟨f, f0, f1, f2⟩ := actRounds_states h
    refine ⟨fun j => if j = 0 then z else f (j - 1), by simp, by simpa using f1, fun j hj => ?_⟩
    by_cases h0 : j = 0
    · subst h0
      simp only [if_true, Nat.add_sub_cancel, if_neg (Nat.succ_ne_zero 0)]
      rw [f0]; exact hu
    · simp only [if_neg h0, if_neg (Nat.succ_ne_zero j), Nat.add_sub_cancel]
      have := f2 (j - 1) (by omega)
      rwa [Nat.sub_add_cancel (Nat.one_le_iff_ne_zero.2 h0)] at this

/-- C105: with enough iterations, the velocities of all bodies are as near as one likes to those of the settled state, whether the step is warm started or not. -/
theorem C105_converges [Archimedean K] (h : Frictionless L c ls M n x0 y0 y) {ε : K} (hε : 0 < ε) :
    ∃ N, ∀ k, N ≤ k → ∀ x, Reached L c ls k x0 x → ∀ i,
      ((x.2.vs i).linear.x - (y.2.vs i).linear.x) ^ 2 < ε ∧ ((x.2.vs i).linear.y - (y.2.vs i).linear.y) ^ 2 < ε ∧
      ((x.2.vs i).angular - (y.2.vs i).angular) ^ 2 < ε := by
  obtain ⟨P, hP⟩ := h.posed.proxies
  have hc := h.comparing hP
  have hm : ∀ i < n, ∀ q, 0 ≤ invMass3 M i q := by
    intro i hi q
    fin_cases q
    · exact (h.masses i hi).1
    · exact (h.masses i hi).1
    · exact (h.masses i hi).2
  set A := rowsMass L ls M n P x0 y with hA
  set w := slack L c ls P x0 y with hw
  set val : St (Pose K) (Velocity K) ((l : Link) → (L.kind l).State) × Isl (Pose K) (Velocity K) → K :=
    fun z => blocks A (fun r => r.1.1) ls (gaps L ls y z) + gap A w (gaps L ls y z) with hval
  -- the energy after the first iteration
  have one : ∀ F : St (Pose K) (Velocity K) ((l : Link) → (L.kind l).State) × Isl (Pose K) (Velocity K) → Prop, (∀ a b, F a → F b → a = b) → ∃ B, ∀ a, F a → val a ≤ B := by
    intro F hF
    by_cases he : ∃ a, F a
    · obtain ⟨a, ha⟩ := he
      exact ⟨val a, fun b hb => by rw [hF a b ha hb]⟩
    · exact ⟨0, fun a ha => (he ⟨a, ha⟩).elim⟩
  obtain ⟨B0, hB0⟩ := one (fun z => ∃ x1, actAll (L.net c) .initSolve ls x0 = .ok x1 ∧ actAll (L.net c) .solveVelocities ls x1 = .ok z) (by
    rintro a b ⟨x1, p1, p2⟩ ⟨x1', q1, q2⟩
    cases Outcome.ok.inj (p1.symm.trans q1)
    exact Outcome.ok.inj (p2.symm.trans q2))
  obtain ⟨B1, hB1⟩ := one (fun z => ∃ x1 x2, actAll (L.net c) .initSolve ls x0 = .ok x1 ∧ actAll (L.net c) .warmstart ls x1 = .ok x2 ∧
      actAll (L.net c) .solveVelocities ls x2 = .ok z) (by
    rintro a b ⟨x1, x2, p1, p2, p3⟩ ⟨x1', x2', q1, q2, q3⟩
    cases Outcome.ok.inj (p1.symm.trans q1)
    cases Outcome.ok.inj (p2.symm.trans q2)
    exact Outcome.ok.inj (p3.symm.trans q3))
  -- the largest inverse mass
  set Q : K := ∑ i ∈ Finset.range n, ((M i).1 + (M i).2) with hQ
  have hQ0 : ∀ i ∈ Finset.range n, 0 ≤ (M i).1 + (M i).2 := fun i hi => add_nonneg (h.masses i (Finset.mem_range.1 hi)).1 (h.masses i (Finset.mem_range.1 hi)).2
  have hQn : 0 ≤ Q := Finset.sum_nonneg hQ0
  have hQ1 : 0 < Q + 1 := by linarith
  obtain ⟨N, hN⟩ := psweeps_converge (allMass_symm n _ _ _ _ _ : A.transpose = A) (rowsMass_nonneg hc hm) (w := w) (fun r => r.1.1) h.posed.nodup
    (fun r => List.mem_toFinset.1 r.1.2) (max B0 B1) (div_pos hε hQ1)
  refine ⟨N + 1, fun k hk x hx => ?_⟩
  obtain ⟨k, rfl⟩ : ∃ j, k = j + 1 := ⟨k - 1, by omega⟩
  have hgo := Reached.goes h.posed h.tame hP hx
  obtain ⟨x1, x2, r1, r2, r3⟩ := hx
  obtain ⟨z, hz, r3⟩ := bind_ok_iff.1 r3
  have hx2 : Going L c ls P x0 x2 := Reached.goes h.posed h.tame hP (k := 0) ⟨x1, x2, r1, r2, rfl⟩
  obtain ⟨g1, g2⟩ := round_done hc.toSetting ls (fun _ h => h) hx2 hz
  obtain ⟨f, f0, fk, fs⟩ := actRounds_states r3
  have hstate : ∀ j, j ≤ k → Going L c ls P x0 (f j) ∧ ∀ l ∈ ls, Done L c P x0 (f j) l := by
    intro j
    induction j with
    | zero => intro _; rw [f0]; exact ⟨g1, fun l hl => g2 l (Or.inr hl)⟩
    | succ j ih =>
      intro hj
      obtain ⟨i1, i2⟩ := ih (by omega)
      obtain ⟨a1, a2⟩ := round_done hc.toSetting ls (fun _ h => h) i1 (fs j (by omega))
      exact ⟨a1, fun l hl => a2 l (Or.inr hl)⟩
  have hstart : val z ≤ max B0 B1 := by
    rcases r2 with rfl | r2
    · exact (hB0 z ⟨_, r1, hz⟩).trans (le_max_left _ _)
    · exact (hB1 z ⟨_, _, r1, r2, hz⟩).trans (le_max_right _ _)
  have hgap := hN k (by omega) (fun j => gaps L ls y (f j)) (by simp only [f0]; exact hstart)
    (fun j hj r => gaps_feasible hc (hstate j hj).1 (hstate j hj).2 r)
    (fun j hj => round_psweep hc ls (fun _ h => h) (hstate j hj.le).1 (hstate j hj.le).2 (fs j hj))
  simp only [fk] at hgap
  have hd := (hstate k le_rfl).2
  rw [fk] at hd
  have hquad : quad A (gaps L ls y x) < ε / (Q + 1) := lt_of_le_of_lt (quad_le_gap A fun r => gaps_feasible hc hgo hd r) hgap
  have hq0 : 0 ≤ quad A (gaps L ls y x) := rowsMass_nonneg hc hm _
  have key : ∀ i q, ((x.2.vs i).comp q - (y.2.vs i).comp q) ^ 2 < ε := by
    intro i q
    obtain ⟨b1, b2⟩ := gaps_bound hc hm hgo hd i q
    by_cases hi : i < n
    · have hMQ : (M i).1 + (M i).2 ≤ Q := Finset.single_le_sum (f := fun i => (M i).1 + (M i).2) hQ0 (Finset.mem_range.2 hi)
      have hle : invMass3 M i q ≤ Q := by
        obtain ⟨m0, m1⟩ := h.masses i hi
        fin_cases q
        · exact (le_add_of_nonneg_right m1).trans hMQ
        · exact (le_add_of_nonneg_right m1).trans hMQ
        · exact (le_add_of_nonneg_left m0).trans hMQ
      calc ((x.2.vs i).comp q - (y.2.vs i).comp q) ^ 2 ≤ invMass3 M i q * quad A (gaps L ls y x) := b1 hi
        _ ≤ (Q + 1) * quad A (gaps L ls y x) := mul_le_mul_of_nonneg_right (by linarith) hq0
        _ < (Q + 1) * (ε / (Q + 1)) := mul_lt_mul_of_pos_left hquad hQ1
        _ = ε := mul_div_cancel₀ ε hQ1.ne'
    · rw [b2 (not_lt.1 hi), sub_self]
      simpa using hε
  intro i
  exact ⟨key i 0, key i 1, key i 2⟩

end

/-! ### Two bodies that are pushed by two inequalities -/
section

noncomputable def pushLib : Library ℝ where
  kind := fun
    | .joint 0 => .inequality 1 (gearFun 1 (-2))
    | .joint _ => .inequality 1 (gearFun (-2) 1)
    | .contact _ => .contact
  bodies := fun _ => Bodies.make gearBody 0 1 none
  joints := fun _ => [0, 1]
  contacts := fun _ => []

theorem push_masses (l : Link) : (pushLib.bodies l).masses = ⟨1, 1, 1, 1⟩ := by
  simp [pushLib, Bodies.make, Body.invMass, Body.invInertia, Body.mass, Body.inertia, gearBody]

/-- The bodies rest; both solvers remember the impulse `l`. -/
noncomputable def pushState (l : ℝ) : St (Pose ℝ) (Velocity ℝ) ((l : Link) → (pushLib.kind l).State) × Isl (Pose ℝ) (Velocity ℝ) :=
  (⟨fun b => ⟨⟨(gearBody b).position, rfl, rfl⟩, 0, false, none⟩, fun _ => some (0, 1), fun
      | .joint 0 => gearSolver l
      | .joint (_ + 1) => gearSolver l
      | .contact _ => rodContact 0 0, [], []⟩,
   ⟨[0, 1], [0, 1], [], fun i => ⟨(gearBody i).position, rfl, rfl⟩, fun _ => 0, true⟩)

theorem push_proxies (l : Link) : pushLib.proxies l (0, 1) = ⟨0, 1, ⟨1, 1, 1, 1⟩⟩ := by rw [Library.proxies, push_masses]

theorem push_posed (l : ℝ) : Posed pushLib libCfg [.joint 0, .joint 1] (pushState l) := by
  refine ⟨sqrt_lawful, by norm_num [libCfg], by decide, by decide, fun k _ => ?_, ?_⟩
  · rw [push_masses]; constructor <;> norm_num
  · intro k hk
    simp only [List.mem_cons, List.not_mem_nil, or_false] at hk
    rcases hk with rfl | rfl
    · refine ⟨(0, 1), rfl, ?_⟩
      rw [push_proxies]
      exact gear_regular (by norm_num) _ _
    · refine ⟨(0, 1), rfl, ?_⟩
      rw [push_proxies]
      exact gear_regular (by norm_num) _ _

/-- An inequality of one row can always be solved. -/
theorem one_row_acts {f : CFun ℝ 1} {ph : Phase} (hph : ph ≠ .solvePositions) (p : Proxies ℝ) (e : InequalitySolver ℝ 1) (s : SolveState ℝ) :
    ∃ e' s', (Kind.inequality 1 f).act libCfg ph p e s = .ok (e', s') := by
  cases ph with
  | initSolve => exact ⟨_, _, rfl⟩
  | warmstart => exact ⟨_, _, rfl⟩
  | solveVelocities =>
    obtain ⟨x, hx, -⟩ := solveInequalities_one e.effectiveMass ((e.base.computeRhs p s f libCfg.dt false).add (e.effectiveMass.mul e.base.lambda))
      (fun l => f.clampLambda l libCfg.dt) e.base.lambda libCfg.epsilon (by norm_num [libCfg]) libCfg.fuel (by norm_num [libCfg])
    exact ⟨_, _, by simp only [Kind.act, InequalitySolver.solveVelocity, hx, Option.map_some, returned]; rfl⟩
  | solvePositions => exact (hph rfl).elim

theorem push_acts {ph : Phase} (hph : ph ≠ .solvePositions) (x : St (Pose ℝ) (Velocity ℝ) ((l : Link) → (pushLib.kind l).State) × Isl (Pose ℝ) (Velocity ℝ))
    (hx : x.1.proxies = fun _ => some (0, 1)) :
    ∃ y, actAll (pushLib.net libCfg) ph [.joint 0, .joint 1] x = .ok y ∧ y.1.proxies = fun _ => some (0, 1) := by
  obtain ⟨e0, s0, h0⟩ := one_row_acts (f := gearFun 1 (-2)) hph (pushLib.proxies (.joint 0) (0, 1)) (x.1.s (.joint 0)) x.2.view
  rw [actAll_library_of (l := .joint 0) (ends := (0, 1)) (by rw [hx]) h0]
  set z : St (Pose ℝ) (Velocity ℝ) ((l : Link) → (pushLib.kind l).State) × Isl (Pose ℝ) (Velocity ℝ) :=
    ({ x.1 with s := Function.update (β := fun l => (pushLib.kind l).State) x.1.s (.joint 0) e0 }, { x.2 with ps := fun i => Pose.of (s0.pos i), vs := s0.vel }) with hz
  obtain ⟨e1, s1, h1⟩ := one_row_acts (f := gearFun (-2) 1) hph (pushLib.proxies (.joint 1) (0, 1)) (z.1.s (.joint 1)) z.2.view
  rw [actAll_library_of (l := .joint 1) (ends := (0, 1)) (x := z) (by rw [hz]; exact congrFun hx _) h1]
  exact ⟨_, rfl, hx⟩

theorem push_rounds : ∀ (k : Nat) (x : St (Pose ℝ) (Velocity ℝ) ((l : Link) → (pushLib.kind l).State) × Isl (Pose ℝ) (Velocity ℝ)),
    (x.1.proxies = fun _ => some (0, 1)) → ∃ y, actRounds (pushLib.net libCfg) .solveVelocities [.joint 0, .joint 1] k x = .ok y
  | 0, x, _ => ⟨x, rfl⟩
  | k + 1, x, hx => by
    obtain ⟨z, h1, h2⟩ := push_acts (ph := .solveVelocities) (by decide) x hx
    obtain ⟨y, h3⟩ := push_rounds k z h2
    exact ⟨y, by rw [actRounds, h1]; exact h3⟩

theorem push_init (l : ℝ) : ∃ x, actAll (pushLib.net libCfg) .initSolve [.joint 0, .joint 1] (pushState l) = .ok x ∧ x.2 = (pushState l).2 ∧
    x.1.proxies = (pushState l).1.proxies ∧
    x.1.s (.joint 0) = (gearSolver l).initSolve ⟨0, 1, ⟨1, 1, 1, 1⟩⟩ (gearFun 1 (-2)) (pushState l).2.view ∧
    x.1.s (.joint 1) = (gearSolver l).initSolve ⟨0, 1, ⟨1, 1, 1, 1⟩⟩ (gearFun (-2) 1) (pushState l).2.view := by
  rw [actAll_library_of (l := .joint 0) (ends := (0, 1)) rfl rfl, view_back, actAll_library_of (l := .joint 1) (ends := (0, 1)) rfl rfl, view_back]
  refine ⟨_, rfl, rfl, rfl, ?_, ?_⟩
  · rw [← push_proxies (.joint 0)]; rfl
  · rw [← push_proxies (.joint 1)]; rfl

theorem push_warm (x : St (Pose ℝ) (Velocity ℝ) ((l : Link) → (pushLib.kind l).State) × Isl (Pose ℝ) (Velocity ℝ))
    (h : x.1.proxies = (pushState 1).1.proxies) : ∃ y, actAll (pushLib.net libCfg) .warmstart [.joint 0, .joint 1] x = .ok y ∧ y.1.proxies = x.1.proxies ∧
    (∃ s, y.1.s (.joint 0) = (InequalitySolver.warmstart (x.1.s (.joint 0)) ⟨0, 1, ⟨1, 1, 1, 1⟩⟩ (gearFun 1 (-2)) libCfg.dt s).1) ∧
    ∃ s, y.1.s (.joint 1) = (InequalitySolver.warmstart (x.1.s (.joint 1)) ⟨0, 1, ⟨1, 1, 1, 1⟩⟩ (gearFun (-2) 1) libCfg.dt s).1 := by
  obtain ⟨⟨b, p, s⟩, isl⟩ := x
  simp only at h
  subst h
  rw [actAll_library_of (l := .joint 0) (ends := (0, 1)) rfl rfl, actAll_library_of (l := .joint 1) (ends := (0, 1)) rfl rfl]
  let s' := (InequalitySolver.warmstart (s (.joint 0)) (pushLib.proxies (.joint 0) (0, 1)) (gearFun 1 (-2)) libCfg.dt isl.view).2
  refine ⟨_, rfl, rfl, ⟨isl.view, ?_⟩, ⟨{ isl with ps := fun i => Pose.of (s'.pos i), vs := s'.vel : Isl (Pose ℝ) (Velocity ℝ) }.view, ?_⟩⟩
  · rw [← push_proxies (.joint 0)]; rfl
  · rw [← push_proxies (.joint 1)]; rfl

theorem push_tame (l : ℝ) : AllLinks pushLib (pushState l).1 [.joint 0, .joint 1] fun k p e =>
    (pushLib.kind k).Tame p (pushState l).2.view e ∧ (pushLib.kind k).Plain p e := by
  intro k hk
  simp only [List.mem_cons, List.not_mem_nil, or_false] at hk
  have hne : (0 : Nat) ≠ 1 := by decide
  rcases hk with rfl | rfl
  · exact ⟨(0, 1), rfl, ⟨Or.inl hne, rfl, fun r => at_zero r⟩, fun s s' _ => ⟨rfl, rfl⟩⟩
  · exact ⟨(0, 1), rfl, ⟨Or.inl hne, rfl, fun r => at_zero r⟩, fun s s' _ => ⟨rfl, rfl⟩⟩

/-- Case for `C105_converges` and `C105_last`: two bodies of mass 1 at rest are set in motion by the impulses that two inequalities remember. With enough iterations they are as
slow as one likes, and after each iteration the second inequality holds. -/
example : ∃ x1 x2 : St (Pose ℝ) (Velocity ℝ) ((l : Link) → (pushLib.kind l).State) × Isl (Pose ℝ) (Velocity ℝ),
    Frictionless pushLib libCfg [.joint 0, .joint 1] (fun _ => (1, 1)) 2 (pushState 1) (pushState 1) x1 ∧
    Reached pushLib libCfg [.joint 0, .joint 1] 0 (pushState 1) x2 ∧ (x2.2.vs 0).linear.x = -1 ∧ (x1.2.vs 0).linear.x = 0 ∧
    (∀ k, ∃ x, actRounds (pushLib.net libCfg) .solveVelocities [.joint 0, .joint 1] k x2 = .ok x) ∧
    (∀ k x, actRounds (pushLib.net libCfg) .solveVelocities [.joint 0, .joint 1] (k + 1) x2 = .ok x →
      (Kind.inequality 1 (gearFun (-2) 1)).Law libCfg ⟨0, 1, ⟨1, 1, 1, 1⟩⟩ (pushState 1).2.view x.2.view (x.1.s (.joint 1))) ∧
    ∀ ε > 0, ∃ N, ∀ x, actRounds (pushLib.net libCfg) .solveVelocities [.joint 0, .joint 1] N x2 = .ok x → (x.2.vs 0).linear.x ^ 2 < ε := by
  obtain ⟨x1, hx1, a1, a2, a3, a4⟩ := push_init 1
  obtain ⟨x2, hx2, b0, ⟨s1, b1⟩, ⟨s2, b2⟩⟩ := push_warm x1 a2
  rw [a3] at b1
  rw [a4] at b2
  have r2 : Reached pushLib libCfg [.joint 0, .joint 1] 0 (pushState 1) x2 := ⟨x1, x2, hx1, Or.inr hx2, rfl⟩
  have lam : ∀ (a b : ℝ) (m : InvMasses ℝ) (s0 s : SolveState ℝ),
      (((gearSolver 1).initSolve ⟨0, 1, m⟩ (gearFun a b) s0).warmstart ⟨0, 1, m⟩ (gearFun a b) libCfg.dt s).1.base.lambda.at_ 0 = 1 := by
    intro a b m s0 s
    show (maxZero ((Mat.zero : MVec ℝ 1).add (Mat.ofFn fun _ => 1))).at_ 0 = 1
    rw [maxZero_at, at_add, at_zero, at_ofFn]; norm_num
  have given : ∀ (a b : ℝ) (m : InvMasses ℝ) (s0 s : SolveState ℝ),
      (Kind.inequality 1 (gearFun a b)).given (((gearSolver 1).initSolve ⟨0, 1, m⟩ (gearFun a b) s0).warmstart ⟨0, 1, m⟩ (gearFun a b) libCfg.dt s).1 =
        ![a, 0, 0, b, 0, 0] := by
    intro a b m s0 s
    funext i
    show pull _ _ i = _
    rw [pull, Fin.sum_univ_one, toV, lam, mul_one]
    fin_cases i <;> rfl
  have ty := r2.tallied (push_posed 1) (P := fun l => pushLib.proxies l (0, 1)) (fun l _ => ⟨(0, 1), rfl, rfl⟩)
  have hv : ∀ i, x2.2.vs i = 0 + (kick ⟨0, 1, ⟨1, 1, 1, 1⟩⟩ ![1, 0, 0, -2, 0, 0] i + kick ⟨0, 1, ⟨1, 1, 1, 1⟩⟩ ![-2, 0, 0, 1, 0, 0] i) := by
    intro i
    have h := ty.total i
    rw [show ([Link.joint 0, Link.joint 1] : List Link).toFinset = {Link.joint 0, Link.joint 1} from rfl, Finset.sum_pair (by decide), b1, b2] at h
    rw [h, push_proxies, push_proxies]
    exact congrArg₂ (fun P Q => (0 : Velocity ℝ) + (kick _ P i + kick _ Q i)) (given _ _ _ _ _) (given _ _ _ _ _)
  have hv1 : ∀ i, x1.2.vs i = 0 := fun i => by rw [a1]; rfl
  have hF : Frictionless pushLib libCfg [.joint 0, .joint 1] (fun _ => (1, 1)) 2 (pushState 1) (pushState 1) x1 := by
    refine ⟨push_posed 1, push_posed 1, fun _ _ => ⟨zero_le_one, zero_le_one⟩, fun l _ _ _ => push_masses l, ?_, push_tame 1, ⟨rfl, rfl, ?_⟩, ⟨0, x1, x1, hx1, Or.inl rfl, rfl⟩, ?_⟩
    · intro k _ ends he
      cases Option.some.inj he
      exact ⟨by decide, by decide⟩
    · intro k hk
      simp only [List.mem_cons, List.not_mem_nil, or_false] at hk
      rcases hk with rfl | rfl
      · rfl
      · rfl
    · intro k hk
      simp only [List.mem_cons, List.not_mem_nil, or_false] at hk
      have h0 : x1.2.view.vel = fun _ => 0 := funext hv1
      rcases hk with rfl | rfl
      · refine ⟨(0, 1), by rw [a2]; rfl, ?_⟩
        rw [push_proxies, a3]
        refine gear_law _ _ _ (le_of_eq (at_zero 0).symm) ?_ ?_
        · rw [h0]; exact le_of_eq (by show (0 : ℝ) = 1 * 0 + -2 * 0; ring)
        · rw [h0]; show _ * (1 * (0 : ℝ) + -2 * 0) = 0; ring
      · refine ⟨(0, 1), by rw [a2]; rfl, ?_⟩
        rw [push_proxies, a4]
        refine gear_law _ _ _ (le_of_eq (at_zero 0).symm) ?_ ?_
        · rw [h0]; exact le_of_eq (by show (0 : ℝ) = -2 * 0 + 1 * 0; ring)
        · rw [h0]; show _ * (-2 * (0 : ℝ) + 1 * 0) = 0; ring
  refine ⟨x1, x2, hF, r2, ?_, ?_, fun k => push_rounds k x2 (b0.trans a2), fun k x hx => ?_, fun ε hε => ?_⟩
  · rw [hv]; norm_num [kick]
  · rw [hv1]; rfl
  · obtain ⟨ends, q1, q2⟩ := C105_last (ls := [.joint 0]) (l := .joint 1) (push_posed 1) (push_tame 1) ⟨x1, x2, hx1, Or.inr hx2, hx⟩
    cases Option.some.inj q1
    rw [push_proxies] at q2
    exact q2
  · obtain ⟨N, hN⟩ := C105_converges hF hε
    refine ⟨N, fun x hx => ?_⟩
    have h := (hN N le_rfl x ⟨x1, x2, hx1, Or.inr hx2, hx⟩ 0).1
    rw [hv1] at h
    simpa using h

end
end Simu
