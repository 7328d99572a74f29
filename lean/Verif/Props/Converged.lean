import Verif.Lemmas.ConvergedIsland
import Verif.Props.LibrarySound
/-
C102: the velocity iterations of an island change nothing any more if and only if the laws of its constraints hold.
-/
namespace Simu
open Island Mat Contact

section
variable {K : Type*} [Field K] [LinearOrder K] [IsStrictOrderedRing K] [Trig K] {L : Library K} {c : CallCfg K}

/-- An island of constraints `links` in the state `x0`, of which every constraint meets the conditions of its solver. -/
structure Island.Posed (L : Library K) (c : CallCfg K) (links : List Link)
    (x0 : St (Pose K) (Velocity K) ((l : Link) → (L.kind l).State) × Isl (Pose K) (Velocity K)) : Prop where
  sqrt : ∀ x, 0 ≤ x → c.sqrt x * c.sqrt x = x
  epsilon : 0 ≤ c.epsilon
  fuel : 1 ≤ c.fuel
  nodup : links.Nodup
  masses : ∀ l ∈ links, (L.bodies l).masses.Nonneg
  regular : AllLinks L x0.1 links fun l p e => (L.kind l).Regular c p x0.2.view e

/-- The constraints are in this state after the solve was started, possibly warm started, and `n` velocity iterations. -/
def Island.Reached (L : Library K) (c : CallCfg K) (links : List Link) (n : Nat)
    (x0 x : St (Pose K) (Velocity K) ((l : Link) → (L.kind l).State) × Isl (Pose K) (Velocity K)) : Prop :=
  ∃ x1 x2, actAll (L.net c) .initSolve links x0 = .ok x1 ∧ (x2 = x1 ∨ actAll (L.net c) .warmstart links x1 = .ok x2) ∧
    actRounds (L.net c) .solveVelocities links n x2 = .ok x

/-- The laws of the constraints hold in the state `x` of an island whose solve was started in the state `x0`. -/
def Island.Laws (L : Library K) (c : CallCfg K) (links : List Link)
    (x0 x : St (Pose K) (Velocity K) ((l : Link) → (L.kind l).State) × Isl (Pose K) (Velocity K)) : Prop :=
  AllLinks L x.1 links fun l p e => (L.kind l).Law c p x0.2.view x.2.view e

theorem Island.Reached.going {links : List Link} {n : Nat}
    {x0 x : St (Pose K) (Velocity K) ((l : Link) → (L.kind l).State) × Isl (Pose K) (Velocity K)}
    (hp : Posed L c links x0) (h : Reached L c links n x0 x) : AllLinks L x.1 links (L.Going c x0.2.view) := by
  obtain ⟨x1, x2, h1, h2, h3⟩ := h
  obtain ⟨g1, -⟩ := actAll_started x0.2.view links rfl hp.regular h1
  have g2 : AllLinks L x2.1 links (L.Going c x0.2.view) := by
    rcases h2 with rfl | h2
    · exact g1
    · exact (actAll_keeps (R := L.Going c x0.2.view) (fun l p e s e' s' hg ha => Kind.started_act _ hg.1 hg.2 _ (Or.inl rfl) ha) links links g1 h2).1
  exact (actRounds_keeps (R := L.Going c x0.2.view) (fun l p e s e' s' hg ha => Kind.started_act _ hg.1 hg.2 _ (Or.inr rfl) ha) links links n g2 h3).1

/-- C102: another velocity iteration changes no multiplier if and only if the laws of all constraints hold. Partial: the law of inequalities leaves out their
damping (`C102_inequality_damping_disagreement`); bounded equality constraints of several rows must have a diagonal effective mass. -/
theorem C102_laws_partial {links : List Link} {n : Nat}
    {x0 x : St (Pose K) (Velocity K) ((l : Link) → (L.kind l).State) × Isl (Pose K) (Velocity K)}
    (hp : Posed L c links x0) (h : Reached L c links n x0 x) :
    (∃ y, actAll (L.net c) .solveVelocities links x = .ok y ∧ ∀ l ∈ links, y.1.s l = x.1.s l) ↔ Laws L c links x0 x := by
  obtain ⟨a, b⟩ := actAll_fixed hp.sqrt hp.epsilon hp.fuel x0.2.view links x hp.nodup (h.going hp) hp.masses
  exact ⟨a, fun hl => ⟨x, b hl, fun _ _ => rfl⟩⟩

/-- C102: an iteration that changes no multiplier changes no velocity either, nor does any later iteration. -/
theorem C102_stays {links : List Link} {n : Nat}
    {x0 x : St (Pose K) (Velocity K) ((l : Link) → (L.kind l).State) × Isl (Pose K) (Velocity K)}
    (hp : Posed L c links x0) (h : Reached L c links n x0 x) (hl : Laws L c links x0 x) (m : Nat) :
    actRounds (L.net c) .solveVelocities links m x = .ok x := by
  obtain ⟨-, b⟩ := actAll_fixed hp.sqrt hp.epsilon hp.fuel x0.2.view links x hp.nodup (h.going hp) hp.masses
  induction m with
  | zero => rfl
  | succ m ih => rw [actRounds, b hl]; exact ih

omit [IsStrictOrderedRing K] in
theorem actRounds_plus (links : List Link) (m : Nat) :
    ∀ (n : Nat) (x : St (Pose K) (Velocity K) ((l : Link) → (L.kind l).State) × Isl (Pose K) (Velocity K)),
    actRounds (L.net c) .solveVelocities links (n + m) x =
      (actRounds (L.net c) .solveVelocities links n x).bind (actRounds (L.net c) .solveVelocities links m)
  | 0, x => by rw [Nat.zero_add]; rfl
  | n + 1, x => by
    rw [Nat.succ_add, actRounds, actRounds]
    cases actAll (L.net c) .solveVelocities links x with
    | ok y => exact actRounds_plus links m n y
    | throw => rfl
    | ub => rfl

/-- C102: once the laws hold, more velocity iterations make no difference to the step of the island. -/
theorem C102_more_iterations {cfg : Settings} {st st1 : St (Pose K) (Velocity K) ((l : Link) → (L.kind l).State)}
    {isl isl1 : Isl (Pose K) (Velocity K)} {x1 x2 x : St (Pose K) (Velocity K) ((l : Link) → (L.kind l).State) × Isl (Pose K) (Velocity K)}
    (hcopy : copyBodies (if isl.awake then wakeAll isl.bodies st else st) isl.bodies isl = .ok isl1)
    (hstart : startAll (L.net c) isl1.links (if isl.awake then wakeAll isl.bodies st else st) = .ok st1)
    (hp : Posed L c isl1.links (st1, isl1))
    (hinit : actAll (L.net c) .initSolve isl1.links (st1, isl1) = .ok x1)
    (hwarm : (if cfg.enableWarmstarting then actAll (L.net c) .warmstart isl1.links x1 else .ok x1) = .ok x2)
    (hrounds : actRounds (L.net c) .solveVelocities isl1.links cfg.nVelocityIterations x2 = .ok x)
    (hl : Laws L c isl1.links (st1, isl1) x) (m : Nat) :
    solveIsland (L.net c) { cfg with nVelocityIterations := cfg.nVelocityIterations + m } st isl = solveIsland (L.net c) cfg st isl := by
  have hr : Reached L c isl1.links cfg.nVelocityIterations (st1, isl1) x := by
    refine ⟨x1, x2, hinit, ?_, hrounds⟩
    by_cases hw : cfg.enableWarmstarting
    · rw [if_pos hw] at hwarm; exact Or.inr hwarm
    · rw [if_neg hw] at hwarm; exact Or.inl (Outcome.ok.inj hwarm).symm
  have key : actRounds (L.net c) .solveVelocities isl1.links (cfg.nVelocityIterations + m) x2 = .ok x := by
    rw [actRounds_plus, hrounds]; exact C102_stays hp hr hl m
  unfold solveIsland
  simp only [hcopy, hstart, Outcome.bind_ok, hinit, hwarm, hrounds, key]

/-! ### What the laws say -/

/-- C102: a joint (or any equality constraint without bounds on the impulse) does not move against its constraint: the velocity error, with the
correction of the position error and damping, is zero. -/
theorem C102_joint {d : Nat} {f : CFun K d} (hf : ∀ l, f.clampLambda l c.dt = l) (p : Proxies K) (s0 s : SolveState K) (e : EqualitySolver K d) :
    (Kind.equality d f).Law c p s0 s e ↔
      ∀ r, push (f.jacobian p s0) (p.velocity s).toV r + (f.bias p s).at_ r + e.base.restitution.at_ r * (f.eval p s).at_ r / c.dt =
        -(e.base.damping.at_ r * e.base.lambda.at_ r) := by
  show (∀ r, Best (f.allowed c.dt r) _ _) ↔ _
  simp only [allowed_of_free hf, best_univ]
  exact forall_congr' fun r => ⟨fun h => eq_neg_of_add_eq_zero_left h, fun h => by rw [rowError, h]; ring⟩

/-- C102: a motor runs at its speed, or too slowly in the direction of its largest impulse, which it then exerts, or too fast, and then exerts none
(exchange the last two for a motor that runs backwards). -/
theorem C102_motor {d : Nat} (m : Motor K d) (J : Mat K d 6) (p : Proxies K) (s0 s : SolveState K) (e : EqualitySolver K d)
    (hd : e.base.damping = Mat.zero) :
    (Kind.equality d (m.toFun J)).Law c p s0 s e ↔ ∀ r,
      let impulse := m.direction.at_ r * m.throttle * m.maxForce * c.dt
      let speed := push J (p.velocity s).toV r
      let l := e.base.lambda.at_ r
      let goal := m.maxVelocity * m.direction.at_ r
      min 0 impulse ≤ l ∧ l ≤ max 0 impulse ∧ (speed = goal ∨ (goal < speed ∧ l = min 0 impulse) ∨ (speed < goal ∧ l = max 0 impulse)) := by
  have hle : ∀ r, m.lo c.dt r ≤ m.hi c.dt r := fun r => le_trans (min_le_left _ _) (le_max_left _ _)
  have hrow : (m.toFun J).RowWise c.dt :=
    ⟨fun r x => Algo.clamp x (m.lo c.dt r) (m.hi c.dt r), fun r => clamp_projection (hle r), fun l r => m.clampLambda_at l c.dt r⟩
  have hall : ∀ r, (m.toFun J).allowed c.dt r = {x | m.lo c.dt r ≤ x ∧ x ≤ m.hi c.dt r} := by
    intro r
    rw [← clamp_range (hle r)]
    ext x
    constructor
    · rintro ⟨l, h⟩
      exact ⟨l.at_ r, by rw [← h]; exact (m.clampLambda_at l c.dt r).symm⟩
    · rintro ⟨w, h⟩
      refine ⟨Mat.ofFn fun _ => w, ?_⟩
      rw [← h]
      exact (m.clampLambda_at _ c.dt r).trans (by rw [at_ofFn])
  show (∀ r, Best ((m.toFun J).allowed c.dt r) _ _) ↔ _
  refine forall_congr' fun r => ?_
  have herr : rowError c p (m.toFun J) e.base.restitution s0 s r + e.base.damping.at_ r * e.base.lambda.at_ r =
      push J (p.velocity s).toV r - m.maxVelocity * m.direction.at_ r := by
    rw [hd]
    simp only [rowError, Motor.toFun, Motor.bias, at_smul, at_zero, mul_zero, zero_div, zero_mul, add_zero]
    ring
  rw [hall, herr, best_between _ _ _ _ (hle r), sub_eq_zero, sub_pos, sub_neg]
  exact Iff.rfl

/-- C102 (partial: whatever the damping): an inequality pushes only, and only if its bodies do not part by themselves. -/
theorem C102_inequality_partial {d : Nat} {f : CFun K d} (hf : ∀ l r, (f.clampLambda l c.dt).at_ r = max 0 (l.at_ r)) (p : Proxies K) (s0 s : SolveState K)
    (e : InequalitySolver K d) :
    (Kind.inequality d f).Law c p s0 s e ↔ ∀ r,
      let u := push (f.jacobian p s0) (p.velocity s).toV r + (f.bias p s).at_ r + e.base.restitution.at_ r * (f.eval p s).at_ r / c.dt
      0 ≤ e.base.lambda.at_ r ∧ 0 ≤ u ∧ e.base.lambda.at_ r * u = 0 := by
  have hall : ∀ r, f.allowed c.dt r = {x | 0 ≤ x} := by
    intro r
    ext x
    constructor
    · rintro ⟨l, h⟩
      rw [hf] at h
      exact h ▸ le_max_left _ _
    · intro h
      exact ⟨Mat.ofFn fun _ => x, by rw [hf, at_ofFn]; exact max_eq_right h⟩
  show (∀ r, Best (f.allowed c.dt r) _ _) ↔ _
  simp only [hall, best_nonneg]
  exact Iff.rfl

/-- C102: a constraint between limits pushes away from the limit that is reached, and only if the bodies do not leave it by themselves. -/
theorem C102_limits {f : CFun K 1} (p : Proxies K) (s0 s : SolveState K) (e : LimitsSolver K) {l u : MVec K 1} (hL : e.L = some l) (hU : e.U = some u)
    (hlu : l.at_ 0 < u.at_ 0) :
    (Kind.limits f).Law c p s0 s e ↔
      let C := (f.eval p s0).at_ 0
      let err := fun limit => velocityError p f (f.jacobian p s0) (e.base.restitution.at_ 0) c.dt limit s
      let x := e.base.lambda.at_ 0
      let D := e.base.damping.at_ 0
      (C ≤ l.at_ 0 → 0 ≤ x ∧ 0 ≤ err (l.at_ 0) + D * x ∧ x * (err (l.at_ 0) + D * x) = 0) ∧
      (u.at_ 0 ≤ C → 0 ≤ x ∧ err (u.at_ 0) - D * x ≤ 0 ∧ x * (err (u.at_ 0) - D * x) = 0) := by
  have hne : l.at_ 0 ≠ u.at_ 0 := hlu.ne
  have hnext : e.nextFunc p f s0 = if (f.eval p s0).at_ 0 ≤ l.at_ 0 then .lower else if u.at_ 0 ≤ (f.eval p s0).at_ 0 then .upper else .off := by
    unfold LimitsSolver.nextFunc
    simp only [hL, hU, if_neg hne, sub_nonpos, neg_add_nonpos_iff]
  simp only [Kind.Law]
  by_cases h1 : (f.eval p s0).at_ 0 ≤ l.at_ 0
  · rw [hnext, if_pos h1]
    simp only [hL, Option.some.injEq, exists_eq_left', best_nonneg]
    constructor
    · exact fun h => ⟨fun _ => h, fun h2 => absurd (h2.trans h1) (not_le.2 hlu)⟩
    · exact fun h => h.1 h1
  · by_cases h2 : u.at_ 0 ≤ (f.eval p s0).at_ 0
    · rw [hnext, if_neg h1, if_pos h2]
      simp only [hU, Option.some.injEq, exists_eq_left', best_nonpos, mul_neg, ← sub_eq_add_neg]
      constructor
      · exact fun h => ⟨fun h' => absurd h' h1, fun _ => h⟩
      · exact fun h => h.2 h2
    · rw [hnext, if_neg h1, if_neg h2]
      exact ⟨fun _ => ⟨fun h => absurd h h1, fun h => absurd h h2⟩, fun _ => trivial⟩

/-- C102: contacts push and do not pull, they separate with at least the restitution that was asked for, and exactly with it where they push; friction is within
the cone, it stops sliding if it can, and opposes it at full strength if it cannot. -/
theorem C102_contact (p : Proxies K) (s0 s : SolveState K) (e : Contact K) (hl : (Kind.contact : Kind K).Law c p s0 s e) (hμ : 0 ≤ e.friction) :
    let f := e.manifold.frame ![(s0.pos p.i0).toWorldSpace, (s0.pos p.i1).toWorldSpace]
    ∀ i : Fin 2, i.val < f.nContacts →
      let n := e.normalLambda.at_ i
      let t := e.tangentLambda.at_ i
      let u := f.separationSpeed p s0.pos s.vel i
      let w := f.slidingSpeed p s0.pos s.vel i
      let goal := if f.separationSpeed p s0.pos s0.vel i ≤ -1 then -(e.restitution * f.separationSpeed p s0.pos s0.vel i) else 0
      0 ≤ n ∧ goal ≤ u ∧ (0 < n → u = goal) ∧ |t| ≤ e.friction * n ∧ (|t| < e.friction * n → w = 0) ∧ (w ≠ 0 → |t| = e.friction * n ∧ t * w ≤ 0) := by
  intro f i hi n t u w goal
  obtain ⟨h1, h2⟩ := hl i hi
  obtain ⟨a1, a2, a3⟩ := (best_nonneg _ _).1 h1
  have hb : 0 ≤ e.friction * n := mul_nonneg hμ a1
  have hset : {m : K | |m| ≤ e.friction * n} = {m | -(e.friction * n) ≤ m ∧ m ≤ e.friction * n} := by ext m; exact abs_le
  have h2' : Best {m | -(e.friction * n) ≤ m ∧ m ≤ e.friction * n} t w := hset ▸ h2
  obtain ⟨b1, b2, b3⟩ := (best_between _ _ _ _ (by linarith)).1 h2'
  refine ⟨a1, ?_, ?_, abs_le.2 ⟨b1, b2⟩, ?_, ?_⟩
  · have : (0 : K) ≤ u - goal := a2
    linarith
  · intro hn
    have : n * (u - goal) = 0 := a3
    have := (mul_eq_zero.1 this).resolve_left hn.ne'
    linarith
  · intro h
    obtain ⟨h3, h4⟩ := abs_lt.1 h
    rcases b3 with b3 | ⟨-, b3⟩ | ⟨-, b3⟩
    · exact b3
    · linarith
    · linarith
  · intro hw
    rcases b3 with b3 | ⟨b4, b3⟩ | ⟨b4, b3⟩
    · exact absurd b3 hw
    · refine ⟨by rw [b3, abs_neg, abs_of_nonneg hb], ?_⟩
      have := mul_nonneg hb b4.le
      rw [b3]; linarith
    · refine ⟨by rw [b3, abs_of_nonneg hb], ?_⟩
      rw [b3]; exact mul_nonpos_of_nonneg_of_nonpos hb b4.le

/-- C102, disagreement: the damping of an inequality does not change what its iterations converge to (for equalities and limits the velocity left is
proportional to the impulse), although it slows them down. -/
theorem C102_inequality_damping_disagreement {d : Nat} (f : CFun K d) (p : Proxies K) (s0 s : SolveState K) (e : InequalitySolver K d) (D : MVec K d) :
    ((Kind.inequality d f).Law c p s0 s e ↔
      (Kind.inequality d f).Law c p s0 s ({ e with base := { e.base with damping := D } } : InequalitySolver K d)) ∧
    (∀ (f : CFun K 1) (e : EqualitySolver K 1) (x : K), (∀ l, f.clampLambda l c.dt = l) → (Kind.equality 1 f).Law c p s0 s e → e.base.lambda.at_ 0 ≠ 0 →
      x ≠ e.base.damping.at_ 0 →
      ¬(Kind.equality 1 f).Law c p s0 s ({ e with base := { e.base with damping := Mat.ofFn fun _ => x } } : EqualitySolver K 1)) := by
  refine ⟨Iff.rfl, fun f e x hf hl h0 hx hl' => ?_⟩
  have h1 := (C102_joint hf p s0 s e).1 hl 0
  have h2 := (C102_joint hf p s0 s _).1 hl' 0
  simp only [at_ofFn] at h2
  rw [h2] at h1
  exact hx (mul_right_cancel₀ h0 (neg_injective h1))

end

/-! ### The concrete world of `lib` -/
section

/-- The island of 4 and 5 with the contact and the mouse, at indices 0 and 1; 4 is at rest and 5 moves. -/
noncomputable def held : St (Pose ℝ) (Velocity ℝ) ((l : Link) → (lib.kind l).State) × Isl (Pose ℝ) (Velocity ℝ) :=
  ({ libState with proxies := fun
      | .joint _ => some (0, 0)
      | .contact _ => some (0, 1) },
   ⟨[4, 5], [2], [0], fun i => libPose (4 + i), fun i => ⟨⟨0, i⟩, 0⟩, true⟩)

theorem held_posed : Posed lib libCfg [.joint 2, .contact 0] held := by
  have hn : (⟨1 / 2, 1 / 3, 1 / 2, 1 / 3⟩ : InvMasses ℝ).Nonneg := by constructor <;> norm_num
  refine ⟨sqrt_lawful, by norm_num [libCfg], by decide, by decide, fun l _ => by rw [libBodies_masses]; exact hn, ?_⟩
  intro l hl
  simp only [List.mem_cons, List.not_mem_nil, or_false] at hl
  rcases hl with rfl | rfl
  · refine ⟨(0, 0), rfl, ?_, fun _ => rfl⟩
    intro r
    show (0 : ℝ) ≤ (Mat.ofFn fun _ => 1 : MVec ℝ 2).at_ r
    rw [at_ofFn]; norm_num
  · obtain ⟨-, hsv⟩ := C73_contact hn libContact (libPose 4) (libPose 5) rfl fun _ => ⟨by norm_num, by
        show (0 : ℝ) < if (1 : Fin 2) = 0 then 1 / 3 else 1 / 3
        norm_num, by
        show Vec2.cross ((⟨-1, 1 / 2⟩ : Vec2 ℝ) - ⟨1, 1 / 2⟩) ⟨0, 1⟩ ≠ 0
        simp [Vec2.cross]
        norm_num⟩
    have hs := hsv rfl (libPose 4) (libPose 5)
    refine ⟨(0, 1), rfl, rfl, Nat.zero_ne_one, Or.inr rfl, ?_, ?_, ?_, ?_⟩
    · have : lib.proxies (.contact 0) (0, 1) = ⟨0, 1, ⟨1 / 2, 1 / 3, 1 / 2, 1 / 3⟩⟩ := by
        rw [Library.proxies, libBodies_masses]
      rw [this]
      exact hs
    · intro h
      have hx := congrArg Vec2.x h
      simp [held, libState, libContact, contactSample, Manifold.frame, Isl.view, libPose, libBody, Position.make, Position.toWorldSpace, Rotation.app,
        Rotation.ofAngle, Translation.mul, Translation.mulRotation, Transform.mulTranslation, Translation.inverse, Trig.cos, Trig.sin, Vec2.perp] at hx
    · show (0 : ℝ) ≤ 1 / 2
      norm_num
    · intro i
      show (0 : ℝ) ≤ (Mat.zero : MVec ℝ 2).at_ i
      rw [at_zero]

/-- C102: after any number of iterations the island of 4 and 5 is done if and only if its laws hold. -/
example (n : Nat) : ∃ x, Reached lib libCfg [.joint 2, .contact 0] n held x ∧
    ((∃ y, actAll (lib.net libCfg) .solveVelocities [.joint 2, .contact 0] x = .ok y ∧ ∀ l ∈ [Link.joint 2, .contact 0], y.1.s l = x.1.s l) ↔
      Laws lib libCfg [.joint 2, .contact 0] held x) := by
  have hm : ∀ l ∈ [Link.joint 2, .contact 0], (lib.bodies l).masses.Nonneg := held_posed.masses
  have firm : ∀ l ∈ [Link.joint 2, .contact 0], (lib.kind l).Firm (lib.bodies l).masses (libState.s l) := by
    intro l hl
    simp only [List.mem_cons, List.not_mem_nil, or_false] at hl
    rcases hl with rfl | rfl
    · exact (lib_firm 4 (by decide) (.joint 2) (by simp [linksOf, Library.net, lib])).2
    · exact (lib_firm 4 (by decide) (.contact 0) (by simp [linksOf, Library.net, lib])).2
  obtain ⟨x1, h1, g1, -⟩ := actAll_exists (L := lib) (c := libCfg) sqrt_lawful .initSolve [.joint 2, .contact 0] held hm (by
    intro l hl
    have := firm l hl
    simp only [List.mem_cons, List.not_mem_nil, or_false] at hl
    rcases hl with rfl | rfl
    · exact ⟨(0, 0), rfl, this, fun h => (h rfl).elim⟩
    · exact ⟨(0, 1), rfl, this, fun h => (h rfl).elim⟩)
  obtain ⟨x, hx⟩ := actRounds_exists (c := libCfg) sqrt_lawful .solveVelocities _ hm n x1 g1
  have hr : Reached lib libCfg [.joint 2, .contact 0] n held x := ⟨x1, x1, h1, Or.inl rfl, hx⟩
  exact ⟨x, hr, C102_laws_partial held_posed hr⟩

/-- C102: a motor that is still too slow after it exerted its largest impulse. -/
example : (Kind.equality 1 (rotationMotor (⟨1, Mat.ofFn fun _ => 1, 10, 6⟩ : Motor ℝ 1))).Law libCfg ⟨0, 0, ⟨1 / 2, 1 / 3, 1 / 2, 1 / 3⟩⟩ held.2.view held.2.view
    (⟨{ SolverBase.init with lambda := Mat.ofFn fun _ => 1 / 10 }, ⟨false, fun _ => .throw⟩⟩ : EqualitySolver ℝ 1) := by
  refine (C102_motor _ _ _ _ _ _ rfl).2 fun r => ?_
  have hv : push (⟨![0, 0, 1, 0, 0, 0]⟩ : Mat ℝ 1 6) ((⟨0, 0, ⟨1 / 2, 1 / 3, 1 / 2, 1 / 3⟩⟩ : Proxies ℝ).velocity held.2.view).toV r = 0 := by
    have hz : ((⟨0, 0, ⟨1 / 2, 1 / 3, 1 / 2, 1 / 3⟩⟩ : Proxies ℝ).velocity held.2.view).toV = fun _ => 0 := by
      funext i
      fin_cases i <;> simp [velocity_toV, held, Isl.view, Mat.toV]
    rw [hz]
    simp [push]
  have hr : r = 0 := Subsingleton.elim _ _
  subst hr
  simp only [hv, at_ofFn, libCfg]
  norm_num

end
end Simu
