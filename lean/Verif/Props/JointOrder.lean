import Verif.Lemmas.JointOrder
import Verif.Props.Equality
import Verif.Props.LibrarySound
/-
C96: a joint acts the same whichever of its two bodies is named first.
-/
namespace Simu
open Mat Island

section
variable {K : Type*} [Field K] [LinearOrder K] [IsStrictOrderedRing K] [Trig K]

omit [LinearOrder K] [IsStrictOrderedRing K] [Trig K] in
theorem CFun.ext' {n : Nat} {f g : CFun K n} (h1 : ∀ p s, f.eval p s = g.eval p s) (h2 : ∀ p s, f.bias p s = g.bias p s) (h3 : ∀ p s, f.jacobian p s = g.jacobian p s)
    (h4 : ∀ l dt, f.clampLambda l dt = g.clampLambda l dt) (h5 : ∀ l, f.clampPositionLambda l = g.clampPositionLambda l) : f = g := by
  cases f; cases g
  simp only [CFun.mk.injEq]
  exact ⟨funext fun p => funext fun s => h1 p s, funext fun p => funext fun s => h2 p s, funext fun p => funext fun s => h3 p s, funext fun l => funext fun dt => h4 l dt, funext h5⟩

omit [IsStrictOrderedRing K] in
theorem hingeFun_reverse (l0 l1 : Vec2 K) : hingeFun l1 l0 = (hingeFun l0 l1).reverse (-1) := by
  refine CFun.ext' (fun p s => ?_) (fun p s => ?_) (fun p s => ?_) (fun l dt => (Mat.smul_smul' l neg_one_twice).symm) (fun l => (Mat.smul_smul' l neg_one_twice).symm)
  · apply ext_at; intro i
    show _ = (Mat.smul (-1) _).at_ i
    rw [at_smul]
    fin_cases i
    · show ((s.pos p.i1).toWorldSpace.app l0 - (s.pos p.i0).toWorldSpace.app l1).x = ((s.pos p.i0).toWorldSpace.app l1 - (s.pos p.i1).toWorldSpace.app l0).x * -1
      rw [Vec2.sub_x, Vec2.sub_x]; ring
    · show ((s.pos p.i1).toWorldSpace.app l0 - (s.pos p.i0).toWorldSpace.app l1).y = ((s.pos p.i0).toWorldSpace.app l1 - (s.pos p.i1).toWorldSpace.app l0).y * -1
      rw [Vec2.sub_y, Vec2.sub_y]; ring
  · exact (Mat.smul_zero _).symm
  · apply ext_get; intro r c
    show _ = (Mat.smul (-1) (Mat.swapSides _)).get r c
    rw [get_smul, get_swapSides]
    fin_cases r <;> fin_cases c
    all_goals
      first
      | (show (-1 : K) = 1 * -1; ring)
      | (show (1 : K) = -1 * -1; ring)
      | (show (0 : K) = 0 * -1; ring)
      | (show -(_ : K) = _ * -1; exact (mul_neg_one _).symm)
      | (show (_ : K) = -_ * -1; exact (by intro x; ring : ∀ x : K, x = -x * -1) _)

omit [IsStrictOrderedRing K] in
theorem rotationFun_reverse (a : K) : rotationFun (-a) = (rotationFun a).reverse (-1) := by
  refine CFun.ext' (fun p s => ?_) (fun p s => ?_) (fun p s => ?_) (fun l dt => (Mat.smul_smul' l neg_one_twice).symm) (fun l => (Mat.smul_smul' l neg_one_twice).symm)
  · apply ext_at; intro i
    show (Mat.sub _ _).at_ i = (Mat.smul (-1) (Mat.sub _ _)).at_ i
    rw [at_smul, at_sub, at_sub]
    fin_cases i
    show ((s.pos p.i1).orient.theta - (s.pos p.i0).orient.theta) - -a = (((s.pos p.i0).orient.theta - (s.pos p.i1).orient.theta) - a) * -1
    ring
  · exact (Mat.smul_zero _).symm
  · apply ext_get; intro r c
    show _ = (Mat.smul (-1) (Mat.swapSides _)).get r c
    rw [get_smul, get_swapSides]
    fin_cases r; fin_cases c
    all_goals
      first
      | (show (-1 : K) = 1 * -1; ring)
      | (show (1 : K) = -1 * -1; ring)
      | (show (0 : K) = 0 * -1; ring)

theorem distanceFun_reverse (l0 l1 : Vec2 K) : distanceFun l1 l0 = (distanceFun l0 l1).reverse 1 := by
  refine CFun.ext' (fun p s => ?_) (fun p s => ?_) (fun p s => ?_) (fun l dt => (Mat.smul_smul' l (one_mul 1)).symm) (fun l => (Mat.smul_smul' l (one_mul 1)).symm)
  · show _ = Mat.smul 1 _
    rw [Mat.smul_one']
    show Mat.ofFn ![((s.pos p.i0).toWorldSpace.app l1 - (s.pos p.i1).toWorldSpace.app l0).normSquared] = Mat.ofFn ![((s.pos p.i1).toWorldSpace.app l0 - (s.pos p.i0).toWorldSpace.app l1).normSquared]
    congr 2
    simp only [Vec2.normSquared, Vec2.dot, Vec2.sub_x, Vec2.sub_y]
    ring
  · exact (Mat.smul_zero _).symm
  · apply ext_get; intro r c
    show _ = (Mat.smul 1 (Mat.swapSides _)).get r c
    rw [Mat.smul_one', get_swapSides, distance_get, distance_get]
    dsimp only
    congr 1
    fin_cases c
    all_goals simp only [Vec2.sub_x, Vec2.sub_y, Vec2.cross, Proxies.swap, otherSide]
    all_goals simp
    all_goals ring

omit [IsStrictOrderedRing K] [Trig K] in
theorem Mat.rows_ext {a b c : Nat} {A B : Mat K (a + b) c} (h1 : ∀ i j, A.get (Fin.castAdd b i) j = B.get (Fin.castAdd b i) j) (h2 : ∀ i j, A.get (Fin.natAdd a i) j = B.get (Fin.natAdd a i) j) : A = B := by
  apply ext_get; intro r j
  refine Fin.addCases (fun i => h1 i j) (fun i => h2 i j) r

/-- A tuple of functions for the two bodies in the other order. -/
theorem stackFun_reverse {a b : Nat} {σ : K} (f : CFun K a) (g : CFun K b) : stackFun (f.reverse σ) (g.reverse σ) = (stackFun f g).reverse σ := by
  have hc : ∀ (l : MVec K (a + b)), (Mat.ofFn fun j => (l.smul σ).at_ (Fin.castAdd b j) : MVec K a) = (Mat.ofFn fun j => l.at_ (Fin.castAdd b j)).smul σ := by
    intro l; apply ext_at; intro i; rw [at_smul, at_ofFn, at_ofFn, at_smul]
  have hd : ∀ (l : MVec K (a + b)), (Mat.ofFn fun j => (l.smul σ).at_ (Fin.natAdd a j) : MVec K b) = (Mat.ofFn fun j => l.at_ (Fin.natAdd a j)).smul σ := by
    intro l; apply ext_at; intro i; rw [at_smul, at_ofFn, at_ofFn, at_smul]
  have vec : ∀ {A B : MVec K (a + b)}, (∀ i, A.at_ (Fin.castAdd b i) = B.at_ (Fin.castAdd b i)) → (∀ i, A.at_ (Fin.natAdd a i) = B.at_ (Fin.natAdd a i)) → A = B := by
    intro A B h1 h2
    apply ext_at; intro r
    exact Fin.addCases (fun i => h1 i) (fun i => h2 i) r
  refine CFun.ext' (fun p s => ?_) (fun p s => ?_) (fun p s => ?_) (fun l dt => ?_) (fun l => ?_)
  · obtain ⟨e1, e2, -⟩ := C50_composite (f.reverse σ) (g.reverse σ) p s
    obtain ⟨e1', e2', -⟩ := C50_composite f g p.swap s
    refine vec (fun i => ?_) (fun i => ?_)
    · rw [e1]; show (Mat.smul σ _).at_ i = (Mat.smul σ _).at_ _; rw [at_smul, at_smul, e1']
    · rw [e2]; show (Mat.smul σ _).at_ i = (Mat.smul σ _).at_ _; rw [at_smul, at_smul, e2']
  · obtain ⟨-, -, e1, e2, -⟩ := C50_composite (f.reverse σ) (g.reverse σ) p s
    obtain ⟨-, -, e1', e2', -⟩ := C50_composite f g p.swap s
    refine vec (fun i => ?_) (fun i => ?_)
    · rw [e1]; show (Mat.smul σ _).at_ i = (Mat.smul σ _).at_ _; rw [at_smul, at_smul, e1']
    · rw [e2]; show (Mat.smul σ _).at_ i = (Mat.smul σ _).at_ _; rw [at_smul, at_smul, e2']
  · obtain ⟨-, -, -, -, e1, e2, -⟩ := C50_composite (f.reverse σ) (g.reverse σ) p s
    obtain ⟨-, -, -, -, e1', e2', -⟩ := C50_composite f g p.swap s
    refine Mat.rows_ext (fun i c => ?_) (fun i c => ?_)
    · rw [e1]; show (Mat.smul σ (Mat.swapSides _)).get i c = (Mat.smul σ (Mat.swapSides _)).get _ c; rw [get_smul, get_smul, get_swapSides, get_swapSides, e1']
    · rw [e2]; show (Mat.smul σ (Mat.swapSides _)).get i c = (Mat.smul σ (Mat.swapSides _)).get _ c; rw [get_smul, get_smul, get_swapSides, get_swapSides, e2']
  · have p : Proxies K := ⟨0, 0, ⟨0, 0, 0, 0⟩⟩
    have s : SolveState K := ⟨fun _ => ⟨⟨0⟩, ⟨0, 0, 0⟩, ⟨0⟩⟩, fun _ => ⟨0, 0⟩⟩
    obtain ⟨-, -, -, -, -, -, e1, e2, -⟩ := C50_composite (f.reverse σ) (g.reverse σ) p s
    obtain ⟨-, -, -, -, -, -, e1', e2', -⟩ := C50_composite f g p s
    refine vec (fun i => ?_) (fun i => ?_)
    · rw [e1]; show (Mat.smul σ _).at_ i = (Mat.smul σ _).at_ _; rw [at_smul, at_smul, e1', hc]
    · rw [e2]; show (Mat.smul σ _).at_ i = (Mat.smul σ _).at_ _; rw [at_smul, at_smul, e2', hd]
  · have p : Proxies K := ⟨0, 0, ⟨0, 0, 0, 0⟩⟩
    have s : SolveState K := ⟨fun _ => ⟨⟨0⟩, ⟨0, 0, 0⟩, ⟨0⟩⟩, fun _ => ⟨0, 0⟩⟩
    obtain ⟨-, -, -, -, -, -, -, -, e1, e2⟩ := C50_composite (f.reverse σ) (g.reverse σ) p s
    obtain ⟨-, -, -, -, -, -, -, -, e1', e2'⟩ := C50_composite f g p s
    refine vec (fun i => ?_) (fun i => ?_)
    · rw [e1]; show (Mat.smul σ _).at_ i = (Mat.smul σ _).at_ _; rw [at_smul, at_smul, e1', hc]
    · rw [e2]; show (Mat.smul σ _).at_ i = (Mat.smul σ _).at_ _; rw [at_smul, at_smul, e2', hd]

/-- C96: the functions of the joints of the library, made for the two bodies in the other order (for a distance the two points change places too), are the reversed functions: differences change sign, distances do not.
`inequalityFun` and tuples of functions keep this. -/
theorem C96_functions (bodies : Nat → Body K) (b : Bodies K) (shared p0 p1 : Vec2 K) :
    hingeFunOf bodies b.swap shared = (hingeFunOf bodies b shared).reverse (-1) ∧ rotationFunOf bodies b.swap = (rotationFunOf bodies b).reverse (-1) ∧
    weldFunOf bodies b.swap = (weldFunOf bodies b).reverse (-1) ∧ distanceFunOf bodies b.swap p1 p0 = (distanceFunOf bodies b p0 p1).reverse 1 ∧
    (∀ (n : Nat) (f : CFun K n), inequalityFun (f.reverse 1) = (inequalityFun f).reverse 1) ∧
    ∀ (n k : Nat) (f : CFun K n) (g : CFun K k) (σ : K), stackFun (f.reverse σ) (g.reverse σ) = (stackFun f g).reverse σ := by
  have hh : ∀ shared, hingeFunOf bodies b.swap shared = (hingeFunOf bodies b shared).reverse (-1) := fun shared => hingeFun_reverse _ _
  have hr : rotationFunOf bodies b.swap = (rotationFunOf bodies b).reverse (-1) := by
    unfold rotationFunOf
    rw [← rotationFun_reverse]
    congr 1
    show (bodies b.i0).position.orient.theta - (bodies b.i1).position.orient.theta = _
    ring
  refine ⟨hh shared, hr, ?_, distanceFun_reverse _ _, fun n f => ?_, fun n k f g σ => stackFun_reverse f g⟩
  · unfold weldFunOf
    rw [hr, hh, stackFun_reverse]
    congr 3
    show ((bodies b.i1).centroid + (bodies b.i0).centroid).sdiv 2 = _
    congr 1
    ext <;> simp [add_comm]
  · refine CFun.ext' (fun p s => rfl) (fun p s => rfl) (fun p s => rfl) (fun l dt => ?_) (fun l => ?_)
    · show maxZero l = (maxZero (l.smul 1)).smul 1
      rw [Mat.smul_one', Mat.smul_one']
    · show maxZero l = (maxZero (l.smul 1)).smul 1
      rw [Mat.smul_one', Mat.smul_one']

omit [IsStrictOrderedRing K] [Trig K] in
/-- C96: the bodies of a constraint made in the other order (with dominances in the other order, if given) are those of the constraint in the other order; the constructor accepts them or not, and bodies are
structural in them or not, just the same. -/
theorem C96_bodies (bodies : Nat → Body K) (i0 i1 : Nat) (d : Option (Vec2 K)) :
    Bodies.make bodies i1 i0 (d.map fun v => ⟨v.y, v.x⟩) = (Bodies.make bodies i0 i1 d).swap ∧
    ∀ b : Bodies K, b.i0 ≠ b.i1 → b.swap.checkConstraint = b.checkConstraint ∧ ∀ i, b.swap.isBodyStructural i = b.isBodyStructural i := by
  refine ⟨by cases d <;> rfl, fun b hb => ⟨?_, Bodies.swap_structural b hb⟩⟩
  unfold Bodies.checkConstraint
  rw [Bodies.swap_structural b hb, Bodies.swap_structural b hb]
  show ((b.isBodyStructural b.i1).bind fun s0 => if b.i1 = b.i0 ∧ s0 = true then .throw else if s0 = true then (b.isBodyStructural b.i0).bind fun s1 => Outcome.check (!s1) else .ok ()) = _
  have h0 : b.isBodyStructural b.i0 = .ok (decide (b.masses.m0 = 0)) := by unfold Bodies.isBodyStructural; rw [if_pos rfl]
  have h1 : b.isBodyStructural b.i1 = .ok (decide (b.masses.m1 = 0)) := by unfold Bodies.isBodyStructural; rw [if_neg (Ne.symm hb), if_pos rfl]
  rw [h0, h1]
  simp only [Outcome.bind_ok, hb, Ne.symm hb, false_and, if_false]
  cases decide (b.masses.m0 = 0) <;> cases decide (b.masses.m1 = 0) <;> rfl

omit [IsStrictOrderedRing K] [Trig K] in
/-- C96: new joints have the state of new joints whichever body comes first (`throw`: the solver of a new joint holds no matrix), and no limit changes. -/
theorem C96_new (d : Nat) (M : Mat K d d) (lower upper : Option (MVec K 1)) :
    (⟨.init, ⟨false, fun _ => .throw⟩⟩ : EqualitySolver K d).reverse = ⟨.init, ⟨false, fun _ => .throw⟩⟩ ∧
    (⟨.init, M⟩ : InequalitySolver K d).reverse = ⟨.init, M⟩ ∧
    ({ LimitsSolver.make with L := lower, U := upper } : LimitsSolver K).reverse = { LimitsSolver.make with L := lower, U := upper } := by
  have hb : ∀ (n : Nat) (σ : K), (SolverBase.init : SolverBase K n).reverse σ = .init := by
    intro n σ
    unfold SolverBase.reverse SolverBase.init
    dsimp only
    rw [Mat.smul_zero]
    congr 1
    apply ext_get; intro r c
    rw [get_smul, get_swapSides, get_zero, get_zero, zero_mul]
  refine ⟨?_, ?_, ?_⟩
  · unfold EqualitySolver.reverse KSolver.reverse; rw [hb]; rfl
  · unfold InequalitySolver.reverse; rw [hb]
  · unfold LimitsSolver.reverse LimitsSolver.make; rw [hb]

omit [IsStrictOrderedRing K] in
/-- C96: every call of a joint with its bodies in the other order has the same outcome: the same exception, or the same positions and velocities. -/
theorem C96_calls (c : CallCfg K) (k : Kind K) (hk : k.Joint) (ph : Phase) (p : Proxies K) (e : k.State) (s : SolveState K) :
    k.reverse.act c ph p.swap (k.reverseState e) s = (k.act c ph p e s).bind fun r => .ok (k.reverseState r.1, r.2) :=
  k.act_reverse c hk ph p e s

/-- C96: a step of a world in which some of the joints were made with their two bodies in the other order: it fails if and as the step of the other world does, and otherwise leaves the same bodies, clocks, contacts
and islands; what reversed joints remember is reversed. -/
theorem C96_step {L : Library K} {J : Nat → Bool} (h : L.CanReverse J) (c : CallCfg K) (cfg : Island.Settings) (sl : Sleep.Settings K) (fields : List (ForceField K)) (tree : List (Nat × Collider K))
    (world : List Nat) (fuel : Nat) (m : Motion L) :
    (m.reverse J).step c cfg sl fields tree world fuel = (m.step c cfg sl fields tree world fuel).map fun r => r.bind fun x => .ok (x.1.reverse J, x.2) := by
  have hE : EndsIn (L.net c) := by
    intro b l hl
    unfold linksOf at hl
    rcases List.mem_append.1 hl with hl | hl
    · obtain ⟨n, hn, rfl⟩ := List.mem_map.1 hl
      exact h.own b n hn
    · obtain ⟨n, hn, rfl⟩ := List.mem_map.1 hl
      exact h.ownContact b n hn
  unfold Motion.step
  rw [show (m.reverse J).body = m.body from rfl]
  cases applyForces fields c.dt tree m.body with
  | throw => rfl
  | ub => rfl
  | ok body =>
    have ht : solveIslands ((L.reverse J).net c) cfg fuel (.of (body 0).position) ⟨0, 0⟩ world ({ m.reverse J with body := body } : Motion (L.reverse J)).start = _ :=
      turned_solveIslands (Library.turned h c) hE cfg fuel (.of (body 0).position) ⟨0, 0⟩ world ({ m with body := body } : Motion L).start
    dsimp only
    rw [ht]
    cases solveIslands (L.net c) cfg fuel (.of (body 0).position) ⟨0, 0⟩ world ({ m with body := body } : Motion L).start with
    | none => rfl
    | some r =>
      cases r with
      | throw => rfl
      | ub => rfl
      | ok x => rfl

/-- C96: any number of steps, whatever happens to the bodies and the contacts between them. -/
theorem C96_steps {L : Library K} {J : Nat → Bool} (h : L.CanReverse J) (rs : List (Round L)) (m : Motion L) :
    (m.reverse J).rounds (rs.map (·.reverse J)) = (m.rounds rs).map fun r => r.bind fun m => .ok (m.reverse J) := by
  induction rs generalizing m with
  | nil => rfl
  | cons r rs ih =>
    unfold Motion.rounds
    rw [List.map_cons]
    dsimp only
    have hr : (m.reverse J).ready (r.reverse J) = (m.ready r).reverse J := by
      unfold Motion.ready Motion.reverse
      congr 1
      funext l
      cases l <;> rfl
    rw [hr]
    have hs := C96_step h r.c r.cfg r.sl r.fields r.tree r.world r.fuel (m.ready r)
    rw [show (r.reverse J).c = r.c from rfl, show (r.reverse J).cfg = r.cfg from rfl, show (r.reverse J).sl = r.sl from rfl, show (r.reverse J).fields = r.fields from rfl,
      show (r.reverse J).tree = r.tree from rfl, show (r.reverse J).world = r.world from rfl, show (r.reverse J).fuel = r.fuel from rfl, hs]
    cases (m.ready r).step r.c r.cfg r.sl r.fields r.tree r.world r.fuel with
    | none => rfl
    | some o =>
      cases o with
      | throw => rfl
      | ub => rfl
      | ok x => exact ih x.1

/-- C96: the positions, the velocities and the sleep of all bodies after any number of steps do not depend on the order in which joints name their bodies. -/
theorem C96_order {L : Library K} {J : Nat → Bool} (h : L.CanReverse J) (rs : List (Round L)) (m : Motion L) :
    ((m.reverse J).rounds (rs.map (·.reverse J))).map (fun r => r.bind fun m => .ok (m.body, m.timeImmobile)) = (m.rounds rs).map fun r => r.bind fun m => .ok (m.body, m.timeImmobile) := by
  rw [C96_steps h]
  cases m.rounds rs with
  | none => rfl
  | some o => cases o <;> rfl

end

/-- A distance between two bodies looks at their positions only, so a distance with limits can be reversed. -/
theorem C96_distance {K : Type*} [Field K] [LinearOrder K] [IsStrictOrderedRing K] [Trig K] (bodies : Nat → Body K) (b : Bodies K) (p0 p1 : Vec2 K) : (Kind.limits (distanceFunOf bodies b p0 p1)).Joint := by
  intro p p' s s' _ h0 h1
  unfold distanceFunOf distanceFun
  dsimp only
  rw [h0, h1]

/-! The world `lib` (C73: a hinge between 1 and 2, a weld between 2 and 3, a mouse holding 4, a contact of 4 and 5): the hinge and the weld can be reversed. -/

theorem lib_canReverse : lib.CanReverse (fun n => n == 0 || n == 1) where
  joint n hn := by
    rcases n with _ | _ | n
    · trivial
    · trivial
    · simp at hn
  two n hn := by
    rcases n with _ | _ | n
    · decide
    · decide
    · simp at hn
  own b n hn := by
    rcases b with _ | _ | _ | _ | _ | _ | b <;> simp [lib] at hn
    all_goals first | (subst hn; simp [lib, libBodies, Bodies.make, Bodies.singleBody]) | (rcases hn with rfl | rfl <;> simp [lib, libBodies, Bodies.make])
  ownContact b n hn := by
    rcases b with _ | _ | _ | _ | _ | _ | b <;> simp [lib] at hn
    all_goals (subst hn; simp [lib, libBodies, Bodies.make])

/-- What the hinge and the weld of the reversed world are: made from 2 and 1, and from 3 and 2. -/
example : (lib.reverse (fun n => n == 0 || n == 1)).bodies (.joint 0) = Bodies.make libBody 2 1 none ∧ (lib.reverse (fun n => n == 0 || n == 1)).bodies (.joint 1) = Bodies.make libBody 3 2 none ∧
    (lib.reverse (fun n => n == 0 || n == 1)).bodies (.contact 0) = lib.bodies (.contact 0) :=
  ⟨((C96_bodies libBody 1 2 none).1).symm, ((C96_bodies libBody 2 3 none).1).symm, rfl⟩

example (rs : List (Round lib)) (m : Motion lib) : ((m.reverse (fun n => n == 0 || n == 1)).rounds (rs.map (·.reverse _))).map (fun r => r.bind fun m => .ok (m.body, m.timeImmobile)) =
    (m.rounds rs).map fun r => r.bind fun m => .ok (m.body, m.timeImmobile) := C96_order lib_canReverse rs m

end Simu
