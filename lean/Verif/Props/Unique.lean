import Verif.Lemmas.UniqueIsland
/-
C103: without friction, what the velocity iterations settle at is unique.
-/
namespace Simu
open Island Mat Contact

section
variable {K : Type*} [Field K] [LinearOrder K] [IsStrictOrderedRing K] [Trig K] {L : Library K} {c : CallCfg K}

/-- C103: velocity iterations that settle, settle at the same velocities, whatever the solvers remember of the last step, with or without warm starting, after
any number of iterations, and in whatever order the constraints are solved. Partial: without friction (`C103_friction_disagreement`) and without dominance
(`C103_dominance_disagreement`). -/
theorem C103_unique_partial {ls ls' : List Link} {n m : Nat} {M : Nat → K × K}
    {x0 y0 x y : St (Pose K) (Velocity K) ((l : Link) → (L.kind l).State) × Isl (Pose K) (Velocity K)} (hperm : ls'.Perm ls)
    (hx0 : Posed L c ls x0) (hy0 : Posed L c ls' y0) (halike : SameIsland L ls x0 y0) (hM : OwnMasses L ls x0.1 M)
    (hplain : AllLinks L x0.1 ls fun l p e => (L.kind l).Plain p e)
    (hx : Reached L c ls n x0 x) (hy : Reached L c ls' m y0 y) (hlx : Laws L c ls x0 x) (hly : Laws L c ls' y0 y) : x.2.vs = y.2.vs := by
  have hmem : ∀ l, l ∈ ls' ↔ l ∈ ls := fun l => hperm.mem_iff
  have hex : ∀ l, ∃ p : Proxies K, l ∈ ls → ∃ ends, x0.1.proxies l = some ends ∧ p = L.proxies l ends := by
    intro l
    by_cases h : l ∈ ls
    · obtain ⟨ends, q, -⟩ := hx0.regular l h
      exact ⟨_, fun _ => ⟨ends, q, rfl⟩⟩
    · exact ⟨L.proxies l (0, 0), fun h' => (h h').elim⟩
  choose P hP using hex
  have tx := hx.tallied hx0 (P := P) (fun l hl => hP l hl)
  have ty := hy.tallied hy0 (P := P) (fun l hl => by rw [halike.proxies]; exact hP l ((hmem l).1 hl))
  have gx := hx.going hx0
  have gy := hy.going hy0
  have hfin : ls'.toFinset = ls.toFinset := by ext l; rw [List.mem_toFinset, List.mem_toFinset, hmem]
  have hps : x.2.view.pos = y.2.view.pos := by
    have h1 : x.2.view.pos = x0.2.view.pos := by show (fun b => (x.2.ps b).1) = _; rw [tx.still]; rfl
    have h2 : y.2.view.pos = y0.2.view.pos := by show (fun b => (y.2.ps b).1) = _; rw [ty.still]; rfl
    rw [h1, h2, halike.bodies]
  have hvs : y0.2.vs = x0.2.vs := congrArg SolveState.vel halike.bodies
  -- the constraints oppose the differences of the velocities
  have hwork : ∀ l ∈ ls, ∑ i, ((L.kind l).given (x.1.s l) i - (L.kind l).given (y.1.s l) i) *
      (((P l).velocity x.2.view).toV i - ((P l).velocity y.2.view).toV i) ≤ 0 := by
    intro l hl
    obtain ⟨ends, q1, q2⟩ := hP l hl
    obtain ⟨e1, r1, s1⟩ := gx l hl
    obtain ⟨e2, r2, s2⟩ := gy l ((hmem l).2 hl)
    obtain ⟨e3, r3, s3⟩ := hlx l hl
    obtain ⟨e4, r4, s4⟩ := hly l ((hmem l).2 hl)
    obtain ⟨e5, r5, s5⟩ := hplain l hl
    rw [tx.proxies] at r1 r3
    rw [ty.proxies, halike.proxies] at r2 r4
    obtain rfl : ends = e1 := Option.some.inj (q1.symm.trans r1)
    obtain rfl : ends = e2 := Option.some.inj (q1.symm.trans r2)
    obtain rfl : ends = e3 := Option.some.inj (q1.symm.trans r3)
    obtain rfl : ends = e4 := Option.some.inj (q1.symm.trans r4)
    obtain rfl : ends = e5 := Option.some.inj (q1.symm.trans r5)
    rw [halike.bodies] at s2 s4
    rw [q2]
    have sx := tx.same l hl
    refine Kind.antitone (L.kind l) s1.1 s1.2 s2.2 (sx.symm.trans ((halike.same l hl).trans (ty.same l ((hmem l).2 hl))))
      (tx.idle l hl) (ty.idle l ((hmem l).2 hl)) (Kind.plain_same sx s5) hps s3 s4
  -- what the impulses change
  have hms : ∀ l ∈ ls, (P l).masses = ⟨(M (P l).i0).1, (M (P l).i0).2, (M (P l).i1).1, (M (P l).i1).2⟩ := by
    intro l hl
    obtain ⟨ends, q1, q2⟩ := hP l hl
    rw [q2]; exact hM l hl ends q1
  have key := no_change ls.toFinset (fun l => (P l).i0) (fun l => (P l).i1) (fun l i => (L.kind l).given (x.1.s l) i - (L.kind l).given (y.1.s l) i)
    (fun i => ![(M i).1, (M i).1, (M i).2]) (fun i q => (x.2.vs i).comp q - (y.2.vs i).comp q)
    (by
      intro l hl q
      have hl := List.mem_toFinset.1 hl
      have hn := hx0.masses l hl
      obtain ⟨ends, q1, q2⟩ := hP l hl
      have h1 := hms l hl
      rw [q2] at h1 ⊢
      have h2 : (L.bodies l).masses = _ := h1
      rw [h2] at hn
      fin_cases q
      · exact ⟨hn.m0, hn.m1⟩
      · exact ⟨hn.m0, hn.m1⟩
      · exact ⟨hn.I0, hn.I1⟩)
    (by
      intro i q
      have hsum : ∀ z : St (Pose K) (Velocity K) ((l : Link) → (L.kind l).State) × Isl (Pose K) (Velocity K),
          (∀ i, z.2.vs i = x0.2.vs i + ∑ l ∈ ls.toFinset, kick (P l) ((L.kind l).given (z.1.s l)) i) →
          (z.2.vs i).comp q = (x0.2.vs i).comp q + ![(M i).1, (M i).1, (M i).2] q * ∑ l ∈ ls.toFinset,
            ((if i = (P l).i0 then (L.kind l).given (z.1.s l) (Fin.castAdd 3 q) else 0) +
              (if i = (P l).i1 then (L.kind l).given (z.1.s l) (Fin.natAdd 3 q) else 0)) := by
        intro z hz
        rw [hz, map_add, map_sum, Pi.add_apply, Finset.sum_apply, Finset.mul_sum]
        congr 1
        exact Finset.sum_congr rfl fun l hl => kick_comp (P l) M (hms l (List.mem_toFinset.1 hl)) _ i q
      have h2 := ty.total
      rw [hfin, hvs] at h2
      show (x.2.vs i).comp q - (y.2.vs i).comp q = _
      rw [hsum x tx.total, hsum y h2, add_sub_add_left_eq_sub, ← mul_sub, ← Finset.sum_sub_distrib]
      congr 1
      refine Finset.sum_congr rfl fun l _ => ?_
      split_ifs <;> ring)
    (by
      intro l hl
      have h := hwork l (List.mem_toFinset.1 hl)
      rw [sum_six] at h
      refine le_of_eq_of_le (Finset.sum_congr rfl fun q _ => ?_) h
      rw [(velocity_comp (P l) x.2.view q).1, (velocity_comp (P l) x.2.view q).2, (velocity_comp (P l) y.2.view q).1, (velocity_comp (P l) y.2.view q).2]
      rfl)
  funext i
  exact Velocity.comp_inj (funext fun q => sub_eq_zero.1 (key i q))

/-- C103: the condition on the functions of constraints holds for all functions of the library. -/
theorem C103_library (p : Proxies K) (s s' : SolveState K) (h : s.pos = s'.pos) :
    (∀ a, (rotationFun a).eval p s = (rotationFun a).eval p s' ∧ (rotationFun a).bias p s = (rotationFun a).bias p s') ∧
    (∀ l0 l1 : Vec2 K, (hingeFun l0 l1).eval p s = (hingeFun l0 l1).eval p s' ∧ (hingeFun l0 l1).bias p s = (hingeFun l0 l1).bias p s') ∧
    (∀ l0 l1 : Vec2 K, (distanceFun l0 l1).eval p s = (distanceFun l0 l1).eval p s' ∧ (distanceFun l0 l1).bias p s = (distanceFun l0 l1).bias p s') ∧
    (∀ bs b, (weldFunOf bs b).eval p s = (weldFunOf bs b).eval p s' ∧ (weldFunOf bs b).bias p s = (weldFunOf bs b).bias p s') ∧
    (∀ {d : Nat} (m : Motor K d) J, (m.toFun J).eval p s = (m.toFun J).eval p s' ∧ (m.toFun J).bias p s = (m.toFun J).bias p s') ∧
    (∀ a q : Vec2 K, (mouseFun a q).eval p s = (mouseFun a q).eval p s' ∧ (mouseFun a q).bias p s = (mouseFun a q).bias p s') ∧
    (∀ {d : Nat} (f : CFun K d), f.eval p s = f.eval p s' ∧ f.bias p s = f.bias p s' →
      (inequalityFun f).eval p s = (inequalityFun f).eval p s' ∧ (inequalityFun f).bias p s = (inequalityFun f).bias p s') := by
  obtain ⟨pos, v⟩ := s
  obtain ⟨pos', v'⟩ := s'
  obtain rfl : pos = pos' := h
  exact ⟨fun _ => ⟨rfl, rfl⟩, fun _ _ => ⟨rfl, rfl⟩, fun _ _ => ⟨rfl, rfl⟩, fun _ _ => ⟨rfl, rfl⟩, fun _ _ => ⟨rfl, rfl⟩, fun _ _ => ⟨rfl, rfl⟩, fun _ h => h⟩

end

/-! ### A rod that slides while it touches the ground -/
section

/-- A body of inverse mass and inertia 1 touches the ground below and to the left of its centroid; friction is 1/2. It remembers the normal impulse `n` and
the impulse `t` of friction of the last step. -/
noncomputable def rodContact (n t : ℝ) : Contact ℝ :=
  { contactSample 1 0 (1 / 2) with
    manifold := ⟨![![⟨-1, -4⟩, 0], ![⟨-1, -3⟩, 0]], 1, ⟨0, 1⟩, 1 / 200, 1⟩
    frame := ⟨1, fun _ c => if c.val < 1 then ⟨-1, -3⟩ else 0, ⟨0, 1⟩, (⟨0, 1⟩ : Vec2 ℝ).perp⟩
    normalLambda := Mat.ofFn ![n, 0]
    tangentLambda := Mat.ofFn ![t, 0] }

noncomputable def rodLib : Library ℝ := ⟨fun _ => .contact, fun _ => ⟨0, 1, ⟨1, 1, 0, 0⟩⟩, fun _ => [], fun _ => [0]⟩

/-- The rod moves to the left along the ground. -/
noncomputable def rodState (n t : ℝ) : St (Pose ℝ) (Velocity ℝ) ((l : Link) → (rodLib.kind l).State) × Isl (Pose ℝ) (Velocity ℝ) :=
  (⟨fun b => ⟨⟨(contactBody b).position, rfl, rfl⟩, 0, false, none⟩, fun _ => some (0, 1), fun _ => rodContact n t, [], []⟩,
   ⟨[0, 1], [], [0], fun i => ⟨(contactBody i).position, rfl, rfl⟩, fun i => if i = 0 then ⟨⟨-9 / 2, 0⟩, 0⟩ else 0, true⟩)

theorem rodFrame_eq (n t n' t' : ℝ) : (rodContact n t).frame = (rodContact n t).manifold.frame
    ![((rodState n' t').2.view.pos 0).toWorldSpace, ((rodState n' t').2.view.pos 1).toWorldSpace] := by
  simp only [Manifold.frame, rodContact, rodState, Isl.view, Frame.mk.injEq, true_and]
  refine ⟨?_, ?_, ?_⟩
  · funext b c
    by_cases h : c.val < 1
    · rw [if_pos h]; refine Eq.trans ?_ (if_pos h).symm
      have : c = 0 := Fin.ext (by simpa using h)
      subst this
      fin_cases b <;> simp [contactBody_app] <;> norm_num
    · rw [if_neg h]; exact (if_neg h).symm
  · simp [contactBody_rot]
  · simp [contactBody_rot]

theorem rod_posed (n t : ℝ) (hn : 0 ≤ n) : Posed rodLib libCfg [.contact 0] (rodState n t) := by
  refine ⟨sqrt_lawful, by norm_num [libCfg], by decide, by decide, fun l _ => ?_, ?_⟩
  · show InvMasses.Nonneg ⟨1, 1, 0, 0⟩
    constructor <;> norm_num
  · intro l _
    refine ⟨(0, 1), rfl, ?_⟩
    show (rodContact n t).frame = _ ∧ _
    have hf := rodFrame_eq n t n t
    refine ⟨hf, Nat.zero_ne_one, Or.inl rfl, ?_, ?_, ?_, ?_⟩
    · show Solvable ((rodContact n t).manifold.frame ![((rodState n t).2.view.pos 0).toWorldSpace, ((rodState n t).2.view.pos 1).toWorldSpace])
        ⟨0, 1, ⟨1, 1, 0, 0⟩⟩
      rw [← hf]
      refine ⟨by norm_num, le_refl _, by norm_num, le_refl _, by norm_num, ?_, fun h => absurd h (by norm_num [rodContact])⟩
      intro h
      have := congrArg Vec2.y h
      simp [rodContact] at this
    · show ((rodContact n t).manifold.frame ![((rodState n t).2.view.pos 0).toWorldSpace, ((rodState n t).2.view.pos 1).toWorldSpace]).tangent ≠ 0
      rw [← hf]
      intro h
      have := congrArg Vec2.x h
      simp [rodContact, Vec2.perp] at this
    · show (0 : ℝ) ≤ 1 / 2
      norm_num
    · intro i
      show (0 : ℝ) ≤ (Mat.ofFn ![n, 0] : MVec ℝ 2).at_ i
      rw [at_ofFn]
      fin_cases i
      · exact hn
      · exact le_refl _

/-- Starting the solve. -/
noncomputable def rodStarted (n t : ℝ) : St (Pose ℝ) (Velocity ℝ) ((l : Link) → (rodLib.kind l).State) × Isl (Pose ℝ) (Velocity ℝ) :=
  ({ (rodState n t).1 with
      s := Function.update (rodState n t).1.s (.contact 0) (Contact.initSolve (rodContact n t) ⟨0, 1, ⟨1, 1, 0, 0⟩⟩ (rodState n t).2.view) }, (rodState n t).2)

theorem rod_init (n t : ℝ) : actAll (rodLib.net libCfg) .initSolve [.contact 0] (rodState n t) = .ok (rodStarted n t) := by
  rw [actAll_library_of (l := .contact 0) (ends := (0, 1)) rfl rfl]
  show actAll _ _ [] _ = _
  rw [actAll, view_back]
  rfl

theorem rod_started (n t : ℝ) :
    (rodStarted n t).1.s (.contact 0) = Contact.initSolve (rodContact n t) ⟨0, 1, ⟨1, 1, 0, 0⟩⟩ (rodState n t).2.view :=
  Function.update_self (β := fun l => (rodLib.kind l).State) (.contact 0) _ (rodState n t).1.s

/-- The speeds of the point of contact. -/
theorem rod_speeds (n t : ℝ) (v : Velocity ℝ) (vel : Nat → Velocity ℝ) (h0 : vel 0 = v) (h1 : vel 1 = 0) :
    (rodContact n t).frame.separationSpeed ⟨0, 1, ⟨1, 1, 0, 0⟩⟩ (rodState n t).2.view.pos vel 0 = v.linear.y - v.angular ∧
    (rodContact n t).frame.slidingSpeed ⟨0, 1, ⟨1, 1, 0, 0⟩⟩ (rodState n t).2.view.pos vel 0 = -(v.linear.x + 4 * v.angular) := by
  have c0 : ((rodState n t).2.view.pos 0).centroid = ⟨0, 1⟩ := (contactState_centroid 0 0).trans (by simp)
  constructor
  · show relativeSpeed _ _ _ _ _ _ _ = _
    simp only [h0, h1, c0]
    simp [relativeSpeed, rodContact, Vec2.dot, pointVelocity]
    ring
  · show relativeSpeed _ _ _ _ _ _ _ = _
    simp only [h0, h1, c0]
    simp [relativeSpeed, rodContact, Vec2.dot, Vec2.perp, pointVelocity]
    norm_num

/-- The law of the contact when the rod moves with the velocity `v`. -/
theorem rod_law (n t : ℝ) (e : Contact ℝ) (s : SolveState ℝ) (hm : e.manifold = (rodContact n t).manifold) (hr : e.restitution = 0)
    (hf : e.friction = 1 / 2) (h1 : s.vel 1 = 0)
    (hb : Best {m : ℝ | 0 ≤ m} (e.normalLambda.at_ 0) ((s.vel 0).linear.y - (s.vel 0).angular))
    (hb' : Best {m : ℝ | |m| ≤ 1 / 2 * e.normalLambda.at_ 0} (e.tangentLambda.at_ 0) (-((s.vel 0).linear.x + 4 * (s.vel 0).angular))) :
    (Kind.contact : Kind ℝ).Law libCfg ⟨0, 1, ⟨1, 1, 0, 0⟩⟩ (rodState n t).2.view s e := by
  have hfr : e.manifold.frame ![((rodState n t).2.view.pos 0).toWorldSpace, ((rodState n t).2.view.pos 1).toWorldSpace] = (rodContact n t).frame := by
    rw [hm, ← rodFrame_eq]
  simp only [Kind.Law]
  rw [hfr, hf, hr]
  intro i hi
  have : i = 0 := Fin.ext (by simpa [rodContact] using hi)
  subst this
  obtain ⟨a, b⟩ := rod_speeds n t _ s.vel rfl h1
  obtain ⟨a0, -⟩ := rod_speeds n t _ (rodState n t).2.view.vel rfl rfl
  rw [a, b, a0]
  have : requested (0 : ℝ) (((rodState n t).2.view.vel 0).linear.y - ((rodState n t).2.view.vel 0).angular) = 0 := by
    unfold requested; split_ifs <;> simp
  rw [this, sub_zero]
  exact ⟨hb, hb'⟩

/-- C103, disagreement: with friction the velocities depend on what is remembered of the last step. The rod slides on when it remembers nothing, as its contact
bears no load; when it remembers the impulses of a rod that was held at the contact, then it is held. Both are final: no further iteration changes anything. -/
theorem C103_friction_disagreement :
    ∃ (L : Library ℝ) (x0 y0 x y : St (Pose ℝ) (Velocity ℝ) ((l : Link) → (L.kind l).State) × Isl (Pose ℝ) (Velocity ℝ)) (M : Nat → ℝ × ℝ),
      Posed L libCfg [.contact 0] x0 ∧ Posed L libCfg [.contact 0] y0 ∧ SameIsland L [.contact 0] x0 y0 ∧ OwnMasses L [.contact 0] x0.1 M ∧
      Reached L libCfg [.contact 0] 0 x0 x ∧ Reached L libCfg [.contact 0] 0 y0 y ∧ Laws L libCfg [.contact 0] x0 x ∧ Laws L libCfg [.contact 0] y0 y ∧
      (x.2.vs 0).linear.x = -9 / 2 ∧ (x.2.vs 0).angular = 0 ∧ (y.2.vs 0).linear.x = -4 ∧ (y.2.vs 0).angular = 1 := by
  set p : Proxies ℝ := ⟨0, 1, ⟨1, 1, 0, 0⟩⟩ with hp
  have k0 := Contact.initSolve_keeps (rodContact 0 0) p (rodState 0 0).2.view
  have k1 := Contact.initSolve_keeps (rodContact 1 (-1 / 2)) p (rodState 1 (-1 / 2)).2.view
  have hx : Reached rodLib libCfg [.contact 0] 0 (rodState 0 0) (rodStarted 0 0) := ⟨_, _, rod_init 0 0, Or.inl rfl, rfl⟩
  obtain ⟨e, s, hw⟩ : ∃ e s, (Contact.initSolve (rodContact 1 (-1 / 2)) p (rodState 1 (-1 / 2)).2.view).warmstart p (rodState 1 (-1 / 2)).2.view = (e, s) := ⟨_, _, rfl⟩
  set y : St (Pose ℝ) (Velocity ℝ) ((l : Link) → (rodLib.kind l).State) × Isl (Pose ℝ) (Velocity ℝ) :=
    ({ (rodStarted 1 (-1 / 2)).1 with s := Function.update (rodStarted 1 (-1 / 2)).1.s (.contact 0) e },
      { (rodStarted 1 (-1 / 2)).2 with ps := fun i => Pose.of (s.pos i), vs := s.vel }) with hy
  have hyr : Reached rodLib libCfg [.contact 0] 0 (rodState 1 (-1 / 2)) y := by
    refine ⟨_, y, rod_init _ _, Or.inr ?_, rfl⟩
    rw [actAll_library_of (L := rodLib) (c := libCfg) (x := rodStarted 1 (-1 / 2)) (l := .contact 0) (ends := (0, 1)) (e' := e) (s' := s) rfl ?_]
    · rfl
    · show Outcome.ok (Contact.warmstart ((rodStarted 1 (-1 / 2)).1.s (.contact 0)) _ _) = _
      rw [rod_started]
      exact congrArg _ hw
  have hen : e.normalLambda = (rodContact 1 (-1 / 2)).normalLambda := by
    have : (Contact.initSolve (rodContact 1 (-1 / 2)) p (rodState 1 (-1 / 2)).2.view).previousNormalLambda = (rodContact 1 (-1 / 2)).normalLambda :=
      (computeKs_eq ((rodContact 1 (-1 / 2)).computeJacobians p (rodState 1 (-1 / 2)).2.view true) p true).2.2.2.2.2.1
    rw [← this]; cases hw; rfl
  have het : e.tangentLambda = (rodContact 1 (-1 / 2)).tangentLambda := by
    have : (Contact.initSolve (rodContact 1 (-1 / 2)) p (rodState 1 (-1 / 2)).2.view).previousTangentLambda = (rodContact 1 (-1 / 2)).tangentLambda :=
      (computeKs_eq ((rodContact 1 (-1 / 2)).computeJacobians p (rodState 1 (-1 / 2)).2.view true) p true).2.2.2.2.1
    rw [← this]; cases hw; rfl
  -- velocities after the warm start
  have hpy := rod_posed 1 (-1 / 2) (by norm_num)
  have ty := hyr.tallied hpy (P := fun _ => p) (fun l hl => ⟨(0, 1), rfl, rfl⟩)
  have hgo := hyr.going hpy (.contact 0) List.mem_cons_self
  have hey : y.1.s (.contact 0) = e := Function.update_self (β := fun l => (rodLib.kind l).State) (.contact 0) e (rodStarted 1 (-1 / 2)).1.s
  have hv : ∀ i, y.2.vs i = (if i = 0 then ⟨⟨-9 / 2, 0⟩, 0⟩ else 0) + kick p (totalImpulse e) i := by
    intro i
    have h := ty.total i
    rw [show ([Link.contact 0] : List Link).toFinset = {Link.contact 0} from rfl, Finset.sum_singleton, hey] at h
    exact h
  obtain ⟨ends, q1, -, q2⟩ := hgo
  obtain rfl : (0, 1) = ends := Option.some.inj q1
  rw [hey] at q2
  have hkeep : e.manifold = (rodContact 1 (-1 / 2)).manifold ∧ e.restitution = 0 ∧ e.friction = 1 / 2 := by
    cases hw
    exact ⟨k1.1, k1.2.2.1.trans rfl, k1.2.2.2.1.trans rfl⟩
  have hready : Contact.Ready p (rodContact 1 (-1 / 2)).frame (rodState 1 (-1 / 2)).2.view.pos e := by
    have h := Contact.PreparedAt.ready q2
    rw [hkeep.1] at h
    rw [rodFrame_eq 1 (-1 / 2) 1 (-1 / 2)]
    exact h
  have himp := hready.totalImpulse_eq
  have c0 : ((rodState 1 (-1 / 2)).2.view.pos p.i0).centroid = ⟨0, 1⟩ := (contactState_centroid 0 0).trans (by simp)
  have hln : e.normalLambda.toV 0 = 1 := by rw [hen]; simp [rodContact, toV, at_ofFn]
  have hlt : e.tangentLambda.toV 0 = -1 / 2 := by rw [het]; simp [rodContact, toV, at_ofFn]
  have hi0 : totalImpulse e 0 = 1 / 2 := by
    rw [himp]
    simp only [Frame.impulse, Fin.sum_univ_two, c0, hln, hlt]
    norm_num [rodContact, pairImpulse, Vec2.perp]
  have hi1 : totalImpulse e 1 = 1 := by
    rw [himp]
    simp only [Frame.impulse, Fin.sum_univ_two, c0, hln, hlt]
    norm_num [rodContact, pairImpulse, Vec2.perp]
  have hi2 : totalImpulse e 2 = 1 := by
    rw [himp]
    simp only [Frame.impulse, Fin.sum_univ_two, c0, hln, hlt]
    norm_num [rodContact, pairImpulse, Vec2.perp, Vec2.cross, show (2 : Fin 6) = ⟨2, by decide⟩ from rfl]
    show (-1 : ℝ) + -(1 / 2 * -4) = 1
    norm_num
  have hv0 : y.2.vs 0 = ⟨⟨-4, 1⟩, 1⟩ := by
    rw [hv, kick, hi0, hi1, hi2]
    ext <;> norm_num [hp]
  have hv1 : y.2.vs 1 = 0 := by
    rw [hv, kick]
    ext <;> norm_num [hp]
  refine ⟨rodLib, rodState 0 0, rodState 1 (-1 / 2), rodStarted 0 0, y, fun i => if i = 0 then (1, 1) else (0, 0), rod_posed 0 0 (le_refl _), hpy,
    ⟨rfl, rfl, fun l _ => ⟨rfl, rfl, rfl⟩⟩, ?_, hx, hyr, ?_, ?_, rfl, rfl, by rw [hv0], by rw [hv0]⟩
  · intro l _ ends h
    obtain rfl := Option.some.inj h
    rfl
  · intro l hl
    rw [List.mem_singleton] at hl
    subst hl
    refine ⟨(0, 1), rfl, ?_⟩
    rw [rod_started]
    refine rod_law 0 0 _ _ k0.1 (k0.2.2.1.trans rfl) (k0.2.2.2.1.trans rfl) rfl ?_ ?_
    · rw [k0.2.2.2.2.2.1, at_zero]
      show Best _ _ ((0 : ℝ) - 0)
      rw [sub_zero]
      exact ⟨le_refl (0 : ℝ), fun m hm => by simp⟩
    · rw [k0.2.2.2.2.2.1, k0.2.2.2.2.2.2, at_zero, mul_zero]
      refine ⟨by simp, fun m hm => ?_⟩
      have : m = 0 := abs_eq_zero.1 (le_antisymm hm (abs_nonneg _))
      simp [this]
  · intro l hl
    rw [List.mem_singleton] at hl
    subst hl
    refine ⟨(0, 1), rfl, ?_⟩
    rw [hey]
    have e0 : y.2.view.vel 0 = ⟨⟨-4, 1⟩, 1⟩ := hv0
    refine rod_law 1 (-1 / 2) _ _ hkeep.1 hkeep.2.1 hkeep.2.2 hv1 ?_ ?_
    · rw [e0]
      rw [show e.normalLambda.at_ 0 = 1 from hln]
      exact ⟨by norm_num, fun m hm => by norm_num⟩
    · rw [e0]
      rw [show e.normalLambda.at_ 0 = 1 from hln, show e.tangentLambda.at_ 0 = -1 / 2 from hlt]
      refine ⟨?_, fun m hm => by norm_num⟩
      show |(-1 / 2 : ℝ)| ≤ 1 / 2 * 1
      rw [abs_le]; constructor <;> norm_num

end

/-! ### Two bodies of which each dominates the other in one of their constraints -/
section

/-- Bodies of mass and inertia 1 with the centroid at their origin, at `(i, 0)`. -/
noncomputable def gearBody (i : Nat) : Body ℝ := ⟨.make ⟨i, 0⟩ 0 ⟨0, 0⟩, 0, 0, ⟨[], ⟨1, 1, ⟨0, 0⟩⟩⟩, 1, false, true⟩

/-- `a` times the velocity of the first body to the right and `b` times that of the second one is not negative. -/
noncomputable def gearFun (a b : ℝ) : CFun ℝ 1 := inequalityFun ⟨fun _ _ => Mat.zero, fun _ _ => Mat.zero, fun _ _ => ⟨![a, 0, 0, b, 0, 0]⟩, fun l _ => l, fun l => l⟩

noncomputable def gearLib : Library ℝ where
  kind := fun
    | .joint 0 => .inequality 1 (gearFun 1 (-2))
    | .joint _ => .inequality 1 (gearFun (-2) 1)
    | .contact _ => .contact
  bodies := fun
    | .joint 0 => Bodies.make gearBody 0 1 (some ⟨1, 0⟩)
    | _ => Bodies.make gearBody 0 1 (some ⟨0, 1⟩)
  joints := fun _ => [0, 1]
  contacts := fun _ => []

theorem gear_masses : (gearLib.bodies (.joint 0)).masses = ⟨1, 1, 0, 0⟩ ∧ (gearLib.bodies (.joint 1)).masses = ⟨0, 0, 1, 1⟩ := by
  constructor <;> simp [gearLib, Bodies.make, Body.invMass, Body.invInertia, Body.mass, Body.inertia, gearBody]

/-- A solver that remembers the impulse `l`. -/
noncomputable def gearSolver (l : ℝ) : InequalitySolver ℝ 1 := ⟨{ SolverBase.init with lambda := Mat.ofFn fun _ => l }, Mat.zero⟩

/-- Both bodies move to the left. -/
noncomputable def gearState (l : ℝ) : St (Pose ℝ) (Velocity ℝ) ((l : Link) → (gearLib.kind l).State) × Isl (Pose ℝ) (Velocity ℝ) :=
  (⟨fun b => ⟨⟨(gearBody b).position, rfl, rfl⟩, 0, false, none⟩, fun _ => some (0, 1), fun
      | .joint 0 => gearSolver l
      | .joint (_ + 1) => gearSolver l
      | .contact _ => rodContact 0 0, [], []⟩,
   ⟨[0, 1], [0, 1], [], fun i => ⟨(gearBody i).position, rfl, rfl⟩, fun _ => ⟨⟨-1, 0⟩, 0⟩, true⟩)

theorem gear_regular {a b : ℝ} {m : InvMasses ℝ} (h : 0 < m.m0 * a * a + m.m1 * b * b) (s : SolveState ℝ) (l : ℝ) :
    (Kind.inequality 1 (gearFun a b)).Regular libCfg ⟨0, 1, m⟩ s (gearSolver l) := by
  refine ⟨⟨fun _ x => max x 0, fun r => maxZero_projection, fun v r => maxZero_at v r⟩, ?_⟩
  have h00 : (effectiveMass ⟨0, 1, m⟩ ((gearFun a b).jacobian ⟨0, 1, m⟩ s) (gearSolver l).base.damping).get 0 0 = m.m0 * a * a + m.m1 * b * b := by
    have hq := effectiveMass_quadratic ⟨0, 1, m⟩ ((gearFun a b).jacobian ⟨0, 1, m⟩ s) (gearSolver l).base.damping (Mat.ofFn fun _ => 1)
    obtain ⟨v0, v1, v2, v3, v4, v5⟩ := invMassVec_at (⟨0, 1, m⟩ : Proxies ℝ)
    have g0 : ((gearFun a b).jacobian ⟨0, 1, m⟩ s).get 0 0 = a := rfl
    have g1 : ((gearFun a b).jacobian ⟨0, 1, m⟩ s).get 0 1 = 0 := rfl
    have g2 : ((gearFun a b).jacobian ⟨0, 1, m⟩ s).get 0 2 = 0 := rfl
    have g3 : ((gearFun a b).jacobian ⟨0, 1, m⟩ s).get 0 3 = b := rfl
    have g4 : ((gearFun a b).jacobian ⟨0, 1, m⟩ s).get 0 4 = 0 := rfl
    have g5 : ((gearFun a b).jacobian ⟨0, 1, m⟩ s).get 0 5 = 0 := rfl
    have hd : (gearSolver l).base.damping = Mat.zero := rfl
    simp only [Fin.sum_univ_six, Fin.sum_univ_one, at_mul, at_ofFn, toV, pull, v0, v1, v2, v3, v4, v5, g0, g1, g2, g3, g4, g5, hd, at_zero] at hq
    rw [hd]
    linarith
  refine ⟨?_, fun x hx => ?_⟩
  · ext i j
    rw [Subsingleton.elim i j]; rfl
  · have hx0 : x 0 ≠ 0 := fun h => hx (funext fun i => by rw [Subsingleton.elim i 0, h]; rfl)
    simp only [dotProduct, Matrix.mulVec, Fin.sum_univ_one]
    have : (effectiveMass ⟨0, 1, m⟩ ((gearFun a b).jacobian ⟨0, 1, m⟩ s) (gearSolver l).base.damping).toM 0 0 = m.m0 * a * a + m.m1 * b * b := h00
    rw [this]
    have := mul_pos h (mul_self_pos.2 hx0)
    linarith

theorem gear_posed (l : ℝ) : Posed gearLib libCfg [.joint 0, .joint 1] (gearState l) := by
  refine ⟨sqrt_lawful, by norm_num [libCfg], by decide, by decide, fun k hk => ?_, ?_⟩
  · simp only [List.mem_cons, List.not_mem_nil, or_false] at hk
    rcases hk with rfl | rfl
    · rw [gear_masses.1]; constructor <;> norm_num
    · rw [gear_masses.2]; constructor <;> norm_num
  · intro k hk
    simp only [List.mem_cons, List.not_mem_nil, or_false] at hk
    rcases hk with rfl | rfl
    · refine ⟨(0, 1), rfl, ?_⟩
      rw [Library.proxies, gear_masses.1]
      exact gear_regular (by norm_num) _ _
    · refine ⟨(0, 1), rfl, ?_⟩
      rw [Library.proxies, gear_masses.2]
      exact gear_regular (by norm_num) _ _

theorem gear_init (l : ℝ) : ∃ x, actAll (gearLib.net libCfg) .initSolve [.joint 0, .joint 1] (gearState l) = .ok x ∧ x.2 = (gearState l).2 ∧
    x.1.proxies = (gearState l).1.proxies ∧
    x.1.s (.joint 0) = (gearSolver l).initSolve ⟨0, 1, ⟨1, 1, 0, 0⟩⟩ (gearFun 1 (-2)) (gearState l).2.view ∧
    x.1.s (.joint 1) = (gearSolver l).initSolve ⟨0, 1, ⟨0, 0, 1, 1⟩⟩ (gearFun (-2) 1) (gearState l).2.view := by
  have p0 : gearLib.proxies (.joint 0) (0, 1) = ⟨0, 1, ⟨1, 1, 0, 0⟩⟩ := by rw [Library.proxies, gear_masses.1]
  have p1 : gearLib.proxies (.joint 1) (0, 1) = ⟨0, 1, ⟨0, 0, 1, 1⟩⟩ := by rw [Library.proxies, gear_masses.2]
  rw [actAll_library_of (l := .joint 0) (ends := (0, 1)) rfl rfl, view_back, actAll_library_of (l := .joint 1) (ends := (0, 1)) rfl rfl, view_back]
  refine ⟨_, rfl, rfl, rfl, ?_, ?_⟩
  · rw [← p0]; rfl
  · rw [← p1]; rfl

theorem gear_warm (x : St (Pose ℝ) (Velocity ℝ) ((l : Link) → (gearLib.kind l).State) × Isl (Pose ℝ) (Velocity ℝ))
    (h : x.1.proxies = (gearState 1).1.proxies) : ∃ y, actAll (gearLib.net libCfg) .warmstart [.joint 0, .joint 1] x = .ok y ∧
    (∃ s, y.1.s (.joint 0) = (InequalitySolver.warmstart (x.1.s (.joint 0)) ⟨0, 1, ⟨1, 1, 0, 0⟩⟩ (gearFun 1 (-2)) libCfg.dt s).1) ∧
    ∃ s, y.1.s (.joint 1) = (InequalitySolver.warmstart (x.1.s (.joint 1)) ⟨0, 1, ⟨0, 0, 1, 1⟩⟩ (gearFun (-2) 1) libCfg.dt s).1 := by
  have p0 : gearLib.proxies (.joint 0) (0, 1) = ⟨0, 1, ⟨1, 1, 0, 0⟩⟩ := by rw [Library.proxies, gear_masses.1]
  have p1 : gearLib.proxies (.joint 1) (0, 1) = ⟨0, 1, ⟨0, 0, 1, 1⟩⟩ := by rw [Library.proxies, gear_masses.2]
  obtain ⟨⟨b, p, s⟩, isl⟩ := x
  simp only at h
  subst h
  rw [actAll_library_of (l := .joint 0) (ends := (0, 1)) rfl rfl, actAll_library_of (l := .joint 1) (ends := (0, 1)) rfl rfl]
  let s' := (InequalitySolver.warmstart (s (.joint 0)) (gearLib.proxies (.joint 0) (0, 1)) (gearFun 1 (-2)) libCfg.dt isl.view).2
  refine ⟨_, rfl, ⟨isl.view, ?_⟩, ⟨{ isl with ps := fun i => Pose.of (s'.pos i), vs := s'.vel : Isl (Pose ℝ) (Velocity ℝ) }.view, ?_⟩⟩
  · rw [← p0]; rfl
  · rw [← p1]; rfl

theorem gear_law {a b : ℝ} {m : InvMasses ℝ} (e : InequalitySolver ℝ 1) (s0 s : SolveState ℝ) (hl : 0 ≤ e.base.lambda.at_ 0)
    (hu : 0 ≤ a * (s.vel 0).linear.x + b * (s.vel 1).linear.x) (hz : e.base.lambda.at_ 0 * (a * (s.vel 0).linear.x + b * (s.vel 1).linear.x) = 0) :
    (Kind.inequality 1 (gearFun a b)).Law libCfg ⟨0, 1, m⟩ s0 s e := by
  refine (C102_inequality_partial (fun l r => by rw [max_comm]; exact maxZero_at l r) _ _ _ _).2 fun r => ?_
  have hr : r = 0 := Subsingleton.elim _ _
  subst hr
  have hv : push ((gearFun a b).jacobian ⟨0, 1, m⟩ s0) ((⟨0, 1, m⟩ : Proxies ℝ).velocity s).toV 0 = a * (s.vel 0).linear.x + b * (s.vel 1).linear.x := by
    have g0 : ((gearFun a b).jacobian ⟨0, 1, m⟩ s0).get 0 0 = a := rfl
    have g1 : ((gearFun a b).jacobian ⟨0, 1, m⟩ s0).get 0 1 = 0 := rfl
    have g2 : ((gearFun a b).jacobian ⟨0, 1, m⟩ s0).get 0 2 = 0 := rfl
    have g3 : ((gearFun a b).jacobian ⟨0, 1, m⟩ s0).get 0 3 = b := rfl
    have g4 : ((gearFun a b).jacobian ⟨0, 1, m⟩ s0).get 0 4 = 0 := rfl
    have g5 : ((gearFun a b).jacobian ⟨0, 1, m⟩ s0).get 0 5 = 0 := rfl
    have v0 := (velocity_comp (⟨0, 1, m⟩ : Proxies ℝ) s 0).1
    have v3 := (velocity_comp (⟨0, 1, m⟩ : Proxies ℝ) s 0).2
    simp only [push, Fin.sum_univ_six, g0, g1, g2, g3, g4, g5, zero_mul, add_zero]
    exact congrArg₂ (fun x y => a * x + b * y) v0 v3
  have hb : ((gearFun a b).bias ⟨0, 1, m⟩ s).at_ 0 = 0 := at_zero 0
  have he : ((gearFun a b).eval ⟨0, 1, m⟩ s).at_ 0 = 0 := at_zero 0
  simp only [hv, hb, he, mul_zero, zero_div, add_zero]
  exact ⟨hl, hu, hz⟩

/-- C103, disagreement: with dominance the velocities depend on what is remembered of the last step. Each body ignores what the other constraint does to it; both
states are final. -/
theorem C103_dominance_disagreement :
    ∃ (L : Library ℝ) (x0 y0 x y : St (Pose ℝ) (Velocity ℝ) ((l : Link) → (L.kind l).State) × Isl (Pose ℝ) (Velocity ℝ)),
      Posed L libCfg [.joint 0, .joint 1] x0 ∧ Posed L libCfg [.joint 0, .joint 1] y0 ∧ SameIsland L [.joint 0, .joint 1] x0 y0 ∧
      (AllLinks L x0.1 [.joint 0, .joint 1] fun l p e => (L.kind l).Plain p e) ∧
      Reached L libCfg [.joint 0, .joint 1] 0 x0 x ∧ Reached L libCfg [.joint 0, .joint 1] 0 y0 y ∧
      Laws L libCfg [.joint 0, .joint 1] x0 x ∧ Laws L libCfg [.joint 0, .joint 1] y0 y ∧
      (∀ i, (x.2.vs i).linear.x = -1) ∧ (y.2.vs 0).linear.x = 0 ∧ (y.2.vs 1).linear.x = 0 := by
  obtain ⟨x, hx, x1, x2, x3, x4⟩ := gear_init 0
  obtain ⟨y1, hy1, y11, y12, y13, y14⟩ := gear_init 1
  obtain ⟨y, hy, ⟨s1, y3⟩, ⟨s2, y4⟩⟩ := gear_warm y1 y12
  have rx : Reached gearLib libCfg [.joint 0, .joint 1] 0 (gearState 0) x := ⟨x, x, hx, Or.inl rfl, rfl⟩
  have ry : Reached gearLib libCfg [.joint 0, .joint 1] 0 (gearState 1) y := ⟨y1, y, hy1, Or.inr hy, rfl⟩
  rw [y13] at y3
  rw [y14] at y4
  have p0 : gearLib.proxies (.joint 0) (0, 1) = ⟨0, 1, ⟨1, 1, 0, 0⟩⟩ := by rw [Library.proxies, gear_masses.1]
  have p1 : gearLib.proxies (.joint 1) (0, 1) = ⟨0, 1, ⟨0, 0, 1, 1⟩⟩ := by rw [Library.proxies, gear_masses.2]
  have lam : ∀ (a b : ℝ) (m : InvMasses ℝ) (s0 s : SolveState ℝ),
      (((gearSolver 1).initSolve ⟨0, 1, m⟩ (gearFun a b) s0).warmstart ⟨0, 1, m⟩ (gearFun a b) libCfg.dt s).1.base.lambda.at_ 0 = 1 := by
    intro a b m s0 s
    show (maxZero ((Mat.zero : MVec ℝ 1).add (Mat.ofFn fun _ => 1))).at_ 0 = 1
    rw [maxZero_at, at_add, at_zero, at_ofFn]; norm_num
  have given : ∀ (a b : ℝ) (m : InvMasses ℝ) (s0 s : SolveState ℝ),
      (Kind.inequality 1 (gearFun a b)).given (((gearSolver 1).initSolve ⟨0, 1, m⟩ (gearFun a b) s0).warmstart ⟨0, 1, m⟩ (gearFun a b) libCfg.dt s).1 =
        ![a, 0, 0, b, 0, 0] := by
    intro a b m s0 s
    funext i
    show pull _ _ i = _
    rw [pull, Fin.sum_univ_one, toV, lam, mul_one]
    fin_cases i <;> rfl
  have ty := ry.tallied (gear_posed 1) (P := fun l => gearLib.proxies l (0, 1)) (fun l _ => ⟨(0, 1), rfl, rfl⟩)
  have hv : ∀ i, y.2.vs i = ⟨⟨-1, 0⟩, 0⟩ + (kick ⟨0, 1, ⟨1, 1, 0, 0⟩⟩ ![1, 0, 0, -2, 0, 0] i + kick ⟨0, 1, ⟨0, 0, 1, 1⟩⟩ ![-2, 0, 0, 1, 0, 0] i) := by
    intro i
    have h := ty.total i
    rw [show ([Link.joint 0, Link.joint 1] : List Link).toFinset = {Link.joint 0, Link.joint 1} from rfl, Finset.sum_pair (by decide), y3, y4] at h
    rw [h]
    have g0 : kick (gearLib.proxies (.joint 0) (0, 1)) ((gearLib.kind (.joint 0)).given
        (((gearSolver 1).initSolve ⟨0, 1, ⟨1, 1, 0, 0⟩⟩ (gearFun 1 (-2)) (gearState 1).2.view).warmstart ⟨0, 1, ⟨1, 1, 0, 0⟩⟩ (gearFun 1 (-2)) libCfg.dt s1).1) i =
        kick ⟨0, 1, ⟨1, 1, 0, 0⟩⟩ ![1, 0, 0, -2, 0, 0] i := by
      rw [p0]; exact congrArg (fun P => kick _ P i) (given _ _ _ _ _)
    have g1 : kick (gearLib.proxies (.joint 1) (0, 1)) ((gearLib.kind (.joint 1)).given
        (((gearSolver 1).initSolve ⟨0, 1, ⟨0, 0, 1, 1⟩⟩ (gearFun (-2) 1) (gearState 1).2.view).warmstart ⟨0, 1, ⟨0, 0, 1, 1⟩⟩ (gearFun (-2) 1) libCfg.dt s2).1) i =
        kick ⟨0, 1, ⟨0, 0, 1, 1⟩⟩ ![-2, 0, 0, 1, 0, 0] i := by
      rw [p1]; exact congrArg (fun P => kick _ P i) (given _ _ _ _ _)
    rw [g0, g1]
    rfl
  have hv0 : (y.2.vs 0).linear.x = 0 := by
    rw [hv]; norm_num [kick]
  have hv1 : (y.2.vs 1).linear.x = 0 := by
    have h3 : (![-2, 0, 0, 1, 0, 0] : Fin 6 → ℝ) 3 = 1 := rfl
    rw [hv]; norm_num [kick, h3]
  have hvx : ∀ i, (x.2.vs i).linear.x = -1 := fun i => by rw [x1]; rfl
  refine ⟨gearLib, gearState 0, gearState 1, x, y, gear_posed 0, gear_posed 1, ⟨rfl, rfl, ?_⟩, ?_, rx, ry, ?_, ?_, hvx, hv0, hv1⟩
  · intro l hl
    simp only [List.mem_cons, List.not_mem_nil, or_false] at hl
    rcases hl with rfl | rfl
    · show SolverBase.restitution _ = SolverBase.restitution _
      rfl
    · show SolverBase.restitution _ = SolverBase.restitution _
      rfl
  · intro l hl
    simp only [List.mem_cons, List.not_mem_nil, or_false] at hl
    rcases hl with rfl | rfl
    · exact ⟨(0, 1), rfl, fun s s' _ => ⟨rfl, rfl⟩⟩
    · exact ⟨(0, 1), rfl, fun s s' _ => ⟨rfl, rfl⟩⟩
  · intro l hl
    simp only [List.mem_cons, List.not_mem_nil, or_false] at hl
    have e0 : (x.2.view.vel 0).linear.x = -1 := hvx 0
    have e1 : (x.2.view.vel 1).linear.x = -1 := hvx 1
    rcases hl with rfl | rfl
    · refine ⟨(0, 1), by rw [x2]; rfl, ?_⟩
      rw [p0, x3]
      refine gear_law _ _ _ (le_of_eq (at_zero 0).symm) ?_ ?_
      · rw [e0, e1]; norm_num
      · rw [show InequalitySolver.base _ = _ from rfl]
        exact mul_eq_zero_of_left (at_zero 0) _
    · refine ⟨(0, 1), by rw [x2]; rfl, ?_⟩
      rw [p1, x4]
      refine gear_law _ _ _ (le_of_eq (at_zero 0).symm) ?_ ?_
      · rw [e0, e1]; norm_num
      · exact mul_eq_zero_of_left (at_zero 0) _
  · intro l hl
    simp only [List.mem_cons, List.not_mem_nil, or_false] at hl
    have e0 : (y.2.view.vel 0).linear.x = 0 := hv0
    have e1 : (y.2.view.vel 1).linear.x = 0 := hv1
    rcases hl with rfl | rfl
    · refine ⟨(0, 1), by rw [ty.proxies]; rfl, ?_⟩
      rw [p0, y3]
      refine gear_law _ _ _ ?_ ?_ ?_
      · rw [lam]; norm_num
      · rw [e0, e1]; norm_num
      · rw [e0, e1]; norm_num
    · refine ⟨(0, 1), by rw [ty.proxies]; rfl, ?_⟩
      rw [p1, y4]
      refine gear_law _ _ _ ?_ ?_ ?_
      · rw [lam]; norm_num
      · rw [e0, e1]; norm_num
      · rw [e0, e1]; norm_num

end

/-! ### The hinge of `lib`, new, and as it was left by another step -/
section

/-- The solver of the hinge with the impulse `(a, b)` of the last step. -/
noncomputable def hingeSolver (a b : ℝ) : EqualitySolver ℝ 2 := ⟨{ SolverBase.init with lambda := Mat.ofFn ![a, b] }, ⟨false, fun _ => .throw⟩⟩

/-- The island of 1 and 2 and their hinge. -/
noncomputable def hinged (a b : ℝ) : St (Pose ℝ) (Velocity ℝ) ((l : Link) → (lib.kind l).State) × Isl (Pose ℝ) (Velocity ℝ) :=
  ({ libState with
      proxies := fun _ => some (0, 1)
      s := Function.update (β := fun l => (lib.kind l).State) libState.s (.joint 0) (hingeSolver a b) },
   ⟨[1, 2], [0], [], fun i => libPose (1 + i), fun i => ⟨⟨i, 1⟩, 1⟩, true⟩)

theorem hinged_solver (a b : ℝ) : (hinged a b).1.s (.joint 0) = hingeSolver a b :=
  Function.update_self (β := fun l => (lib.kind l).State) (.joint 0) (hingeSolver a b) libState.s

theorem hinged_posed (a b : ℝ) : Posed lib libCfg [.joint 0] (hinged a b) := by
  have hn : (⟨1 / 2, 1 / 3, 1 / 2, 1 / 3⟩ : InvMasses ℝ).Nonneg := by constructor <;> norm_num
  refine ⟨sqrt_lawful, by norm_num [libCfg], by decide, by decide, fun l _ => by rw [libBodies_masses]; exact hn, ?_⟩
  intro l hl
  obtain rfl : l = .joint 0 := by simpa using hl
  refine ⟨(0, 1), rfl, ?_⟩
  rw [hinged_solver]
  exact ⟨fun r => le_of_eq (at_zero r).symm, ⟨fun _ x => x, fun _ z w => by simp, fun _ _ => rfl⟩, Or.inl fun _ => rfl⟩

theorem single_call {x : St (Pose ℝ) (Velocity ℝ) ((l : Link) → (lib.kind l).State) × Isl (Pose ℝ) (Velocity ℝ)} {ph : Phase} {e : EqualitySolver ℝ 2}
    {s : SolveState ℝ} (hp : x.1.proxies (.joint 0) = some (0, 1))
    (ha : (lib.kind (.joint 0)).act libCfg ph (lib.proxies (.joint 0) (0, 1)) (x.1.s (.joint 0)) x.2.view = .ok (e, s)) (hs : s.pos = x.2.view.pos) :
    ∃ y, actAll (lib.net libCfg) ph [.joint 0] x = .ok y ∧ y.1.s (.joint 0) = e ∧ y.2.view = s ∧ y.1.proxies = x.1.proxies := by
  refine ⟨_, actAll_library_of (L := lib) (c := libCfg) hp ha, Function.update_self (β := fun l => (lib.kind l).State) (.joint 0) e x.1.s, ?_, rfl⟩
  obtain ⟨pos, vel⟩ := s
  obtain rfl : pos = x.2.view.pos := hs
  have h : ∀ i, (Pose.of (x.2.view.pos i)).1 = x.2.view.pos i := fun i => congrArg (fun z : Isl (Pose ℝ) (Velocity ℝ) => (z.ps i).1) (view_back x.2)
  exact congrArg (fun q => (⟨q, vel⟩ : SolveState ℝ)) (funext h)

/-- One iteration settles a lone hinge. -/
theorem hinged_settles (a b : ℝ) (w : Bool) : ∃ x, Reached lib libCfg [.joint 0] 1 (hinged a b) x ∧ Laws lib libCfg [.joint 0] (hinged a b) x ∧
    (w = true → ∃ x1 x2, actAll (lib.net libCfg) .initSolve [.joint 0] (hinged a b) = .ok x1 ∧ actAll (lib.net libCfg) .warmstart [.joint 0] x1 = .ok x2 ∧
      actRounds (lib.net libCfg) .solveVelocities [.joint 0] 1 x2 = .ok x) := by
  set f : CFun ℝ 2 := hingeFunOf libBody (Bodies.make libBody 1 2 none) ⟨1, 1⟩ with hf
  have hp : lib.proxies (.joint 0) (0, 1) = ⟨0, 1, ⟨1 / 2, 1 / 3, 1 / 2, 1 / 3⟩⟩ := by rw [Library.proxies, libBodies_masses]
  set p := lib.proxies (.joint 0) (0, 1) with hpd
  have hm : ∀ c, 0 ≤ p.invMassVec.at_ c := by
    intro c
    rw [hp]
    fin_cases c <;> simp [Proxies.invMassVec, at_ofFn]
  obtain ⟨e1, h1⟩ := (C34_library_valid sqrt_lawful p hm (hinged a b).2.view).2.1 ((libBody 1).position.toLocalSpace.app ⟨1, 1⟩)
    ((libBody 2).position.toLocalSpace.app ⟨1, 1⟩) (hingeSolver a b) (fun r => le_of_eq (at_zero r).symm) (by rw [hp]; norm_num)
  obtain ⟨x1, a1, b1, c1, d1⟩ := single_call (x := hinged a b) (ph := .initSolve) (e := e1) (s := (hinged a b).2.view) rfl (by
    rw [hinged_solver]
    exact congrArg (fun o : Outcome (EqualitySolver ℝ 2) => o.bind fun e => Outcome.ok (e, (hinged a b).2.view)) h1) rfl
  have hind : p.i0 ≠ p.i1 ∨ FirstOnly (f.jacobian p (hinged a b).2.view) := Or.inl (by rw [hp]; decide)
  have step : ∀ (x2 : St (Pose ℝ) (Velocity ℝ) ((l : Link) → (lib.kind l).State) × Isl (Pose ℝ) (Velocity ℝ)) (e2 : EqualitySolver ℝ 2) (l : List (SolveEvent ℝ)),
      EqualitySolver.runEvents p f libCfg.dt l (e1, (hinged a b).2.view) = .ok (e2, x2.2.view) → x2.1.s (.joint 0) = e2 → x2.1.proxies = (hinged a b).1.proxies →
      (x2 = x1 ∨ actAll (lib.net libCfg) .warmstart [.joint 0] x1 = .ok x2) → ∃ x, actRounds (lib.net libCfg) .solveVelocities [.joint 0] 1 x2 = .ok x ∧
      Reached lib libCfg [.joint 0] 1 (hinged a b) x ∧ Laws lib libCfg [.joint 0] (hinged a b) x := by
    intro x2 e2 l hl he hq hw
    obtain ⟨e3, s3, a3, b3⟩ := C34_solved sqrt_lawful _ e1 e2 p f (fun _ _ => rfl) libCfg.dt _ _ hind l h1 hl
    have ha : (Kind.equality 2 f).act libCfg .solveVelocities p e2 x2.2.view = .ok (e3, s3) := a3
    obtain ⟨t1, t2, t3⟩ := Kind.telescope _ .solveVelocities (Or.inr rfl) (fun h => by cases h) ha
    obtain ⟨x, a4, b4, c4, d4⟩ := single_call (x := x2) (ph := .solveVelocities) (e := e3) (s := s3) (by rw [hq]; rfl) (by rw [he]; exact ha) t2
    have hr : actRounds (lib.net libCfg) .solveVelocities [.joint 0] 1 x2 = .ok x := by rw [actRounds, a4]; rfl
    have hR : Reached lib libCfg [.joint 0] 1 (hinged a b) x := ⟨x1, x2, a1, hw, hr⟩
    refine ⟨x, hr, hR, ?_⟩
    have tx := hR.tallied (hinged_posed a b) (P := fun l => lib.proxies l (0, 1)) (fun l _ => ⟨(0, 1), rfl, rfl⟩)
    intro l hl
    obtain rfl : l = .joint 0 := by simpa using hl
    refine ⟨(0, 1), by rw [tx.proxies]; rfl, ?_⟩
    have same := tx.same (.joint 0) (by simp)
    rw [hinged_solver, b4] at same
    obtain ⟨sd, sr⟩ : e3.base.damping = (hingeSolver a b).base.damping ∧ e3.base.restitution = (hingeSolver a b).base.restitution := same
    rw [b4, c4]
    refine (C102_joint (fun _ => rfl) p _ _ _).2 fun r => ?_
    have hb := b3 r
    have hv := (C103_library p s3 x2.2.view t2).2.1 ((libBody 1).position.toLocalSpace.app ⟨1, 1⟩) ((libBody 2).position.toLocalSpace.app ⟨1, 1⟩)
    rw [sd, sr]
    have h1 : f.eval p s3 = f.eval p x2.2.view := hv.1
    have h2 : f.bias p s3 = f.bias p x2.2.view := hv.2
    show push (f.jacobian p _) _ r + (f.bias p s3).at_ r + _ * (f.eval p s3).at_ r / _ = _
    rw [h1, h2]
    exact eq_neg_of_add_eq_zero_left hb
  cases w with
  | false =>
    obtain ⟨x, -, h2, h3⟩ := step x1 e1 [] (by rw [c1]; rfl) b1 d1 (Or.inl rfl)
    exact ⟨x, h2, h3, fun h => by cases h⟩
  | true =>
    obtain ⟨x2, a2, b2, c2, d2⟩ := single_call (x := x1) (ph := .warmstart) (e := (e1.warmstart p f libCfg.dt (hinged a b).2.view).1)
      (s := (e1.warmstart p f libCfg.dt (hinged a b).2.view).2) (by rw [d1]; rfl) (by rw [b1, c1]; rfl) (by rw [c1]; rfl)
    obtain ⟨x, h1, h2, h3⟩ := step x2 _ [.warmstart] (by rw [c2]; rfl) b2 (d2.trans d1) (Or.inr a2)
    exact ⟨x, h2, h3, fun _ => ⟨x1, x2, a1, a2, h1⟩⟩

/-- Case for `C103_unique_partial`: a new hinge, and one that is warm started with the impulse (5, 7), give the bodies the same velocities. -/
example : ∃ x y, Reached lib libCfg [.joint 0] 1 (hinged 0 0) x ∧ (∃ y1 y2, actAll (lib.net libCfg) .initSolve [.joint 0] (hinged 5 7) = .ok y1 ∧
      actAll (lib.net libCfg) .warmstart [.joint 0] y1 = .ok y2 ∧ actRounds (lib.net libCfg) .solveVelocities [.joint 0] 1 y2 = .ok y) ∧ x.2.vs = y.2.vs := by
  obtain ⟨x, x1, x2, -⟩ := hinged_settles 0 0 false
  obtain ⟨y, y1, y2, y3⟩ := hinged_settles 5 7 true
  refine ⟨x, y, x1, y3 rfl, C103_unique_partial (M := fun _ => (1 / 2, 1 / 3)) (List.Perm.refl _) (hinged_posed 0 0) (hinged_posed 5 7) ⟨rfl, rfl, ?_⟩ ?_ ?_ x1 y1 x2 y2⟩
  · intro l hl
    obtain rfl : l = .joint 0 := by simpa using hl
    rw [hinged_solver, hinged_solver]
    exact ⟨rfl, rfl⟩
  · intro l _ ends _
    exact libBodies_masses l
  · intro l hl
    obtain rfl : l = .joint 0 := by simpa using hl
    exact ⟨(0, 1), rfl, fun s s' h => (C103_library _ s s' h).2.1 _ _⟩

end
end Simu
