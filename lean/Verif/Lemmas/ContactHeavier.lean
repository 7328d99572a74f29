import Verif.Lemmas.LibraryHeavier

/-! Contacts of bodies all of whose masses are multiplied by the same number. -/

namespace Simu

open Mat

section
variable {K : Type*} [Field K] [LinearOrder K] [IsStrictOrderedRing K] {p : Proxies K} {s t : SolveState K} {κ : K}

omit [LinearOrder K] [IsStrictOrderedRing K] in
theorem Contact.computeJacobians_heavy [Trig K] (h : SeesSame p s t) (e : Contact K) (b : Bool) : (e.heavier κ).computeJacobians (p.heavier κ) t b = (e.computeJacobians p s b).heavier κ := by
  unfold Contact.computeJacobians Contact.heavier Proxies.heavier
  dsimp only
  simp only [← h.pos0, ← h.pos1, apply_ite t.pos, apply_ite s.pos]

/-- The diagonal of the effective mass of the contact, from the inverse masses. -/
def Contact.kDiag (w : MVec K 6) (e : Contact K) (c : Fin 2) : K :=
  (w.at_ 3 + w.at_ 0) * e.frame.normal.normSquared + w.at_ 5 * (e.Jn.get c 5 * e.Jn.get c 5) + w.at_ 2 * (e.Jn.get c 2 * e.Jn.get c 2)

/-- The other entry of the effective mass of the contact. -/
def Contact.kOff (w : MVec K 6) (e : Contact K) : K :=
  (w.at_ 3 + w.at_ 0) * e.frame.normal.normSquared + w.at_ 5 * e.Jn.get 0 5 * e.Jn.get 1 5 + w.at_ 2 * e.Jn.get 0 2 * e.Jn.get 1 2

/-- The effective mass along the tangent. -/
def Contact.kTangent (w : MVec K 6) (e : Contact K) (c : Fin 2) : K :=
  (w.at_ 3 + w.at_ 0) * e.frame.tangent.normSquared + w.at_ 5 * ((e.Jf c).get 0 5 * (e.Jf c).get 0 5) + w.at_ 2 * ((e.Jf c).get 0 2 * (e.Jf c).get 0 2)

/-- The effective masses along the tangents, inverted. -/
def Contact.kTangents (w : MVec K 6) (e : Contact K) : MVec K 2 :=
  forFin 2 (fun c t => if c.val < e.frame.nContacts then t.setAt c (1 / e.kTangent w c) else t) e.invTangentKs

/-- The solver of the normal multipliers. -/
def Contact.kSolver (w : MVec K 6) (e : Contact K) : NormalSolver K :=
  if e.manifold.nContacts = 1 then .inverse (1 / e.kDiag w 0)
  else if e.manifold.nContacts = 2 then .lcp (LcpSolver.mk' ⟨![e.kDiag w 0, e.kOff w, e.kOff w, e.kDiag w 1]⟩)
  else e.normalSolver

omit [IsStrictOrderedRing K] in
theorem Contact.computeKs_flat (e : Contact K) (p : Proxies K) (b : Bool) :
    e.computeKs p b = { e with invTangentKs := if b then e.kTangents p.invMassVec else e.invTangentKs, normalSolver := e.kSolver p.invMassVec } := by
  unfold Contact.computeKs Contact.kSolver
  cases b
  · simp only [Bool.false_eq_true, if_false]
    split
    · rfl
    · split <;> rfl
  · simp only [if_true]
    split
    · rfl
    · split <;> rfl

omit [IsStrictOrderedRing K] [LinearOrder K] in
theorem Proxies.heavier_at (p : Proxies K) (i : Fin 6) : (p.heavier κ).invMassVec.at_ i = p.invMassVec.at_ i / κ := by
  fin_cases i <;> rfl

omit [LinearOrder K] [IsStrictOrderedRing K] in
theorem Contact.kDiag_heavy (e : Contact K) (p : Proxies K) (c : Fin 2) : (e.heavier κ).kDiag (p.heavier κ).invMassVec c = e.kDiag p.invMassVec c / κ := by
  unfold Contact.kDiag Contact.heavier
  simp only [Proxies.heavier_at]
  ring

omit [LinearOrder K] [IsStrictOrderedRing K] in
theorem Contact.kOff_heavy (e : Contact K) (p : Proxies K) : (e.heavier κ).kOff (p.heavier κ).invMassVec = e.kOff p.invMassVec / κ := by
  unfold Contact.kOff Contact.heavier
  simp only [Proxies.heavier_at]
  ring

omit [LinearOrder K] [IsStrictOrderedRing K] in
theorem Contact.kTangent_heavy (e : Contact K) (p : Proxies K) (c : Fin 2) : (e.heavier κ).kTangent (p.heavier κ).invMassVec c = e.kTangent p.invMassVec c / κ := by
  unfold Contact.kTangent Contact.heavier
  simp only [Proxies.heavier_at]
  ring

omit [LinearOrder K] [IsStrictOrderedRing K] in
theorem one_div_heavy (x : K) : 1 / (x / κ) = 1 / x * κ := by
  rw [one_div_div, div_mul_eq_mul_div, one_mul]

omit [LinearOrder K] [IsStrictOrderedRing K] in
theorem Contact.kTangents_heavy (e : Contact K) (p : Proxies K) : (e.heavier κ).kTangents (p.heavier κ).invMassVec = (e.kTangents p.invMassVec).smul κ := by
  unfold Contact.kTangents
  simp only [Contact.kTangent_heavy, one_div_heavy]
  rw [show (e.heavier κ).frame = e.frame from rfl, show (e.heavier κ).invTangentKs = e.invTangentKs.smul κ from rfl]
  simp only [forFin_succ, forFin_zero]
  split_ifs <;> simp only [Mat.smul_setAt]

theorem Contact.kSolver_heavy (hκ : κ ≠ 0) (e : Contact K) (p : Proxies K) : (e.heavier κ).kSolver (p.heavier κ).invMassVec = (e.kSolver p.invMassVec).heavier κ := by
  unfold Contact.kSolver
  simp only [Contact.kDiag_heavy, Contact.kOff_heavy, one_div_heavy]
  rw [show (e.heavier κ).manifold = e.manifold from rfl, show (e.heavier κ).normalSolver = e.normalSolver.heavier κ from rfl]
  by_cases h1 : e.manifold.nContacts = 1
  · rw [if_pos h1, if_pos h1]; rfl
  · rw [if_neg h1, if_neg h1]
    by_cases h2 : e.manifold.nContacts = 2
    · rw [if_pos h2, if_pos h2]
      show _ = NormalSolver.lcp (LcpSolver.heavier _ κ)
      rw [← LcpSolver.mk_heavier hκ]
      refine congrArg (fun A => NormalSolver.lcp (LcpSolver.mk' A)) ?_
      apply ext_get
      intro r c
      rw [get_sdiv]
      fin_cases r <;> fin_cases c <;> rfl
    · rw [if_neg h2, if_neg h2]

theorem Contact.computeKs_heavy (hκ : κ ≠ 0) (e : Contact K) (p : Proxies K) (b : Bool) : (e.heavier κ).computeKs (p.heavier κ) b = (e.computeKs p b).heavier κ := by
  rw [Contact.computeKs_flat, Contact.computeKs_flat, Contact.kTangents_heavy, Contact.kSolver_heavy hκ]
  cases b <;> rfl

theorem Contact.computeBounce_heavy (h : SeesSame p s t) (e : Contact K) : (e.heavier κ).computeBounce (p.heavier κ) t = (e.computeBounce p s).heavier κ := by
  unfold Contact.computeBounce Contact.heavier
  dsimp only
  rw [h.heavier_velocity]

/-- Friction at one contact, from the row, the inverse mass, the bound and the inverse masses. -/
def frictionCore (J : Mat K 1 6) (k b : K) (w : MVec K 6) (c : Fin 2) (st : MVec K 2 × MVec K 6) : MVec K 2 × MVec K 6 :=
  (st.1.setAt c (Algo.clamp (st.1.at_ c + -(J.mul st.2).at_ 0 * k) (-b) b),
    st.2.add (elementWiseMul w (J.transpose.smul (Algo.clamp (st.1.at_ c + -(J.mul st.2).at_ 0 * k) (-b) b - st.1.at_ c))))

omit [IsStrictOrderedRing K] in
theorem Contact.frictionStep_core (e : Contact K) (p : Proxies K) (c : Fin 2) (st : MVec K 2 × MVec K 6) :
    e.frictionStep p c st = frictionCore (e.Jf c) (e.invTangentKs.at_ c) (e.friction * e.normalLambda.at_ c) p.invMassVec c st := rfl

theorem frictionCore_heavy (hκ : 0 < κ) (J : Mat K 1 6) (k b : K) (p : Proxies K) (c : Fin 2) (st : MVec K 2 × MVec K 6) :
    frictionCore J (k * κ) (b * κ) (p.heavier κ).invMassVec c (st.1.smul κ, st.2) = ((frictionCore J k b p.invMassVec c st).1.smul κ, (frictionCore J k b p.invMassVec c st).2) := by
  unfold frictionCore
  dsimp only
  generalize -(J.mul st.2).at_ 0 = u
  have e1 : Algo.clamp ((st.1.smul κ).at_ c + u * (k * κ)) (-(b * κ)) (b * κ) = Algo.clamp (st.1.at_ c + u * k) (-b) b * κ := by
    rw [← Algo.clamp_scale hκ, at_smul, show st.1.at_ c * κ + u * (k * κ) = (st.1.at_ c + u * k) * κ by ring, neg_mul]
  rw [e1]
  generalize Algo.clamp (st.1.at_ c + u * k) (-b) b = l
  rw [Mat.smul_setAt]
  have e2 : J.transpose.smul (l * κ - (st.1.smul κ).at_ c) = (J.transpose.smul (l - st.1.at_ c)).smul κ := by
    apply ext_get; intro r c'
    simp only [get_smul, at_smul]
    ring
  rw [e2, elementWiseMul_heavier hκ.ne']

theorem Contact.frictionStep_heavy (hκ : 0 < κ) (e : Contact K) (p : Proxies K) (c : Fin 2) (st : MVec K 2 × MVec K 6) :
    (e.heavier κ).frictionStep (p.heavier κ) c (st.1.smul κ, st.2) = ((e.frictionStep p c st).1.smul κ, (e.frictionStep p c st).2) := by
  rw [Contact.frictionStep_core, Contact.frictionStep_core, ← frictionCore_heavy hκ, show (e.heavier κ).Jf = e.Jf from rfl,
    show (e.heavier κ).invTangentKs = e.invTangentKs.smul κ from rfl, show (e.heavier κ).normalLambda = e.normalLambda.smul κ from rfl, show (e.heavier κ).friction = e.friction from rfl,
    at_smul, at_smul, mul_assoc]

theorem Contact.frictionLoop_heavy (hκ : 0 < κ) (e : Contact K) (p : Proxies K) (v : MVec K 6) :
    (e.heavier κ).frictionLoop (p.heavier κ) v = ((e.frictionLoop p v).1.smul κ, (e.frictionLoop p v).2) := by
  have step : ∀ c (st : MVec K 2 × MVec K 6), (if c.val < e.frame.nContacts then (e.heavier κ).frictionStep (p.heavier κ) c (st.1.smul κ, st.2) else (st.1.smul κ, st.2)) =
      ((if c.val < e.frame.nContacts then e.frictionStep p c st else st).1.smul κ, (if c.val < e.frame.nContacts then e.frictionStep p c st else st).2) := by
    intro c st
    by_cases h : c.val < e.frame.nContacts
    · rw [if_pos h, if_pos h]; exact Contact.frictionStep_heavy hκ e p c st
    · rw [if_neg h, if_neg h]
  unfold Contact.frictionLoop
  rw [show (e.heavier κ).tangentLambda = e.tangentLambda.smul κ from rfl, show (e.heavier κ).frame = e.frame from rfl]
  simp only [forFin_succ, forFin_zero]
  rw [step 0 (e.tangentLambda, v)]
  exact step (Fin.succ 0) _

theorem NormalSolver.getInverse_heavier (d : NormalSolver K) : (d.heavier κ).getInverse = d.getInverse.bind fun k => .ok (k * κ) := by
  cases d <;> rfl

theorem NormalSolver.getLcp_heavier (d : NormalSolver K) : (d.heavier κ).getLcp = d.getLcp.bind fun s => .ok (s.heavier κ) := by
  cases d <;> rfl

/-- The normal multiplier of a single contact. -/
def normalCore (J : Mat K 1 6) (k b : K) (l : MVec K 2) (w v : MVec K 6) : MVec K 2 × MVec K 6 :=
  let l' := l.setAt 0 (l.at_ 0 + -((J.mul v).at_ 0 + b) * k)
  let l' := l'.setAt 0 (if 0 < l'.at_ 0 then l'.at_ 0 else 0)
  (l', v.add (elementWiseMul w (J.transpose.smul (l'.at_ 0 - l.at_ 0))))

theorem normalCore_heavy (hκ : 0 < κ) (J : Mat K 1 6) (k b : K) (l : MVec K 2) (p : Proxies K) (v : MVec K 6) :
    normalCore J (k * κ) b (l.smul κ) (p.heavier κ).invMassVec v = ((normalCore J k b l p.invMassVec v).1.smul κ, (normalCore J k b l p.invMassVec v).2) := by
  unfold normalCore
  dsimp only
  generalize -((J.mul v).at_ 0 + b) = u
  have e1 : (l.smul κ).setAt 0 ((l.smul κ).at_ 0 + u * (k * κ)) = (l.setAt 0 (l.at_ 0 + u * k)).smul κ := by
    rw [Mat.smul_setAt, at_smul, show l.at_ 0 * κ + u * (k * κ) = (l.at_ 0 + u * k) * κ by ring]
  rw [e1]
  generalize l.setAt 0 (l.at_ 0 + u * k) = m
  have e2 : (m.smul κ).setAt 0 (if 0 < (m.smul κ).at_ 0 then (m.smul κ).at_ 0 else 0) = (m.setAt 0 (if 0 < m.at_ 0 then m.at_ 0 else 0)).smul κ := by
    rw [Mat.smul_setAt, at_smul]
    by_cases hp : 0 < m.at_ 0
    · rw [if_pos hp, if_pos (mul_pos hp hκ)]
    · rw [if_neg hp, if_neg (by push Not at hp ⊢; nlinarith), zero_mul]
  rw [e2]
  generalize m.setAt 0 (if 0 < m.at_ 0 then m.at_ 0 else 0) = m
  have e3 : J.transpose.smul ((m.smul κ).at_ 0 - (l.smul κ).at_ 0) = (J.transpose.smul (m.at_ 0 - l.at_ 0)).smul κ := by
    apply ext_get; intro r c'
    simp only [get_smul, at_smul]
    ring
  rw [e3, elementWiseMul_heavier hκ.ne']

theorem Contact.solveNormal_heavy (hκ : 0 < κ) (e : Contact K) (p : Proxies K) (v : MVec K 6) :
    (e.heavier κ).solveNormal (p.heavier κ) v = (e.solveNormal p v).bind fun r => .ok (r.1.smul κ, r.2) := by
  have h0 : κ ≠ 0 := hκ.ne'
  have hb : ∀ {α β γ : Type _} (x : Outcome α) (f : α → Outcome β) (g : β → Outcome γ), (x.bind f).bind g = x.bind fun a => (f a).bind g := by
    intro α β γ x f g; cases x <;> rfl
  unfold Contact.solveNormal
  by_cases h1 : e.frame.nContacts = 1
  · rw [if_pos (show (e.heavier κ).frame.nContacts = 1 from h1), if_pos h1, show (e.heavier κ).normalSolver = e.normalSolver.heavier κ from rfl, NormalSolver.getInverse_heavier, hb, hb]
    refine congrArg (Outcome.bind _) (funext fun k => ?_)
    exact congrArg Outcome.ok (normalCore_heavy hκ (e.normalJacobian 0) k (e.bounce.at_ 0) e.normalLambda p v)
  · rw [if_neg (show ¬ (e.heavier κ).frame.nContacts = 1 from h1), if_neg h1]
    by_cases h2 : e.frame.nContacts = 2
    · rw [if_pos (show (e.heavier κ).frame.nContacts = 2 from h2), if_pos h2, show (e.heavier κ).normalSolver = e.normalSolver.heavier κ from rfl, NormalSolver.getLcp_heavier, hb, hb]
      refine congrArg (Outcome.bind _) (funext fun k => ?_)
      rw [Outcome.bind_ok]
      rw [show (e.heavier κ).Jn = e.Jn from rfl, show (e.heavier κ).bounce = e.bounce from rfl, show (e.heavier κ).normalLambda = e.normalLambda.smul κ from rfl,
        show (k.heavier κ).solver.A = k.solver.A.sdiv κ from rfl, sdiv_mul_smul h0]
      dsimp only
      rw [LcpSolver.solve_heavier hκ, hb, hb]
      refine congrArg (Outcome.bind _) (funext fun l => ?_)
      show Outcome.ok _ = Outcome.ok _
      rw [← Mat.smul_sub, mul_smulVec, elementWiseMul_heavier h0]
    · rw [if_neg (show ¬ (e.heavier κ).frame.nContacts = 2 from h2), if_neg h2]
      rfl

theorem Contact.heavy [Trig K] (hκ : 0 < κ) (h : SeesSame p s t) (e : Contact K) :
    (e.heavier κ).initSolve (p.heavier κ) t = (e.initSolve p s).heavier κ ∧
    EndsAlike p (fun a b => b = a.heavier κ) (.ok (e.warmstart p s)) (.ok ((e.heavier κ).warmstart (p.heavier κ) t)) ∧
    EndsAlike p (fun a b => b = a.heavier κ) (e.solveVelocities p s) ((e.heavier κ).solveVelocities (p.heavier κ) t) := by
  have sm : ∀ (A : MVec K 6) (a : K), A.smul (a * κ) = (A.smul a).smul κ := by
    intro A a
    apply ext_get; intro r c
    simp only [get_smul]
    ring
  refine ⟨?_, ?_, ?_⟩
  · unfold Contact.initSolve
    dsimp only
    rw [Contact.computeJacobians_heavy h, Contact.computeKs_heavy hκ.ne', Contact.computeBounce_heavy h]
    generalize (((e.computeJacobians p s true).computeKs p true).computeBounce p s) = g
    show _ = ({ (g.heavier κ) with previousTangentLambda := g.tangentLambda.smul κ, previousNormalLambda := g.normalLambda.smul κ, tangentLambda := Mat.zero.smul κ, normalLambda := Mat.zero.smul κ } : Contact K)
    rw [Mat.smul_zero]
    rfl
  · refine EndsAlike.ok rfl ?_
    have : ((((e.heavier κ).Jf 0).transpose.smul ((e.heavier κ).previousTangentLambda.at_ 0)).add (((e.heavier κ).Jf 1).transpose.smul ((e.heavier κ).previousTangentLambda.at_ 1))).add
        ((e.heavier κ).Jn.transpose.mul (e.heavier κ).previousNormalLambda) =
      ((((e.Jf 0).transpose.smul (e.previousTangentLambda.at_ 0)).add ((e.Jf 1).transpose.smul (e.previousTangentLambda.at_ 1))).add (e.Jn.transpose.mul e.previousNormalLambda)).smul κ := by
      rw [Mat.smul_add, Mat.smul_add, ← mul_smulVec]
      rw [show (e.heavier κ).Jf = e.Jf from rfl, show (e.heavier κ).Jn = e.Jn from rfl, show (e.heavier κ).previousTangentLambda = e.previousTangentLambda.smul κ from rfl,
        show (e.heavier κ).previousNormalLambda = e.previousNormalLambda.smul κ from rfl, at_smul, at_smul, sm, sm]
    unfold Contact.warmstart
    dsimp only
    rw [this]
    exact h.heavier_applyImpulse hκ.ne' _
  · unfold Contact.solveVelocities
    dsimp only
    rw [h.heavier_velocity, Contact.frictionLoop_heavy hκ]
    dsimp only
    rw [Contact.solveNormal_heavy hκ]
    refine EndsAlike.bind _ fun r => EndsAlike.ok rfl ?_
    exact (h.setVel _ _ _).setVel _ _ _

theorem Contact.isActive_heavy [Trig K] (h0 : s.pos p.i0 = t.pos p.i0) (h1 : s.pos p.i1 = t.pos p.i1) (e : Contact K) :
    ((e.heavier κ).isActive (p.heavier κ) t).1 = (e.isActive p s).1.heavier κ ∧ ((e.heavier κ).isActive (p.heavier κ) t).2 = (e.isActive p s).2 := by
  unfold Contact.isActive Proxies.heavier
  rw [h0, h1]
  exact ⟨rfl, rfl⟩

/-- The part of `solvePositions` after the effective masses are found. -/
def Contact.correctFrom (e : Contact K) (p : Proxies K) (s : SolveState K) [Trig K] : Outcome (Contact K × SolveState K) :=
  let C : MVec K 2 := forFin 2 (fun c C => if c.val < e.frame.nContacts then
    C.setAt c (Vec2.dot e.frame.normal (e.relativePosition c)) else C) Mat.zero
  if ∀ c, -3 * e.manifold.minPen < C.at_ c then .ok (e, s)
  else
    let error : MVec K 2 := Mat.ofFn fun c => Algo.clamp (1 / 5 * (C.at_ c + e.manifold.minPen)) (-(1 / 5)) 0
    if e.frame.nContacts = 1 then
      e.normalSolver.getInverse.bind fun invNormalK11 =>
        let posLambda := -error.at_ 0 * invNormalK11
        let posLambda := if posLambda < 0 then 0 else posLambda
        .ok (e, p.applyPositionCorrection ((e.normalJacobian 0).transpose.smul posLambda) s)
    else if e.frame.nContacts = 2 then
      e.normalSolver.getLcp.bind fun solver =>
        (solver.solve error.neg).bind fun posLambda =>
          .ok (e, p.applyPositionCorrection (e.Jn.transpose.mul posLambda) s)
    else .ok (e, s)

/-- The contact with another frame. -/
def Contact.withFrame (e : Contact K) (f : Frame K) : Contact K := { e with frame := f }

omit [IsStrictOrderedRing K] in
theorem Contact.solvePositions_from [Trig K] (e : Contact K) (p : Proxies K) (s : SolveState K) :
    e.solvePositions p s = (((e.withFrame (e.manifold.frame ![(s.pos p.i0).toWorldSpace, (s.pos p.i1).toWorldSpace])).computeJacobians p s false).computeKs p false).correctFrom p s := rfl

theorem Contact.solvePositions_heavy [Trig K] (hκ : 0 < κ) (h : SeesSame p s t) (e : Contact K) :
    EndsAlike p (fun a b => b = a.heavier κ) (e.solvePositions p s) ((e.heavier κ).solvePositions (p.heavier κ) t) := by
  have h0 : κ ≠ 0 := hκ.ne'
  rw [Contact.solvePositions_from, Contact.solvePositions_from, show t.pos (p.heavier κ).i0 = s.pos p.i0 from h.pos0.symm, show t.pos (p.heavier κ).i1 = s.pos p.i1 from h.pos1.symm,
    show (e.heavier κ).manifold = e.manifold from rfl]
  generalize e.manifold.frame ![(s.pos p.i0).toWorldSpace, (s.pos p.i1).toWorldSpace] = fr0
  rw [show (e.heavier κ).withFrame fr0 = (e.withFrame fr0).heavier κ from rfl, Contact.computeJacobians_heavy h, Contact.computeKs_heavy h0]
  generalize (((e.withFrame fr0).computeJacobians p s false).computeKs p false) = g
  unfold Contact.correctFrom
  dsimp only
  rw [show (g.heavier κ).frame = g.frame from rfl, show (g.heavier κ).manifold = g.manifold from rfl, show (g.heavier κ).normalSolver = g.normalSolver.heavier κ from rfl,
    show (g.heavier κ).relativePosition = g.relativePosition from rfl]
  split
  · exact EndsAlike.ok rfl h
  · split
    · rw [NormalSolver.getInverse_heavier]
      refine EndsAlike.bind _ fun k => EndsAlike.ok rfl ?_
      dsimp only
      have hl : ∀ x : K, (if x * (k * κ) < 0 then 0 else x * (k * κ)) = (if x * k < 0 then 0 else x * k) * κ := by
        intro x
        by_cases hp : x * k < 0
        · rw [if_pos hp, if_pos (by nlinarith), zero_mul]
        · rw [if_neg hp, if_neg (by push Not at hp ⊢; nlinarith), mul_assoc]
      have sm : ∀ (A : MVec K 6) (a : K), A.smul (a * κ) = (A.smul a).smul κ := by
        intro A a
        apply ext_get; intro r c
        simp only [get_smul]
        ring
      rw [hl, show (g.heavier κ).normalJacobian 0 = g.normalJacobian 0 from rfl, sm]
      exact h.heavier_correct h0 _
    · split
      · rw [NormalSolver.getLcp_heavier]
        refine EndsAlike.bind _ fun k => ?_
        rw [LcpSolver.solve_heavier hκ]
        refine EndsAlike.bind _ fun x => EndsAlike.ok rfl ?_
        dsimp only
        rw [show (g.heavier κ).Jn = g.Jn from rfl, mul_smulVec]
        exact h.heavier_correct h0 _
      · exact EndsAlike.ok rfl h

end

end Simu
