import Verif.Lemmas.SlowMotion
import Verif.Lemmas.ContactMoved

/-! Contacts of faster bodies. -/

namespace Simu

open Mat Island

section
variable {K : Type*} [Field K] [LinearOrder K] [IsStrictOrderedRing K] {p : Proxies K} {s t : SolveState K} {σ : K}

omit [LinearOrder K] [IsStrictOrderedRing K] in
theorem Contact.computeJacobians_fast [Trig K] (h : SeesFaster σ p s t) (e : Contact K) (b : Bool) : (e.faster σ).computeJacobians p t b = (e.computeJacobians p s b).faster σ := by
  unfold Contact.computeJacobians Contact.faster
  dsimp only
  simp only [← h.pos0, ← h.pos1, apply_ite t.pos, apply_ite s.pos]

omit [IsStrictOrderedRing K] in
theorem Contact.computeKs_fast (e : Contact K) (p : Proxies K) (b : Bool) : (e.faster σ).computeKs p b = (e.computeKs p b).faster σ := by
  rw [Contact.computeKs_flat, Contact.computeKs_flat]
  cases b <;> rfl

omit [IsStrictOrderedRing K] in
theorem Contact.computeKs_restitution (e : Contact K) (p : Proxies K) (b : Bool) : (e.computeKs p b).restitution = e.restitution := by
  rw [Contact.computeKs_flat]

omit [IsStrictOrderedRing K] in
theorem Contact.computeBounce_dead (e : Contact K) (he : e.restitution = 0) (p : Proxies K) (s : SolveState K) : e.computeBounce p s = { e with bounce := Mat.zero } := by
  unfold Contact.computeBounce
  dsimp only
  rw [he]
  congr 1
  apply ext_get; intro r c
  rw [get_smul, mul_zero, get_zero]

theorem frictionCore_fast (hσ : 0 < σ) (J : Mat K 1 6) (k b : K) (w : MVec K 6) (c : Fin 2) (st : MVec K 2 × MVec K 6) :
    frictionCore J k (b * σ) w c (st.1.smul σ, st.2.smul σ) = ((frictionCore J k b w c st).1.smul σ, (frictionCore J k b w c st).2.smul σ) := by
  unfold frictionCore
  dsimp only
  rw [show (J.mul (st.2.smul σ)).at_ 0 = (J.mul st.2).at_ 0 * σ by rw [mul_smulVec, at_smul]]
  generalize (J.mul st.2).at_ 0 = u
  have e1 : Algo.clamp ((st.1.smul σ).at_ c + -(u * σ) * k) (-(b * σ)) (b * σ) = Algo.clamp (st.1.at_ c + -u * k) (-b) b * σ := by
    rw [← Algo.clamp_scale hσ, at_smul, show st.1.at_ c * σ + -(u * σ) * k = (st.1.at_ c + -u * k) * σ by ring, show -(b * σ) = -b * σ by ring]
  rw [e1]
  generalize Algo.clamp (st.1.at_ c + -u * k) (-b) b = l
  rw [Mat.smul_setAt, Mat.smul_add]
  have e2 : J.transpose.smul (l * σ - (st.1.smul σ).at_ c) = (J.transpose.smul (l - st.1.at_ c)).smul σ := by
    apply ext_get; intro r c'
    simp only [get_smul, at_smul]
    ring
  rw [e2, elementWiseMul_smul]

theorem Contact.frictionStep_fast (hσ : 0 < σ) (e : Contact K) (p : Proxies K) (c : Fin 2) (st : MVec K 2 × MVec K 6) :
    (e.faster σ).frictionStep p c (st.1.smul σ, st.2.smul σ) = ((e.frictionStep p c st).1.smul σ, (e.frictionStep p c st).2.smul σ) := by
  rw [Contact.frictionStep_core, Contact.frictionStep_core, ← frictionCore_fast hσ, show (e.faster σ).Jf = e.Jf from rfl,
    show (e.faster σ).invTangentKs = e.invTangentKs from rfl, show (e.faster σ).normalLambda = e.normalLambda.smul σ from rfl, show (e.faster σ).friction = e.friction from rfl,
    at_smul, mul_assoc]

theorem Contact.frictionLoop_fast (hσ : 0 < σ) (e : Contact K) (p : Proxies K) (v : MVec K 6) :
    (e.faster σ).frictionLoop p (v.smul σ) = ((e.frictionLoop p v).1.smul σ, (e.frictionLoop p v).2.smul σ) := by
  have step : ∀ c (st : MVec K 2 × MVec K 6), (if c.val < e.frame.nContacts then (e.faster σ).frictionStep p c (st.1.smul σ, st.2.smul σ) else (st.1.smul σ, st.2.smul σ)) =
      ((if c.val < e.frame.nContacts then e.frictionStep p c st else st).1.smul σ, (if c.val < e.frame.nContacts then e.frictionStep p c st else st).2.smul σ) := by
    intro c st
    by_cases h : c.val < e.frame.nContacts
    · rw [if_pos h, if_pos h]; exact Contact.frictionStep_fast hσ e p c st
    · rw [if_neg h, if_neg h]
  unfold Contact.frictionLoop
  rw [show (e.faster σ).tangentLambda = e.tangentLambda.smul σ from rfl, show (e.faster σ).frame = e.frame from rfl]
  simp only [forFin_succ, forFin_zero]
  rw [step 0 (e.tangentLambda, v)]
  exact step (Fin.succ 0) _

theorem normalCore_fast (hσ : 0 < σ) (J : Mat K 1 6) (k b : K) (l : MVec K 2) (w v : MVec K 6) :
    normalCore J k (b * σ) (l.smul σ) w (v.smul σ) = ((normalCore J k b l w v).1.smul σ, (normalCore J k b l w v).2.smul σ) := by
  unfold normalCore
  dsimp only
  rw [show (J.mul (v.smul σ)).at_ 0 = (J.mul v).at_ 0 * σ by rw [mul_smulVec, at_smul]]
  generalize (J.mul v).at_ 0 = u
  have e1 : (l.smul σ).setAt 0 ((l.smul σ).at_ 0 + -(u * σ + b * σ) * k) = (l.setAt 0 (l.at_ 0 + -(u + b) * k)).smul σ := by
    rw [Mat.smul_setAt, at_smul, show l.at_ 0 * σ + -(u * σ + b * σ) * k = (l.at_ 0 + -(u + b) * k) * σ by ring]
  rw [e1]
  generalize l.setAt 0 (l.at_ 0 + -(u + b) * k) = m
  have e2 : (m.smul σ).setAt 0 (if 0 < (m.smul σ).at_ 0 then (m.smul σ).at_ 0 else 0) = (m.setAt 0 (if 0 < m.at_ 0 then m.at_ 0 else 0)).smul σ := by
    rw [Mat.smul_setAt, at_smul]
    by_cases hp : 0 < m.at_ 0
    · rw [if_pos hp, if_pos (mul_pos hp hσ)]
    · rw [if_neg hp, if_neg (by push Not at hp ⊢; nlinarith), zero_mul]
  rw [e2]
  generalize m.setAt 0 (if 0 < m.at_ 0 then m.at_ 0 else 0) = m
  have e3 : J.transpose.smul ((m.smul σ).at_ 0 - (l.smul σ).at_ 0) = (J.transpose.smul (m.at_ 0 - l.at_ 0)).smul σ := by
    apply ext_get; intro r c'
    simp only [get_smul, at_smul]
    ring
  rw [e3, elementWiseMul_smul, ← Mat.smul_add]

theorem Contact.solveNormal_fast (hσ : 0 < σ) (e : Contact K) (p : Proxies K) (v : MVec K 6) :
    (e.faster σ).solveNormal p (v.smul σ) = (e.solveNormal p v).bind fun r => .ok (r.1.smul σ, r.2.smul σ) := by
  have hb : ∀ {α β γ : Type _} (x : Outcome α) (f : α → Outcome β) (g : β → Outcome γ), (x.bind f).bind g = x.bind fun a => (f a).bind g := by
    intro α β γ x f g; cases x <;> rfl
  unfold Contact.solveNormal
  by_cases h1 : e.frame.nContacts = 1
  · rw [if_pos (show (e.faster σ).frame.nContacts = 1 from h1), if_pos h1, show (e.faster σ).normalSolver = e.normalSolver from rfl, hb]
    refine congrArg (Outcome.bind _) (funext fun k => ?_)
    have := normalCore_fast hσ (e.normalJacobian 0) k (e.bounce.at_ 0) e.normalLambda p.invMassVec v
    rw [← at_smul] at this
    exact congrArg Outcome.ok this
  · rw [if_neg (show ¬ (e.faster σ).frame.nContacts = 1 from h1), if_neg h1]
    by_cases h2 : e.frame.nContacts = 2
    · rw [if_pos (show (e.faster σ).frame.nContacts = 2 from h2), if_pos h2, show (e.faster σ).normalSolver = e.normalSolver from rfl, hb]
      refine congrArg (Outcome.bind _) (funext fun k => ?_)
      rw [show (e.faster σ).Jn = e.Jn from rfl, show (e.faster σ).bounce = e.bounce.smul σ from rfl, show (e.faster σ).normalLambda = e.normalLambda.smul σ from rfl]
      dsimp only
      rw [mul_smulVec, mul_smulVec, ← Mat.smul_sub, ← Mat.smul_add, ← Mat.smul_neg, LcpSolver.solve_faster hσ, hb, hb]
      refine congrArg (Outcome.bind _) (funext fun l => ?_)
      show Outcome.ok _ = Outcome.ok _
      rw [← Mat.smul_sub, mul_smulVec, elementWiseMul_smul, ← Mat.smul_add]
    · rw [if_neg (show ¬ (e.faster σ).frame.nContacts = 2 from h2), if_neg h2]
      rfl

theorem Contact.fast [Trig K] (hσ : 0 < σ) (h : SeesFaster σ p s t) (e : Contact K) (he : e.restitution = 0) :
    (e.faster σ).initSolve p t = (e.initSolve p s).faster σ ∧
    EndsFaster σ p (fun a b => b = a.faster σ) (.ok (e.warmstart p s)) (.ok ((e.faster σ).warmstart p t)) ∧
    EndsFaster σ p (fun a b => b = a.faster σ) (e.solveVelocities p s) ((e.faster σ).solveVelocities p t) := by
  have sm : ∀ (A : MVec K 6) (a : K), A.smul (a * σ) = (A.smul a).smul σ := by
    intro A a
    apply ext_get; intro r c
    simp only [get_smul]
    ring
  refine ⟨?_, ?_, ?_⟩
  · unfold Contact.initSolve
    dsimp only
    rw [Contact.computeJacobians_fast h, Contact.computeKs_fast]
    have hr : ((e.computeJacobians p s true).computeKs p true).restitution = 0 := by rw [Contact.computeKs_restitution]; exact he
    generalize ((e.computeJacobians p s true).computeKs p true) = g at hr
    rw [Contact.computeBounce_dead g hr, Contact.computeBounce_dead (g.faster σ) hr]
    unfold Contact.faster
    dsimp only
    rw [Mat.smul_zero]
  · refine EndsFaster.ok rfl ?_
    have : ((((e.faster σ).Jf 0).transpose.smul ((e.faster σ).previousTangentLambda.at_ 0)).add (((e.faster σ).Jf 1).transpose.smul ((e.faster σ).previousTangentLambda.at_ 1))).add
        ((e.faster σ).Jn.transpose.mul (e.faster σ).previousNormalLambda) =
      ((((e.Jf 0).transpose.smul (e.previousTangentLambda.at_ 0)).add ((e.Jf 1).transpose.smul (e.previousTangentLambda.at_ 1))).add (e.Jn.transpose.mul e.previousNormalLambda)).smul σ := by
      rw [Mat.smul_add, Mat.smul_add, ← mul_smulVec]
      rw [show (e.faster σ).Jf = e.Jf from rfl, show (e.faster σ).Jn = e.Jn from rfl, show (e.faster σ).previousTangentLambda = e.previousTangentLambda.smul σ from rfl,
        show (e.faster σ).previousNormalLambda = e.previousNormalLambda.smul σ from rfl, at_smul, at_smul, sm, sm]
    unfold Contact.warmstart
    dsimp only
    rw [this]
    exact h.applyImpulse _
  · unfold Contact.solveVelocities
    dsimp only
    rw [h.velocity, Contact.frictionLoop_fast hσ]
    dsimp only
    rw [Contact.solveNormal_fast hσ]
    refine EndsFaster.bind _ fun r => EndsFaster.ok rfl ?_
    refine (h.setVel _ ?_ ?_).setVel _ ?_ ?_
    · ext <;> simp [at_smul] <;> ring
    · rw [at_smul]
    · ext <;> simp [at_smul] <;> ring
    · rw [at_smul]

omit [IsStrictOrderedRing K] in
theorem Contact.isActive_fast [Trig K] (h0 : t.pos p.i0 = s.pos p.i0) (h1 : t.pos p.i1 = s.pos p.i1) (e : Contact K) :
    ((e.faster σ).isActive p t).1 = (e.isActive p s).1.faster σ ∧ ((e.faster σ).isActive p t).2 = (e.isActive p s).2 := by
  unfold Contact.isActive
  rw [h0, h1]
  exact ⟨rfl, rfl⟩

theorem Contact.solvePositions_fast [Trig K] (h : SeesFaster σ p s t) (e : Contact K) :
    EndsFaster σ p (fun a b => b = a.faster σ) (e.solvePositions p s) ((e.faster σ).solvePositions p t) := by
  rw [Contact.solvePositions_from, Contact.solvePositions_from, h.pos0, h.pos1, show (e.faster σ).manifold = e.manifold from rfl]
  generalize e.manifold.frame ![(s.pos p.i0).toWorldSpace, (s.pos p.i1).toWorldSpace] = fr0
  rw [show (e.faster σ).withFrame fr0 = (e.withFrame fr0).faster σ from rfl, Contact.computeJacobians_fast h, Contact.computeKs_fast]
  generalize (((e.withFrame fr0).computeJacobians p s false).computeKs p false) = g
  unfold Contact.correctFrom
  dsimp only
  rw [show (g.faster σ).frame = g.frame from rfl, show (g.faster σ).manifold = g.manifold from rfl, show (g.faster σ).normalSolver = g.normalSolver from rfl,
    show (g.faster σ).relativePosition = g.relativePosition from rfl]
  split
  · exact EndsFaster.ok rfl h
  · split
    · exact EndsFaster.bindSame _ fun k => EndsFaster.ok rfl (h.correct _)
    · split
      · refine EndsFaster.bindSame _ fun k => ?_
        exact EndsFaster.bindSame _ fun x => EndsFaster.ok rfl (h.correct _)
      · exact EndsFaster.ok rfl h

/-- A contact keeps its restitution. -/
theorem Contact.keeps_restitution [Trig K] {c : CallCfg K} {ph : Island.Phase} {p : Proxies K} {e e1 : Contact K} {s s1 : SolveState K} (h : (Kind.contact : Kind K).act c ph p e s = .ok (e1, s1)) :
    Contact.restitution e1 = e.restitution := by
  cases ph
  · cases Outcome.ok.inj h
    show ((e.computeJacobians p s true).computeKs p true).restitution = _
    rw [Contact.computeKs_restitution]; rfl
  · cases Outcome.ok.inj h; rfl
  · obtain ⟨r, hr, h⟩ := bind_ok_iff.1 h
    cases Outcome.ok.inj h; rfl
  · have h : e.solvePositions p s = .ok (e1, s1) := h
    rw [Contact.solvePositions_from] at h
    have hg : (((e.withFrame (e.manifold.frame ![(s.pos p.i0).toWorldSpace, (s.pos p.i1).toWorldSpace])).computeJacobians p s false).computeKs p false).restitution = e.restitution := by
      rw [Contact.computeKs_restitution]; rfl
    rw [← hg]
    revert h
    generalize (((e.withFrame (e.manifold.frame ![(s.pos p.i0).toWorldSpace, (s.pos p.i1).toWorldSpace])).computeJacobians p s false).computeKs p false) = g
    intro h
    unfold Contact.correctFrom at h
    dsimp only at h
    split at h
    · cases Outcome.ok.inj h; rfl
    · split at h
      · obtain ⟨r, hr, h⟩ := bind_ok_iff.1 h
        cases Outcome.ok.inj h; rfl
      · split at h
        · obtain ⟨r, hr, h⟩ := bind_ok_iff.1 h
          obtain ⟨r', hr', h⟩ := bind_ok_iff.1 h
          cases Outcome.ok.inj h; rfl
        · cases Outcome.ok.inj h; rfl

end

end Simu
