import Verif.Lemmas.Contact
import Verif.Lemmas.ContactSample
import Verif.Props.Manifold
import Verif.Lemmas.Samples
import Mathlib.Tactic.Linarith
import Mathlib.Tactic.NormNum
import Mathlib.Tactic.Positivity
/-
C35: contacts only push and friction stays in the cone. C36: contacts separate with the requested restitution.
-/
namespace Simu
open Mat Contact
section
variable {K : Type*} [Field K] [LinearOrder K] [IsStrictOrderedRing K] [Trig K]

omit [Trig K] in
theorem clamp_three (x lo hi : K) (h : lo ≤ hi) :
    (x < lo ∧ Algo.clamp x lo hi = lo) ∨ (hi < x ∧ Algo.clamp x lo hi = hi) ∨ Algo.clamp x lo hi = x := by
  unfold Algo.clamp
  by_cases a : x < lo
  · exact Or.inl ⟨a, by simp [a, not_lt.2 h]⟩
  · by_cases b : hi < x
    · exact Or.inr (Or.inl ⟨b, by simp [a, b]⟩)
    · exact Or.inr (Or.inr (by simp [a, b]))

theorem Contact.initSolve_lambda (e : Contact K) (p : Proxies K) (s : SolveState K) :
    (e.initSolve p s).normalLambda = Mat.zero ∧ (e.initSolve p s).previousNormalLambda = e.normalLambda ∧
    (e.initSolve p s).friction = e.friction ∧ (e.initSolve p s).restitution = e.restitution := by
  obtain ⟨_, _, _, _, ht, hn, hr, hfr, _⟩ := computeKs_eq (e.computeJacobians p s true) p true
  exact ⟨rfl, hn, hfr, hr⟩

theorem Contact.updateContacts_eq {sqrt : K → K} {pen : List (Vec2 K) → List (Vec2 K) → Vec2 K → Outcome (Vec2 K)}
    {e e' : Contact K} {sides : Fin 2 → Side K} (h : e.updateContacts sqrt pen sides = .ok e') :
    e'.friction = e.friction ∧ e'.restitution = e.restitution ∧ e'.previousNormalLambda = e.previousNormalLambda ∧
    (e'.normalLambda = e.normalLambda ∨ ∃ n m, e'.normalLambda = carryOver n m e.normalLambda) := by
  unfold Contact.updateContacts at h
  dsimp only at h
  set e1 : Contact K := { e with frame := e.manifold.frame fun i => (sides i).position.toWorldSpace }
  cases hb : e1.needsNewManifold fun i => (sides i).geom.transformed with
  | throw => simp [hb] at h
  | ub => simp [hb] at h
  | ok b =>
    simp only [hb, Outcome.bind_ok] at h
    split_ifs at h
    · cases hm : e.manifold.update sqrt pen sides with
      | throw => simp [hm] at h
      | ub => simp [hm] at h
      | ok m =>
        simp only [hm, Outcome.bind_ok, Outcome.ok.injEq] at h
        subst h
        exact ⟨rfl, rfl, rfl, Or.inr ⟨_, _, rfl⟩⟩
    · simp only [Outcome.ok.injEq] at h
      subst h
      exact ⟨rfl, rfl, rfl, Or.inl rfl⟩

theorem Contact.solvePositions_eq {p : Proxies K} {s s' : SolveState K} {e e' : Contact K}
    (h : e.solvePositions p s = .ok (e', s')) :
    e'.friction = e.friction ∧ e'.restitution = e.restitution ∧ e'.previousNormalLambda = e.previousNormalLambda ∧
    e'.normalLambda = e.normalLambda := by
  set e1 : Contact K := { e with frame := e.manifold.frame ![(s.pos p.i0).toWorldSpace, (s.pos p.i1).toWorldSpace] }
    with he1
  set e2 := (e1.computeJacobians p s false).computeKs p false with he2
  obtain ⟨_, _, _, _, ht, hn, hr, hfr, hp, _⟩ := computeKs_eq (e1.computeJacobians p s false) p false
  have key : e' = e2 := by
    unfold Contact.solvePositions at h
    dsimp only at h
    rw [← he1, ← he2] at h
    split_ifs at h
    · simp only [Outcome.ok.injEq, Prod.mk.injEq] at h; exact h.1.symm
    · cases hk : e2.normalSolver with
      | inverse k =>
        simp only [hk, NormalSolver.getInverse, Outcome.bind_ok, Outcome.ok.injEq, Prod.mk.injEq] at h
        exact h.1.symm
      | unset => simp [hk, NormalSolver.getInverse] at h
      | lcp k => simp [hk, NormalSolver.getInverse] at h
    · cases hk : e2.normalSolver with
      | inverse k => simp [hk, NormalSolver.getLcp] at h
      | unset => simp [hk, NormalSolver.getLcp] at h
      | lcp k =>
        simp only [hk, NormalSolver.getLcp, Outcome.bind_ok] at h
        revert h
        generalize k.solve _ = o
        intro h
        cases o with
        | throw => simp at h
        | ub => simp at h
        | ok x =>
          simp only [Outcome.bind_ok, Outcome.ok.injEq, Prod.mk.injEq] at h
          exact h.1.symm
    · simp only [Outcome.ok.injEq, Prod.mk.injEq] at h; exact h.1.symm
  rw [key]
  exact ⟨hfr, hr, hp, hn⟩

/-- C35: whatever happens to a contact, its normal multipliers (current and saved) are never negative: contacts only push. -/
theorem C35_contacts_push {sqrt : K → K} {pen : List (Vec2 K) → List (Vec2 K) → Vec2 K → Outcome (Vec2 K)}
    {first second : Material K} {e : Contact K} (h : e.Reachable sqrt pen first second) (c : Fin 2) :
    0 ≤ e.normalLambda.at_ c ∧ 0 ≤ e.previousNormalLambda.at_ c := by
  suffices key : (∀ c, 0 ≤ e.normalLambda.at_ c) ∧ (∀ c, 0 ≤ e.previousNormalLambda.at_ c) from ⟨key.1 c, key.2 c⟩
  clear c
  induction h with
  | make sides h =>
    unfold Contact.make at h
    cases hm : Manifold.make sqrt pen first second sides with
    | throw => simp [hm] at h
    | ub => simp [hm] at h
    | ok m =>
      simp only [hm, Outcome.bind_ok, Outcome.ok.injEq] at h
      subst h
      exact ⟨fun c => le_refl _, fun c => le_refl _⟩
  | preStep sides _ h ih =>
    obtain ⟨_, _, hp, hl⟩ := updateContacts_eq h
    rw [hp]
    refine ⟨?_, ih.2⟩
    rcases hl with hl | ⟨n, m, hl⟩
    · rw [hl]; exact ih.1
    · rw [hl]
      intro c
      have h0 := ih.1 0; have h1 := ih.1 1
      unfold carryOver
      split_ifs
      · exact le_refl _
      · rw [at_ofFn]; fin_cases c <;> exact div_nonneg h0 (by norm_num)
      · fin_cases c <;> simp <;> linarith
      · exact ih.1 c
  | isActive p s _ ih => exact ih
  | initSolve p s _ ih =>
    obtain ⟨h1, h2, _⟩ := initSolve_lambda _ p s
    rw [h1, h2]
    exact ⟨fun c => le_refl _, ih.1⟩
  | warmstart p s _ ih => exact ⟨ih.2, ih.2⟩
  | solveVelocities p s _ h ih =>
    obtain ⟨l, v', hn, he', hs'⟩ := solveVelocities_eq _ p s h
    rw [he']
    exact ⟨fun c => solveNormal_nonneg _ p _ hn ih.1 c, ih.2⟩
  | solvePositions p s _ h ih =>
    obtain ⟨_, _, hp, hl⟩ := solvePositions_eq h
    rw [hp, hl]
    exact ih

/-- A contact keeps the combined friction and bounciness of its materials. -/
theorem C35_coefficients {sqrt : K → K} {pen : List (Vec2 K) → List (Vec2 K) → Vec2 K → Outcome (Vec2 K)}
    {first second : Material K} {e : Contact K} (h : e.Reachable sqrt pen first second) :
    e.friction = (CombinableProperty.combine first.friction second.friction).value ∧
    e.restitution = (CombinableProperty.combine first.bounciness second.bounciness).value := by
  induction h with
  | make sides h =>
    unfold Contact.make at h
    cases hm : Manifold.make sqrt pen first second sides with
    | throw => simp [hm] at h
    | ub => simp [hm] at h
    | ok m =>
      simp only [hm, Outcome.bind_ok, Outcome.ok.injEq] at h
      subst h
      exact ⟨rfl, rfl⟩
  | preStep sides _ h ih =>
    obtain ⟨h1, h2, _⟩ := updateContacts_eq h
    rw [h1, h2]; exact ih
  | isActive p s _ ih => exact ih
  | initSolve p s _ ih =>
    obtain ⟨_, _, h1, h2⟩ := initSolve_lambda _ p s
    rw [h1, h2]; exact ih
  | warmstart p s _ ih => exact ih
  | solveVelocities p s _ h ih =>
    obtain ⟨l, v', hn, he', hs'⟩ := solveVelocities_eq _ p s h
    rw [he']; exact ih
  | solvePositions p s _ h ih =>
    obtain ⟨h1, h2, _⟩ := solvePositions_eq h
    rw [h1, h2]; exact ih

/-- C35: each time a contact is solved, the tangential multiplier of each contact point ends up within the friction cone of
the normal multiplier the contact had. -/
theorem C35_friction_cone {sqrt : K → K} {pen : List (Vec2 K) → List (Vec2 K) → Vec2 K → Outcome (Vec2 K)}
    {first second : Material K} {e : Contact K} (h : e.Reachable sqrt pen first second)
    (hf : 0 ≤ (CombinableProperty.combine first.friction second.friction).value)
    {p : Proxies K} {s s' : SolveState K} {e' : Contact K} (hs : e.solveVelocities p s = .ok (e', s'))
    (c : Fin 2) (hc : c.val < e.frame.nContacts) :
    |e'.tangentLambda.at_ c| ≤ (CombinableProperty.combine first.friction second.friction).value * e.normalLambda.at_ c := by
  have h1 := (C35_coefficients h).1
  have h2 := (C35_contacts_push h c).1
  obtain ⟨l, v', hn, he', hs'⟩ := solveVelocities_eq e p s hs
  rw [he', ← h1]
  rw [← h1] at hf
  exact (frictionLoop_bound e p (p.velocity s) c).1 hc (mul_nonneg hf h2)

omit [Trig K] in
/-- C35: the friction step at a contact point either stops the sliding there, or the friction is as large as allowed and
opposes the sliding that remains. -/
theorem C35_coulomb (e : Contact K) (p : Proxies K) (c : Fin 2) (st : MVec K 2 × MVec K 6)
    (hk : 0 < inner p ((e.Jf c).get 0) ((e.Jf c).get 0))
    (hi : e.invTangentKs.at_ c = 1 / inner p ((e.Jf c).get 0) ((e.Jf c).get 0)) (hb : 0 ≤ e.friction * e.normalLambda.at_ c) :
    let st' := frictionStep e p c st
    let slide := ∑ i, (e.Jf c).get 0 i * st'.2.at_ i
    slide = 0 ∨ (0 < slide ∧ st'.1.at_ c = -(e.friction * e.normalLambda.at_ c)) ∨
      (slide < 0 ∧ st'.1.at_ c = e.friction * e.normalLambda.at_ c) := by
  intro st' slide
  obtain ⟨h1, h2⟩ := frictionStep_eq e p c st
  set k := inner p ((e.Jf c).get 0) ((e.Jf c).get 0) with hkd
  set vt := ∑ i, (e.Jf c).get 0 i * st.2.at_ i with hvt
  have hslide : slide = vt + k * (st'.1.at_ c - st.1.at_ c) := by
    simp only [slide, st', h2, hkd, hvt, inner, Fin.sum_univ_six]
    ring
  have hst : st'.1.at_ c = Algo.clamp (st.1.at_ c + -vt * (1 / k)) (-(e.friction * e.normalLambda.at_ c))
      (e.friction * e.normalLambda.at_ c) := by
    simp only [st', h1, at_setAt, if_true, hi]
  have hkk : k * (1 / k) = 1 := by rw [mul_one_div, div_self hk.ne']
  set t := st.1.at_ c with ht
  set B := e.friction * e.normalLambda.at_ c with hB
  have e1 : k * (t + -vt * (1 / k)) = k * t - vt := by linear_combination -vt * hkk
  rcases clamp_three (t + -vt * (1 / k)) (-B) B (by linarith) with ⟨a, hc⟩ | ⟨a, hc⟩ | hc
  · right; left
    rw [hc] at hst
    refine ⟨?_, hst⟩
    rw [hslide, hst]
    have := mul_lt_mul_of_pos_left a hk
    rw [e1] at this
    linarith
  · right; right
    rw [hc] at hst
    refine ⟨?_, hst⟩
    rw [hslide, hst]
    have := mul_lt_mul_of_pos_left a hk
    rw [e1] at this
    linarith
  · left
    rw [hslide, hst, hc]
    linear_combination -vt * hkk

end

section Samples
attribute [local instance] flatTrig

/-- A material with friction 1/2, a full bounce and a tolerance of 1/200. -/
def sampleMaterial : Material ℚ := ⟨1, ⟨.average, 1⟩, ⟨.average, 1 / 2⟩, ⟨.average, 1 / 200⟩⟩

/-- The contact of the two squares. -/
theorem twoSquares_contact : ∃ e : Contact ℚ, Contact.make id (fun _ _ _ => .ok ⟨0, -1 / 10⟩) sampleMaterial sampleMaterial twoSquares = .ok e ∧
    e.manifold.nContacts = 2 ∧ e.manifold.refIndex = 1 ∧ e.manifold.normal = ⟨0, 1⟩ ∧ e.manifold.contacts 0 0 = ⟨3 / 4, 0⟩ ∧
    e.manifold.contacts 1 0 = ⟨1, 1⟩ ∧ e.manifold.contacts 0 1 = ⟨0, 0⟩ ∧ e.manifold.minPen = 1 / 200 ∧ e.friction = 1 / 2 ∧ e.restitution = 1 := by
  haveI := flatTrig_lawful
  obtain ⟨m', h, h1, h2, h3, h4, h5, h6⟩ := twoSquares_update
  have hrot : ∀ i, (twoSquares i).position.orient.Reachable := by
    intro i
    fin_cases i
    · exact .ofAngle 0
    · exact .ofAngle 0
  have hpen := (C52_manifold hrot h _ rfl).1
  have hm : Manifold.make id (fun _ _ _ => .ok ⟨0, -1 / 10⟩) sampleMaterial sampleMaterial twoSquares = .ok m' := by
    have : (CombinableProperty.combine sampleMaterial.penetration sampleMaterial.penetration).value = 1 / 200 := by decide +kernel
    unfold Manifold.make
    rw [this]
    exact h
  unfold Contact.make
  rw [hm]
  refine ⟨_, rfl, h1, h2, h3, h4, h5, h6, hpen, ?_, ?_⟩
  · simp only; decide +kernel
  · simp only; decide +kernel

-- C35: the contact of the two squares after the first start of a solve and a warm start.
example (p : Proxies ℚ) (s : SolveState ℚ) : ∃ e : Contact ℚ, e.manifold.nContacts = 2 ∧
    0 ≤ ((e.prepared p s).warmstart p s).1.normalLambda.at_ 1 ∧ ((e.prepared p s).warmstart p s).1.friction = 1 / 2 := by
  obtain ⟨e, h, hn, _⟩ := twoSquares_contact
  have hr : ((e.prepared p s).warmstart p s).1.Reachable id (fun _ _ _ => .ok ⟨0, -1 / 10⟩) sampleMaterial sampleMaterial :=
    .warmstart p s (.initSolve p s (.isActive p s (.make twoSquares h)))
  refine ⟨e, hn, (C35_contacts_push hr 1).1, ?_⟩
  rw [(C35_coefficients hr).1]
  decide +kernel

-- C35: a sliding contact point (tangent along x, unit effective mass) whose normal multiplier is 1.
example : let e : Contact ℝ := { contactSample 1 0 (1 / 2) with
      Jf := fun _ => ⟨![1, 0, 0, -1, 0, 0]⟩
      invTangentKs := Mat.ofFn ![1, 1]
      normalLambda := Mat.ofFn ![1, 1] }
    let st' := frictionStep e contactBodies.proxies 0 (Mat.zero, Mat.ofFn ![3, 0, 0, 0, 0, 0]);
    (∑ i, (e.Jf 0).get 0 i * st'.2.at_ i = 0 ∨ (0 < ∑ i, (e.Jf 0).get 0 i * st'.2.at_ i ∧ st'.1.at_ 0 = -(1 / 2)) ∨
      (∑ i, (e.Jf 0).get 0 i * st'.2.at_ i < 0 ∧ st'.1.at_ 0 = 1 / 2)) := by
  intro e st'
  have hm : contactBodies.proxies.masses = ⟨1 / 2, 1 / 3, 1 / 2, 1 / 3⟩ := contactBodies_masses
  have hk : inner contactBodies.proxies ((e.Jf 0).get 0) ((e.Jf 0).get 0) = 1 := by
    rw [inner_eq, hm]
    simp [e, Mat.get, Mat.idx]
    norm_num
  have hb : e.friction * e.normalLambda.at_ 0 = 1 / 2 := by
    have : e.normalLambda.at_ 0 = 1 := by simp only [e, at_ofFn]; rfl
    rw [this]; simp [e, contactSample]
  have := C35_coulomb e contactBodies.proxies 0 (Mat.zero, Mat.ofFn ![3, 0, 0, 0, 0, 0]) (by rw [hk]; exact one_pos)
    (by rw [hk]; simp only [e, at_ofFn]; norm_num) (by rw [hb]; norm_num)
  rw [hb] at this
  exact this

end Samples
end Simu
