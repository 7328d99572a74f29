import Verif.Props.ContactSolve
import Verif.Props.PositionSolve
/-
C53: position correction of contacts.
-/
namespace Simu
open Mat Contact
section
variable {K : Type*} [Field K] [LinearOrder K] [IsStrictOrderedRing K] [Trig K]

/-- By how much a contact that should sink in by `tolerance` at most is to be corrected at once when the gap is `gap`: a fifth of
the excess, but at most a fifth of a unit. -/
def correctionGoal (tolerance gap : K) : K := min (1 / 5) (max 0 (1 / 5 * (-gap - tolerance)))

omit [Trig K] in
theorem correctionGoal_clamp (tolerance gap : K) :
    Algo.clamp (1 / 5 * (gap + tolerance)) (-(1 / 5)) 0 = -correctionGoal tolerance gap := by
  have h5 : (0 : K) < 1 / 5 := by norm_num
  have e : 1 / 5 * (-gap - tolerance) = -(1 / 5 * (gap + tolerance)) := by ring
  rw [correctionGoal, e]
  set x := 1 / 5 * (gap + tolerance)
  rcases clamp_cases (x := x) (show (-(1 / 5) : K) ≤ 0 by linarith) with ⟨hc, h1, h2⟩ | ⟨hc, h1⟩ | ⟨hc, h1⟩
  · rw [hc, max_eq_right (by linarith), min_eq_right (by linarith), neg_neg]
  · rw [hc, max_eq_right (by linarith), min_eq_left (by linarith)]
  · rw [hc, max_eq_left (by linarith), min_eq_right h5.le, neg_zero]

omit [LinearOrder K] [IsStrictOrderedRing K] in
theorem pull_impulse {f : Frame K} {p : Proxies K} {pos : Nat → Position K} {J : Mat K 2 6}
    (h : ∀ c i, J.get c i = if c.val < f.nContacts then rowOf f p pos f.normal c i else 0) (l : Fin 2 → K) (i : Fin 6) :
    pull J l i = f.impulse p pos l 0 i := by
  simp only [pull, h, Frame.impulse]
  refine Finset.sum_congr rfl fun c _ => ?_
  by_cases hc : c.val < f.nContacts
  · rw [if_pos hc, if_pos hc]
    simp only [pairImpulse, rowOf, row, Pi.zero_apply, zero_mul, add_zero, mul_comm]
  · rw [if_neg hc, if_neg hc, zero_mul]

omit [IsStrictOrderedRing K] in
theorem separation_kick {f : Frame K} {p : Proxies K} (hi : p.i0 ≠ p.i1) {pos : Nat → Position K} {J : Mat K 2 6}
    (h : ∀ c i, J.get c i = if c.val < f.nContacts then rowOf f p pos f.normal c i else 0) (l : Fin 2 → K) (c : Fin 2)
    (hc : c.val < f.nContacts) : f.separationSpeed p pos (kick p (f.impulse p pos l 0)) c =
      inner p (J.get c) (J.get 0) * l 0 + inner p (J.get c) (J.get 1) * l 1 := by
  have h1 := push_row f p pos f.normal c ⟨pos, kick p (f.impulse p pos l 0)⟩
  have h2 := push_pull p J (fun _ => 0) l c
  rw [Frame.separationSpeed, ← h1]
  simp only [push, zero_add, mul_zero, Finset.sum_const_zero, pull_impulse h] at h2
  rw [← h2]
  refine Finset.sum_congr rfl fun i _ => ?_
  rw [h, if_pos hc, velocity_toV]
  congr 1
  simp only [Proxies.invMassVec, at_ofFn, kick, hi, hi.symm, if_true, if_false]
  fin_cases i <;> simp

/-- C53: position correction of a contact between two bodies of which at least one can be moved. While no contact point has sunk in by three times the
tolerance, nothing happens. Otherwise the bodies are pushed apart along the normal at the contact points (never pulled), such that every
point is moved apart (to first order) by at least its goal and by exactly its goal where there is a push. -/
theorem C53_position (e : Contact K) (p : Proxies K) (hi : p.i0 ≠ p.i1) (s : SolveState K) (f : Frame K)
    (hf : f = e.manifold.frame ![(s.pos p.i0).toWorldSpace, (s.pos p.i1).toWorldSpace])
    (hn : f.nContacts = 1 ∨ f.nContacts = 2) (hs : Solvable f p) (tolerance : K) (ht : tolerance = e.manifold.minPen) (hpos : 0 < tolerance)
    (gap : Fin 2 → K) (hgap : ∀ c, gap c = Vec2.dot f.normal (f.contacts 0 c - f.contacts 1 c)) :
    ((∀ c : Fin 2, c.val < f.nContacts → -3 * tolerance < gap c) → ∃ e', e.solvePositions p s = .ok (e', s)) ∧
    ((∃ c : Fin 2, c.val < f.nContacts ∧ gap c ≤ -3 * tolerance) → ∃ e' s' l, e.solvePositions p s = .ok (e', s') ∧
      Displaced p s s' (fun i => p.invMassVec.at_ i * f.impulse p s.pos l 0 i) ∧
      ∀ c : Fin 2, c.val < f.nContacts → 0 ≤ l c ∧
        correctionGoal tolerance (gap c) ≤ f.separationSpeed p s.pos (kick p (f.impulse p s.pos l 0)) c ∧
        (0 < l c → f.separationSpeed p s.pos (kick p (f.impulse p s.pos l 0)) c = correctionGoal tolerance (gap c))) := by
  set e1 : Contact K := { e with frame := f } with he1
  set e2 := (e1.computeJacobians p s false).computeKs p false with he2
  obtain ⟨hJn, _, hfr, hman, _⟩ := computeKs_eq (e1.computeJacobians p s false) p false
  have hJ : ∀ c i, e2.Jn.get c i = if c.val < f.nContacts then rowOf f p s.pos f.normal c i else 0 := by
    intro c i
    rw [he2, hJn]
    exact computeJacobians_Jn e1 p s false c i
  have hfr' : e2.frame = f := hfr
  have hman' : e2.manifold = e.manifold := hman
  obtain ⟨hK, hdet⟩ := hs.positive' hJ
  obtain ⟨k1, k2⟩ := computeKs_normal (e1.computeJacobians p s false) p false s.pos (by
    show e.manifold.nContacts = f.nContacts
    rw [hf]; rfl) (fun c i => computeJacobians_Jn e1 p s false c i)
  have k1' : f.nContacts = 1 → e2.normalSolver = .inverse (1 / inner p (e2.Jn.get 0) (e2.Jn.get 0)) := by
    rw [he2, hJn]; exact k1
  have k2' : f.nContacts = 2 → e2.normalSolver = .lcp (LcpSolver.mk' (normalK p e2.Jn)) := by
    rw [he2, hJn]; exact k2
  set C : MVec K 2 := forFin 2 (fun c C => if c.val < f.nContacts then
    C.setAt c (Vec2.dot f.normal (e2.relativePosition c)) else C) Mat.zero with hC
  have hrel : ∀ c, Vec2.dot f.normal (e2.relativePosition c) = gap c := by
    intro c; rw [hgap, relativePosition, hfr']
  have hCat : ∀ c, C.at_ c = if c.val < f.nContacts then gap c else 0 := by
    intro c
    rw [hC, forFin_two]
    simp only [hrel]
    rcases hn with h1 | h1 <;> fin_cases c <;> simp [h1, at_setAt, at_zero]
  set err : MVec K 2 := Mat.ofFn fun c => Algo.clamp (1 / 5 * (C.at_ c + tolerance)) (-(1 / 5)) 0 with herr
  have herrat : ∀ c : Fin 2, c.val < f.nContacts → err.at_ c = -correctionGoal tolerance (gap c) := by
    intro c hc
    rw [herr, at_ofFn, hCat, if_pos hc, correctionGoal_clamp]
  have hsol : e.solvePositions p s = if ∀ c, -3 * tolerance < C.at_ c then .ok (e2, s)
    else if f.nContacts = 1 then
      e2.normalSolver.getInverse.bind fun invNormalK11 =>
        .ok (e2, p.applyPositionCorrection ((e2.normalJacobian 0).transpose.smul
          (if -err.at_ 0 * invNormalK11 < 0 then 0 else -err.at_ 0 * invNormalK11)) s)
    else if f.nContacts = 2 then
      e2.normalSolver.getLcp.bind fun solver =>
        (solver.solve err.neg).bind fun posLambda =>
          .ok (e2, p.applyPositionCorrection (e2.Jn.transpose.mul posLambda) s)
    else .ok (e2, s) := by
    unfold Contact.solvePositions
    dsimp only
    rw [← hf, ← he1, ← he2, hfr', hman', ← ht]
  constructor
  · intro hall
    refine ⟨e2, ?_⟩
    rw [hsol, if_pos]
    intro c
    rw [hCat]
    split_ifs with hc
    · exact hall c hc
    · linarith
  · rintro ⟨c, hc, hle⟩
    have hneg : ¬ ∀ c, -3 * tolerance < C.at_ c := by
      intro h
      have := h c
      rw [hCat, if_pos hc] at this
      exact absurd this (not_lt.2 hle)
    rw [if_neg hneg] at hsol
    have goal_nonneg : ∀ g, 0 ≤ correctionGoal tolerance g := fun g => le_min (by norm_num) (le_max_left _ _)
    rcases hn with h1 | h2
    · rw [if_pos h1, k1' h1] at hsol
      simp only [NormalSolver.getInverse, Outcome.bind_ok] at hsol
      have h0 : (0 : Fin 2).val < f.nContacts := by simp [h1]
      set k := inner p (e2.Jn.get 0) (e2.Jn.get 0) with hk
      have hk0 : 0 < k := hK 0 h0
      set g := correctionGoal tolerance (gap 0) with hg
      have hx : (if -err.at_ 0 * (1 / k) < 0 then 0 else -err.at_ 0 * (1 / k)) = g * (1 / k) := by
        rw [herrat 0 h0, neg_neg, if_neg (not_lt.2 (mul_nonneg (goal_nonneg _) (one_div_pos.2 hk0).le))]
      rw [hx] at hsol
      have hP : (e2.normalJacobian 0).transpose.smul (g * (1 / k)) = e2.Jn.transpose.mul (Mat.ofFn ![g * (1 / k), 0]) := by
        apply ext_at
        intro i
        rw [at_smul, at_mul, Fin.sum_univ_two, at_ofFn, at_ofFn, get_transpose, get_transpose, at_eq_get, get_transpose, normalJacobian_get]
        simp
      rw [hP] at hsol
      have hd := positionCorrection_displaced p hi e2.Jn (Mat.ofFn ![g * (1 / k), 0]) s
      refine ⟨e2, _, (Mat.ofFn ![g * (1 / k), 0] : MVec K 2).toV, hsol, ?_, ?_⟩
      · simp only [pull_impulse hJ] at hd
        exact hd
      · intro c hc
        have hc0 : c = 0 := by apply Fin.ext; rw [h1] at hc; simpa using hc
        subst hc0
        have hgain := separation_kick hi hJ (Mat.ofFn ![g * (1 / k), 0] : MVec K 2).toV 0 h0
        have hl0 : (Mat.ofFn ![g * (1 / k), 0] : MVec K 2).toV 0 = g * (1 / k) := by simp [toV, at_ofFn]
        have hl1 : (Mat.ofFn ![g * (1 / k), 0] : MVec K 2).toV 1 = 0 := by simp [toV, at_ofFn]
        have hkk : k * (1 / k) = 1 := by rw [mul_one_div, div_self hk0.ne']
        have hgain' : f.separationSpeed p s.pos (kick p (f.impulse p s.pos (Mat.ofFn ![g * (1 / k), 0] : MVec K 2).toV 0)) 0 = g := by
          rw [hgain, hl0, hl1, ← hk]
          linear_combination g * hkk
        rw [hgain', hl0]
        exact ⟨mul_nonneg (goal_nonneg _) (one_div_pos.2 hk0).le, le_refl _, fun _ => rfl⟩
    · rw [if_neg (by omega), if_pos h2, k2' h2] at hsol
      obtain ⟨l, hl, ⟨hl0, hlw, hlc⟩, _⟩ := C12_lcp (normalK p e2.Jn) (by rw [normalK_get]; exact hK 0 (by simp [h2]))
        (by rw [normalK_get]; exact hK 1 (by simp [h2])) (hdet h2) err.neg
      simp only [NormalSolver.getLcp, Outcome.bind_ok, hl] at hsol
      have hd := positionCorrection_displaced p hi e2.Jn l s
      refine ⟨e2, _, l.toV, hsol, ?_, ?_⟩
      · simp only [pull_impulse hJ] at hd
        exact hd
      · intro c hc
        have hgain := separation_kick hi hJ l.toV c hc
        have hA : ((normalK p e2.Jn).mul l).at_ c = inner p (e2.Jn.get c) (e2.Jn.get 0) * l.at_ 0 + inner p (e2.Jn.get c) (e2.Jn.get 1) * l.at_ 1 := by
          rw [at_mul, Fin.sum_univ_two, normalK_get, normalK_get]
        have h1 := hlw c
        have h3 := hlc c
        rw [hA, at_neg, herrat c hc, neg_neg] at h1 h3
        rw [hgain]
        simp only [toV]
        refine ⟨hl0 c, by linarith, ?_⟩
        intro hp
        have := (mul_eq_zero.1 h3).resolve_left hp.ne'
        linarith

end

/-! ### Cases -/

/-- The box sinks in by 1/10 at one or two points (the tolerance is 1/200): it is pushed out. -/
noncomputable def sunkSample (n : Nat) : Contact ℝ :=
  { contactSample n 0 0 with
    manifold := ⟨![![⟨-1, -3 / 5⟩, ⟨1, -3 / 5⟩], ![⟨-1, 1 / 2⟩, ⟨1, 1 / 2⟩]], n, ⟨0, 1⟩, 1 / 200, 1⟩ }

theorem sunk_frame (n : Nat) (f : Frame ℝ) (hf : f = (sunkSample n).manifold.frame ![((contactState 0).pos contactBodies.proxies.i0).toWorldSpace,
      ((contactState 0).pos contactBodies.proxies.i1).toWorldSpace]) :
    f.nContacts = n ∧ f.normal = ⟨0, 1⟩ ∧ ∀ c : Fin 2, c.val < n → f.contacts 0 c = ⟨![-1, 1] c, 2 / 5⟩ ∧ f.contacts 1 c = ⟨![-1, 1] c, 1 / 2⟩ := by
  have e0 : contactBodies.proxies.i0 = 0 := rfl
  have e1 : contactBodies.proxies.i1 = 1 := rfl
  rw [hf, e0, e1]
  refine ⟨rfl, ?_, ?_⟩
  · simp [Manifold.frame, sunkSample, contactState, contactBody_rot]
  · intro c hc
    simp only [Manifold.frame, sunkSample, hc, if_true, contactState]
    fin_cases c <;> simp [contactBody_app] <;> norm_num

/-- Case for `C53_position`, for one and two contacts. -/
example (n : Nat) (hn : n = 1 ∨ n = 2) : ∃ e' s' q, (sunkSample n).solvePositions contactBodies.proxies (contactState 0) = .ok (e', s') ∧
    Displaced contactBodies.proxies (contactState 0) s' q := by
  obtain ⟨h1, h2, h3⟩ := sunk_frame n _ rfl
  set f := (sunkSample n).manifold.frame ![((contactState 0).pos contactBodies.proxies.i0).toWorldSpace,
      ((contactState 0).pos contactBodies.proxies.i1).toWorldSpace] with hf
  have hm : contactBodies.proxies.masses = ⟨1 / 2, 1 / 3, 1 / 2, 1 / 3⟩ := contactBodies_masses
  have hs : Solvable f contactBodies.proxies := by
    constructor <;> (try rw [hm]) <;> try norm_num
    · rw [h2]; intro h; simpa using congrArg Vec2.y h
    · intro hc
      left
      rw [(h3 0 (by omega)).1, (h3 1 (by simp; omega)).1, h2]
      simp [Vec2.cross]
      norm_num
  obtain ⟨e', s', l, h4, h5, _⟩ := (C53_position (sunkSample n) contactBodies.proxies (by decide) (contactState 0) f hf
    (by rw [h1]; exact hn) hs (1 / 200) rfl (by norm_num) _ (fun c => rfl)).2 ⟨0, by rw [h1]; rcases hn with h | h <;> simp [h], by
      rw [(h3 0 (by rcases hn with h | h <;> simp [h])).1, (h3 0 (by rcases hn with h | h <;> simp [h])).2, h2]
      simp [Vec2.dot]
      norm_num⟩
  exact ⟨e', s', _, h4, h5⟩

end Simu
