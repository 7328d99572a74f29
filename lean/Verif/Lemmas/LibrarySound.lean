import Verif.Spec.LibrarySound
import Verif.Lemmas.Library
import Verif.Lemmas.IslandSound
import Verif.Props.Equality
/-
The calls to constraints that can always be solved succeed.
-/
namespace Simu
open Mat Island
variable {K : Type*} [Field K] [LinearOrder K] [IsStrictOrderedRing K] [Trig K] {d : Nat}

theorem InvMasses.Nonneg.vec {m : InvMasses K} (h : m.Nonneg) (i0 i1 : Nat) (c : Fin 6) : 0 ≤ (⟨i0, i1, m⟩ : Proxies K).invMassVec.at_ c := by
  obtain ⟨v0, v1, v2, v3, v4, v5⟩ := invMassVec_at (⟨i0, i1, m⟩ : Proxies K)
  fin_cases c
  · exact v0.symm ▸ h.m0
  · exact v1.symm ▸ h.m0
  · exact v2.symm ▸ h.I0
  · exact v3.symm ▸ h.m1
  · exact v4.symm ▸ h.m1
  · exact v5.symm ▸ h.I1

/-- The solver of a constraint answers. -/
def KSolver.Solves (k : KSolver K d) : Prop := ∀ b, ∃ x, k.solve b = .ok x

def Contact.Usable (e : Contact K) : Prop :=
  (e.frame.nContacts = 1 → ∃ k, e.normalSolver = .inverse k) ∧
  (e.frame.nContacts = 2 → ∃ s : LcpSolver K, e.normalSolver = .lcp s ∧ ∀ b, ∃ x, s.solve b = .ok x)

def Kind.Ready : (k : Kind K) → k.State → Prop
  | .equality _ _, e => (e : EqualitySolver _ _).solver.Solves
  | .mouse _, e => (e : EqualitySolver _ _).solver.Solves
  | .contact, e => (e : Contact _).Usable
  | .inequality _ _, _ => False
  | .limits _, _ => False

theorem EqualitySolver.initSolve_sound {sqrt : K → K} (hs : ∀ x, 0 ≤ x → sqrt x * sqrt x = x) {m : InvMasses K} (hm : m.Nonneg) {f : CFun K d}
    (hf : Effective m f) {e : EqualitySolver K d} (hd : ∀ r, 0 ≤ e.base.damping.at_ r) (i0 i1 : Nat) (s : SolveState K) :
    ∃ e', e.initSolve sqrt ⟨i0, i1, m⟩ f s = .ok e' ∧ e'.base.damping = e.base.damping ∧ e'.solver.Solves := by
  obtain ⟨e', h⟩ := (C34_valid hs e ⟨i0, i1, m⟩ (hm.vec i0 i1) hd f s).1 fun x hx _ => hf i0 i1 s x hx
  obtain ⟨-, -, -, hda, -, hk, hv⟩ := EqualitySolver.initSolve_ok sqrt e e' _ f s h
  obtain ⟨k, hk', hvalid, hx, _⟩ := KSolver.mk_spec hs (effectiveMass ⟨i0, i1, m⟩ (f.jacobian ⟨i0, i1, m⟩ s) e.base.damping)
  have hke : k = e'.solver := by simpa using hk'.symm.trans hk
  subst hke
  exact ⟨e', h, hda, fun b => (hx (hvalid.1 hv) b).imp fun x h => h.1⟩

theorem EqualitySolver.solveVelocity_sound {e : EqualitySolver K d} (h : e.solver.Solves) (p : Proxies K) (f : CFun K d) (dt : K) (s : SolveState K) :
    ∃ e' s', e.solveVelocity p f dt s = .ok (e', s') ∧ e'.base.damping = e.base.damping ∧ e'.solver = e.solver := by
  obtain ⟨x, hx⟩ := h (e.base.computeRhs p s f dt true)
  exact ⟨{ e with base := (e.base.updateLambda p f dt x s).1 }, (e.base.updateLambda p f dt x s).2, by
    simp only [EqualitySolver.solveVelocity, hx, Outcome.bind_ok], rfl, rfl⟩

theorem EqualitySolver.solvePosition_sound {sqrt : K → K} (hs : ∀ x, 0 ≤ x → sqrt x * sqrt x = x) {m : InvMasses K} (hm : m.Nonneg) {f : CFun K d}
    (hf : Effective m f) (e : EqualitySolver K d) (i0 i1 : Nat) (s : SolveState K) :
    ∃ e' s', e.solvePosition sqrt ⟨i0, i1, m⟩ f s = .ok (e', s') ∧ e'.base.damping = e.base.damping ∧ e'.solver.Solves := by
  have hz : (effectiveMass ⟨i0, i1, m⟩ (f.jacobian ⟨i0, i1, m⟩ s) Mat.zero) =
      ((f.jacobian ⟨i0, i1, m⟩ s).mul (⟨i0, i1, m⟩ : Proxies K).inverseMass).mul (f.jacobian ⟨i0, i1, m⟩ s).transpose := by
    apply ext_get
    intro r c
    rw [effectiveMass, get_add, get_diagonal]
    split <;> simp [at_zero]
  have hdet := (effectiveMass_det ⟨i0, i1, m⟩ (hm.vec i0 i1) (f.jacobian ⟨i0, i1, m⟩ s) Mat.zero (fun r => by rw [at_zero])).2
    fun x hx _ => hf i0 i1 s x hx
  rw [hz] at hdet
  obtain ⟨k, hk, -, hx, -⟩ := KSolver.mk_spec hs (((f.jacobian ⟨i0, i1, m⟩ s).mul (⟨i0, i1, m⟩ : Proxies K).inverseMass).mul
    (f.jacobian ⟨i0, i1, m⟩ s).transpose)
  have hsol : k.Solves := fun b => (hx hdet b).imp fun x h => h.1
  obtain ⟨l, hl⟩ := hsol (f.eval ⟨i0, i1, m⟩ s).neg
  refine ⟨⟨{ e.base with J := f.jacobian ⟨i0, i1, m⟩ s }, k⟩,
    (⟨i0, i1, m⟩ : Proxies K).applyPositionCorrection ((f.jacobian ⟨i0, i1, m⟩ s).transpose.mul (f.clampPositionLambda l)) s, ?_, rfl, hsol⟩
  unfold EqualitySolver.solvePosition
  simp only [SolverBase.computeEffectiveMass, Bool.false_eq_true, if_false]
  rw [hk]
  simp only [Outcome.bind_ok]
  rw [hl]
  rfl

theorem Contact.computeKs_usable (e : Contact K) {m : InvMasses K} (i0 i1 : Nat) (s : SolveState K) (b b' : Bool)
    (hn : e.manifold.nContacts = e.frame.nContacts) (h2 : e.frame.nContacts = 2 → Solvable e.frame ⟨0, 1, m⟩) :
    ((e.computeJacobians ⟨i0, i1, m⟩ s b).computeKs ⟨i0, i1, m⟩ b').Usable := by
  have hJ := Contact.computeJacobians_Jn e ⟨i0, i1, m⟩ s b
  set e1 := e.computeJacobians ⟨i0, i1, m⟩ s b with he1
  have hf : e1.frame = e.frame := rfl
  obtain ⟨hJn, -, hfr, -⟩ := Contact.computeKs_eq e1 ⟨i0, i1, m⟩ b'
  obtain ⟨k1, k2⟩ := Contact.computeKs_normal e1 ⟨i0, i1, m⟩ b' s.pos hn hJ
  constructor
  · intro h
    rw [hfr] at h
    exact ⟨_, k1 h⟩
  · intro h
    rw [hfr] at h
    refine ⟨_, k2 h, fun b => ?_⟩
    obtain ⟨a0, a1, a2, a3, a4, a5, a6⟩ := h2 h
    have hs : Solvable e.frame (⟨i0, i1, m⟩ : Proxies K) := ⟨a0, a1, a2, a3, a4, a5, a6⟩
    obtain ⟨q1, q2⟩ := hs.positive' hJ
    rw [hf] at h
    have g0 := q1 0 (by rw [h]; decide)
    have g1 := q1 1 (by rw [h]; decide)
    rw [← Contact.normalK_get] at g0 g1
    obtain ⟨x, hx, -⟩ := C12_lcp (Contact.normalK ⟨i0, i1, m⟩ e1.Jn) g0 g1 (q2 h) b
    exact ⟨x, hx⟩

theorem Contact.solveNormal_sound {e : Contact K} (h : e.Usable) (p : Proxies K) (v : MVec K 6) : ∃ r, e.solveNormal p v = .ok r := by
  unfold Contact.solveNormal
  split
  · rename_i h1
    obtain ⟨k, hk⟩ := h.1 h1
    rw [hk]
    exact ⟨_, rfl⟩
  · split
    · rename_i h2
      obtain ⟨s, hs, hx⟩ := h.2 h2
      rw [hs]
      simp only [NormalSolver.getLcp, Outcome.bind_ok]
      obtain ⟨x, hx⟩ := hx (((e.Jn.mul v).sub (s.solver.A.mul e.normalLambda)).add e.bounce).neg
      rw [hx]
      exact ⟨_, rfl⟩
    · exact ⟨_, rfl⟩

theorem Contact.solveVelocities_sound {e : Contact K} (h : e.Usable) (p : Proxies K) (s : SolveState K) :
    ∃ e' s', e.solveVelocities p s = .ok (e', s') ∧ e'.manifold = e.manifold ∧ e'.frame = e.frame ∧ e'.normalSolver = e.normalSolver := by
  unfold Contact.solveVelocities
  dsimp only
  obtain ⟨r, hr⟩ := Contact.solveNormal_sound h p (e.frictionLoop p (p.velocity s)).2
  rw [hr]
  exact ⟨_, _, rfl, rfl, rfl, rfl⟩

theorem Contact.solvePositions_sound {e : Contact K} {m : InvMasses K} (i0 i1 : Nat) (s : SolveState K)
    (h2 : e.manifold.nContacts = 2 → Solvable (e.manifold.frame ![(s.pos i0).toWorldSpace, (s.pos i1).toWorldSpace]) ⟨0, 1, m⟩) :
    ∃ e' s', e.solvePositions ⟨i0, i1, m⟩ s = .ok (e', s') ∧ e'.manifold = e.manifold ∧
      e'.frame = e.manifold.frame ![(s.pos i0).toWorldSpace, (s.pos i1).toWorldSpace] ∧ e'.Usable := by
  unfold Contact.solvePositions
  dsimp only
  set f := e.manifold.frame ![(s.pos i0).toWorldSpace, (s.pos i1).toWorldSpace] with hf
  set e1 : Contact K := { e with frame := f } with he1
  have hu := Contact.computeKs_usable e1 (m := m) i0 i1 s false false rfl h2
  obtain ⟨-, -, hfr, hma, -⟩ := Contact.computeKs_eq (e1.computeJacobians ⟨i0, i1, m⟩ s false) ⟨i0, i1, m⟩ false
  set e2 := (e1.computeJacobians ⟨i0, i1, m⟩ s false).computeKs ⟨i0, i1, m⟩ false
  have hfr : e2.frame = f := hfr
  have hma : e2.manifold = e.manifold := hma
  split
  · exact ⟨_, _, rfl, hma, hfr, hu⟩
  · split
    · rename_i h1
      obtain ⟨k, hk⟩ := hu.1 h1
      simp only [hk, NormalSolver.getInverse, Outcome.bind_ok]
      exact ⟨_, _, rfl, hma, hfr, hu⟩
    · split
      · rename_i h2
        obtain ⟨sl, hs, hx⟩ := hu.2 h2
        simp only [hs, NormalSolver.getLcp, Outcome.bind_ok]
        generalize hb : (Mat.neg _ : MVec K 2) = b
        obtain ⟨x, hx⟩ := hx b
        rw [hx]
        exact ⟨_, _, rfl, hma, hfr, hu⟩
      · exact ⟨_, _, rfl, hma, hfr, hu⟩

/-- The calls succeed. -/
theorem Kind.act_sound {c : CallCfg K} (hs : ∀ x, 0 ≤ x → c.sqrt x * c.sqrt x = x) {m : InvMasses K} (hm : m.Nonneg) (k : Kind K) (e : k.State)
    (h : k.Firm m e) (ph : Phase) (hr : ph ≠ .initSolve → k.Ready e) (i0 i1 : Nat) (ps : Nat → Pose K) (vs : Nat → Velocity K) :
    ∃ e' s', k.act c ph ⟨i0, i1, m⟩ e ⟨fun i => (ps i).1, vs⟩ = .ok (e', s') ∧ k.Firm m e' ∧ k.Ready e' ∧ k.answer e' = k.answer e := by
  set s : SolveState K := ⟨fun i => (ps i).1, vs⟩ with hse
  cases k with
  | equality d f =>
    obtain ⟨hf, hd⟩ := h
    cases ph with
    | initSolve =>
      obtain ⟨e', h1, h2, h3⟩ := EqualitySolver.initSolve_sound hs hm hf hd i0 i1 s
      exact ⟨e', s, by show (EqualitySolver.initSolve c.sqrt e _ f s).bind _ = _; rw [h1]; rfl, ⟨hf, by rw [h2]; exact hd⟩, h3, rfl⟩
    | warmstart => exact ⟨_, _, rfl, ⟨hf, hd⟩, hr (by decide), rfl⟩
    | solveVelocities =>
      obtain ⟨e', s', h1, h2, h3⟩ := EqualitySolver.solveVelocity_sound (hr (by decide)) ⟨i0, i1, m⟩ f c.dt s
      exact ⟨e', s', h1, ⟨hf, by rw [h2]; exact hd⟩, by show e'.solver.Solves; rw [h3]; exact hr (by decide), rfl⟩
    | solvePositions =>
      obtain ⟨e', s', h1, h2, h3⟩ := EqualitySolver.solvePosition_sound hs hm hf e i0 i1 s
      exact ⟨e', s', h1, ⟨hf, by rw [h2]; exact hd⟩, h3, rfl⟩
  | mouse f =>
    obtain ⟨hf, hd⟩ := h
    cases ph with
    | initSolve =>
      obtain ⟨e', h1, h2, h3⟩ := EqualitySolver.initSolve_sound hs hm hf hd i0 i1 s
      exact ⟨e', s, by show (EqualitySolver.initSolve c.sqrt e _ f s).bind _ = _; rw [h1]; rfl, ⟨hf, by rw [h2]; exact hd⟩, h3, rfl⟩
    | warmstart => exact ⟨_, _, rfl, ⟨hf, hd⟩, hr (by decide), rfl⟩
    | solveVelocities =>
      obtain ⟨e', s', h1, h2, h3⟩ := EqualitySolver.solveVelocity_sound (hr (by decide)) ⟨i0, i1, m⟩ f c.dt s
      exact ⟨e', s', h1, ⟨hf, by rw [h2]; exact hd⟩, by show e'.solver.Solves; rw [h3]; exact hr (by decide), rfl⟩
    | solvePositions => exact ⟨e, s, rfl, ⟨hf, hd⟩, hr (by decide), rfl⟩
  | inequality d f => exact h.elim
  | limits f => exact h.elim
  | contact =>
    have hfi := h
    obtain ⟨⟨P0, P1, hfr⟩, h2⟩ := h
    have hn : (e : Contact K).manifold.nContacts = (e : Contact K).frame.nContacts := by rw [hfr]; rfl
    cases ph with
    | initSolve =>
      have hu := Contact.computeKs_usable (e : Contact K) (m := m) i0 i1 s true true hn fun h => by rw [hfr]; exact h2 (hn.trans h) P0 P1
      obtain ⟨-, -, hfr', hma, -⟩ := Contact.computeKs_eq ((e : Contact K).computeJacobians ⟨i0, i1, m⟩ s true) ⟨i0, i1, m⟩ true
      have hma' : (Contact.initSolve e ⟨i0, i1, m⟩ s).manifold = (e : Contact K).manifold := hma
      have hfr'' : (Contact.initSolve e ⟨i0, i1, m⟩ s).frame = (e : Contact K).frame := hfr'
      refine ⟨Contact.initSolve e ⟨i0, i1, m⟩ s, s, rfl, ⟨⟨P0, P1, ?_⟩, ?_⟩, hu, ?_⟩
      · rw [hfr'', hma']; exact hfr
      · rw [hma']; exact h2
      · show decide (_ ≠ _) = decide (_ ≠ _)
        rw [hma']
    | warmstart => exact ⟨_, _, rfl, hfi, hr (by decide), rfl⟩
    | solveVelocities =>
      obtain ⟨e', s', h1, hma, hf', hns⟩ := Contact.solveVelocities_sound (hr (by decide)) ⟨i0, i1, m⟩ s
      refine ⟨e', s', h1, ⟨⟨P0, P1, ?_⟩, ?_⟩, ?_, ?_⟩
      · rw [hf', hma]; exact hfr
      · rw [hma]; exact h2
      · have := hr (by decide)
        show Contact.Usable e'
        unfold Contact.Usable
        rw [hf', hns]
        exact this
      · show decide (_ ≠ _) = decide (_ ≠ _)
        rw [hma]
    | solvePositions =>
      obtain ⟨e', s', h1, hma, hf', hu⟩ := Contact.solvePositions_sound (e := e) (m := m) i0 i1 s fun h => h2 h (ps i0) (ps i1)
      refine ⟨e', s', h1, ⟨⟨ps i0, ps i1, ?_⟩, ?_⟩, hu, ?_⟩
      · rw [hf', hma]
      · rw [hma]; exact h2
      · show decide (_ ≠ _) = decide (_ ≠ _)
        rw [hma]

end Simu
