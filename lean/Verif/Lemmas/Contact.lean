import Verif.Spec.Contact
import Verif.Lemmas.Constraint
/-
Lemmas about contacts.
-/
namespace Simu
open Mat

theorem forFin_two {S : Type*} (f : Fin 2 → S → S) (s : S) : forFin 2 f s = f 1 (f 0 s) := rfl

namespace Contact
section
variable {K : Type*} [Field K]

/-- A row of a contact Jacobian. -/
def row (dir p0 p1 c0 c1 : Vec2 K) : Fin 6 → K :=
  ![dir.x, dir.y, Vec2.cross (p0 - c0) dir, -dir.x, -dir.y, -Vec2.cross (p1 - c1) dir]

theorem get_setRow {m : Nat} (J : Mat K m 6) (r r' : Fin m) (v a b : Vec2 K) (i : Fin 6) :
    (setRow J r v a b).get r' i =
      if r' = r then ![v.x, v.y, Vec2.cross a v, -v.x, -v.y, -Vec2.cross b v] i else J.get r' i := by
  unfold setRow
  simp only [get_set]
  by_cases h : r' = r
  · subst h
    simp only [if_true, true_and]
    fin_cases i <;> simp
  · simp [h]

theorem normalJacobian_get (e : Contact K) (c : Fin 2) (r : Fin 1) (i : Fin 6) : (e.normalJacobian c).get r i = e.Jn.get c i := by
  have : r = 0 := Subsingleton.elim _ _
  subst this
  simp only [normalJacobian, Mat.get, Mat.idx]
  congr 1
  ext
  simp

variable [Trig K]

/-- The rows of the Jacobians computed for a frame. -/
def rowOf (f : Frame K) (p : Proxies K) (pos : Nat → Position K) (dir : Vec2 K) (c : Fin 2) : Fin 6 → K :=
  row dir (f.contacts 0 c) (f.contacts 1 c) (pos p.i0).centroid (pos p.i1).centroid

theorem computeJacobians_Jn (e : Contact K) (p : Proxies K) (s : SolveState K) (b : Bool) (c : Fin 2) (i : Fin 6) :
    (e.computeJacobians p s b).Jn.get c i =
      if c.val < e.frame.nContacts then rowOf e.frame p s.pos e.frame.normal c i else 0 := by
  simp only [computeJacobians, forFin_two, rowOf, row]
  by_cases h0 : 0 < e.frame.nContacts <;> by_cases h1 : 1 < e.frame.nContacts <;> fin_cases c <;>
    simp [h0, h1, get_setRow] <;> omega

theorem computeJacobians_Jf (e : Contact K) (p : Proxies K) (s : SolveState K) (b : Bool) (c : Fin 2) (i : Fin 6) :
    ((e.computeJacobians p s b).Jf c).get 0 i =
      if c.val < e.frame.nContacts ∧ b = true then rowOf e.frame p s.pos e.frame.tangent c i else 0 := by
  simp only [computeJacobians, rowOf, row]
  by_cases h : c.val < e.frame.nContacts ∧ b = true
  · rw [if_pos h, if_pos h, get_setRow, if_pos rfl, if_pos h.1]
    simp [h.1]
  · rw [if_neg h, if_neg h, get_zero]

end

section
variable {K : Type*} [Field K]

/-- `x M⁻¹ yᵀ`. -/
def inner (p : Proxies K) (x y : Fin 6 → K) : K := ∑ i, p.invMassVec.at_ i * (x i * y i)

theorem inner_eq (p : Proxies K) (x y : Fin 6 → K) : inner p x y = p.masses.m0 * (x 0 * y 0) + p.masses.m0 * (x 1 * y 1)
    + p.masses.I0 * (x 2 * y 2) + p.masses.m1 * (x 3 * y 3) + p.masses.m1 * (x 4 * y 4) + p.masses.I1 * (x 5 * y 5) := by
  simp only [inner, Fin.sum_univ_six, Proxies.invMassVec, at_ofFn]
  rfl

theorem inner_comm (p : Proxies K) (x y : Fin 6 → K) : inner p x y = inner p y x := by
  rw [inner_eq, inner_eq]; ring

/-- The matrix of the normal problem: `J M⁻¹ Jᵀ`. -/
def normalK (p : Proxies K) (J : Mat K 2 6) : Mat K 2 2 :=
  ⟨![inner p (J.get 0) (J.get 0), inner p (J.get 0) (J.get 1), inner p (J.get 1) (J.get 0), inner p (J.get 1) (J.get 1)]⟩

theorem normalK_get (p : Proxies K) (J : Mat K 2 6) (r c : Fin 2) : (normalK p J).get r c = inner p (J.get r) (J.get c) := by
  fin_cases r <;> fin_cases c <;> rfl

variable [LinearOrder K]

/-- What a solve relies on: everything computed by `initSolve`, for the frame `f` and the positions `pos`. -/
structure Ready [Trig K] (p : Proxies K) (f : Frame K) (pos : Nat → Position K) (e : Contact K) : Prop where
  frame : e.frame = f
  Jf : ∀ c i, (e.Jf c).get 0 i = if c.val < f.nContacts then rowOf f p pos f.tangent c i else 0
  Jn : ∀ c i, e.Jn.get c i = if c.val < f.nContacts then rowOf f p pos f.normal c i else 0
  tangentK : ∀ c : Fin 2, c.val < f.nContacts → e.invTangentKs.at_ c = 1 / inner p ((e.Jf c).get 0) ((e.Jf c).get 0)
  one : f.nContacts = 1 → e.normalSolver = .inverse (1 / inner p (e.Jn.get 0) (e.Jn.get 0))
  two : f.nContacts = 2 → e.normalSolver = .lcp (LcpSolver.mk' (normalK p e.Jn))

theorem computeKs_eq (e : Contact K) (p : Proxies K) (b : Bool) :
    (e.computeKs p b).Jn = e.Jn ∧ (e.computeKs p b).Jf = e.Jf ∧ (e.computeKs p b).frame = e.frame ∧
    (e.computeKs p b).manifold = e.manifold ∧ (e.computeKs p b).tangentLambda = e.tangentLambda ∧
    (e.computeKs p b).normalLambda = e.normalLambda ∧ (e.computeKs p b).restitution = e.restitution ∧
    (e.computeKs p b).friction = e.friction ∧ (e.computeKs p b).previousNormalLambda = e.previousNormalLambda ∧
    (e.computeKs p b).previousTangentLambda = e.previousTangentLambda := by
  unfold computeKs
  cases b <;> dsimp only [Bool.false_eq_true, if_false, if_true] <;> split_ifs <;> simp

theorem computeKs_normal [Trig K] (e : Contact K) (p : Proxies K) (b : Bool) (pos : Nat → Position K)
    (hm : e.manifold.nContacts = e.frame.nContacts)
    (h : ∀ c i, e.Jn.get c i = if c.val < e.frame.nContacts then rowOf e.frame p pos e.frame.normal c i else 0) :
    (e.frame.nContacts = 1 → (e.computeKs p b).normalSolver = .inverse (1 / inner p (e.Jn.get 0) (e.Jn.get 0))) ∧
    (e.frame.nContacts = 2 → (e.computeKs p b).normalSolver = .lcp (LcpSolver.mk' (normalK p e.Jn))) := by
  constructor
  · intro h1
    have e0 : inner p (e.Jn.get 0) (e.Jn.get 0) = (p.masses.m1 + p.masses.m0) * e.frame.normal.normSquared
        + p.masses.I1 * (e.Jn.get 0 5 * e.Jn.get 0 5) + p.masses.I0 * (e.Jn.get 0 2 * e.Jn.get 0 2) := by
      rw [inner_eq]
      simp only [h, h1, Fin.val_zero, zero_lt_one, if_true]
      simp [rowOf, row, Vec2.normSquared, Vec2.dot]
      ring
    rw [e0]
    unfold computeKs
    cases b <;> simp [hm, h1, Proxies.invMassVec]
  · intro h2
    have e0 : ∀ r c : Fin 2, inner p (e.Jn.get r) (e.Jn.get c) = (p.masses.m1 + p.masses.m0) * e.frame.normal.normSquared
        + p.masses.I1 * e.Jn.get r 5 * e.Jn.get c 5 + p.masses.I0 * e.Jn.get r 2 * e.Jn.get c 2 := by
      intro r c
      rw [inner_eq]
      simp only [h, h2, r.isLt, c.isLt, if_true]
      simp [rowOf, row, Vec2.normSquared, Vec2.dot]
      ring
    have hK : normalK p e.Jn = ⟨![
        (p.masses.m1 + p.masses.m0) * e.frame.normal.normSquared
          + p.masses.I1 * (e.Jn.get 0 5 * e.Jn.get 0 5) + p.masses.I0 * (e.Jn.get 0 2 * e.Jn.get 0 2),
        (p.masses.m1 + p.masses.m0) * e.frame.normal.normSquared
          + p.masses.I1 * e.Jn.get 0 5 * e.Jn.get 1 5 + p.masses.I0 * e.Jn.get 0 2 * e.Jn.get 1 2,
        (p.masses.m1 + p.masses.m0) * e.frame.normal.normSquared
          + p.masses.I1 * e.Jn.get 0 5 * e.Jn.get 1 5 + p.masses.I0 * e.Jn.get 0 2 * e.Jn.get 1 2,
        (p.masses.m1 + p.masses.m0) * e.frame.normal.normSquared
          + p.masses.I1 * (e.Jn.get 1 5 * e.Jn.get 1 5) + p.masses.I0 * (e.Jn.get 1 2 * e.Jn.get 1 2)]⟩ := by
      unfold normalK
      simp only [e0]
      congr 1
      funext i
      fin_cases i <;> simp <;> ring
    rw [hK]
    unfold computeKs
    cases b <;> simp [hm, h2, Proxies.invMassVec]

theorem computeKs_tangent [Trig K] (e : Contact K) (p : Proxies K) (pos : Nat → Position K)
    (h : ∀ c i, (e.Jf c).get 0 i = if c.val < e.frame.nContacts then rowOf e.frame p pos e.frame.tangent c i else 0)
    (c : Fin 2) (hc : c.val < e.frame.nContacts) :
    (e.computeKs p true).invTangentKs.at_ c = 1 / inner p ((e.Jf c).get 0) ((e.Jf c).get 0) := by
  have e0 : inner p ((e.Jf c).get 0) ((e.Jf c).get 0) = (p.masses.m1 + p.masses.m0) * e.frame.tangent.normSquared
      + p.masses.I1 * ((e.Jf c).get 0 5 * (e.Jf c).get 0 5) + p.masses.I0 * ((e.Jf c).get 0 2 * (e.Jf c).get 0 2) := by
    rw [inner_eq]
    simp only [h, hc, if_true]
    simp [rowOf, row, Vec2.normSquared, Vec2.dot]
    ring
  have e1 : (e.computeKs p true).invTangentKs = forFin 2 (fun c t => if c.val < e.frame.nContacts then
          t.setAt c (1 / ((p.masses.m1 + p.masses.m0) * e.frame.tangent.normSquared
            + p.masses.I1 * ((e.Jf c).get 0 5 * (e.Jf c).get 0 5) + p.masses.I0 * ((e.Jf c).get 0 2 * (e.Jf c).get 0 2)))
        else t) e.invTangentKs := by
    unfold computeKs
    dsimp only [if_true]
    split_ifs with h1 <;> first | exact absurd rfl h1 | rfl
  rw [e0, e1, forFin_two]
  fin_cases c
  · have hc : 0 < e.frame.nContacts := hc
    split_ifs <;> simp_all
  · have hc : 1 < e.frame.nContacts := hc
    simp [hc]

theorem prepared_ready [Trig K] (e : Contact K) (p : Proxies K) (s : SolveState K) :
    Ready p (e.manifold.frame ![(s.pos p.i0).toWorldSpace, (s.pos p.i1).toWorldSpace]) s.pos (e.prepared p s) := by
  set f := e.manifold.frame ![(s.pos p.i0).toWorldSpace, (s.pos p.i1).toWorldSpace] with hf
  set e1 : Contact K := { e with frame := f } with he1
  set e2 := e1.computeJacobians p s true with he2
  obtain ⟨hJn, hJf, hfr, hm, -⟩ := computeKs_eq e2 p true
  have hp : e.prepared p s = (e1.initSolve p s) := rfl
  have h2 : e2.frame = f := rfl
  have cJn : ∀ c i, e2.Jn.get c i = if c.val < e2.frame.nContacts then rowOf e2.frame p s.pos e2.frame.normal c i else 0 :=
    fun c i => computeJacobians_Jn e1 p s true c i
  have cJf : ∀ c i, (e2.Jf c).get 0 i = if c.val < e2.frame.nContacts then rowOf e2.frame p s.pos e2.frame.tangent c i else 0 := by
    intro c i
    have := computeJacobians_Jf e1 p s true c i
    simp only [and_true] at this
    exact this
  have hmc : e2.manifold.nContacts = e2.frame.nContacts := rfl
  obtain ⟨k1, k2⟩ := computeKs_normal e2 p true s.pos hmc cJn
  have hcons : e.prepared p s = { (e2.computeKs p true).computeBounce p s with
    previousTangentLambda := (e2.computeKs p true).tangentLambda
    previousNormalLambda := (e2.computeKs p true).normalLambda
    tangentLambda := Mat.zero
    normalLambda := Mat.zero } := rfl
  have a1 : (e.prepared p s).Jn = e2.Jn := by rw [hcons]; exact hJn
  have a2 : (e.prepared p s).Jf = e2.Jf := by rw [hcons]; exact hJf
  have a3 : (e.prepared p s).frame = f := by rw [hcons]; exact hfr
  have a4 : (e.prepared p s).normalSolver = (e2.computeKs p true).normalSolver := by rw [hcons]; rfl
  have a5 : (e.prepared p s).invTangentKs = (e2.computeKs p true).invTangentKs := by rw [hcons]; rfl
  constructor
  · exact a3
  · intro c i; rw [a2, cJf, h2]
  · intro c i; rw [a1, cJn, h2]
  · intro c hc
    rw [a5, a2]
    exact computeKs_tangent e2 p s.pos cJf c hc
  · intro h; rw [a4, a1]; exact k1 h
  · intro h; rw [a4, a1]; exact k2 h

theorem threshold (b : MVec K 2) (n : Nat) (c : Fin 2) (hc : c.val < n) :
    (forFin 2 (fun c b => if c.val < n then if -1 < b.at_ c then b.setAt c 0 else b else b) b).at_ c =
      if -1 < b.at_ c then 0 else b.at_ c := by
  rw [forFin_two]
  have h01 : (1 : Fin 2) ≠ 0 := by decide
  fin_cases c
  · have hc : 0 < n := hc
    by_cases a0 : -1 < b.at_ 0 <;> by_cases a1 : -1 < b.at_ 1 <;> by_cases h1 : 1 < n <;>
      simp [hc, h1, a0, a1, h01]
  · have hc : 1 < n := hc
    have h0 : 0 < n := by omega
    by_cases a0 : -1 < b.at_ 0 <;> by_cases a1 : -1 < b.at_ 1 <;> simp [hc, h0, a0, a1, h01]

/-- The complementarity solver only returns non-negative vectors. -/
theorem lcp_nonneg [IsStrictOrderedRing K] (s : LcpSolver K) (b : MVec K 2) {x : MVec K 2} (h : s.solve b = .ok x) (c : Fin 2) :
    0 ≤ x.at_ c := by
  unfold LcpSolver.solve at h
  cases hs : s.solver.solve b with
  | throw => simp [hs] at h
  | ub => simp [hs] at h
  | ok y =>
    simp only [hs, Outcome.bind_ok] at h
    split_ifs at h with h1 h2 h3
    · cases h; fin_cases c
      · exact h1.1
      · exact h1.2
    · cases h; fin_cases c
      · exact h2.1
      · exact le_refl _
    · cases h; fin_cases c
      · exact le_refl _
      · exact h3.1
    · cases h; exact le_refl _

/-- The bounce computed by `initSolve`. -/
theorem prepared_bounce [Trig K] (e : Contact K) (p : Proxies K) (s : SolveState K) (c : Fin 2) (hc : c.val < e.manifold.nContacts) :
    (e.prepared p s).bounce.at_ c = (if -1 < push (e.prepared p s).Jn (p.velocity s).toV c then 0
      else push (e.prepared p s).Jn (p.velocity s).toV c) * e.restitution := by
  set f := e.manifold.frame ![(s.pos p.i0).toWorldSpace, (s.pos p.i1).toWorldSpace] with hf
  set e1 : Contact K := { e with frame := f } with he1
  set e2 := (e1.computeJacobians p s true).computeKs p true with he2
  obtain ⟨hJn, hJf, hfr, hm, _, _, hr, -⟩ := computeKs_eq (e1.computeJacobians p s true) p true
  have hcons : e.prepared p s = { e2.computeBounce p s with
    previousTangentLambda := e2.tangentLambda
    previousNormalLambda := e2.normalLambda
    tangentLambda := Mat.zero
    normalLambda := Mat.zero } := rfl
  have a1 : (e.prepared p s).Jn = e2.Jn := by rw [hcons]; rfl
  have a2 : (e.prepared p s).bounce = (e2.computeBounce p s).bounce := by rw [hcons]
  have hv : ∀ c, (e2.Jn.mul (p.velocity s)).at_ c = push e2.Jn (p.velocity s).toV c := fun c => by
    rw [at_mul]; rfl
  have hm' : e2.manifold = e.manifold := hm
  have hr' : e2.restitution = e.restitution := hr
  rw [a2, a1]
  simp only [computeBounce, at_smul, hr', hm']
  rw [threshold _ _ c hc, hv]

theorem prepared_lambda [Trig K] (e : Contact K) (p : Proxies K) (s : SolveState K) :
    (e.prepared p s).tangentLambda = Mat.zero ∧ (e.prepared p s).normalLambda = Mat.zero ∧
    (e.prepared p s).previousTangentLambda = e.tangentLambda ∧ (e.prepared p s).previousNormalLambda = e.normalLambda ∧
    (e.prepared p s).friction = e.friction := by
  set e1 : Contact K := { e with frame := e.manifold.frame ![(s.pos p.i0).toWorldSpace, (s.pos p.i1).toWorldSpace] }
  obtain ⟨_, _, _, _, ht, hn, _, hfr, _⟩ := computeKs_eq (e1.computeJacobians p s true) p true
  exact ⟨rfl, rfl, ht, hn, hfr⟩

/-- Rows give relative speeds. -/
theorem push_row [Trig K] (f : Frame K) (p : Proxies K) (pos : Nat → Position K) (dir : Vec2 K) (c : Fin 2) (s : SolveState K) :
    ∑ i, rowOf f p pos dir c i * (p.velocity s).at_ i =
      relativeSpeed dir (f.contacts 0 c) (f.contacts 1 c) (pos p.i0).centroid (pos p.i1).centroid (s.vel p.i0) (s.vel p.i1) := by
  simp only [Fin.sum_univ_six, velocity_toV, rowOf, row, relativeSpeed, pointVelocity, Vec2.dot, Vec2.cross]
  simp
  ring

theorem Ready.push_Jn [Trig K] {p : Proxies K} {f : Frame K} {pos : Nat → Position K} {e : Contact K} (h : Ready p f pos e)
    (s : SolveState K) (c : Fin 2) (hc : c.val < f.nContacts) :
    push e.Jn (p.velocity s).toV c = f.separationSpeed p pos s.vel c := by
  simp only [push, h.Jn, hc, if_true]
  exact push_row f p pos f.normal c s

/-- The contributions of the multipliers of a contact. -/
def totalImpulse (e : Contact K) : Six K := fun i =>
  ((e.Jf 0).get 0 i * e.tangentLambda.at_ 0 + (e.Jf 1).get 0 i * e.tangentLambda.at_ 1) + pull e.Jn e.normalLambda.toV i

theorem Ready.totalImpulse_eq [Trig K] {p : Proxies K} {f : Frame K} {pos : Nat → Position K} {e : Contact K}
    (h : Ready p f pos e) (i : Fin 6) :
    totalImpulse e i = f.impulse p pos e.normalLambda.toV e.tangentLambda.toV i := by
  simp only [totalImpulse, pull, Frame.impulse, Fin.sum_univ_two, h.Jf, h.Jn, pairImpulse, rowOf, row, toV]
  split_ifs <;> ring

/-- One friction step. -/
theorem frictionStep_eq (e : Contact K) (p : Proxies K) (c : Fin 2) (st : MVec K 2 × MVec K 6) :
    (frictionStep e p c st).1 = st.1.setAt c (Algo.clamp (st.1.at_ c + -(∑ i, (e.Jf c).get 0 i * st.2.at_ i) * e.invTangentKs.at_ c)
      (-(e.friction * e.normalLambda.at_ c)) (e.friction * e.normalLambda.at_ c)) ∧
    ∀ i, (frictionStep e p c st).2.at_ i = st.2.at_ i + p.invMassVec.at_ i *
      ((e.Jf c).get 0 i * ((frictionStep e p c st).1.at_ c - st.1.at_ c)) := by
  constructor
  · simp only [frictionStep, at_mul]
  · intro i
    simp only [frictionStep, at_add, elementWiseMul, at_ofFn, at_smul, at_setAt, if_true]
    rw [at_eq_get (e.Jf c).transpose, get_transpose]

/-- The friction loop. -/
theorem frictionLoop_eq (e : Contact K) (p : Proxies K) (v : MVec K 6) (i : Fin 6) :
    (e.frictionLoop p v).2.at_ i = v.at_ i + p.invMassVec.at_ i *
      ((e.Jf 0).get 0 i * ((e.frictionLoop p v).1.at_ 0 - e.tangentLambda.at_ 0) +
       (e.Jf 1).get 0 i * ((e.frictionLoop p v).1.at_ 1 - e.tangentLambda.at_ 1)) := by
  unfold frictionLoop
  rw [forFin_two]
  set st0 := (e.tangentLambda, v)
  have hst : ∀ (c d : Fin 2) (st), d ≠ c → (frictionStep e p c st).1.at_ d = st.1.at_ d := by
    intro c d st hd
    rw [(frictionStep_eq e p c st).1, at_setAt, if_neg hd]
  split_ifs with h1 h0 h0
  · rw [(frictionStep_eq e p 1 _).2, (frictionStep_eq e p 0 _).2, hst 1 0 _ (by decide), hst 0 1 _ (by decide)]
    simp only [st0]
    ring
  · exact absurd (Nat.lt_of_le_of_lt (Nat.zero_le _) h1) h0
  · rw [(frictionStep_eq e p 0 _).2, hst 0 1 _ (by decide)]
    simp only [st0]
    ring
  · simp only [st0]
    ring

/-- The friction loop bounds each multiplier that acts, and leaves the others. -/
theorem frictionLoop_bound [IsStrictOrderedRing K] (e : Contact K) (p : Proxies K) (v : MVec K 6) (c : Fin 2) :
    (c.val < e.frame.nContacts → 0 ≤ e.friction * e.normalLambda.at_ c →
      |(e.frictionLoop p v).1.at_ c| ≤ e.friction * e.normalLambda.at_ c) ∧
    (e.frame.nContacts ≤ c.val → (e.frictionLoop p v).1.at_ c = e.tangentLambda.at_ c) := by
  unfold frictionLoop
  rw [forFin_two]
  set st0 := (e.tangentLambda, v)
  have hst : ∀ (c d : Fin 2) (st), d ≠ c → (frictionStep e p c st).1.at_ d = st.1.at_ d := by
    intro c d st hd
    rw [(frictionStep_eq e p c st).1, at_setAt, if_neg hd]
  have hb : ∀ (c : Fin 2) (st), 0 ≤ e.friction * e.normalLambda.at_ c →
      |(frictionStep e p c st).1.at_ c| ≤ e.friction * e.normalLambda.at_ c := by
    intro c st hn
    rw [(frictionStep_eq e p c st).1, at_setAt, if_pos rfl, abs_le]
    simp only [Algo.clamp]
    constructor <;> split_ifs <;> linarith
  constructor
  · intro hc hn
    fin_cases c
    · have hc : 0 < e.frame.nContacts := hc
      by_cases h1 : 1 < e.frame.nContacts
      · simp only [Fin.val_zero, Fin.val_one, hc, h1, if_true, Fin.zero_eta]
        rw [hst 1 0 _ (by decide)]
        exact hb 0 _ hn
      · simp only [Fin.val_zero, Fin.val_one, hc, h1, if_true, if_false, Fin.zero_eta]
        exact hb 0 _ hn
    · have hc : 1 < e.frame.nContacts := hc
      simp only [Fin.val_one, hc, if_true, Fin.mk_one]
      exact hb 1 _ hn
  · intro hc
    fin_cases c
    · have hc : ¬ 0 < e.frame.nContacts := by simpa using hc
      have h1 : ¬ 1 < e.frame.nContacts := by omega
      simp only [Fin.val_zero, Fin.val_one, hc, h1, if_false]
      rfl
    · have hc : ¬ 1 < e.frame.nContacts := by simpa using hc
      simp only [Fin.val_one, hc, if_false, Fin.mk_one]
      split_ifs
      · rw [hst 0 1 _ (by decide)]
      · rfl

/-- What the normal solve does to the velocity. -/
theorem solveNormal_velocity (e : Contact K) (p : Proxies K) (v : MVec K 6) {l : MVec K 2} {v' : MVec K 6}
    (h : e.solveNormal p v = .ok (l, v')) (i : Fin 6) :
    v'.at_ i = v.at_ i + p.invMassVec.at_ i * pull e.Jn (fun c => l.at_ c - e.normalLambda.at_ c) i := by
  unfold solveNormal at h
  split_ifs at h with h1 h2
  · cases hk : e.normalSolver with
    | unset => simp [hk, NormalSolver.getInverse] at h
    | lcp s => simp [hk, NormalSolver.getInverse] at h
    | inverse k =>
      simp only [hk, NormalSolver.getInverse, Outcome.bind_ok, Outcome.ok.injEq, Prod.mk.injEq] at h
      obtain ⟨hl, hv⟩ := h
      rw [← hv, ← hl]
      simp only [at_add, elementWiseMul, at_ofFn, at_smul, pull, Fin.sum_univ_two, at_setAt, if_true]
      rw [at_eq_get (e.normalJacobian 0).transpose, get_transpose, normalJacobian_get]
      simp
  · cases hk : e.normalSolver with
    | unset => simp [hk, NormalSolver.getLcp] at h
    | inverse s => simp [hk, NormalSolver.getLcp] at h
    | lcp s =>
      simp only [hk, NormalSolver.getLcp, Outcome.bind_ok] at h
      cases hs : s.solve (((e.Jn.mul v).sub (s.solver.A.mul e.normalLambda)).add e.bounce).neg with
      | throw => simp [hs] at h
      | ub => simp [hs] at h
      | ok x =>
        simp only [hs, Outcome.bind_ok, Outcome.ok.injEq, Prod.mk.injEq] at h
        obtain ⟨hl, hv⟩ := h
        rw [← hv, ← hl]
        simp only [at_add, elementWiseMul, at_ofFn, at_mul, pull, get_transpose, at_sub]
  · simp only [Outcome.ok.injEq, Prod.mk.injEq] at h
    rw [← h.1, ← h.2]
    simp [pull]

/-- The normal solve yields non-negative multipliers. -/
theorem solveNormal_nonneg [IsStrictOrderedRing K] (e : Contact K) (p : Proxies K) (v : MVec K 6) {l : MVec K 2} {v' : MVec K 6}
    (h : e.solveNormal p v = .ok (l, v')) (h0 : ∀ c, 0 ≤ e.normalLambda.at_ c) (c : Fin 2) : 0 ≤ l.at_ c := by
  unfold solveNormal at h
  split_ifs at h with h1 h2
  · cases hk : e.normalSolver with
    | unset => simp [hk, NormalSolver.getInverse] at h
    | lcp s => simp [hk, NormalSolver.getInverse] at h
    | inverse k =>
      simp only [hk, NormalSolver.getInverse, Outcome.bind_ok, Outcome.ok.injEq, Prod.mk.injEq] at h
      obtain ⟨hl, hv⟩ := h
      rw [← hl, at_setAt]
      split_ifs with hc hp
      · exact hp.le
      · exact le_refl _
      · rw [at_setAt, if_neg hc]; exact h0 c
  · cases hk : e.normalSolver with
    | unset => simp [hk, NormalSolver.getLcp] at h
    | inverse s => simp [hk, NormalSolver.getLcp] at h
    | lcp s =>
      simp only [hk, NormalSolver.getLcp, Outcome.bind_ok] at h
      cases hs : s.solve (((e.Jn.mul v).sub (s.solver.A.mul e.normalLambda)).add e.bounce).neg with
      | throw => simp [hs] at h
      | ub => simp [hs] at h
      | ok x =>
        simp only [hs, Outcome.bind_ok, Outcome.ok.injEq, Prod.mk.injEq] at h
        obtain ⟨hl, hv⟩ := h
        subst hl
        exact lcp_nonneg s _ hs c
  · simp only [Outcome.ok.injEq, Prod.mk.injEq] at h
    rw [← h.1]; exact h0 c

theorem push_pull (p : Proxies K) (J : Mat K 2 6) (v : Fin 6 → K) (d : Fin 2 → K) (r : Fin 2) :
    push J (fun i => v i + p.invMassVec.at_ i * pull J d i) r =
      push J v r + (inner p (J.get r) (J.get 0) * d 0 + inner p (J.get r) (J.get 1) * d 1) := by
  simp only [push, pull, inner, Fin.sum_univ_six, Fin.sum_univ_two]
  ring

/-- The normal problem is solved, whatever the multipliers were. -/
theorem solveNormal_complement [IsStrictOrderedRing K] [Trig K] {p : Proxies K} {f : Frame K} {pos : Nat → Position K}
    {e : Contact K} (h : Ready p f pos e) (hn : f.nContacts = 1 ∨ f.nContacts = 2)
    (hK : ∀ c : Fin 2, c.val < f.nContacts → 0 < inner p (e.Jn.get c) (e.Jn.get c))
    (hdet : f.nContacts = 2 → 0 < (normalK p e.Jn).toM.det) (v : MVec K 6) :
    ∃ l v', e.solveNormal p v = .ok (l, v') ∧ ∀ c : Fin 2, c.val < f.nContacts →
      0 ≤ l.at_ c ∧ 0 ≤ push e.Jn v'.toV c + e.bounce.at_ c ∧ l.at_ c * (push e.Jn v'.toV c + e.bounce.at_ c) = 0 := by
  rcases hn with h1 | h2
  · have hk := h.one h1
    set k := inner p (e.Jn.get 0) (e.Jn.get 0) with hkdef
    have k0 : 0 < k := hK 0 (by simp [h1])
    set vn := ∑ i, e.Jn.get 0 i * v.at_ i with hvn
    set l0 := e.normalLambda.at_ 0 with hl0
    set b := e.bounce.at_ 0 with hb
    have hex : ∃ l v', e.solveNormal p v = .ok (l, v') ∧
        l.at_ 0 = (if 0 < l0 + -(vn + b) * (1 / k) then l0 + -(vn + b) * (1 / k) else 0) ∧
        l.at_ 1 = e.normalLambda.at_ 1 := by
      unfold solveNormal
      rw [h.frame, if_pos h1, hk]
      simp only [NormalSolver.getInverse, Outcome.bind_ok, Outcome.ok.injEq, Prod.mk.injEq]
      refine ⟨_, _, ⟨rfl, rfl⟩, ?_, ?_⟩
      · simp only [at_setAt, at_mul, normalJacobian_get, if_true]
        rfl
      · rw [at_setAt, if_neg (by decide), at_setAt, if_neg (by decide)]
    obtain ⟨l, v', hs, hl0', hl1⟩ := hex
    refine ⟨l, v', hs, ?_⟩
    intro c hc
    have hc0 : c = 0 := by apply Fin.ext; rw [h1] at hc; simpa using hc
    subst hc0
    have hv := solveNormal_velocity e p v hs
    have hpush : push e.Jn v'.toV 0 = vn + k * (l.at_ 0 - l0) := by
      have : v'.toV = fun i => v.toV i + p.invMassVec.at_ i * pull e.Jn (fun c => l.at_ c - e.normalLambda.at_ c) i := by
        funext i; exact hv i
      rw [this, push_pull, hl1, sub_self, mul_zero, add_zero]
      rfl
    rw [hpush, hl0']
    have hkk : k * (1 / k) = 1 := by rw [mul_one_div, div_self k0.ne']
    split_ifs with hp
    · refine ⟨hp.le, ?_, ?_⟩
      · apply le_of_eq; linear_combination (vn + b) * hkk
      · have : vn + k * (l0 + -(vn + b) * (1 / k) - l0) + b = 0 := by linear_combination -(vn + b) * hkk
        rw [this, mul_zero]
    · refine ⟨le_refl _, ?_, zero_mul _⟩
      rw [not_lt] at hp
      have := mul_le_mul_of_nonneg_left hp k0.le
      have e1 : k * (l0 + -(vn + b) * (1 / k)) = k * l0 - (vn + b) := by linear_combination -(vn + b) * hkk
      rw [e1, mul_zero] at this
      linarith
  · have hk := h.two h2
    set A := normalK p e.Jn with hA
    set b : MVec K 2 := (((e.Jn.mul v).sub ((LcpSolver.mk' A).solver.A.mul e.normalLambda)).add e.bounce).neg with hb
    have hAA : (LcpSolver.mk' A).solver.A = A := rfl
    obtain ⟨l, hs, ⟨hl0, hlw, hlc⟩, _⟩ := C12_lcp A (by rw [hA, normalK_get]; exact hK 0 (by simp [h2]))
      (by rw [hA, normalK_get]; exact hK 1 (by simp [h2])) (hdet h2) b
    have hex : ∃ v', e.solveNormal p v = .ok (l, v') := by
      unfold solveNormal
      rw [h.frame, if_neg (by omega), if_pos h2, hk]
      simp only [NormalSolver.getLcp, Outcome.bind_ok]
      rw [hs]
      exact ⟨_, rfl⟩
    obtain ⟨v', hv'⟩ := hex
    refine ⟨l, v', hv', ?_⟩
    intro c hc
    have hv := solveNormal_velocity e p v hv'
    have hpush : push e.Jn v'.toV c + e.bounce.at_ c = (A.mul l).at_ c - b.at_ c := by
      have : v'.toV = fun i => v.toV i + p.invMassVec.at_ i * pull e.Jn (fun c => l.at_ c - e.normalLambda.at_ c) i := by
        funext i; exact hv i
      rw [this, push_pull, hb]
      simp only [hAA, at_neg, at_add, at_sub, at_mul, Fin.sum_univ_two, push, toV]
      simp only [hA, normalK_get]
      ring
    rw [hpush]
    exact ⟨hl0 c, hlw c, hlc c⟩

/-- Solving changes nothing else. -/
theorem solveVelocities_eq (e : Contact K) (p : Proxies K) (s : SolveState K) {e' : Contact K} {s' : SolveState K}
    (h : e.solveVelocities p s = .ok (e', s')) :
    ∃ l v', e.solveNormal p (e.frictionLoop p (p.velocity s)).2 = .ok (l, v') ∧
      e' = { e with tangentLambda := (e.frictionLoop p (p.velocity s)).1, normalLambda := l } ∧
      s' = (s.setVel p.i0 ⟨v'.at_ 0, v'.at_ 1⟩ (v'.at_ 2)).setVel p.i1 ⟨v'.at_ 3, v'.at_ 4⟩ (v'.at_ 5) := by
  unfold solveVelocities at h
  dsimp only at h
  cases hs : e.solveNormal p (e.frictionLoop p (p.velocity s)).2 with
  | throw => simp [hs] at h
  | ub => simp [hs] at h
  | ok lv =>
    obtain ⟨l, v'⟩ := lv
    simp only [hs, Outcome.bind_ok, Outcome.ok.injEq, Prod.mk.injEq] at h
    exact ⟨l, v', rfl, h.1.symm, h.2.symm⟩

theorem velocity_setVel (p : Proxies K) (hi : p.i0 ≠ p.i1) (s : SolveState K) (v : MVec K 6) :
    p.velocity ((s.setVel p.i0 ⟨v.at_ 0, v.at_ 1⟩ (v.at_ 2)).setVel p.i1 ⟨v.at_ 3, v.at_ 4⟩ (v.at_ 5)) = v := by
  apply ext_at
  intro i
  simp only [velocity_toV, SolveState.setVel, Function.update_apply, hi, if_true, if_false]
  fin_cases i <;> rfl

/-- The velocities change by the change of the multipliers. -/
theorem solveVelocities_kick (e : Contact K) (p : Proxies K) (hi : p.i0 ≠ p.i1) (s : SolveState K) {e' : Contact K} {s' : SolveState K}
    (h : e.solveVelocities p s = .ok (e', s')) (i : Nat) :
    s'.vel i = s.vel i + kick p (fun c => totalImpulse e' c - totalImpulse e c) i := by
  obtain ⟨l, v', hn, he', hs'⟩ := solveVelocities_eq e p s h
  have hv := solveNormal_velocity e p _ hn
  have hf := frictionLoop_eq e p (p.velocity s)
  have hc : ∀ c, v'.at_ c = (p.velocity s).at_ c + p.invMassVec.at_ c * (totalImpulse e' c - totalImpulse e c) := by
    intro c
    rw [hv, hf, he']
    have := pull_sub e.Jn l.toV e.normalLambda.toV c
    simp only [toV] at this
    simp only [totalImpulse, this, toV]
    ring
  set D : Six K := fun c => totalImpulse e' c - totalImpulse e c
  have hD : ∀ c, v'.at_ c = (p.velocity s).at_ c + p.invMassVec.at_ c * D c := hc
  rw [hs']
  simp only [SolveState.setVel, Function.update_apply, kick]
  by_cases h1 : i = p.i1
  · have h0 : i ≠ p.i0 := by rw [h1]; exact hi.symm
    simp only [h1, hi.symm, if_true, if_false]
    ext <;> simp [hD, velocity_toV, Proxies.invMassVec]
  · by_cases h0 : i = p.i0
    · simp only [h0, hi, if_true, if_false]
      ext <;> simp [hD, velocity_toV, Proxies.invMassVec]
    · simp only [h0, h1, if_false]
      ext <;> simp

theorem warmstart_kick (e : Contact K) (p : Proxies K) (s : SolveState K) (h0 : ∀ c, totalImpulse e c = 0) (i : Nat) :
    (e.warmstart p s).2.vel i = s.vel i + kick p (fun c => totalImpulse (e.warmstart p s).1 c - totalImpulse e c) i := by
  simp only [warmstart, Proxies.applyImpulse_vel]
  congr 2
  funext c
  simp only [h0, sub_zero]
  simp only [toV, at_add, at_smul, at_mul, get_transpose, totalImpulse, pull]
  rw [at_eq_get (e.Jf 0).transpose, at_eq_get (e.Jf 1).transpose, get_transpose, get_transpose]

theorem Ready.warmstart [Trig K] {p : Proxies K} {f : Frame K} {pos : Nat → Position K}
    {e : Contact K} (h : Ready p f pos e) (s : SolveState K) : Ready p f pos (e.warmstart p s).1 :=
  ⟨h.frame, h.Jf, h.Jn, h.tangentK, h.one, h.two⟩

theorem Ready.solveVelocities [Trig K] {p : Proxies K} {f : Frame K} {pos : Nat → Position K}
    {e : Contact K} (h : Ready p f pos e) (s : SolveState K) {e' : Contact K} {s' : SolveState K}
    (hs : e.solveVelocities p s = .ok (e', s')) : Ready p f pos e' := by
  obtain ⟨l, v', hn, he', hs'⟩ := solveVelocities_eq e p s hs
  rw [he']
  exact ⟨h.frame, h.Jf, h.Jn, h.tangentK, h.one, h.two⟩

end
end Contact
end Simu
