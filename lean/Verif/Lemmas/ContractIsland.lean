import Verif.Lemmas.Contract
import Verif.Lemmas.UniqueIsland
import Verif.Spec.Contract
/-
The velocity iterations of joints as a Gauss-Seidel iteration.
-/
namespace Simu
open Mat Contact Island
variable {K : Type*} [Field K] [LinearOrder K] [IsStrictOrderedRing K]

section
variable {κ : Type*} [Fintype κ] [DecidableEq κ] {d : κ → Nat}

/-- The momenta of `n` bodies as a function of the multipliers. -/
def momenta (n : Nat) (i0 i1 : κ → Nat) (J : (l : κ) → Fin (d l) → Fin 6 → K) : Matrix (Fin n × Fin 3) ((l : κ) × Fin (d l)) K :=
  fun b r => (if b.1.val = i0 r.1 then J r.1 r.2 (Fin.castAdd 3 b.2) else 0) + (if b.1.val = i1 r.1 then J r.1 r.2 (Fin.natAdd 3 b.2) else 0)

omit [LinearOrder K] [IsStrictOrderedRing K] [DecidableEq κ] in
theorem momenta_mulVec (n : Nat) (i0 i1 : κ → Nat) (J : (l : κ) → Fin (d l) → Fin 6 → K) (x : (l : κ) × Fin (d l) → K) (b : Fin n × Fin 3) :
    (momenta n i0 i1 J).mulVec x b = ∑ l, ((if b.1.val = i0 l then ∑ r, J l r (Fin.castAdd 3 b.2) * x ⟨l, r⟩ else 0) +
      (if b.1.val = i1 l then ∑ r, J l r (Fin.natAdd 3 b.2) * x ⟨l, r⟩ else 0)) := by
  rw [Matrix.mulVec, dotProduct, Fintype.sum_sigma]
  refine Finset.sum_congr rfl fun l _ => ?_
  simp only [momenta, add_mul, ite_mul, zero_mul, Finset.sum_add_distrib]
  congr 1
  · split_ifs
    · rfl
    · exact Finset.sum_const_zero
  · split_ifs
    · rfl
    · exact Finset.sum_const_zero

omit [LinearOrder K] [IsStrictOrderedRing K] [Fintype κ] [DecidableEq κ] in
theorem momenta_transpose (n : Nat) (i0 i1 : κ → Nat) (h0 : ∀ l, i0 l < n) (h1 : ∀ l, i1 l < n) (J : (l : κ) → Fin (d l) → Fin 6 → K) (v : Nat → Fin 3 → K)
    (r : (l : κ) × Fin (d l)) :
    ((momenta n i0 i1 J).transpose.mulVec fun b => v b.1 b.2) r =
      ∑ q : Fin 3, (J r.1 r.2 (Fin.castAdd 3 q) * v (i0 r.1) q + J r.1 r.2 (Fin.natAdd 3 q) * v (i1 r.1) q) := by
  have pick : ∀ (i : Nat) (hi : i < n) (q : Fin 3) (a : K), ∑ b : Fin n, (if b.val = i then a else 0) * v b q = a * v i q := by
    intro i hi q a
    rw [Finset.sum_eq_single (⟨i, hi⟩ : Fin n)]
    · simp
    · intro b _ hb
      rw [if_neg (fun h => hb (Fin.ext h)), zero_mul]
    · intro h; exact (h (Finset.mem_univ _)).elim
  rw [Matrix.mulVec, dotProduct, Fintype.sum_prod_type, Finset.sum_comm]
  refine Finset.sum_congr rfl fun q _ => ?_
  simp only [Matrix.transpose_apply, momenta, add_mul, Finset.sum_add_distrib]
  rw [pick _ (h0 _), pick _ (h1 _)]

/-- The matrix of the multipliers of all joints. -/
def allMass (n : Nat) (i0 i1 : κ → Nat) (J : (l : κ) → Fin (d l) → Fin 6 → K) (m : Nat → Fin 3 → K) (D : (l : κ) → Fin (d l) → K) :
    Matrix ((l : κ) × Fin (d l)) ((l : κ) × Fin (d l)) K :=
  (momenta n i0 i1 J).transpose * Matrix.diagonal (fun b => m b.1 b.2) * momenta n i0 i1 J + Matrix.diagonal fun r => D r.1 r.2

omit [LinearOrder K] [IsStrictOrderedRing K] in
theorem allMass_symm (n : Nat) (i0 i1 : κ → Nat) (J : (l : κ) → Fin (d l) → Fin 6 → K) (m : Nat → Fin 3 → K) (D : (l : κ) → Fin (d l) → K) :
    (allMass n i0 i1 J m D).transpose = allMass n i0 i1 J m D := by
  rw [allMass, Matrix.transpose_add, Matrix.diagonal_transpose, Matrix.transpose_mul, Matrix.transpose_mul, Matrix.diagonal_transpose, Matrix.transpose_transpose, Matrix.mul_assoc]

omit [LinearOrder K] [IsStrictOrderedRing K] in
theorem allMass_mulVec (n : Nat) (i0 i1 : κ → Nat) (h0 : ∀ l, i0 l < n) (h1 : ∀ l, i1 l < n) (J : (l : κ) → Fin (d l) → Fin 6 → K) (m : Nat → Fin 3 → K)
    (D : (l : κ) → Fin (d l) → K) (x : (l : κ) × Fin (d l) → K) (v : Nat → Fin 3 → K) (hv : ∀ b : Fin n × Fin 3, v b.1 b.2 = m b.1 b.2 * (momenta n i0 i1 J).mulVec x b)
    (r : (l : κ) × Fin (d l)) :
    (allMass n i0 i1 J m D).mulVec x r =
      ∑ q : Fin 3, (J r.1 r.2 (Fin.castAdd 3 q) * v (i0 r.1) q + J r.1 r.2 (Fin.natAdd 3 q) * v (i1 r.1) q) + D r.1 r.2 * x r := by
  rw [allMass, Matrix.add_mulVec, Pi.add_apply, Matrix.mulVec_diagonal, ← Matrix.mulVec_mulVec, ← Matrix.mulVec_mulVec, ← momenta_transpose n i0 i1 h0 h1]
  congr 3
  funext b
  rw [Matrix.mulVec_diagonal, hv]

omit [LinearOrder K] [IsStrictOrderedRing K] in
theorem allMass_quad (n : Nat) (i0 i1 : κ → Nat) (J : (l : κ) → Fin (d l) → Fin 6 → K) (m : Nat → Fin 3 → K)
    (D : (l : κ) → Fin (d l) → K) (x : (l : κ) × Fin (d l) → K) :
    quad (allMass n i0 i1 J m D) x = ∑ b : Fin n × Fin 3, m b.1 b.2 * ((momenta n i0 i1 J).mulVec x b * (momenta n i0 i1 J).mulVec x b) +
      ∑ r : (l : κ) × Fin (d l), D r.1 r.2 * (x r * x r) := by
  rw [quad, allMass, Matrix.add_mulVec, dotProduct_add, ← Matrix.mulVec_mulVec, ← Matrix.mulVec_mulVec, Matrix.dotProduct_mulVec, Matrix.vecMul_transpose]
  congr 1
  · refine Finset.sum_congr rfl fun b _ => ?_
    rw [Matrix.mulVec_diagonal]; ring
  · refine Finset.sum_congr rfl fun b _ => ?_
    rw [Matrix.mulVec_diagonal]; ring

theorem allMass_nonneg (n : Nat) (i0 i1 : κ → Nat) (J : (l : κ) → Fin (d l) → Fin 6 → K) (m : Nat → Fin 3 → K) (hm : ∀ i < n, ∀ q, 0 ≤ m i q)
    (D : (l : κ) → Fin (d l) → K) (hD : ∀ l r, 0 ≤ D l r) (x : (l : κ) × Fin (d l) → K) : 0 ≤ quad (allMass n i0 i1 J m D) x := by
  rw [allMass_quad]
  exact add_nonneg (Finset.sum_nonneg fun b _ => mul_nonneg (hm _ b.1.isLt _) (mul_self_nonneg _))
    (Finset.sum_nonneg fun r _ => mul_nonneg (hD _ _) (mul_self_nonneg _))

end

section
variable {c : CallCfg K} {p : Proxies K} {s0 : SolveState K}

/-- The rows of the Jacobian of a joint. -/
def Kind.jac (p : Proxies K) (s0 : SolveState K) : (k : Kind K) → Fin k.rows → Fin 6 → K
  | .equality _ f => (f.jacobian p s0).get
  | .mouse f => (f.jacobian p s0).get
  | .inequality _ _ => fun _ _ => 0
  | .limits _ => fun _ _ => 0
  | .contact => fun _ _ => 0

/-- What the law of a joint requires to be zero. -/
def Kind.excess (c : CallCfg K) (p : Proxies K) (s0 s : SolveState K) : (k : Kind K) → k.State → Fin k.rows → K
  | .equality _ f, e => fun r => rowError c p f (e : EqualitySolver _ _).base.restitution s0 s r +
      (e : EqualitySolver _ _).base.damping.at_ r * (e : EqualitySolver _ _).base.lambda.at_ r
  | .mouse f, e => fun r => rowError c p f (e : EqualitySolver _ _).base.restitution s0 s r +
      (e : EqualitySolver _ _).base.damping.at_ r * (e : EqualitySolver _ _).base.lambda.at_ r
  | .inequality _ _, _ => fun _ => 0
  | .limits _, _ => fun _ => 0
  | .contact, _ => fun _ => 0

theorem EqualitySolver.solve_law {d : Nat} (hs : ∀ x, 0 ≤ x → c.sqrt x * c.sqrt x = x) {e e' : EqualitySolver K d} {f : CFun K d}
    (hf : ∀ l, f.clampLambda l c.dt = l) (hind : p.i0 ≠ p.i1 ∨ FirstOnly (f.jacobian p s0)) (hJ : e.base.J = f.jacobian p s0)
    (hk : KSolver.mk' c.sqrt d (effectiveMass p (f.jacobian p s0) e.base.damping) = .ok e.solver) (hv : e.solver.isValid = true) {s s' : SolveState K}
    (hpl : f.eval p s' = f.eval p s ∧ f.bias p s' = f.bias p s) (h : e.solveVelocity p f c.dt s = .ok (e', s')) (r : Fin d) :
    rowError c p f e'.base.restitution s0 s' r + e'.base.damping.at_ r * e'.base.lambda.at_ r = 0 := by
  obtain ⟨k, hk', hvalid, hx, -⟩ := KSolver.mk_spec hs (effectiveMass p (f.jacobian p s0) e.base.damping)
  have hke : k = e.solver := by simpa using hk'.symm.trans hk
  subst hke
  obtain ⟨x, hx1, hx2, -⟩ := hx (hvalid.1 hv) (e.base.computeRhs p s f c.dt true)
  have hrhs : (e.base.computeRhs p s f c.dt true).at_ r =
      -(rowError c p f e.base.restitution s0 s r + e.base.damping.at_ r * e.base.lambda.at_ r) := by
    simp only [SolverBase.computeRhs, if_true, at_neg, at_add, diag_mul_at, at_sdiv, rowError, hJ]
    rw [at_mul]
    rfl
  have hsv : e.solveVelocity p f c.dt s = .ok ({ e with base := (e.base.updateLambda p f c.dt x s).1 }, (e.base.updateLambda p f c.dt x s).2) := by
    simp only [EqualitySolver.solveVelocity, hx1, Outcome.bind_ok]
  rw [hsv] at h
  obtain ⟨rfl, rfl⟩ := Prod.mk.inj (Outcome.ok.inj h)
  have hlam : (e.base.updateLambda p f c.dt x s).1.lambda = e.base.lambda.add x := hf _
  have hst : (e.base.updateLambda p f c.dt x s).2 = p.applyImpulse (SolverBase.impulse (f.jacobian p s0) x) s := by
    show p.applyImpulse (SolverBase.impulse e.base.J ((f.clampLambda (e.base.lambda.add x) c.dt).sub e.base.lambda)) s = _
    rw [hf, hJ]
    congr 2
    apply ext_at; intro r; rw [at_sub, at_add]; ring
  have h2 := congrArg (fun v : MVec K d => v.at_ r) hx2
  simp only [hrhs] at h2
  rw [effectiveMass, add_mul_at, diag_mul_at] at h2
  show rowError c p f e.base.restitution s0 (e.base.updateLambda p f c.dt x s).2 r + e.base.damping.at_ r * (e.base.updateLambda p f c.dt x s).1.lambda.at_ r = 0
  rw [rowError, hpl.1, hpl.2, hlam, hst, at_add, push_impulse p _ hind]
  rw [rowError] at h2
  linear_combination h2

variable [Trig K]

theorem Kind.joint_given (k : Kind K) {e : k.State} (hj : k.IsJoint c p s0) (hst : k.Started c p s0 e) (i : Fin 6) :
    k.given e i = ∑ r, k.jac p s0 r i * k.mult e r := by
  cases k with
  | equality d f => show pull (e : EqualitySolver K d).base.J _ i = _; rw [hst.1]; rfl
  | mouse f => show pull (e : EqualitySolver K 2).base.J _ i = _; rw [hst.1]; rfl
  | inequality d f => exact hj.elim
  | limits f => exact hj.elim
  | contact => exact hj.elim

theorem Kind.joint_law (k : Kind K) {e : k.State} (hj : k.IsJoint c p s0) (s : SolveState K) : k.Law c p s0 s e ↔ ∀ r, k.excess c p s0 s e r = 0 := by
  cases k with
  | equality d f =>
    show (∀ r, Best (f.allowed c.dt r) _ _) ↔ _
    simp only [allowed_of_free hj.1, best_univ]; rfl
  | mouse f =>
    show (∀ r, Best (f.allowed c.dt r) _ _) ↔ _
    simp only [allowed_of_free hj.1, best_univ]; rfl
  | inequality d f => exact hj.elim
  | limits f => exact hj.elim
  | contact => exact hj.elim

theorem Kind.joint_solve (hs : ∀ x, 0 ≤ x → c.sqrt x * c.sqrt x = x) (k : Kind K) {e e' : k.State} (hj : k.IsJoint c p s0) (hst : k.Started c p s0 e)
    (hpl : k.Plain p e) {s s' : SolveState K} (hpos : s'.pos = s.pos) (h : k.act c .solveVelocities p e s = .ok (e', s')) (r : Fin k.rows) :
    k.excess c p s0 s' e' r = 0 := by
  cases k with
  | equality d f => exact EqualitySolver.solve_law hs hj.1 hj.2 hst.1 hst.2.1 hst.2.2 (hpl _ _ hpos) h r
  | mouse f => exact EqualitySolver.solve_law hs hj.1 hj.2 hst.1 hst.2.1 hst.2.2 (hpl _ _ hpos) h r
  | inequality d f => exact hj.elim
  | limits f => exact hj.elim
  | contact => exact hj.elim

theorem Kind.joint_excess (k : Kind K) {e e' : k.State} (hj : k.IsJoint c p s0) (hsame : k.Same e' e) (hpl : k.Plain p e) {s s' : SolveState K}
    (hpos : s.pos = s'.pos) (r : Fin k.rows) :
    k.excess c p s0 s e r - k.excess c p s0 s' e' r =
      ∑ i, k.jac p s0 r i * ((p.velocity s).toV i - (p.velocity s').toV i) + k.damp e' r * (k.mult e r - k.mult e' r) := by
  have eqn : ∀ {d : Nat} {f : CFun K d} {e e' : EqualitySolver K d} (r : Fin d), (f.eval p s = f.eval p s' ∧ f.bias p s = f.bias p s') →
      e.base.damping = e'.base.damping → e.base.restitution = e'.base.restitution →
      rowError c p f e.base.restitution s0 s r + e.base.damping.at_ r * e.base.lambda.at_ r -
        (rowError c p f e'.base.restitution s0 s' r + e'.base.damping.at_ r * e'.base.lambda.at_ r) =
      ∑ i, (f.jacobian p s0).get r i * ((p.velocity s).toV i - (p.velocity s').toV i) + e'.base.damping.at_ r * (e.base.lambda.at_ r - e'.base.lambda.at_ r) := by
    intro d f e e' r hf hD hR
    have h := rowError_diff (c := c) (R := e'.base.restitution) (s0 := s0) hf r
    simp only [mul_sub, Finset.sum_sub_distrib]
    rw [push, push] at h
    rw [hD, hR]
    linear_combination h
  cases k with
  | equality d f => exact eqn r (hpl s s' hpos) hsame.1 hsame.2
  | mouse f => exact eqn r (hpl s s' hpos) hsame.1 hsame.2
  | inequality d f => exact hj.elim
  | limits f => exact hj.elim
  | contact => exact hj.elim

theorem Kind.joint_damp (k : Kind K) {e e' : k.State} (hj : k.IsJoint c p s0) (hr : k.Regular c p s0 e) (r : Fin k.rows) : 0 ≤ k.damp e r := by
  cases k with
  | equality d f => exact hr.1 r
  | mouse f => exact hr.1 r
  | inequality d f => exact hj.elim
  | limits f => exact hj.elim
  | contact => exact hj.elim

end

section
variable [Trig K] {L : Library K} {c : CallCfg K} {ls : List Link} {M : Nat → K × K} {n : Nat} {P : Link → Proxies K}
  {x0 y : St (Pose K) (Velocity K) ((l : Link) → (L.kind l).State) × Isl (Pose K) (Velocity K)}

/-- Inverse masses of the components. -/
def invMass3 (M : Nat → K × K) (i : Nat) : Fin 3 → K := ![(M i).1, (M i).1, (M i).2]

/-- What is required of the island and of the state `y` it is compared with. -/
structure Comparable (L : Library K) (c : CallCfg K) (ls : List Link) (M : Nat → K × K) (n : Nat) (P : Link → Proxies K)
    (x0 y : St (Pose K) (Velocity K) ((l : Link) → (L.kind l).State) × Isl (Pose K) (Velocity K)) : Prop where
  sqrt : ∀ x, 0 ≤ x → c.sqrt x * c.sqrt x = x
  proxy : ∀ l ∈ ls, ∃ ends, x0.1.proxies l = some ends ∧ P l = L.proxies l ends
  low : ∀ l ∈ ls, (P l).i0 < n ∧ (P l).i1 < n
  masses : ∀ l ∈ ls, (P l).masses = ⟨(M (P l).i0).1, (M (P l).i0).2, (M (P l).i1).1, (M (P l).i1).2⟩
  joint : ∀ l ∈ ls, (L.kind l).IsJoint c (P l) x0.2.view
  plain : ∀ l ∈ ls, (L.kind l).Plain (P l) (x0.1.s l)
  tallied : Tallied L ls P x0 y
  started : ∀ l ∈ ls, (L.kind l).Started c (P l) x0.2.view (y.1.s l)
  law : ∀ l ∈ ls, (L.kind l).Law c (P l) x0.2.view y.2.view (y.1.s l)

/-- A state of the island during the velocity iterations. -/
structure Underway (L : Library K) (c : CallCfg K) (ls : List Link) (P : Link → Proxies K)
    (x0 z : St (Pose K) (Velocity K) ((l : Link) → (L.kind l).State) × Isl (Pose K) (Velocity K)) : Prop where
  tallied : Tallied L ls P x0 z
  started : ∀ l ∈ ls, (L.kind l).Regular c (P l) x0.2.view (z.1.s l) ∧ (L.kind l).Started c (P l) x0.2.view (z.1.s l)

/-- Differences of the multipliers. -/
def offsets (L : Library K) (ls : List Link) (y z : St (Pose K) (Velocity K) ((l : Link) → (L.kind l).State) × Isl (Pose K) (Velocity K)) :
    ((l : ls.toFinset) × Fin (L.kind l).rows) → K :=
  fun r => (L.kind r.1).mult (z.1.s r.1) r.2 - (L.kind r.1).mult (y.1.s r.1) r.2

/-- The matrix of the joints of an island. -/
def islandMass (L : Library K) (ls : List Link) (M : Nat → K × K) (n : Nat) (P : Link → Proxies K)
    (x0 y : St (Pose K) (Velocity K) ((l : Link) → (L.kind l).State) × Isl (Pose K) (Velocity K)) :
    Matrix ((l : ls.toFinset) × Fin (L.kind l).rows) ((l : ls.toFinset) × Fin (L.kind l).rows) K :=
  allMass n (fun l : ls.toFinset => (P l).i0) (fun l => (P l).i1) (fun l => (L.kind l).jac (P l) x0.2.view) (invMass3 M) fun l => (L.kind l).damp (y.1.s l)

theorem offsets_velocity (hc : Comparable L c ls M n P x0 y)
    {z : St (Pose K) (Velocity K) ((l : Link) → (L.kind l).State) × Isl (Pose K) (Velocity K)} (hz : Underway L c ls P x0 z) (i : Nat) (q : Fin 3) :
    (z.2.vs i).comp q - (y.2.vs i).comp q = invMass3 M i q * ∑ l : ls.toFinset,
      ((if i = (P l).i0 then ∑ r, (L.kind l).jac (P l) x0.2.view r (Fin.castAdd 3 q) * offsets L ls y z ⟨l, r⟩ else 0) +
        (if i = (P l).i1 then ∑ r, (L.kind l).jac (P l) x0.2.view r (Fin.natAdd 3 q) * offsets L ls y z ⟨l, r⟩ else 0)) := by
  have hsum : ∀ w : St (Pose K) (Velocity K) ((l : Link) → (L.kind l).State) × Isl (Pose K) (Velocity K), Tallied L ls P x0 w →
      (∀ l ∈ ls, (L.kind l).Started c (P l) x0.2.view (w.1.s l)) →
      (w.2.vs i).comp q = (x0.2.vs i).comp q + invMass3 M i q * ∑ l : ls.toFinset,
        ((if i = (P l).i0 then ∑ r, (L.kind l).jac (P l) x0.2.view r (Fin.castAdd 3 q) * (L.kind l).mult (w.1.s l) r else 0) +
          (if i = (P l).i1 then ∑ r, (L.kind l).jac (P l) x0.2.view r (Fin.natAdd 3 q) * (L.kind l).mult (w.1.s l) r else 0)) := by
    intro w hw hst
    rw [hw.total, map_add, map_sum, Pi.add_apply, Finset.sum_apply, Finset.mul_sum, ← Finset.sum_coe_sort]
    congr 1
    refine Finset.sum_congr rfl fun l _ => ?_
    have hl : l.1 ∈ ls := List.mem_toFinset.1 l.2
    rw [kick_comp (P l) M (hc.masses l hl) _ i q, Kind.joint_given _ (hc.joint l hl) (hst l hl), Kind.joint_given _ (hc.joint l hl) (hst l hl)]
    rfl
  rw [hsum z hz.tallied fun l hl => (hz.started l hl).2, hsum y hc.tallied hc.started, add_sub_add_left_eq_sub, ← mul_sub, ← Finset.sum_sub_distrib]
  congr 1
  refine Finset.sum_congr rfl fun l _ => ?_
  simp only [offsets, mul_sub, Finset.sum_sub_distrib]
  split_ifs <;> ring

/-- The residual of a row is what its law requires to be zero. -/
theorem offsets_residual (hc : Comparable L c ls M n P x0 y)
    {z : St (Pose K) (Velocity K) ((l : Link) → (L.kind l).State) × Isl (Pose K) (Velocity K)} (hz : Underway L c ls P x0 z)
    (r : (l : ls.toFinset) × Fin (L.kind l).rows) :
    (islandMass L ls M n P x0 y).mulVec (offsets L ls y z) r = (L.kind r.1).excess c (P r.1) x0.2.view z.2.view (z.1.s r.1) r.2 := by
  have hmem : ∀ l : ls.toFinset, l.1 ∈ ls := fun l => List.mem_toFinset.1 l.2
  rw [islandMass, allMass_mulVec (κ := ls.toFinset) n _ _ (fun l => (hc.low l (hmem l)).1) (fun l => (hc.low l (hmem l)).2) _ _ _ _
    (fun i q => (z.2.vs i).comp q - (y.2.vs i).comp q) (fun b => by rw [momenta_mulVec]; exact offsets_velocity hc hz b.1 b.2)]
  have hl := hmem r.1
  have h0 := (Kind.joint_law _ (hc.joint _ hl) _).1 (hc.law _ hl) r.2
  have hpos : z.2.view.pos = y.2.view.pos := by
    show (fun b => (z.2.ps b).1) = fun b => (y.2.ps b).1
    rw [hz.tallied.still, hc.tallied.still]
  have h1 := Kind.joint_excess _ (hc.joint _ hl) (((hc.tallied.same _ hl).symm).trans (hz.tallied.same _ hl))
    (Kind.plain_same (hz.tallied.same _ hl) (hc.plain _ hl)) hpos r.2
  rw [h0, sub_zero] at h1
  rw [h1, sum_six]
  congr 1

theorem Underway.call {z : St (Pose K) (Velocity K) ((l : Link) → (L.kind l).State) × Isl (Pose K) (Velocity K)} (hz : Underway L c ls P x0 z) {l : Link}
    (hl : l ∈ ls) (hj : (L.kind l).IsJoint c (P l) x0.2.view) {e' : (L.kind l).State} {s' : SolveState K}
    (ha : (L.kind l).act c .solveVelocities (P l) (z.1.s l) z.2.view = .ok (e', s')) :
    Underway L c ls P x0 ({ z.1 with s := Function.update z.1.s l e' }, { z.2 with ps := fun i => Pose.of (s'.pos i), vs := s'.vel }) := by
  refine ⟨hz.tallied.call hl .solveVelocities (Or.inr rfl) (fun h => ?_) ha, fun m hm => ?_⟩
  · rw [h] at hj; exact hj.elim
  · by_cases hml : m = l
    · subst hml
      simp only [Function.update_self]
      exact Kind.started_act _ (hz.started m hm).1 (hz.started m hm).2 _ (Or.inr rfl) ha
    · simp only [Function.update_of_ne hml]
      exact hz.started m hm

/-- A velocity iteration is a sweep. -/
theorem round_sweep (hc : Comparable L c ls M n P x0 y) :
    ∀ (ks : List Link) {z w : St (Pose K) (Velocity K) ((l : Link) → (L.kind l).State) × Isl (Pose K) (Velocity K)}, (∀ l ∈ ks, l ∈ ls) →
      Underway L c ls P x0 z → actAll (L.net c) .solveVelocities ks z = .ok w →
      Underway L c ls P x0 w ∧ Sweep (islandMass L ls M n P x0 y) (fun r => r.1.1) ks (offsets L ls y z) (offsets L ls y w)
  | [], z, w, _, hz, h => by cases Outcome.ok.inj h; exact ⟨hz, rfl⟩
  | l :: ks, z, w, hsub, hz, h => by
    obtain ⟨ends, e', s', hp, ha, h⟩ := actAll_library_cons h
    have hl := hsub l List.mem_cons_self
    obtain ⟨ends', q1, q2⟩ := hc.proxy l hl
    have : ends' = ends := by rw [hz.tallied.proxies, q1] at hp; exact Option.some.inj hp
    subst this
    rw [← q2] at ha
    have hu := hz.call hl (hc.joint l hl) ha
    obtain ⟨i1, i2⟩ := round_sweep hc ks (fun m hm => hsub m (List.mem_cons_of_mem _ hm)) hu h
    refine ⟨i1, _, fun r hr => ?_, fun r hr => ?_, i2⟩
    · have hr : r.1.1 ≠ l := hr
      simp only [offsets, Function.update_of_ne hr]
    · rw [offsets_residual hc hu]
      obtain ⟨⟨m, hm⟩, r⟩ := r
      obtain rfl : m = l := hr
      obtain ⟨-, t2, -⟩ := Kind.telescope _ .solveVelocities (Or.inr rfl) (fun h => by have := hc.joint m hl; rw [h] at this; exact this.elim) ha
      have hview : ({ z.2 with ps := fun i => Pose.of (s'.pos i), vs := s'.vel } : Isl (Pose K) (Velocity K)).view = s' := by
        obtain ⟨pos, vel⟩ := s'
        obtain rfl : pos = z.2.view.pos := t2
        have h : ∀ i, (Pose.of (z.2.view.pos i)).1 = z.2.view.pos i := fun i => congrArg (fun z : Isl (Pose K) (Velocity K) => (z.ps i).1) (view_back z.2)
        exact congrArg (fun q => (⟨q, vel⟩ : SolveState K)) (funext h)
      simp only [Function.update_self, hview]
      exact Kind.joint_solve hc.sqrt _ (hc.joint m hl) (hz.started m hl).2 (Kind.plain_same (hz.tallied.same m hl) (hc.plain m hl)) t2 ha r

/-- The energy of the differences. -/
theorem offsets_apart (hc : Comparable L c ls M n P x0 y)
    {z : St (Pose K) (Velocity K) ((l : Link) → (L.kind l).State) × Isl (Pose K) (Velocity K)} (hz : Underway L c ls P x0 z) :
    quad (islandMass L ls M n P x0 y) (offsets L ls y z) = Island.apart L M n ls z y := by
  rw [islandMass, allMass_quad, Island.apart]
  congr 1
  · rw [← Fin.sum_univ_eq_sum_range (fun i => Velocity.apart (M i) (z.2.vs i) (y.2.vs i)), Fintype.sum_prod_type]
    refine Finset.sum_congr rfl fun i _ => ?_
    have key : ∀ q, invMass3 M i q * ((momenta n (fun l : ls.toFinset => (P l).i0) (fun l => (P l).i1) (fun l => (L.kind l).jac (P l) x0.2.view)).mulVec
        (offsets L ls y z) (i, q) * (momenta n (fun l : ls.toFinset => (P l).i0) (fun l => (P l).i1) (fun l => (L.kind l).jac (P l) x0.2.view)).mulVec
        (offsets L ls y z) (i, q)) = ((z.2.vs i).comp q - (y.2.vs i).comp q) * ((z.2.vs i).comp q - (y.2.vs i).comp q) / invMass3 M i q := by
      intro q
      have h := offsets_velocity hc hz i q
      rw [momenta_mulVec]
      simp only at h ⊢
      rw [h]
      by_cases h0 : invMass3 M i q = 0
      · rw [h0]; simp
      · field_simp
    rw [Fin.sum_univ_three, key, key, key, Velocity.apart]
    show _ / (M i).1 + _ / (M i).1 + _ / (M i).2 = _
    rw [← add_div]; rfl
  · rw [Fintype.sum_sigma, ← Finset.sum_coe_sort ls.toFinset]
    rfl

end

end Simu
