import Verif.Model.Matrix
/-
Model of the linear solvers of include/Simu/math/Matrix.inl.hpp: `Solver<T,2>`, `Solver<T,n>`, `invert`,
`LcpSolver` and `solveInequalities`.
-/
namespace Simu
open Mat

/-- Matrix.inl.hpp:360-400 `Solver<T, 2>`. -/
structure Solver2 (K : Type*) where
  A : Mat K 2 2
  invDet : K
  isValid : Bool

section Field
variable {K : Type*} [Field K] [DecidableEq K]

/-- Matrix.inl.hpp:365-371. -/
def Solver2.mk' (A : Mat K 2 2) : Solver2 K :=
  let det := A.get 0 0 * A.get 1 1 - A.get 0 1 * A.get 1 0
  let isValid := decide (det ≠ 0)
  { A := A, invDet := if isValid then 1 / det else det, isValid := isValid }

/-- Matrix.inl.hpp:373-387. -/
def Solver2.solve (s : Solver2 K) (b : MVec K 2) : Outcome (MVec K 2) :=
  (Outcome.check s.isValid).bind fun _ =>
    .ok (Mat.smul s.invDet (Mat.ofFn ![b.at_ 0 * s.A.get 1 1 - s.A.get 0 1 * b.at_ 1,
      s.A.get 0 0 * b.at_ 1 - b.at_ 0 * s.A.get 1 0]))

/-- Matrix.inl.hpp:389. -/
def Solver2.original (s : Solver2 K) : Mat K 2 2 := s.A

/-- Matrix.hpp:223-246 `Solver<T, n>`: `QT_` (`none`: default initialised, its elements are
indeterminate), `R_` and `isValid_`. -/
structure SolverN (K : Type*) (n : Nat) where
  QT : Option (Mat K n n)
  R : Mat K n n
  isValid : Bool

/-- Locals of Matrix.inl.hpp:408-434. -/
structure QRState (K : Type*) (n : Nat) where
  Q : MVec (MVec K n) n
  R : Mat K n n
  isValid : Bool

/-- Matrix.inl.hpp:606-610 `norm`; `sqrt` stands for `std::sqrt`. -/
def mnorm {n : Nat} (sqrt : K → K) (v : MVec K n) : K := sqrt (Mat.dot v v)

/-- Matrix.inl.hpp:428-432: body of the inner loop. -/
def qrInner {n : Nat} (col nextCol : Fin n) (s : QRState K n) : QRState K n :=
  let r := Mat.dot (s.Q.at_ col) (s.Q.at_ nextCol)
  { s with
    R := s.R.set col nextCol r
    Q := s.Q.setAt nextCol ((s.Q.at_ nextCol).sub ((s.Q.at_ col).smul r)) }

/-- Matrix.inl.hpp:418-433: body of the outer loop. The early `return` of line 424 leaves `isValid_`
false, and no iteration runs afterwards. -/
def qrStep {n : Nat} (sqrt : K → K) (col : Fin n) (s : QRState K n) : QRState K n :=
  if s.isValid then
    let d := mnorm sqrt (s.Q.at_ col)
    let s := { s with R := s.R.set col col d, isValid := decide (d ≠ 0) }
    if s.isValid then
      let s := { s with Q := s.Q.setAt col ((s.Q.at_ col).sdiv d) }
      forFrom n (col.val + 1) (qrInner col) s
    else s
  else s

/-- Matrix.inl.hpp:408-434: modified Gram-Schmidt. -/
def SolverN.mk' {n : Nat} (sqrt : K → K) (A : Mat K n n) : Outcome (SolverN K n) :=
  A.asCols.bind fun Q =>
    let s := forFin n (qrStep sqrt) { Q := Q, R := Mat.zero, isValid := true }
    if s.isValid then
      (Mat.fromCols s.Q).bind fun M => .ok { QT := some M.transpose, R := s.R, isValid := true }
    else .ok { QT := none, R := s.R, isValid := false }

/-- Matrix.hpp:232 `original`: reads `QT_`. -/
def SolverN.original {n : Nat} (s : SolverN K n) : Outcome (Mat K n n) :=
  match s.QT with
  | none => .ub
  | some QT => .ok (QT.transpose.mul s.R)

/-- Matrix.inl.hpp:448-456: body of the back substitution, `row` being `row - 1` of the code. -/
def backStep {n : Nat} (R : Mat K n n) (row : Fin n) (s : MVec K n × MVec K n) : MVec K n × MVec K n :=
  let c := forFrom n (row.val + 1) (fun col c => c.setAt row (c.at_ row - R.get row col * s.2.at_ col)) s.1
  (c, s.2.setAt row (c.at_ row / R.get row row))

/-- Matrix.inl.hpp:436-459. -/
def SolverN.solve {n : Nat} (s : SolverN K n) (b : MVec K n) : Outcome (MVec K n) :=
  (Outcome.check s.isValid).bind fun _ =>
    match s.QT with
    | none => .ub
    | some QT => .ok (forDown n (backStep s.R) (QT.mul b, Mat.zero)).2

/-- Matrix.inl.hpp:462-472 `invert`, with the `solve` of the solver built from the matrix. -/
def invertWith {n : Nat} (solve : MVec K n → Outcome (MVec K n)) : Outcome (Mat K n n) :=
  (Mat.identity : Mat K n n).asCols.bind fun cols =>
    (forFin n (fun i (o : Outcome (MVec (MVec K n) n)) =>
        o.bind fun cols => (solve (cols.at_ i)).bind fun c => .ok (cols.setAt i c)) (.ok cols)).bind fun cols =>
      Mat.fromCols cols

/-- Matrix.inl.hpp:462-472 `invert` of a 2x2 matrix. -/
def invert2 (A : Mat K 2 2) : Outcome (Mat K 2 2) := invertWith (Solver2.mk' A).solve

/-- Matrix.inl.hpp:462-472 `invert` of a matrix that is not 2x2. -/
def invertN {n : Nat} (sqrt : K → K) (A : Mat K n n) : Outcome (Mat K n n) :=
  (SolverN.mk' sqrt A).bind fun s => invertWith s.solve

end Field

section Ordered
variable {K : Type*} [Field K] [LinearOrder K]

/-- Matrix.inl.hpp:536-577 `LcpSolver`. -/
structure LcpSolver (K : Type*) where
  solver : Solver2 K
  invA11 : K
  invA22 : K

/-- Matrix.inl.hpp:541-545. A zero diagonal entry makes `1.f / 0.f` an infinity that is never used,
`isValid_` being false then; in the model it is `1 / 0 = 0`. -/
def LcpSolver.mk' (A : Mat K 2 2) : LcpSolver K :=
  let s := Solver2.mk' A
  { solver := { s with isValid := s.isValid && decide (A.get 0 0 ≠ 0) && decide (A.get 1 1 ≠ 0) }
    invA11 := 1 / A.get 0 0
    invA22 := 1 / A.get 1 1 }

/-- Matrix.inl.hpp:547-567. -/
def LcpSolver.solve (s : LcpSolver K) (b : MVec K 2) : Outcome (MVec K 2) :=
  (s.solver.solve b).bind fun x =>
    if 0 ≤ x.at_ 0 ∧ 0 ≤ x.at_ 1 then .ok x
    else
      let x : MVec K 2 := Mat.ofFn ![b.at_ 0 * s.invA11, 0]
      if 0 ≤ x.at_ 0 ∧ 0 ≤ x.at_ 0 * s.solver.A.get 1 0 - b.at_ 1 then .ok x
      else
        let x : MVec K 2 := Mat.ofFn ![0, b.at_ 1 * s.invA22]
        if 0 ≤ x.at_ 1 ∧ 0 ≤ x.at_ 1 * s.solver.A.get 0 1 - b.at_ 0 then .ok x
        else .ok Mat.zero

/-- Matrix.inl.hpp:491-499: the value of row `row` that satisfies its equation, `mb` being `-b`. -/
def rowSolution {n : Nat} (A : Mat K n n) (mb x : MVec K n) (row : Fin n) : K :=
  let s := forTo n row.val (fun col s => s + A.get row col * x.at_ col) 0
  let s := forFrom n (row.val + 1) (fun col s => s + A.get row col * x.at_ col) s;
  -(s + mb.at_ row) / A.get row row

/-- Matrix.inl.hpp:489-508: one row of a sweep; the state is `(x, eps)`. -/
def sweepRow {n : Nat} (A : Mat K n n) (mb : MVec K n) (proj : MVec K n → Fin n → K) (row : Fin n)
    (s : MVec K n × K) : MVec K n × K :=
  let newX := s.1.setAt row (rowSolution A mb s.1 row)
  let delX := proj newX row
  let d := |delX - s.1.at_ row|
  (s.1.setAt row delX, if s.2 < d then d else s.2)

/-- Matrix.inl.hpp:486-509: one iteration of the `while` loop. -/
def sweep {n : Nat} (A : Mat K n n) (mb : MVec K n) (proj : MVec K n → Fin n → K) (x : MVec K n) :
    MVec K n × K :=
  forFin n (sweepRow A mb proj) (x, 0)

/-- The `while (eps > epsilon)` loop of Matrix.inl.hpp:485-511, at most `fuel` iterations; `none`: it
is still running. -/
def gsLoop {n : Nat} (A : Mat K n n) (mb : MVec K n) (proj : MVec K n → Fin n → K) (epsilon : K) :
    Nat → MVec K n → K → Option (MVec K n)
  | 0, x, eps => if epsilon < eps then none else some x
  | fuel + 1, x, eps =>
    if epsilon < eps then gsLoop A mb proj epsilon fuel (sweep A mb proj x).1 (sweep A mb proj x).2
    else some x

/-- Matrix.inl.hpp:475-514 `solveInequalities`, at most `fuel` iterations. -/
def solveInequalities {n : Nat} (A : Mat K n n) (b : MVec K n) (proj : MVec K n → Fin n → K)
    (initialGuess : MVec K n) (epsilon : K) (fuel : Nat) : Option (MVec K n) :=
  gsLoop A b.neg proj epsilon fuel initialGuess (1 + epsilon)

/-- Matrix.inl.hpp:517-533: the overload whose projection acts on whole vectors. -/
def solveInequalitiesVec {n : Nat} (A : Mat K n n) (b : MVec K n) (proj : MVec K n → MVec K n)
    (initialGuess : MVec K n) (epsilon : K) (fuel : Nat) : Option (MVec K n) :=
  solveInequalities A b (fun x i => (proj x).at_ i) initialGuess epsilon fuel

end Ordered
end Simu
