import Verif.Model.Base
import Mathlib.Data.List.FinRange
import Mathlib.Data.Real.Sqrt
/-
Model of include/Simu/math/Matrix.hpp and Matrix.inl.hpp: storage, algebra, linear solvers.

Scalars are an arbitrary type `T` (a commutative ring, a field or `ℝ` where needed) instead of the
arithmetic types of C++; the implicit conversions between element types (`Promoted`) are dropped.
`Uint32` indices are `Fin`; sizes are far below `2^32`.
-/
namespace Simu

/-- `for (Uint32 i = 0; i < n; ++i) s = f(i, s);` -/
def forFin {S : Type*} (n : Nat) (f : Fin n → S → S) (s : S) : S :=
  (List.finRange n).foldl (fun s i => f i s) s

/-- `for (Uint32 i = from; i < n; ++i) s = f(i, s);` -/
def forFrom {S : Type*} (n : Nat) (start : Nat) (f : Fin n → S → S) (s : S) : S :=
  ((List.finRange n).filter fun i => start ≤ i.val).foldl (fun s i => f i s) s

/-- `for (Uint32 i = 0; i < stop; ++i) s = f(i, s);` with `stop <= n`. -/
def forTo {S : Type*} (n : Nat) (stop : Nat) (f : Fin n → S → S) (s : S) : S :=
  ((List.finRange n).filter fun i => i.val < stop).foldl (fun s i => f i s) s

/-- `for (Uint32 i = n; i > 0; --i) s = f(i - 1, s);` -/
def forDown {S : Type*} (n : Nat) (f : Fin n → S → S) (s : S) : S :=
  (List.finRange n).reverse.foldl (fun s i => f i s) s

/-- Matrix.hpp:53-84 `MatrixData` and 128-172 `Matrix`: `T data[mRows * nCols]`. -/
structure Mat (T : Type*) (m n : Nat) where
  data : Fin (m * n) → T

/-- Matrix.hpp:97-98: vectors are single column matrices. -/
abbrev MVec (T : Type*) (n : Nat) := Mat T n 1

namespace Mat
variable {T : Type*} {m n p : Nat}

/-- Matrix.inl.hpp:44-54: position of `(row, col)` in the storage. -/
def idx (row : Fin m) (col : Fin n) : Fin (m * n) :=
  ⟨row.val * n + col.val, by
    calc row.val * n + col.val < row.val * n + n := by omega
      _ = (row.val + 1) * n := by ring
      _ ≤ m * n := Nat.mul_le_mul_right n row.isLt⟩

/-- Matrix.inl.hpp:50-54 `operator()(row, col) const`. -/
def get (M : Mat T m n) (row : Fin m) (col : Fin n) : T := M.data (idx row col)

/-- Assignment through Matrix.inl.hpp:44-48 `operator()(row, col)`. -/
def set (M : Mat T m n) (row : Fin m) (col : Fin n) (v : T) : Mat T m n :=
  ⟨Function.update M.data (idx row col) v⟩

/-- Matrix.inl.hpp:56-66 `operator[]` on a vector. -/
def at_ (v : MVec T n) (i : Fin n) : T := v.data ⟨i.val, by simp⟩

/-- Assignment through Matrix.inl.hpp:56-60 `operator[]` on a vector. -/
def setAt (v : MVec T n) (i : Fin n) (x : T) : MVec T n := ⟨Function.update v.data ⟨i.val, by simp⟩ x⟩

/-- A vector given by its elements (initializer list of the right size). -/
def ofFn (f : Fin n → T) : MVec T n := ⟨fun i => f ⟨i.val, by simpa using i.isLt⟩⟩

/-- Matrix.inl.hpp:150-162: constructor from an initializer list, which throws on a size mismatch. -/
def ofList (l : List T) : Outcome (Mat T m n) :=
  if h : l.length = m * n then .ok ⟨fun i => l.get ⟨i.val, by omega⟩⟩ else .throw

section zero
variable [Zero T]

/-- `Matrix<T, m, n>{}`: value initialisation zeroes the elements. -/
def zero : Mat T m n := ⟨fun _ => 0⟩

end zero

/-- Matrix.inl.hpp:201-209 `filled`. -/
def filled [Zero T] (v : T) : Mat T m n := forFin (m * n) (fun i M => ⟨Function.update M.data i v⟩) zero

/-- Matrix.inl.hpp:73-81 `identity`. -/
def identity [Zero T] [One T] : Mat T n n := forFin n (fun i M => M.set i i 1) zero

/-- Matrix.inl.hpp:83-92 `diagonal`. -/
def diagonal [Zero T] (e : MVec T n) : Mat T n n := forFin n (fun i M => M.set i i (e.at_ i)) zero

/-- Matrix.inl.hpp:237-245 unary `operator-`. -/
def neg [Neg T] (M : Mat T m n) : Mat T m n := ⟨fun i => -(M.data i)⟩

/-- Matrix.inl.hpp:247-255 `operator+=` (and 288-294 `operator+`). -/
def add [Add T] (A B : Mat T m n) : Mat T m n :=
  forFin (m * n) (fun i M => ⟨Function.update M.data i (M.data i + B.data i)⟩) A

/-- Matrix.inl.hpp:257-265 `operator-=` (and 296-302 `operator-`). -/
def sub [Sub T] (A B : Mat T m n) : Mat T m n :=
  forFin (m * n) (fun i M => ⟨Function.update M.data i (M.data i - B.data i)⟩) A

/-- Matrix.inl.hpp:267-275 `operator*=` (and 304-315 `operator*` with a scalar). -/
def smul [Mul T] (s : T) (A : Mat T m n) : Mat T m n :=
  forFin (m * n) (fun i M => ⟨Function.update M.data i (M.data i * s)⟩) A

/-- Matrix.inl.hpp:277-285 `operator/=` (and 317-322 `operator/`). -/
def sdiv [Div T] (A : Mat T m n) (s : T) : Mat T m n :=
  forFin (m * n) (fun i M => ⟨Function.update M.data i (M.data i / s)⟩) A

/-- Matrix.inl.hpp:324-341 matrix product. -/
def mul [Zero T] [Add T] [Mul T] (A : Mat T m n) (B : Mat T n p) : Mat T m p :=
  forFin m (fun row M => forFin p (fun col M => forFin n (fun k M =>
    M.set row col (M.get row col + A.get row k * B.get k col)) M) M) zero

/-- Matrix.inl.hpp:344-357 `transpose`, starting from the uninitialised `res`. -/
def transposeInto (res : Mat T n m) (A : Mat T m n) : Mat T n m :=
  forFin m (fun row M => forFin n (fun col M => M.set col row (A.get row col)) M) res

/-- `transpose`; the previous contents of `res` are never read (`C09_transpose_initialises`). -/
def transpose [Zero T] (A : Mat T m n) : Mat T n m := transposeInto zero A

/-- `*it++ = val` for each value in turn, from position `pos`; writing past the end is undefined. -/
def writeSeq {N : Nat} : List T → Nat → (Fin N → T) → Outcome (Fin N → T)
  | [], _, d => .ok d
  | v :: vs, pos, d => if h : pos < N then writeSeq vs (pos + 1) (Function.update d ⟨pos, h⟩ v) else .ub

/-- `for (const auto& x : vec)`. -/
def elems (v : MVec T n) : List T := (List.finRange n).map v.at_

/-- Matrix.inl.hpp:172-184 `fromRows`. -/
def fromRows [Zero T] (rows : MVec (MVec T n) m) : Outcome (Mat T m n) :=
  (writeSeq (rows.elems.flatMap elems) 0 (zero : Mat T m n).data).bind fun d => .ok ⟨d⟩

/-- `val = *it++`: successive reads from position `pos`. -/
def readSeq {N : Nat} (d : Fin N → T) : Nat → Nat → Outcome (List T)
  | 0, _ => .ok []
  | k + 1, pos => if h : pos < N then (readSeq d k (pos + 1)).bind fun l => .ok (d ⟨pos, h⟩ :: l) else .ub

/-- Matrix.inl.hpp:211-222 `asRows`, row by row. -/
def readRows {N : Nat} (d : Fin N → T) (n : Nat) : Nat → Nat → Outcome (List (List T))
  | 0, _ => .ok []
  | k + 1, pos => (readSeq d n pos).bind fun r => (readRows d n k (pos + n)).bind fun rs => .ok (r :: rs)

/-- Matrix.inl.hpp:211-222 `asRows`. -/
def asRows [Zero T] (A : Mat T m n) : Outcome (MVec (MVec T n) m) :=
  (readRows A.data n m 0).bind fun rs =>
    .ok (ofFn fun i => ofFn fun j => ((rs.getD i.val []).getD j.val 0))

/-- Matrix.inl.hpp:186-199 `fromCols`. -/
def fromCols [Zero T] (cols : MVec (MVec T m) n) : Outcome (Mat T m n) :=
  (fromRows cols).bind fun M => .ok M.transpose

/-- Matrix.inl.hpp:224-228 `asCols`. -/
def asCols [Zero T] (A : Mat T m n) : Outcome (MVec (MVec T m) n) := A.transpose.asRows

/-- Matrix.inl.hpp:590-598 `dot`. -/
def dot [Zero T] [Add T] [Mul T] (u v : MVec T n) : T := forFin n (fun i s => s + u.at_ i * v.at_ i) 0

end Mat
end Simu
