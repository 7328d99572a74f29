import Mathlib.Algebra.Field.Defs
import Mathlib.Algebra.Order.Field.Basic
import Mathlib.Order.Lattice
/-
Shared vocabulary of the model: outcomes of C++ calls and two dimensional vectors.
-/
namespace Simu

/-- Result of a C++ call. `throw` stands for an exception leaving the call (`SIMU_ASSERT` throws
`simu::Exception`, include/Simu/config.hpp and include/Simu/utility/...), `ub` for an execution that
has undefined behaviour (null dereference, read of an uninitialised or destroyed object). -/
inductive Outcome (α : Type*) where
  | ok (a : α)
  | throw
  | ub
deriving DecidableEq, Repr

namespace Outcome

/-- Sequencing: exceptions and undefined behaviour propagate. -/
def bind {α β : Type*} (o : Outcome α) (f : α → Outcome β) : Outcome β :=
  match o with
  | .ok a => f a
  | .throw => .throw
  | .ub => .ub

instance : Monad Outcome where
  pure := .ok
  bind := bind

/-- `SIMU_ASSERT(cond, msg)`. -/
def check (c : Bool) : Outcome Unit := if c then .ok () else .throw

@[simp] theorem bind_ok {α β : Type*} (a : α) (f : α → Outcome β) : (Outcome.ok a).bind f = f a := rfl
@[simp] theorem bind_throw {α β : Type*} (f : α → Outcome β) :
    (Outcome.throw : Outcome α).bind f = .throw := rfl
@[simp] theorem bind_ub {α β : Type*} (f : α → Outcome β) :
    (Outcome.ub : Outcome α).bind f = .ub := rfl

end Outcome

/-- `Vec2 = Vector<float, 2>` (Matrix.hpp:363), components `v[0]` and `v[1]`. -/
@[ext] structure Vec2 (K : Type*) where
  x : K
  y : K
deriving DecidableEq, Repr

namespace Vec2
variable {K : Type*}

section
variable [Field K]

/-- Matrix.inl.hpp:247-255, 288-294 (componentwise). -/
instance : Add (Vec2 K) := ⟨fun a b => ⟨a.x + b.x, a.y + b.y⟩⟩
/-- Matrix.inl.hpp:257-265, 296-302 (componentwise). -/
instance : Sub (Vec2 K) := ⟨fun a b => ⟨a.x - b.x, a.y - b.y⟩⟩
/-- Matrix.inl.hpp:237-245. -/
instance : Neg (Vec2 K) := ⟨fun a => ⟨-a.x, -a.y⟩⟩
/-- `Vec2{}` is value-initialised to zeros. -/
instance : Zero (Vec2 K) := ⟨⟨0, 0⟩⟩
/-- Matrix.inl.hpp:267-275, 304-315 `scalar * v`. -/
instance : SMul K (Vec2 K) := ⟨fun s a => ⟨a.x * s, a.y * s⟩⟩

/-- Matrix.inl.hpp:277-285, 317-322 `v / scalar`. -/
def sdiv (a : Vec2 K) (s : K) : Vec2 K := ⟨a.x / s, a.y / s⟩
/-- Matrix.inl.hpp:590-598. The accumulator starts at `Promoted{} = 0`. -/
def dot (a b : Vec2 K) : K := 0 + a.x * b.x + a.y * b.y
/-- Matrix.inl.hpp:633-637. -/
def cross (a b : Vec2 K) : K := a.x * b.y - a.y * b.x
/-- Matrix.inl.hpp:600-604. -/
def normSquared (a : Vec2 K) : K := dot a a
/-- Matrix.inl.hpp:618-622. -/
def perp (a : Vec2 K) (clockwise : Bool := false) : Vec2 K :=
  if clockwise then -(⟨-a.y, a.x⟩ : Vec2 K) else ⟨-a.y, a.x⟩
/-- Matrix.inl.hpp:639-644. -/
def projection (ofThis onThat : Vec2 K) : Vec2 K :=
  sdiv (dot ofThis onThat • onThat) (normSquared onThat)

@[simp] theorem add_x (a b : Vec2 K) : (a + b).x = a.x + b.x := rfl
@[simp] theorem add_y (a b : Vec2 K) : (a + b).y = a.y + b.y := rfl
@[simp] theorem sub_x (a b : Vec2 K) : (a - b).x = a.x - b.x := rfl
@[simp] theorem sub_y (a b : Vec2 K) : (a - b).y = a.y - b.y := rfl
@[simp] theorem neg_x (a : Vec2 K) : (-a).x = -a.x := rfl
@[simp] theorem neg_y (a : Vec2 K) : (-a).y = -a.y := rfl
@[simp] theorem zero_x : (0 : Vec2 K).x = 0 := rfl
@[simp] theorem zero_y : (0 : Vec2 K).y = 0 := rfl
@[simp] theorem smul_x (s : K) (a : Vec2 K) : (s • a).x = a.x * s := rfl
@[simp] theorem smul_y (s : K) (a : Vec2 K) : (s • a).y = a.y * s := rfl
@[simp] theorem sdiv_x (a : Vec2 K) (s : K) : (sdiv a s).x = a.x / s := rfl
@[simp] theorem sdiv_y (a : Vec2 K) (s : K) : (sdiv a s).y = a.y / s := rfl
theorem dot_def (a b : Vec2 K) : dot a b = a.x * b.x + a.y * b.y := by simp [dot]

end

section
variable [LinearOrder K]
/-- `std::min` of two vectors, componentwise (Matrix.inl.hpp:804-815); `std::min(a,b) = (b < a) ? b : a`. -/
def min (a b : Vec2 K) : Vec2 K :=
  ⟨if b.x < a.x then b.x else a.x, if b.y < a.y then b.y else a.y⟩
/-- `std::max` of two vectors, componentwise (Matrix.inl.hpp:817-828); `std::max(a,b) = (a < b) ? b : a`. -/
def max (a b : Vec2 K) : Vec2 K :=
  ⟨if a.x < b.x then b.x else a.x, if a.y < b.y then b.y else a.y⟩
end

end Vec2

end Simu
