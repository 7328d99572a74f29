import Verif.Model.Solver
import Verif.Model.Body
import Verif.Model.Algo
/-
Model of include/Simu/physics/Bodies.hpp, Bodies.inl.hpp, ConstraintFunction.hpp, ConstraintSolver.hpp,
Motors.hpp, DistanceConstraint.hpp and of the constructor of `Constraint` (ConstraintInterfaces.hpp).

Calls that throw are modelled by `Outcome`; the state left behind by an exception is not described here.
Jacobians written as initializer lists of the right length are matrix literals. Scalars are exact: the
`SIMU_ASSERT(std::isfinite(..))` of `SolverProxy` always hold.
-/
namespace Simu
open Mat

/-- Body.hpp:118-139 `Velocity`. -/
@[ext] structure Velocity (K : Type*) where
  linear : Vec2 K
  angular : K

/-- The arrays of positions and velocities of an island (Island.hpp), which the proxies of Bodies.hpp:99-100
point into. -/
structure SolveState (K : Type*) where
  pos : Nat → Position K
  vel : Nat → Velocity K

/-- Bodies.hpp:104-110 `InvMasses`. -/
structure InvMasses (K : Type*) where
  m0 : K
  I0 : K
  m1 : K
  I1 : K

/-- Bodies.hpp:112-168 `Proxies`: the indices the two `SolverProxy` point to, and the inverse masses. The
indices are equal for a constraint on a single body (Bodies.hpp:184-192). -/
structure Proxies (K : Type*) where
  i0 : Nat
  i1 : Nat
  masses : InvMasses K

section Proxies
variable {K : Type*} [Field K]

namespace SolveState

/-- Bodies.hpp:76-83 `SolverProxy::setVelocity`. -/
def setVel (s : SolveState K) (i : Nat) (v : Vec2 K) (w : K) : SolveState K :=
  { s with vel := Function.update s.vel i ⟨v, w⟩ }

/-- Bodies.hpp:71-74 `SolverProxy::incrementVel`. -/
def incrementVel (s : SolveState K) (i : Nat) (dv : Vec2 K) (dw : K) : SolveState K :=
  s.setVel i ((s.vel i).linear + dv) ((s.vel i).angular + dw)

/-- Bodies.hpp:63-69 `SolverProxy::advancePos`. -/
def advancePos [Trig K] (s : SolveState K) (i : Nat) (dPos : Vec2 K) (dTheta : K) : SolveState K :=
  { s with pos := Function.update s.pos i ((s.pos i).advance dPos dTheta) }

end SolveState

namespace Proxies

/-- Bodies.inl.hpp:40-46. -/
def applyImpulse (p : Proxies K) (P : MVec K 6) (s : SolveState K) : SolveState K :=
  let s := s.incrementVel p.i0 (p.masses.m0 • (⟨P.at_ 0, P.at_ 1⟩ : Vec2 K)) (p.masses.I0 * P.at_ 2)
  s.incrementVel p.i1 (p.masses.m1 • (⟨P.at_ 3, P.at_ 4⟩ : Vec2 K)) (p.masses.I1 * P.at_ 5)

/-- Bodies.inl.hpp:49-55. -/
def applyPositionCorrection [Trig K] (p : Proxies K) (S : MVec K 6) (s : SolveState K) : SolveState K :=
  let s := s.advancePos p.i0 (p.masses.m0 • (⟨S.at_ 0, S.at_ 1⟩ : Vec2 K)) (p.masses.I0 * S.at_ 2)
  s.advancePos p.i1 (p.masses.m1 • (⟨S.at_ 3, S.at_ 4⟩ : Vec2 K)) (p.masses.I1 * S.at_ 5)

/-- Bodies.inl.hpp:58-70. -/
def velocity (p : Proxies K) (s : SolveState K) : MVec K 6 :=
  let v0 := s.vel p.i0
  let v1 := s.vel p.i1
  Mat.ofFn ![v0.linear.x, v0.linear.y, v0.angular, v1.linear.x, v1.linear.y, v1.angular]

/-- Bodies.hpp:154-158. -/
def invMassVec (p : Proxies K) : MVec K 6 :=
  let m := p.masses
  Mat.ofFn ![m.m0, m.m0, m.I0, m.m1, m.m1, m.I1]

/-- Bodies.hpp:159. -/
def inverseMass (p : Proxies K) : Mat K 6 6 := Mat.diagonal p.invMassVec

end Proxies

/-- Bodies.hpp:171-264 `Bodies`, its two pointers being the keys `i0` and `i1`; `masses` is computed once. -/
structure Bodies (K : Type*) where
  i0 : Nat
  i1 : Nat
  masses : InvMasses K

namespace Bodies
variable [LinearOrder K]

/-- Bodies.inl.hpp:74-95, for a list of two bodies. A body without mass makes `1.f / 0.f` an infinity; here
it is `1 / 0 = 0`. -/
def make (bodies : Nat → Body K) (i0 i1 : Nat) (dominances : Option (Vec2 K)) : Bodies K :=
  let d := dominances.getD ⟨(bodies i0).dominance, (bodies i1).dominance⟩
  { i0 := i0, i1 := i1
    masses := ⟨d.x * (bodies i0).invMass, d.x * (bodies i0).invInertia,
      d.y * (bodies i1).invMass, d.y * (bodies i1).invInertia⟩ }

/-- Bodies.hpp:184-192. -/
def singleBody (bodies : Nat → Body K) (i : Nat) : Bodies K := make bodies i i (some ⟨1, 1⟩)

/-- Bodies.hpp:210-213. -/
def size (b : Bodies K) : Nat := 1 + (if b.i0 ≠ b.i1 then 1 else 0)

/-- Bodies.inl.hpp:98-108. -/
def isBodyStructural (b : Bodies K) (body : Nat) : Outcome Bool :=
  if body = b.i0 then .ok (decide (b.masses.m0 = 0))
  else if body = b.i1 then .ok (decide (b.masses.m1 = 0))
  else .throw

/-- Bodies.hpp:234-247, the bodies being at the places `i0` and `i1` of the island's arrays. -/
def proxies (b : Bodies K) : Proxies K := ⟨b.i0, b.i1, b.masses⟩

/-- ConstraintInterfaces.hpp:68-83: what the constructor of `Constraint` accepts (for bodies that exist). -/
def checkConstraint (b : Bodies K) : Outcome Unit :=
  (b.isBodyStructural b.i0).bind fun s0 =>
    if b.i0 = b.i1 ∧ s0 then .throw
    else if s0 then (b.isBodyStructural b.i1).bind fun s1 => Outcome.check (!s1)
    else .ok ()

end Bodies
end Proxies

/-- ConstraintInterfaces.hpp:120-144: what a constraint function provides. -/
structure CFun (K : Type*) (d : Nat) where
  eval : Proxies K → SolveState K → MVec K d
  bias : Proxies K → SolveState K → MVec K d
  jacobian : Proxies K → SolveState K → Mat K d 6
  clampLambda : MVec K d → K → MVec K d
  clampPositionLambda : MVec K d → MVec K d

section Functions
variable {K : Type*} [Field K] [LinearOrder K] [Trig K]

/-- `std::max(v, Value::filled(0.f))`, Matrix.inl.hpp:817-828; `std::max(a, b)` is `(a < b) ? b : a`. -/
def maxZero {d : Nat} (v : MVec K d) : MVec K d := Mat.ofFn fun i => if v.at_ i < 0 then 0 else v.at_ i

/-- `Vec2` as a column. -/
def Vec2.toMVec (v : Vec2 K) : MVec K 2 := Mat.ofFn ![v.x, v.y]

/-- ConstraintFunction.hpp:263-278, 308-337: `initial` is `initialAngle_`. -/
def rotationFun (initial : K) : CFun K 1 where
  eval p s := (Mat.ofFn ![(s.pos p.i1).orient.theta - (s.pos p.i0).orient.theta]).sub (Mat.ofFn ![initial])
  bias _ _ := Mat.zero
  jacobian _ _ := ⟨![0, 0, -1, 0, 0, 1]⟩
  clampLambda l _ := l
  clampPositionLambda l := l

/-- ConstraintFunction.hpp:315-319: constructor. -/
def rotationFunOf (bodies : Nat → Body K) (b : Bodies K) : CFun K 1 :=
  rotationFun ((bodies b.i1).position.orient.theta - (bodies b.i0).position.orient.theta)

/-- ConstraintFunction.hpp:263-278, 340-394: `l0`, `l1` are `localSpaceSharedPoint_`. -/
def hingeFun (l0 l1 : Vec2 K) : CFun K 2 where
  eval p s := ((s.pos p.i1).toWorldSpace.app l1 - (s.pos p.i0).toWorldSpace.app l0).toMVec
  bias _ _ := Mat.zero
  jacobian p s :=
    let w0 := (s.pos p.i0).toWorldSpace.app l0
    let w1 := (s.pos p.i1).toWorldSpace.app l1
    let r0 := (w0 - (s.pos p.i0).centroid).perp false
    let r1 := (w1 - (s.pos p.i1).centroid).perp false
    ⟨![-1, 0, -r0.x, 1, 0, r1.x,
       0, -1, -r0.y, 0, 1, r1.y]⟩
  clampLambda l _ := l
  clampPositionLambda l := l

/-- ConstraintFunction.hpp:346-352: constructor. -/
def hingeFunOf (bodies : Nat → Body K) (b : Bodies K) (shared : Vec2 K) : CFun K 2 :=
  hingeFun ((bodies b.i0).position.toLocalSpace.app shared) ((bodies b.i1).position.toLocalSpace.app shared)

/-- DistanceConstraint.hpp:35-94: `l0`, `l1` are `localFixedPoints_`. -/
def distanceFun (l0 l1 : Vec2 K) : CFun K 1 where
  eval p s := Mat.ofFn ![((s.pos p.i0).toWorldSpace.app l0 - (s.pos p.i1).toWorldSpace.app l1).normSquared]
  bias _ _ := Mat.zero
  jacobian p s :=
    let w0 := (s.pos p.i0).toWorldSpace.app l0
    let w1 := (s.pos p.i1).toWorldSpace.app l1
    let d := w0 - w1
    let r0 := w0 - (s.pos p.i0).centroid
    let r1 := w1 - (s.pos p.i1).centroid
    Mat.smul 2 ⟨![d.x, d.y, Vec2.cross r0 d, -d.x, -d.y, -Vec2.cross r1 d]⟩
  clampLambda l _ := l
  clampPositionLambda l := l

/-- DistanceConstraint.hpp:42-48: constructor. -/
def distanceFunOf (bodies : Nat → Body K) (b : Bodies K) (p0 p1 : Vec2 K) : CFun K 1 :=
  distanceFun ((bodies b.i0).position.toLocalSpace.app p0) ((bodies b.i1).position.toLocalSpace.app p1)

/-- ConstraintFunction.hpp:280-302 `InequalityConstraintFunctionBase` around a function. -/
def inequalityFun {d : Nat} (f : CFun K d) : CFun K d :=
  { f with clampLambda := fun l _ => maxZero l, clampPositionLambda := maxZero }

omit [Trig K] in
/-- ConstraintFunction.hpp:158-163 `MatrixRowManipulator::assign`; `h`: the rows exist. -/
def assignRows {D m c : Nat} (start : Nat) (h : start + m ≤ D) (sub : Mat K m c) (rows : Mat K D c) : Mat K D c :=
  forFin m (fun i rows => forFin c (fun j rows => rows.set ⟨start + i.val, by omega⟩ j (sub.get i j)) rows) rows

omit [Trig K] in
/-- ConstraintFunction.hpp:165-177 `MatrixRowManipulator::extract`; `h`: the rows exist. -/
def extractRows {D c : Nat} (m start : Nat) (h : start + m ≤ D) (rows : Mat K D c) : Mat K m c :=
  forFin m (fun i res => forFin c (fun j res => res.set i j (rows.get ⟨start + i.val, by omega⟩ j)) res) Mat.zero

/-- ConstraintFunction.hpp:92-260 `ConstraintFunctions<F, G>`: a tuple of two functions (larger tuples nest). -/
def stackFun {a b : Nat} (f : CFun K a) (g : CFun K b) : CFun K (a + b) where
  eval p s := assignRows a (le_refl _) (g.eval p s) (assignRows 0 (by omega) (f.eval p s) Mat.zero)
  bias p s := assignRows a (le_refl _) (g.bias p s) (assignRows 0 (by omega) (f.bias p s) Mat.zero)
  jacobian p s := assignRows a (le_refl _) (g.jacobian p s) (assignRows 0 (by omega) (f.jacobian p s) Mat.zero)
  clampLambda l dt :=
    let l := assignRows 0 (by omega) (f.clampLambda (extractRows a 0 (by omega) l) dt) l
    assignRows a (le_refl _) (g.clampLambda (extractRows b a (le_refl _) l) dt) l
  clampPositionLambda l :=
    let l := assignRows 0 (by omega) (f.clampPositionLambda (extractRows a 0 (by omega) l)) l
    assignRows a (le_refl _) (g.clampPositionLambda (extractRows b a (le_refl _) l)) l

/-- Constraint.hpp:125, 145-156: the function of `WeldConstraint`. -/
def weldFunOf (bodies : Nat → Body K) (b : Bodies K) : CFun K 3 :=
  stackFun (hingeFunOf bodies b (((bodies b.i0).centroid + (bodies b.i1).centroid).sdiv 2)) (rotationFunOf bodies b)

/-- Motors.hpp:34-91 `MotorFunctionBase`. -/
structure Motor (K : Type*) (d : Nat) where
  throttle : K
  direction : MVec K d
  maxVelocity : K
  maxForce : K

namespace Motor
variable {d : Nat}

omit [Trig K] in
/-- Motors.hpp:45-48, 86-87. -/
def make [IsStrictOrderedRing K] (maxVelocity maxForce : K) : Motor K d := ⟨1, Mat.zero, |maxVelocity|, |maxForce|⟩

omit [Trig K] in
/-- Motors.hpp:73. -/
def setThrottle (m : Motor K d) (t : K) : Motor K d := { m with throttle := Algo.clamp t 0 1 }

omit [Trig K] in
/-- Motors.hpp:76-82. -/
def setDirection (sqrt : K → K) (m : Motor K d) (v : MVec K d) : Motor K d :=
  if Mat.dot v v = 0 then { m with direction := v } else { m with direction := v.sdiv (mnorm sqrt v) }

omit [Trig K] in
/-- Motors.hpp:51-54. -/
def bias (m : Motor K d) : MVec K d := m.direction.smul (-m.maxVelocity)

omit [Trig K] in
/-- Motors.hpp:56-68. -/
def clampLambda (m : Motor K d) (lambda : MVec K d) (dt : K) : MVec K d :=
  let maxImpulse := ((m.direction.smul m.throttle).smul m.maxForce).smul dt
  forFin d (fun i l => l.setAt i
    (if maxImpulse.at_ i < 0 then Algo.clamp (l.at_ i) (maxImpulse.at_ i) 0
     else Algo.clamp (l.at_ i) 0 (maxImpulse.at_ i))) lambda

omit [Trig K] in
/-- Motors.hpp:50-70, with the Jacobian of the derived class. -/
def toFun (m : Motor K d) (J : Mat K d 6) : CFun K d where
  eval _ _ := Mat.zero
  bias _ _ := m.bias
  jacobian _ _ := J
  clampLambda := m.clampLambda
  clampPositionLambda _ := Mat.zero

end Motor

/-- Motors.hpp:94-109 `RotationMotorFunction`. -/
def rotationMotor (m : Motor K 1) : CFun K 1 := m.toFun ⟨![0, 0, 1, 0, 0, 0]⟩

/-- Motors.hpp:112-130 `TranslationMotorFunction`. -/
def translationMotor (m : Motor K 2) : CFun K 2 :=
  m.toFun ⟨![1, 0, 0, 0, 0, 0,
             0, 1, 0, 0, 0, 0]⟩

/-- Motors.hpp:140-193 `RotationMotor::Specs` and 230-271 `TranslationMotor::Specs`: a maximal velocity and either a maximal
force (torque) or a maximal acceleration. -/
structure MotorSpecs (K : Type*) where
  maxVelocity : K
  maxAccel : Option K
  maxForce : Option K

namespace MotorSpecs

omit [LinearOrder K] [Trig K] in
/-- Motors.hpp:144-150 `fromTorque`, 234-240 `fromForce`. -/
def fromForce (maxVelocity maxForce : K) : MotorSpecs K := ⟨maxVelocity, none, some maxForce⟩

omit [LinearOrder K] [Trig K] in
/-- Motors.hpp:152-168, 242-255 `fromAccel`; `target` is `targetInertia` or `targetMass`. -/
def fromAccel (maxVelocity maxAccel : K) (target : Option K) : MotorSpecs K :=
  match target with
  | some t => fromForce maxVelocity (maxAccel * t)
  | none => ⟨maxVelocity, some maxAccel, none⟩

omit [LinearOrder K] [Trig K] in
/-- Motors.hpp:170-177 `fromTargetForce`. -/
def fromTargetForce (maxVelocity radius targetForce : K) : MotorSpecs K := fromForce maxVelocity (radius * targetForce)

omit [LinearOrder K] [Trig K] in
/-- Motors.hpp:180-186 `maxTorque`, 258-264 `maxForce`; `inertia` is the inertia (mass) of the body. Specs made by the three
functions above have one of the two values. -/
def forceFor (m : MotorSpecs K) (inertia : K) : Outcome K :=
  match m.maxForce with
  | some f => .ok f
  | none =>
    match m.maxAccel with
    | some a => .ok (a * inertia)
    | none => .throw

end MotorSpecs

omit [Trig K] in
/-- Motors.hpp:195-202: the function of a `RotationMotor`. -/
def rotationMotorOf [IsStrictOrderedRing K] (body : Body K) (specs : MotorSpecs K) : Outcome (Motor K 1) :=
  (specs.forceFor body.inertia).bind fun f => .ok (Motor.make specs.maxVelocity f)

omit [Trig K] in
/-- Motors.hpp:273-280: the function of a `TranslationMotor`. -/
def translationMotorOf [IsStrictOrderedRing K] (body : Body K) (specs : MotorSpecs K) : Outcome (Motor K 2) :=
  (specs.forceFor body.mass).bind fun f => .ok (Motor.make specs.maxVelocity f)

end Functions

/-- ConstraintSolver.hpp:126-131: members of `ConstraintSolverBase`. -/
structure SolverBase (K : Type*) (d : Nat) where
  lambda : MVec K d
  previousLambda : MVec K d
  J : Mat K d 6
  restitution : MVec K d
  damping : MVec K d

section Solvers
variable {K : Type*} [Field K] [LinearOrder K] {d : Nat}

namespace SolverBase

/-- ConstraintSolver.hpp:126-131: default member initialisers. -/
def init : SolverBase K d := ⟨Mat.zero, Mat.zero, Mat.zero, Mat.zero, Mat.zero⟩

/-- ConstraintSolver.hpp:68-72. -/
def initBase (b : SolverBase K d) : SolverBase K d := { b with previousLambda := b.lambda, lambda := Mat.zero }

/-- ConstraintSolver.hpp:114-117. -/
def impulse (J : Mat K d 6) (lambda : MVec K d) : MVec K 6 := J.transpose.mul lambda

/-- ConstraintSolver.hpp:105-112. -/
def updateLambda (b : SolverBase K d) (p : Proxies K) (f : CFun K d) (dt : K) (dLambda : MVec K d) (s : SolveState K) :
    SolverBase K d × SolveState K :=
  let oldLambda := b.lambda
  let b := { b with lambda := b.lambda.add dLambda }
  let b := { b with lambda := f.clampLambda b.lambda dt }
  (b, p.applyImpulse (impulse b.J (b.lambda.sub oldLambda)) s)

/-- ConstraintSolver.hpp:74-77. -/
def warmstartDefault (b : SolverBase K d) (p : Proxies K) (f : CFun K d) (dt : K) (s : SolveState K) :
    SolverBase K d × SolveState K :=
  b.updateLambda p f dt b.previousLambda s

/-- ConstraintSolver.hpp:79-89. -/
def computeEffectiveMass (b : SolverBase K d) (p : Proxies K) (s : SolveState K) (f : CFun K d) (addDamping : Bool) :
    SolverBase K d × Mat K d d :=
  let b := { b with J := f.jacobian p s }
  let effectiveMass := (b.J.mul p.inverseMass).mul b.J.transpose
  (b, if addDamping then effectiveMass.add (Mat.diagonal b.damping) else effectiveMass)

/-- ConstraintSolver.hpp:91-103. -/
def computeRhs (b : SolverBase K d) (p : Proxies K) (s : SolveState K) (f : CFun K d) (dt : K) (addDamping : Bool) :
    MVec K d :=
  let error := b.J.mul (p.velocity s)
  let bias := f.bias p s
  let baumgarteStabilization := ((Mat.diagonal b.restitution).mul (f.eval p s)).sdiv dt
  let previousDamping := if addDamping then (Mat.diagonal b.damping).mul b.lambda else Mat.zero
  (((error.add bias).add baumgarteStabilization).add previousDamping).neg

end SolverBase

/-- `Solver<float, dimension>` as used by the constraint solvers. -/
structure KSolver (K : Type*) (d : Nat) where
  isValid : Bool
  solve : MVec K d → Outcome (MVec K d)

/-- Matrix.inl.hpp:360-459: construction of a `Solver<float, d>`, which is specialised for 2x2 matrices. -/
def KSolver.mk' (sqrt : K → K) : (d : Nat) → Mat K d d → Outcome (KSolver K d)
  | 2, A => let s := Solver2.mk' A; .ok ⟨s.isValid, s.solve⟩
  | _, A => (SolverN.mk' sqrt A).bind fun s => .ok ⟨s.isValid, s.solve⟩

/-- ConstraintSolver.hpp:135-194 `EqualitySolver`. -/
structure EqualitySolver (K : Type*) (d : Nat) where
  base : SolverBase K d
  solver : KSolver K d

namespace EqualitySolver

/-- ConstraintSolver.hpp:158-163. -/
def initSolve (sqrt : K → K) (e : EqualitySolver K d) (p : Proxies K) (f : CFun K d) (s : SolveState K) :
    Outcome (EqualitySolver K d) :=
  let (base, M) := e.base.initBase.computeEffectiveMass p s f true
  (KSolver.mk' sqrt d M).bind fun solver =>
    (Outcome.check solver.isValid).bind fun _ => .ok ⟨base, solver⟩

/-- ConstraintSolver.hpp:165-168. -/
def warmstart (e : EqualitySolver K d) (p : Proxies K) (f : CFun K d) (dt : K) (s : SolveState K) :
    EqualitySolver K d × SolveState K :=
  let (base, s) := e.base.warmstartDefault p f dt s
  ({ e with base := base }, s)

/-- ConstraintSolver.hpp:170-175. -/
def solveVelocity (e : EqualitySolver K d) (p : Proxies K) (f : CFun K d) (dt : K) (s : SolveState K) :
    Outcome (EqualitySolver K d × SolveState K) :=
  let err := e.base.computeRhs p s f dt true
  (e.solver.solve err).bind fun dLambda =>
    let (base, s) := e.base.updateLambda p f dt dLambda s
    .ok ({ e with base := base }, s)

/-- ConstraintSolver.hpp:177-188. -/
def solvePosition [Trig K] (sqrt : K → K) (e : EqualitySolver K d) (p : Proxies K) (f : CFun K d) (s : SolveState K) :
    Outcome (EqualitySolver K d × SolveState K) :=
  let error := f.eval p s
  let J := f.jacobian p s
  let (base, M) := e.base.computeEffectiveMass p s f false
  (KSolver.mk' sqrt d M).bind fun solver =>
    (solver.solve error.neg).bind fun l =>
      let posLambda := f.clampPositionLambda l
      .ok (⟨base, solver⟩, p.applyPositionCorrection (J.transpose.mul posLambda) s)

end EqualitySolver

/-- ConstraintSolver.hpp:197-275 `InequalitySolver`. -/
structure InequalitySolver (K : Type*) (d : Nat) where
  base : SolverBase K d
  effectiveMass : Mat K d d

namespace InequalitySolver

/-- ConstraintSolver.hpp:217-221. -/
def initSolve (e : InequalitySolver K d) (p : Proxies K) (f : CFun K d) (s : SolveState K) : InequalitySolver K d :=
  let (base, M) := e.base.initBase.computeEffectiveMass p s f true
  ⟨base, M⟩

/-- ConstraintSolver.hpp:223-226. -/
def warmstart (e : InequalitySolver K d) (p : Proxies K) (f : CFun K d) (dt : K) (s : SolveState K) :
    InequalitySolver K d × SolveState K :=
  let (base, s) := e.base.warmstartDefault p f dt s
  ({ e with base := base }, s)

/-- ConstraintSolver.hpp:228-241; `none`: the inner loop is still running after `fuel` iterations.
`epsilon` is `simu::EPSILON` (Matrix.hpp:285). -/
def solveVelocity (epsilon : K) (fuel : Nat) (e : InequalitySolver K d) (p : Proxies K) (f : CFun K d) (dt : K)
    (s : SolveState K) : Option (InequalitySolver K d × SolveState K) :=
  let correctedError := e.effectiveMass.mul e.base.lambda
  (solveInequalitiesVec e.effectiveMass ((e.base.computeRhs p s f dt false).add correctedError)
    (fun l => f.clampLambda l dt) e.base.lambda epsilon fuel).map fun lambda =>
      let (base, s) := e.base.updateLambda p f dt (lambda.sub e.base.lambda) s
      ({ e with base := base }, s)

/-- ConstraintSolver.hpp:243-269. -/
def solvePosition [Trig K] (sqrt : K → K) (e : InequalitySolver K d) (p : Proxies K) (f : CFun K d) (s : SolveState K) :
    Outcome (InequalitySolver K d × SolveState K) :=
  let error := f.eval p s
  let J := f.jacobian p s
  let e := { e with effectiveMass := (J.mul p.inverseMass).mul J.transpose }
  (KSolver.mk' sqrt d e.effectiveMass).bind fun solver =>
    if solver.isValid then
      (solver.solve error.neg).bind fun l =>
        let posLambda := f.clampPositionLambda l
        .ok (e, p.applyPositionCorrection (J.transpose.mul posLambda) s)
    else .ok (e, s)

end InequalitySolver

/-- ConstraintSolver.hpp:469-475 `LimitsSolver::Func`. -/
inductive Func where
  | lower
  | upper
  | equality
  | off
deriving DecidableEq

/-- ConstraintSolver.hpp:539-543: the anonymous union; the constructor is its active member. -/
inductive LimitsUnion (K : Type*) where
  | effectiveMass (M : Mat K 1 1)
  | solver (s : KSolver K 1)

/-- ConstraintSolver.hpp:294-546 `LimitsSolver`. Lines 499 and 520 only compile for functions of dimension 1. -/
structure LimitsSolver (K : Type*) where
  base : SolverBase K 1
  func : Func
  L : Option (MVec K 1)
  U : Option (MVec K 1)
  data : LimitsUnion K
  canWarmstart : Bool

namespace LimitsSolver

/-- ConstraintSolver.hpp:311, 534-545: default member initialisers. -/
def make : LimitsSolver K := ⟨.init, .off, none, none, .effectiveMass Mat.zero, false⟩

/-- ConstraintSolver.hpp:463-467. -/
def assertLimits (e : LimitsSolver K) : Outcome Unit :=
  match e.L, e.U with
  | some l, some u => Outcome.check (decide (l.at_ 0 ≤ u.at_ 0))
  | _, _ => .ok ()

/-- ConstraintSolver.hpp:313-317: the limit is stored before it is checked. -/
def setLowerLimit (e : LimitsSolver K) (l : Option (MVec K 1)) : LimitsSolver K × Outcome Unit :=
  let e := { e with L := l }
  (e, e.assertLimits)

/-- ConstraintSolver.hpp:318-322. -/
def setUpperLimit (e : LimitsSolver K) (u : Option (MVec K 1)) : LimitsSolver K × Outcome Unit :=
  let e := { e with U := u }
  (e, e.assertLimits)

/-- ConstraintSolver.hpp:477-492. -/
def nextFunc (e : LimitsSolver K) (p : Proxies K) (f : CFun K 1) (s : SolveState K) : Func :=
  let C := (f.eval p s).at_ 0
  match e.L, e.U with
  | none, none => .equality
  | some l, some u =>
    if l.at_ 0 = u.at_ 0 then .equality
    else if C - l.at_ 0 ≤ 0 then .lower
    else if -C + u.at_ 0 ≤ 0 then .upper
    else .off
  | some l, none => if C - l.at_ 0 ≤ 0 then .lower else .off
  | none, some u => if -C + u.at_ 0 ≤ 0 then .upper else .off

/-- ConstraintSolver.hpp:324-327. -/
def isActive (e : LimitsSolver K) (p : Proxies K) (f : CFun K 1) (s : SolveState K) : Bool :=
  decide (e.nextFunc p f s ≠ Func.off)

/-- ConstraintSolver.hpp:330-344. -/
def initSolve (sqrt : K → K) (e : LimitsSolver K) (p : Proxies K) (f : CFun K 1) (s : SolveState K) :
    Outcome (LimitsSolver K) :=
  let e := { e with base := e.base.initBase }
  let prev := e.func
  let e := { e with func := e.nextFunc p f s }
  let e := { e with canWarmstart := decide (e.func = prev) && decide (e.func ≠ Func.off) }
  let (base, effMass) := e.base.computeEffectiveMass p s f true
  let e := { e with base := base }
  match e.func with
  | .equality => (KSolver.mk' sqrt 1 effMass).bind fun solver => .ok { e with data := .solver solver }
  | .lower => .ok { e with data := .effectiveMass effMass }
  | .upper => .ok { e with data := .effectiveMass effMass }
  | .off => .ok e

/-- ConstraintSolver.hpp:346-362. -/
def warmstart (e : LimitsSolver K) (p : Proxies K) (f : CFun K 1) (dt : K) (s : SolveState K) :
    LimitsSolver K × SolveState K :=
  if e.canWarmstart then
    if e.func = Func.upper then
      let s := p.applyImpulse (SolverBase.impulse e.base.J e.base.previousLambda.neg) s
      ({ e with base := { e.base with lambda := e.base.previousLambda } }, s)
    else
      let (base, s) := e.base.warmstartDefault p f dt s
      ({ e with base := base }, s)
  else (e, s)

/-- `std::optional::value`, which throws `std::bad_optional_access` when empty. -/
def value (o : Option (MVec K 1)) : Outcome (MVec K 1) :=
  match o with
  | some v => .ok v
  | none => .throw

/-- ConstraintSolver.hpp:494-532. -/
def rhs (e : LimitsSolver K) (p : Proxies K) (f : CFun K 1) (dt : K) (s : SolveState K) : Outcome (MVec K 1) :=
  let J := e.base.J
  let error := J.mul (p.velocity s)
  let bias := f.bias p s
  let baumgarteCoeff := (Mat.diagonal e.base.restitution).sdiv dt
  let C := f.eval p s
  let K' := (J.mul p.inverseMass).mul J.transpose
  match e.func with
  | .equality =>
    let C := match e.L with
      | some l => C.sub l
      | none => C
    let previousDamping := (Mat.diagonal e.base.damping).mul e.base.lambda
    .ok (((error.add bias).add (baumgarteCoeff.mul C)).add previousDamping).neg
  | .lower =>
    (value e.L).bind fun l =>
      let C := C.sub l
      let alreadyCorrected := K'.mul e.base.lambda
      .ok (((error.sub alreadyCorrected).add bias).add (baumgarteCoeff.mul C)).neg
  | .upper =>
    let alreadyCorrected := K'.mul e.base.lambda.neg
    (value e.U).bind fun u =>
      .ok (((error.sub alreadyCorrected).add bias).add (baumgarteCoeff.mul (C.sub u)))
  | .off => .ok Mat.zero

/-- ConstraintSolver.hpp:364-414; the inner `none` stands for an inequality loop still running after `fuel`
iterations. Reading the inactive member of the union is undefined. -/
def solveVelocity (epsilon : K) (fuel : Nat) (e : LimitsSolver K) (p : Proxies K) (f : CFun K 1) (dt : K)
    (s : SolveState K) : Outcome (Option (LimitsSolver K × SolveState K)) :=
  (e.rhs p f dt s).bind fun err =>
    match e.func, e.data with
    | .equality, .solver solver =>
      (solver.solve err).bind fun dLambda =>
        let (base, s) := e.base.updateLambda p f dt dLambda s
        .ok (some ({ e with base := base }, s))
    | .lower, .effectiveMass M =>
      .ok <| (solveInequalitiesVec M err (fun l => maxZero (f.clampLambda l dt)) e.base.lambda epsilon fuel).map
        fun lambda =>
          let (base, s) := e.base.updateLambda p f dt (lambda.sub e.base.lambda) s
          ({ e with base := base }, s)
    | .upper, .effectiveMass M =>
      .ok <| (solveInequalitiesVec M err (fun l => maxZero (f.clampLambda l.neg dt).neg) e.base.lambda epsilon fuel).map
        fun lambda =>
          let s := p.applyImpulse (SolverBase.impulse e.base.J (lambda.sub e.base.lambda).neg) s
          ({ e with base := { e.base with lambda := lambda } }, s)
    | .off, _ => .ok (some (e, s))
    | _, _ => .ub

/-- ConstraintSolver.hpp:416-459. -/
def solvePosition [Trig K] (sqrt : K → K) (epsilon : K) (fuel : Nat) (e : LimitsSolver K) (p : Proxies K) (f : CFun K 1)
    (s : SolveState K) : Outcome (Option (LimitsSolver K × SolveState K)) :=
  let C := f.eval p s
  let (base, effMass) := e.base.computeEffectiveMass p s f false
  let e := { e with base := base }
  let J := e.base.J
  let correct (posLambda : MVec K 1) : LimitsSolver K × SolveState K :=
    (e, p.applyPositionCorrection (J.transpose.mul posLambda) s)
  match e.nextFunc p f s with
  | .equality =>
    (value e.L).bind fun l => (KSolver.mk' sqrt 1 effMass).bind fun solver =>
      (solver.solve (C.sub l).neg).bind fun x => .ok (some (correct (f.clampPositionLambda x)))
  | .lower =>
    (value e.L).bind fun l =>
      .ok <| (solveInequalitiesVec effMass (C.sub l).neg (fun l => maxZero (f.clampPositionLambda l)) Mat.zero epsilon
        fuel).map correct
  | .upper =>
    (value e.U).bind fun u =>
      .ok <| (solveInequalitiesVec effMass (C.sub u) (fun l => maxZero (f.clampPositionLambda l.neg).neg) Mat.zero
        epsilon fuel).map fun x => correct x.neg
  | .off => .ok (some (correct Mat.zero))

end LimitsSolver

/-- DistanceConstraint.hpp:130-167, for bodies accepted by `Constraint`: the limits of a distance constraint. An
empty `std::optional` compares less than any value, so that `maxDistance > 0.f` is false without a maximum. -/
def distanceLimits (minDistance maxDistance : Option K) : Outcome (LimitsSolver K) :=
  (Outcome.check (minDistance.isSome || maxDistance.isSome)).bind fun _ =>
  (Outcome.check (match minDistance with | none => true | some m => decide (0 < m))).bind fun _ =>
  (Outcome.check (match maxDistance with | none => false | some m => decide (0 < m))).bind fun _ =>
    let e : LimitsSolver K := LimitsSolver.make
    let r1 := match minDistance with
      | none => (e, Outcome.ok ())
      | some m => e.setLowerLimit (some (Mat.ofFn ![m * m]))
    r1.2.bind fun _ =>
      let r2 := match maxDistance with
        | none => (r1.1, Outcome.ok ())
        | some m => r1.1.setUpperLimit (some (Mat.ofFn ![m * m]))
      r2.2.bind fun _ => .ok r2.1

end Solvers
end Simu
