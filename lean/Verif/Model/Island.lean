import Verif.Model.Base
import Mathlib.Logic.Function.Basic
/-
Model of include/Simu/physics/Island.hpp (islands and `solveIslands`).

Bodies and constraints are identified by numbers instead of addresses. What a constraint does to the positions and velocities of its
two bodies is a parameter (`Net.act`): the constraints of the library are modelled in Model/Constraint.lean and Model/Contact.lean.
The vectors `positions_` and `velocities_` always have the size of `bodies_` (Island.hpp:182-202, 221-240); they are modelled by functions of
the index of which only the values under this size matter. The proxies of a constraint are pointers into these vectors; the
model keeps the indices (the pointers are refreshed by `refreshProxies` before being used).
The test that there are fewer than 2^31 bodies (Island.hpp:191-194) is left out: the islands are assumed to be smaller.
Loops without an evident bound take a number of iterations after which the model gives up with `none`.
-/
namespace Simu.Island

/-- A `Constraint*` (in `Body::constraints_`) or a `ContactConstraint*` (in `Body::contacts_`). -/
inductive Link where
  | joint (n : Nat)
  | contact (n : Nat)
  deriving DecidableEq, Repr

/-- The virtual functions of a constraint called while solving (ConstraintInterfaces.hpp:89-93). -/
inductive Phase where
  | initSolve
  | warmstart
  | solveVelocities
  | solvePositions
  deriving DecidableEq, Repr

/-- What does not change during `solveIslands`: the graph (Body.hpp:424-425, Bodies.hpp:259) and the behaviour of constraints. `P` and
`V` are the types of positions and velocities, `S` that of the internal states of all constraints. -/
structure Net (P V S : Type*) where
  /-- `constraint->bodies()[0]` and `[1]` -/
  ends : Link → Nat × Nat
  /-- `Body::constraints_` -/
  joints : Nat → List Nat
  /-- `Body::contacts_` -/
  contacts : Nat → List Nat
  /-- `Bodies::isBodyStructural` -/
  structuralIn : Link → Nat → Bool
  /-- `all(velocity() == Vec2{}) && angularVelocity() == 0.f` (Body.cpp:35) -/
  isRest : V → Bool
  /-- `Constraint::isActive` on the positions of the two bodies -/
  isActive : Link → S → P → P → S × Bool
  /-- The other virtual functions, on the elements of given indices of the two vectors -/
  act : Phase → Link → Nat → Nat → S → (Nat → P) → (Nat → V) → Outcome (S × (Nat → P) × (Nat → V))
  /-- `Position::advance` by the velocity times dt (Island.hpp:147-150) -/
  advance : P → V → P

/-- Body.hpp:415-428, the members used. `index` is `proxyIndex`, `none` for `NO_INDEX`. -/
structure BodyState (P V : Type*) where
  pos : P
  vel : V
  asleep : Bool
  index : Option Nat

/-- The state of the world seen by `solveIslands`. `proxies` is `Bodies::proxies_` of each constraint (`none` for null pointers). `evals` (the
answers of `isActive`) and `moved` (the bodies whose position was integrated) only record what happened. -/
structure St (P V S : Type*) where
  body : Nat → BodyState P V
  proxies : Link → Option (Nat × Nat)
  s : S
  evals : List (Link × Bool)
  moved : List Nat

/-- Island.hpp:247-254: members. -/
structure Isl (P V : Type*) where
  bodies : List Nat
  joints : List Nat
  contacts : List Nat
  ps : Nat → P
  vs : Nat → V
  awake : Bool

/-- `constraints_` followed by `contacts_`, in the order in which the loops visit them. -/
def Isl.links {P V : Type*} (i : Isl P V) : List Link := i.joints.map .joint ++ i.contacts.map .contact

variable {P V S : Type*}

/-- Body.cpp:33-42 `interactsAsStructural`. -/
def interactsAsStructural (N : Net P V S) (st : St P V S) (b : Nat) : Bool :=
  N.isRest (st.body b).vel && ((N.joints b).all fun n => N.structuralIn (.joint n) b) &&
    ((N.contacts b).all fun n => N.structuralIn (.contact n) b)

/-- Changes one body. -/
def St.setBody (st : St P V S) (b : Nat) (x : BodyState P V) : St P V S := { st with body := Function.update st.body b x }

/-- Island.hpp:182-202 `addBody`. -/
def addBody (st : St P V S) (isl : Isl P V) (b : Nat) : St P V S × Isl P V × Bool :=
  if (st.body b).index = none then
    (st.setBody b { st.body b with index := some isl.bodies.length },
     { isl with
       bodies := isl.bodies ++ [b]
       awake := isl.awake || !(st.body b).asleep
       ps := Function.update isl.ps isl.bodies.length (st.body b).pos
       vs := Function.update isl.vs isl.bodies.length (st.body b).vel },
     true)
  else (st, isl, false)

/-- Bodies.hpp:234-247 `startSolve`. -/
def startSolve (N : Net P V S) (st : St P V S) (l : Link) : Outcome (St P V S) :=
  match (st.body (N.ends l).1).index, (st.body (N.ends l).2).index with
  | some i0, some i1 => .ok { st with proxies := Function.update st.proxies l (some (i0, i1)) }
  | _, _ => .throw

/-- `container.emplace_back` (Island.hpp:210). -/
def Isl.push (isl : Isl P V) : Link → Isl P V
  | .joint n => { isl with joints := isl.joints ++ [n] }
  | .contact n => { isl with contacts := isl.contacts ++ [n] }

/-- `container.pop_back` (Island.hpp:240). -/
def Isl.pop (isl : Isl P V) : Link → Isl P V
  | .joint _ => { isl with joints := isl.joints.dropLast }
  | .contact _ => { isl with contacts := isl.contacts.dropLast }

/-- Island.hpp:223-229, 231-237: takes back a body that was just added. -/
def dropBody (st : St P V S) (isl : Isl P V) (b : Nat) (index : Option Nat) : St P V S × Isl P V :=
  (st.setBody b { st.body b with index := index }, { isl with bodies := isl.bodies.dropLast })

/-- Island.hpp:204-245 `addConstraint`. The result of the function is not used. -/
def addConstraint (N : Net P V S) (st : St P V S) (isl : Isl P V) (l : Link) : Outcome (St P V S × Isl P V) :=
  if (st.proxies l).isSome then .ok (st, isl)
  else
    let isl := isl.push l
    let b := N.ends l
    let index1 := (st.body b.1).index
    let index2 := (st.body b.2).index
    let (st, isl, added1) := addBody st isl b.1
    let (st, isl, added2) := addBody st isl b.2
    (startSolve N st l).bind fun st =>
      match st.proxies l with
      | none => .throw
      | some (i0, i1) =>
        let answer := N.isActive l st.s (isl.ps i0) (isl.ps i1)
        let st := { st with s := answer.1, evals := st.evals ++ [(l, answer.2)] }
        if answer.2 then .ok (st, isl)
        else
          let (st, isl) := if added2 then dropBody st isl b.2 index2 else (st, isl)
          let (st, isl) := if added1 then dropBody st isl b.1 index1 else (st, isl)
          .ok ({ st with proxies := Function.update st.proxies l none }, isl.pop l)

/-- The loops Island.hpp:65-73. -/
def addConstraints (N : Net P V S) : List Link → St P V S × Isl P V → Outcome (St P V S × Isl P V)
  | [], x => .ok x
  | l :: ls, x => (addConstraint N x.1 x.2 l).bind (addConstraints N ls)

/-- The constraints of a body in the order of the loops Island.hpp:65-73. -/
def linksOf (N : Net P V S) (b : Nat) : List Link := (N.joints b).map .joint ++ (N.contacts b).map .contact

/-- Island.hpp:59-75: the loop of `init`, from the index `current`. -/
def initLoop (N : Net P V S) : Nat → Nat → St P V S × Isl P V → Option (Outcome (St P V S × Isl P V))
  | 0, _, _ => none
  | fuel + 1, current, x =>
    match x.2.bodies[current]? with
    | none => some (.ok x)
    | some root =>
      match (if interactsAsStructural N x.1 root then .ok x else addConstraints N (linksOf N root) x) with
      | .ok x => initLoop N fuel (current + 1) x
      | .throw => some .throw
      | .ub => some .ub

/-- Island.hpp:54-76 `init`. -/
def init (N : Net P V S) (fuel : Nat) (st : St P V S) (isl : Isl P V) (root : Nat) : Option (Outcome (St P V S × Isl P V)) :=
  let (st, isl, _) := addBody st isl root
  initLoop N fuel 0 (st, isl)

/-- Island.hpp:78-85 `clear`; the flag is not reset. -/
def Isl.clear (isl : Isl P V) : Isl P V := { isl with bodies := [], joints := [], contacts := [] }

/-- Island.hpp:289-293: wakes the bodies of an island. -/
def wakeAll (bs : List Nat) (st : St P V S) : St P V S :=
  { st with body := fun b => if b ∈ bs then { st.body b with asleep := false } else st.body b }

/-- Island.hpp:100-106: copies the bodies to the vectors; an index -1 is undefined behaviour. -/
def copyBodies (st : St P V S) : List Nat → Isl P V → Outcome (Isl P V)
  | [], isl => .ok isl
  | b :: bs, isl =>
    match (st.body b).index with
    | none => .ub
    | some i => copyBodies st bs { isl with ps := Function.update isl.ps i (st.body b).pos, vs := Function.update isl.vs i (st.body b).vel }

/-- Island.hpp:108-118: `startSolve` for all constraints. -/
def startAll (N : Net P V S) : List Link → St P V S → Outcome (St P V S)
  | [], st => .ok st
  | l :: ls, st => (startSolve N st l).bind (startAll N ls)

/-- A virtual function called for all constraints (Island.hpp:123-126, 130-133, 138-141, 157-160); `getProxies` (Bodies.hpp:253-257) throws if
there are no proxies. -/
def actAll (N : Net P V S) (ph : Phase) : List Link → St P V S × Isl P V → Outcome (St P V S × Isl P V)
  | [], x => .ok x
  | l :: ls, (st, isl) =>
    match st.proxies l with
    | none => .throw
    | some (i0, i1) =>
      (N.act ph l i0 i1 st.s isl.ps isl.vs).bind fun (s, ps, vs) =>
        actAll N ph ls ({ st with s := s }, { isl with ps := ps, vs := vs })

/-- A number of rounds of `actAll`. -/
def actRounds (N : Net P V S) (ph : Phase) (ls : List Link) : Nat → St P V S × Isl P V → Outcome (St P V S × Isl P V)
  | 0, x => .ok x
  | n + 1, x => (actAll N ph ls x).bind (actRounds N ph ls n)

/-- Island.hpp:145-151 `integrateBodies`. -/
def integrate (N : Net P V S) (x : St P V S × Isl P V) : St P V S × Isl P V :=
  ({ x.1 with moved := x.1.moved ++ x.2.bodies },
   { x.2 with ps := fun i => if i < x.2.bodies.length then N.advance (x.2.ps i) (x.2.vs i) else x.2.ps i })

/-- Island.hpp:166-172: copies the vectors to the bodies. -/
def writeBack (isl : Isl P V) : List Nat → St P V S → Outcome (St P V S)
  | [], st => .ok st
  | b :: bs, st =>
    match (st.body b).index with
    | none => .ub
    | some i => writeBack isl bs (st.setBody b { st.body b with pos := isl.ps i, vel := isl.vs i, index := none })

/-- Island.hpp:164-178 `endSolve`; updating the colliders is left out. -/
def endSolve (st : St P V S) (isl : Isl P V) : Outcome (St P V S) :=
  (writeBack isl isl.bodies st).bind fun st =>
    .ok { st with proxies := fun l => if l ∈ isl.links then none else st.proxies l }

/-- World.hpp:262-279: the settings used. -/
structure Settings where
  nVelocityIterations : Nat
  nPositionIterations : Nat
  enableWarmstarting : Bool

/-- Island.hpp:289-326: what `solveIslands` does with an island, once it is built and its bodies are removed from those to process. -/
def solveIsland (N : Net P V S) (cfg : Settings) (st : St P V S) (isl : Isl P V) : Outcome (St P V S × Isl P V) :=
  let st := if isl.awake then wakeAll isl.bodies st else st
  (copyBodies st isl.bodies isl).bind fun isl =>
  (startAll N isl.links st).bind fun st =>
  (if isl.links ≠ [] then
    (actAll N .initSolve isl.links (st, isl)).bind fun x =>
    (if cfg.enableWarmstarting then actAll N .warmstart isl.links x else .ok x).bind fun x =>
    (actRounds N .solveVelocities isl.links cfg.nVelocityIterations x).bind fun x =>
    actRounds N .solvePositions isl.links cfg.nPositionIterations (integrate N x)
  else .ok (integrate N (st, isl))).bind fun (st, isl) =>
  (endSolve st isl).bind fun st => .ok (st, isl)

/-- What is recorded of an island: its bodies, its constraints and whether it is awake (`isAwake_`). -/
structure Record where
  bodies : List Nat
  links : List Link
  awake : Bool

/-- Island.hpp:279-329: the loop of `solveIslands`; `toProcess` is `bodiesToProcess`. -/
def solveLoop (N : Net P V S) (cfg : Settings) : Nat → List Nat → St P V S → Isl P V → List Record → Option (Outcome (St P V S × List Record))
  | 0, _, _, _, _ => none
  | fuel + 1, toProcess, st, isl, done =>
    match toProcess.getLast? with
    | none => some (.ok (st, done))
    | some root =>
      match init N (fuel + 1) st isl root with
      | none => none
      | some .throw => some .throw
      | some .ub => some .ub
      | some (.ok (st, isl)) =>
        let toProcess := toProcess.filter fun b => decide (b ∉ isl.bodies)
        match solveIsland N cfg st isl with
        | .throw => some .throw
        | .ub => some .ub
        | .ok (st, isl) => solveLoop N cfg fuel toProcess st isl.clear (done ++ [⟨isl.bodies, isl.links, isl.awake⟩])

/-- Island.hpp:265-334 `solveIslands`; `p` and `v` are arbitrary values for the elements beyond the size of the vectors. -/
def solveIslands (N : Net P V S) (cfg : Settings) (fuel : Nat) (p : P) (v : V) (bodies : List Nat) (st : St P V S) :
    Option (Outcome (St P V S × List Record)) :=
  solveLoop N cfg fuel bodies st ⟨[], [], [], fun _ => p, fun _ => v, false⟩ []

end Simu.Island
