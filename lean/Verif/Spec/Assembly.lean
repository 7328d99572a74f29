import Verif.Model.Assembly
/-
Vocabulary for impulses and the masses they act on.
-/
namespace Simu
variable {K : Type*} [Field K] [LinearOrder K] [IsStrictOrderedRing K] [Trig K]

/-- From `b` to `b'` the velocities change as those of a body of mass `m` and inertia `I` that receives the share `d` of an impulse `p` with moment `τ`. -/
def Responds (m I d : K) (b b' : Body K) (p : Vec2 K) (τ : K) : Prop :=
  m • (b'.velocity - b.velocity) = d • p ∧ I * (b'.angular - b.angular) = d * τ

/-- The operation adds a collider to body `i`, or removes one from it. -/
def Assembly.Op.Changes (i : Nat) : Assembly.Op K → Prop
  | .addCollider k _ _ _ => k = i
  | .removeCollider k _ => k = i
  | _ => False

/-- Momentum of two bodies, by the masses they report. -/
def Assembly.momentum (a : Assembly K) (i0 i1 : Nat) : Vec2 K :=
  (a.bodies i0).mass • (a.bodies i0).velocity + (a.bodies i1).mass • (a.bodies i1).velocity

end Simu
