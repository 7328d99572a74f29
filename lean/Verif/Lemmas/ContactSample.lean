import Verif.Lemmas.Contact
import Verif.Lemmas.Samples
/-
A concrete contact used to show that the hypotheses of the theorems about contacts can be met: a box on top of another one, touching at
one or two points.
-/
namespace Simu
open Mat

/-- Bodies of mass 2 and inertia 3, body 0 at `(0, 1)` and the others at the origin. -/
noncomputable def contactBody (i : Nat) : Body ℝ :=
  ⟨.make ⟨0, if i = 0 then 1 else 0⟩ 0 0, 0, 0, ⟨[], ⟨2, 3, 0⟩⟩, 1, false, true⟩

/-- Body 0 moves with the given velocity. -/
noncomputable def contactState (v : Velocity ℝ) : SolveState ℝ :=
  ⟨fun i => (contactBody i).position, fun i => if i = 0 then v else 0⟩

/-- Contacts at the bottom of body 0 and the top of body 1. -/
noncomputable def contactSample (n : Nat) (restitution friction : ℝ) : Contact ℝ where
  manifold := ⟨![![⟨-1, -1 / 2⟩, ⟨1, -1 / 2⟩], ![⟨-1, 1 / 2⟩, ⟨1, 1 / 2⟩]], n, ⟨0, 1⟩, 1 / 200, 1⟩
  frame := ⟨0, fun _ _ => 0, 0, 0⟩
  Jf := fun _ => Mat.zero
  Jn := Mat.zero
  invTangentKs := Mat.zero
  normalSolver := .unset
  tangentLambda := Mat.zero
  previousTangentLambda := Mat.zero
  normalLambda := Mat.zero
  previousNormalLambda := Mat.zero
  bounce := Mat.zero
  restitution := restitution
  friction := friction

/-- Its contacts in the world. -/
noncomputable def contactFrame (n : Nat) : Frame ℝ :=
  ⟨n, fun _ c => if c.val < n then ![⟨-1, 1 / 2⟩, ⟨1, 1 / 2⟩] c else 0, ⟨0, 1⟩, (⟨0, 1⟩ : Vec2 ℝ).perp⟩

theorem contactBody_app (i : Nat) (p : Vec2 ℝ) :
    (contactBody i).position.toWorldSpace.app p = ⟨p.x, p.y + if i = 0 then 1 else 0⟩ := by
  ext <;> simp [contactBody, Position.make, Position.toWorldSpace, Transform.app, Rotation.app, Rotation.ofAngle, Translation.mul,
    Translation.mulRotation, Transform.mulTranslation, Translation.inverse, Trig.cos, Trig.sin]

theorem contactBody_rot (i : Nat) (p : Vec2 ℝ) : (contactBody i).position.toWorldSpace.r.app p = p := by
  ext <;> simp [contactBody, Position.make, Position.toWorldSpace, Transform.app, Rotation.app, Rotation.ofAngle, Translation.mul,
    Translation.mulRotation, Transform.mulTranslation, Translation.inverse, Trig.cos, Trig.sin]

theorem contactFrame_eq (n : Nat) (r f : ℝ) (v : Velocity ℝ) : contactFrame n = (contactSample n r f).manifold.frame
    ![((contactState v).pos 0).toWorldSpace, ((contactState v).pos 1).toWorldSpace] := by
  simp only [Manifold.frame, contactSample, contactState, contactFrame, Frame.mk.injEq, true_and]
  refine ⟨?_, ?_, ?_⟩
  · funext b c
    by_cases h : c.val < n
    · rw [if_pos h]; refine Eq.trans ?_ (if_pos h).symm
      fin_cases b <;> fin_cases c <;> simp [contactBody_app] <;> norm_num
    · rw [if_neg h]; exact (if_neg h).symm
  · simp [contactBody_rot]
  · simp [contactBody_rot]

theorem contactState_centroid (v : Velocity ℝ) (i : Nat) : ((contactState v).pos i).centroid = ⟨0, if i = 0 then 1 else 0⟩ := by
  have : ((contactState v).pos i).centroid = (contactBody i).position.toWorldSpace.app (contactBody i).position.localCentroid.offset := rfl
  rw [this, contactBody_app]
  ext <;> simp [contactBody, Position.make]

/-- The bodies 0 and 1. -/
noncomputable def contactBodies : Bodies ℝ := Bodies.make contactBody 0 1 none

theorem contactBodies_masses : contactBodies.masses = ⟨1 / 2, 1 / 3, 1 / 2, 1 / 3⟩ := by
  simp [contactBodies, Bodies.make, Body.invMass, Body.invInertia, Body.mass, Body.inertia, contactBody]

end Simu
