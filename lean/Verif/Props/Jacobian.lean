import Verif.Props.Limits
import Mathlib.Analysis.SpecialFunctions.Trigonometric.Deriv
/-
C47: the Jacobian of each constraint function is its derivative along the motion of the bodies.
-/
namespace Simu
open Mat

/-- The two bodies of `p` after moving for a time `t` at their velocities in `s`, without acceleration. -/
noncomputable def moved (p : Proxies ℝ) (s : SolveState ℝ) (t : ℝ) : SolveState ℝ :=
  { s with pos := fun i => if i = p.i0 ∨ i = p.i1 then (s.pos i).advance (t • (s.vel i).linear) (t * (s.vel i).angular)
                           else s.pos i }

/-- The rate of change of the constraint function is its Jacobian times the velocities of the bodies, for all bodies in
all states (whose orientations were obtained through the interface of `Rotation`). -/
def IsJacobian {d : Nat} (f : CFun ℝ d) : Prop := ∀ p s r, (∀ i, (s.pos i).orient.Reachable) →
  HasDerivAt (fun t => (f.eval p (moved p s t)).at_ r) (push (f.jacobian p s) (p.velocity s).toV r) 0

theorem moved_pos (p : Proxies ℝ) (s : SolveState ℝ) (t : ℝ) :
    (moved p s t).pos p.i0 = (s.pos p.i0).advance (t • (s.vel p.i0).linear) (t * (s.vel p.i0).angular) ∧
    (moved p s t).pos p.i1 = (s.pos p.i1).advance (t • (s.vel p.i1).linear) (t * (s.vel p.i1).angular) := by
  simp [moved]

/-- Velocity of a point of a body. -/
theorem point_deriv (P : Position ℝ) (hP : P.orient.Reachable) (l v : Vec2 ℝ) (w : ℝ) :
    HasDerivAt (fun t : ℝ => ((P.advance (t • v) (t * w)).toWorldSpace.app l).x)
      (v.x - w * (P.toWorldSpace.app l - P.centroid).y) 0 ∧
    HasDerivAt (fun t : ℝ => ((P.advance (t • v) (t * w)).toWorldSpace.app l).y)
      (v.y + w * (P.toWorldSpace.app l - P.centroid).x) 0 := by
  have hid : HasDerivAt (fun t : ℝ => t * w) w 0 := by simpa using (hasDerivAt_id (0 : ℝ)).mul_const w
  have hx : HasDerivAt (fun t : ℝ => t * v.x) v.x 0 := by simpa using (hasDerivAt_id (0 : ℝ)).mul_const v.x
  have hy : HasDerivAt (fun t : ℝ => t * v.y) v.y 0 := by simpa using (hasDerivAt_id (0 : ℝ)).mul_const v.y
  have hP := C26_rotation_wf hP
  obtain ⟨⟨p⟩, ⟨th, c, n⟩, ⟨lc⟩⟩ := P
  simp only [Rotation.WF, Trig.cos, Trig.sin] at hP
  obtain ⟨rfl, rfl⟩ := hP
  have e : ∀ t : ℝ, ((⟨⟨p⟩, ⟨th, Real.cos th, Real.sin th⟩, ⟨lc⟩⟩ : Position ℝ).advance (t • v) (t * w)).toWorldSpace.app l =
      ⟨p.x + t * v.x + lc.x + (Real.cos (th + t * w) * (l.x - lc.x) -
          Real.sin (th + t * w) * (l.y - lc.y)),
       p.y + t * v.y + lc.y + (Real.sin (th + t * w) * (l.x - lc.x) +
          Real.cos (th + t * w) * (l.y - lc.y))⟩ := by
    intro t
    ext <;> simp [Position.advance, Position.toWorldSpace, Translation.mul, Translation.mulRotation,
      Transform.mulTranslation, Transform.app, Translation.inverse, Rotation.app, Rotation.ofAngle, Rotation.mul, Trig.cos,
      Trig.sin] <;> ring
  simp only [e]
  have hC : HasDerivAt (fun t : ℝ => Real.cos (th + t * w)) (-Real.sin th * w) 0 := by simpa using (hid.const_add th).cos
  have hN : HasDerivAt (fun t : ℝ => Real.sin (th + t * w)) (Real.cos th * w) 0 := by simpa using (hid.const_add th).sin
  constructor
  · refine (((hx.const_add p.x).add_const lc.x).add ((hC.mul_const (l.x - lc.x)).sub (hN.mul_const (l.y - lc.y)))).congr_deriv ?_
    simp [Position.centroid, Position.toWorldSpace, Translation.mul, Translation.mulRotation,
      Transform.mulTranslation, Transform.app, Translation.inverse, Rotation.app]
    ring
  · refine (((hy.const_add p.y).add_const lc.y).add ((hN.mul_const (l.x - lc.x)).add (hC.mul_const (l.y - lc.y)))).congr_deriv ?_
    simp [Position.centroid, Position.toWorldSpace, Translation.mul, Translation.mulRotation,
      Transform.mulTranslation, Transform.app, Translation.inverse, Rotation.app]
    ring

theorem moved_zero (P : Position ℝ) (hP : P.orient.Reachable) (v : Vec2 ℝ) (w : ℝ) (l : Vec2 ℝ) :
    (P.advance ((0 : ℝ) • v) (0 * w)).toWorldSpace.app l = P.toWorldSpace.app l := by
  have hP := C26_rotation_wf hP
  obtain ⟨⟨p⟩, ⟨th, c, n⟩, ⟨lc⟩⟩ := P
  simp only [Rotation.WF, Trig.cos, Trig.sin] at hP
  obtain ⟨rfl, rfl⟩ := hP
  ext <;> simp [Position.advance, Position.toWorldSpace, Translation.mul, Translation.mulRotation,
      Transform.mulTranslation, Transform.app, Translation.inverse, Rotation.app, Rotation.ofAngle, Rotation.mul, Trig.cos,
      Trig.sin]

/-- C47 for relative rotations. -/
theorem C47_rotation (a : ℝ) : IsJacobian (rotationFun a) := by
  intro p s r ho
  have h : ∀ w : ℝ, HasDerivAt (fun t : ℝ => t * w) w 0 := fun w => by simpa using (hasDerivAt_id (0 : ℝ)).mul_const w
  have e : (fun t => ((rotationFun a).eval p (moved p s t)).at_ r) = fun t =>
      ((s.pos p.i1).orient.theta + t * (s.vel p.i1).angular) - ((s.pos p.i0).orient.theta + t * (s.vel p.i0).angular) - a := by
    funext t
    fin_cases r
    simp [rotationFun, at_sub, at_ofFn, (moved_pos p s t).1, (moved_pos p s t).2, Position.advance, Rotation.mul, Rotation.ofAngle]
  rw [e]
  refine ((((h _).const_add _).sub ((h _).const_add _)).sub_const _).congr_deriv ?_
  simp only [push, rotation_get, Fin.sum_univ_six, toV, Proxies.velocity, at_ofFn]
  simp
  ring

/-- C47 for hinges. -/
theorem C47_hinge (l0 l1 : Vec2 ℝ) : IsJacobian (hingeFun l0 l1) := by
  intro p s r ho
  obtain ⟨x0, y0⟩ := point_deriv (s.pos p.i0) (ho _) l0 (s.vel p.i0).linear (s.vel p.i0).angular
  obtain ⟨x1, y1⟩ := point_deriv (s.pos p.i1) (ho _) l1 (s.vel p.i1).linear (s.vel p.i1).angular
  simp only [push, hinge_get, Fin.sum_univ_six, toV, Proxies.velocity, at_ofFn]
  simp only [hingeFun, (moved_pos p s _).1, (moved_pos p s _).2, Vec2.toMVec, at_ofFn]
  fin_cases r
  · refine (x1.sub x0).congr_deriv ?_
    simp; ring
  · refine (y1.sub y0).congr_deriv ?_
    simp; ring

/-- C47 for squared distances. -/
theorem C47_distance (l0 l1 : Vec2 ℝ) : IsJacobian (distanceFun l0 l1) := by
  intro p s r ho
  obtain ⟨x0, y0⟩ := point_deriv (s.pos p.i0) (ho _) l0 (s.vel p.i0).linear (s.vel p.i0).angular
  obtain ⟨x1, y1⟩ := point_deriv (s.pos p.i1) (ho _) l1 (s.vel p.i1).linear (s.vel p.i1).angular
  simp only [push, distance_get, Fin.sum_univ_six, toV, Proxies.velocity, at_ofFn]
  simp only [distanceFun, (moved_pos p s _).1, (moved_pos p s _).2, at_ofFn, Vec2.normSquared, Vec2.dot]
  have dx := x0.sub x1
  have dy := y0.sub y1
  fin_cases r
  simp only [zero_add]
  refine ((dx.mul dx).add (dy.mul dy)).congr_deriv ?_
  simp only [Pi.sub_apply, moved_zero _ (ho _)]
  simp [Vec2.cross]
  ring

/-- C47: stacked functions. -/
theorem C47_composite {a b : Nat} (f : CFun ℝ a) (g : CFun ℝ b) (hf : IsJacobian f) (hg : IsJacobian g) :
    IsJacobian (stackFun f g) := by
  intro p s r ho
  induction r using Fin.addCases with
  | left i =>
    simp only [push, (C50_composite f g p _).1, (C50_composite f g p s).2.2.2.2.1]
    exact hf p s i ho
  | right i =>
    simp only [push, (C50_composite f g p _).2.1, (C50_composite f g p s).2.2.2.2.2.1]
    exact hg p s i ho

/-- C47 for welds. -/
theorem C47_weld (bodies : Nat → Body ℝ) (b : Bodies ℝ) : IsJacobian (weldFunOf bodies b) :=
  C47_composite _ _ (C47_hinge _ _) (C47_rotation _)

/-- The sample state has orientations obtained through the interface: the Jacobian of a weld of the sample bodies. -/
example (r : Fin 3) : HasDerivAt (fun t => ((weldFunOf sampleBody sampleBodies).eval sampleBodies.proxies
      (moved sampleBodies.proxies sampleState t)).at_ r)
    (push ((weldFunOf sampleBody sampleBodies).jacobian sampleBodies.proxies sampleState)
      (sampleBodies.proxies.velocity sampleState).toV r) 0 :=
  C47_weld sampleBody sampleBodies _ _ r fun _ => .ofAngle _

end Simu
