import Verif.Spec.Push
import Verif.Props.Manifold
import Verif.Props.Equality
/-
C110: pushing a body does what mechanics says, and wakes it.
-/
namespace Simu
variable {K : Type*} [Field K] [LinearOrder K] [Trig K]

theorem Push.give_eq (b : Body K) (p : Push K) : p.give b =
    { b with velocity := b.velocity + b.invMass • p.total, angular := b.angular + Vec2.cross p.point p.total * b.invInertia, asleep := false } := by
  cases p <;> rfl

/-- C110: a push changes the momentum of the body by its impulse, the angular momentum about any point by the moment of the impulse about that point, and the kinetic energy by the work of the impulse: its product
with the mean of the velocities of the pushed point before and after. The body is awake then, and where it was. -/
theorem C110_pushed [IsStrictOrderedRing K] (b : Body K) (hm : b.mass ≠ 0) (hI : b.inertia ≠ 0) (p : Push K) :
    (p.give b).mass • (p.give b).velocity = b.mass • b.velocity + p.total ∧
    (∀ o, (p.give b).angularMomentum o = b.angularMomentum o + Vec2.cross (b.centroid + p.point - o) p.total) ∧
    (p.give b).kinetic = b.kinetic + Vec2.dot p.total (b.velocityAt p.point + (p.give b).velocityAt p.point) / 2 ∧
    (p.give b).asleep = false ∧ (p.give b).position = b.position ∧ (p.give b).colliders = b.colliders ∧ (p.give b).dominance = b.dominance := by
  have em : (p.give b).mass = b.mass := by rw [Push.give_eq]; rfl
  have ei : (p.give b).inertia = b.inertia := by rw [Push.give_eq]; rfl
  have ec : (p.give b).centroid = b.centroid := by rw [Push.give_eq]; rfl
  have ev : (p.give b).velocity = b.velocity + (1 / b.mass) • p.total := by rw [Push.give_eq]; rfl
  have ea : (p.give b).angular = b.angular + Vec2.cross p.point p.total * (1 / b.inertia) := by rw [Push.give_eq]; rfl
  refine ⟨?_, fun o => ?_, ?_, ?_, ?_, ?_, ?_⟩
  · rw [em, ev]
    ext <;> simp <;> field_simp
  · simp only [Body.angularMomentum, em, ei, ec, ev, ea, Vec2.cross, Vec2.smul_x, Vec2.smul_y, Vec2.add_x, Vec2.add_y, Vec2.sub_x, Vec2.sub_y]
    field_simp
    ring
  · simp only [Body.kinetic, Body.velocityAt, em, ei, ev, ea, Vec2.cross, Vec2.dot, Vec2.perp, Bool.false_eq_true, if_false, Vec2.smul_x, Vec2.smul_y, Vec2.add_x, Vec2.add_y]
    field_simp
    ring
  all_goals rw [Push.give_eq]

/-- C110: pushes add up; their order does not matter. -/
theorem C110_pushes (b : Body K) (ps : List (Push K)) :
    (ps.foldl Push.give b).velocity = b.velocity + b.invMass • (ps.map Push.total).sum ∧
    (ps.foldl Push.give b).angular = b.angular + b.invInertia * (ps.map fun p => Vec2.cross p.point p.total).sum ∧
    (ps ≠ [] → (ps.foldl Push.give b).asleep = false) ∧
    ∀ qs, ps.Perm qs → qs.foldl Push.give b = ps.foldl Push.give b := by
  have comm : ∀ (b : Body K) (p q : Push K), q.give (p.give b) = p.give (q.give b) := by
    intro b p q
    simp only [Push.give_eq]
    have h1 : b.velocity + b.invMass • p.total + b.invMass • q.total = b.velocity + b.invMass • q.total + b.invMass • p.total := by
      ext <;> simp <;> ring
    have h2 : b.angular + Vec2.cross p.point p.total * b.invInertia + Vec2.cross q.point q.total * b.invInertia =
        b.angular + Vec2.cross q.point q.total * b.invInertia + Vec2.cross p.point p.total * b.invInertia := by ring
    show ({ b with velocity := b.velocity + b.invMass • p.total + b.invMass • q.total, angular := b.angular + Vec2.cross p.point p.total * b.invInertia + Vec2.cross q.point q.total * b.invInertia, asleep := false } : Body K) =
      { b with velocity := b.velocity + b.invMass • q.total + b.invMass • p.total, angular := b.angular + Vec2.cross q.point q.total * b.invInertia + Vec2.cross p.point p.total * b.invInertia, asleep := false }
    rw [h1, h2]
  refine ⟨?_, ?_, ?_, fun qs h => ?_⟩
  · induction ps generalizing b with
    | nil => ext <;> simp
    | cons p ps ih =>
      rw [List.foldl_cons, ih]
      have e1 : (p.give b).velocity = b.velocity + b.invMass • p.total := by rw [Push.give_eq]
      have e2 : (p.give b).invMass = b.invMass := by rw [Push.give_eq]; rfl
      rw [e1, e2, List.map_cons, List.sum_cons]
      ext <;> simp <;> ring
  · induction ps generalizing b with
    | nil => simp
    | cons p ps ih =>
      rw [List.foldl_cons, ih]
      have e1 : (p.give b).angular = b.angular + Vec2.cross p.point p.total * b.invInertia := by rw [Push.give_eq]
      have e2 : (p.give b).invInertia = b.invInertia := by rw [Push.give_eq]; rfl
      rw [e1, e2, List.map_cons, List.sum_cons]
      ring
  · intro h
    have key : ∀ (ps : List (Push K)) (b : Body K), b.asleep = false → (ps.foldl Push.give b).asleep = false := by
      intro ps
      induction ps with
      | nil => exact fun b h => h
      | cons p ps ih => exact fun b _ => ih _ (by rw [Push.give_eq])
    cases ps with
    | nil => exact absurd rfl h
    | cons p ps => exact key ps _ (by rw [Push.give_eq])
  · exact (List.Perm.foldl_eq' h (fun p _ q _ b => comm b p q) b).symm

/-- C110: a velocity that is set is the one the body has; it wakes the body, and the other velocity and the place stay. -/
theorem C110_set (b : Body K) (v : Vec2 K) (w : K) :
    ((b.setVelocity v).velocity = v ∧ (b.setVelocity v).angular = b.angular ∧ (b.setVelocity v).asleep = false ∧ (b.setVelocity v).position = b.position ∧ (b.setVelocity v).colliders = b.colliders) ∧
    ((b.setAngularVelocity w).angular = w ∧ (b.setAngularVelocity w).velocity = b.velocity ∧ (b.setAngularVelocity w).asleep = false ∧ (b.setAngularVelocity w).position = b.position ∧
      (b.setAngularVelocity w).colliders = b.colliders) :=
  ⟨⟨rfl, rfl, rfl, rfl, rfl⟩, rfl, rfl, rfl, rfl, rfl⟩

section
attribute [local instance] flatTrig

/-- C110: a body of mass 2 and inertia 3 that sleeps, pushed by a force of 60 for a tenth of a second at the right and by an impulse. -/
example : let b : Body ℚ := ⟨.make ⟨1, 2⟩ 0 0, 0, 0, ⟨[], ⟨2, 3, 0⟩⟩, 1, true, true⟩
    b.mass ≠ 0 ∧ b.inertia ≠ 0 ∧
    let c := [Push.force ⟨0, 60⟩ (1 / 10) ⟨1, 0⟩, .impulse ⟨4, 0⟩ ⟨0, 0⟩].foldl Push.give b
    c.velocity = ⟨2, 3⟩ ∧ c.angular = 2 ∧ c.asleep = false ∧ c.kinetic = 19 := by
  decide +kernel

end
end Simu
