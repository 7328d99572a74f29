import Verif.Spec.Assembly
import Verif.Props.Body
import Verif.Props.Momentum
import Verif.Props.Manifold
/-
C86: constraints act on the masses of their bodies.
-/
namespace Simu
open Mat

section
variable {K : Type*} [Field K] [LinearOrder K] [IsStrictOrderedRing K] [Trig K]

theorem addCollider_dominance (b : Body K) (id : Nat) (polygon : List (Vec2 K)) (material : Material K) : (b.addCollider id polygon material).1.dominance = b.dominance := by
  unfold Body.addCollider
  by_cases h : (!b.attached) = true
  · rw [if_pos h]
  · rw [if_neg h]
    dsimp only
    split <;> rfl

theorem removeCollider_dominance (b : Body K) (id : Nat) : (b.removeCollider id).1.dominance = b.dominance := by
  unfold Body.removeCollider
  by_cases h : (!b.attached) = true
  · rw [if_pos h]
  · rw [if_neg h]
    dsimp only
    split
    · split_ifs <;> rfl
    · rfl

namespace Assembly

/-- What an operation leaves of the bodies and of the constraints that exist. -/
theorem apply_keeps (a : Assembly K) (op : Op K) : a.count ≤ (a.apply op).1.count ∧ (∃ l, (a.apply op).1.joints = a.joints ++ l) ∧
    ∀ i, i < a.count → ((a.apply op).1.bodies i).dominance = (a.bodies i).dominance ∧
      (¬op.Changes i → ((a.apply op).1.bodies i).mass = (a.bodies i).mass ∧ ((a.apply op).1.bodies i).inertia = (a.bodies i).inertia) := by
  have triv : ∀ a' : Assembly K, a' = a → a.count ≤ a'.count ∧ (∃ l, a'.joints = a.joints ++ l) ∧
      ∀ i, i < a.count → (a'.bodies i).dominance = (a.bodies i).dominance ∧ (¬op.Changes i → (a'.bodies i).mass = (a.bodies i).mass ∧ (a'.bodies i).inertia = (a.bodies i).inertia) := by
    rintro _ rfl
    exact ⟨le_refl _, ⟨[], (List.append_nil _).symm⟩, fun _ _ => ⟨rfl, fun _ => ⟨rfl, rfl⟩⟩⟩
  cases op with
  | makeBody p o d =>
    refine ⟨Nat.le_succ _, ⟨[], (List.append_nil _).symm⟩, fun i hi => ?_⟩
    have e : ((a.apply (.makeBody p o d)).1.bodies i) = a.bodies i := Function.update_of_ne (by omega) _ _
    rw [e]
    exact ⟨rfl, fun _ => ⟨rfl, rfl⟩⟩
  | addCollider k id polygon material =>
    by_cases hk : a.count ≤ k
    · exact triv _ (by simp only [apply, if_pos hk])
    · have e : (a.apply (.addCollider k id polygon material)).1 = { a with bodies := Function.update a.bodies k ((a.bodies k).addCollider id polygon material).1 } := by
        simp only [apply, if_neg hk, addCollider]
      rw [e]
      refine ⟨le_refl _, ⟨[], (List.append_nil _).symm⟩, fun i hi => ?_⟩
      by_cases hik : i = k
      · subst hik
        simp only [Function.update_self]
        exact ⟨addCollider_dominance _ _ _ _, fun h => absurd rfl h⟩
      · simp only [Function.update_of_ne hik]
        exact ⟨trivial, fun _ => ⟨trivial, trivial⟩⟩
  | removeCollider k id =>
    by_cases hk : a.count ≤ k
    · exact triv _ (by simp only [apply, if_pos hk])
    · have e : (a.apply (.removeCollider k id)).1 = { a with bodies := Function.update a.bodies k ((a.bodies k).removeCollider id).1 } := by
        simp only [apply, if_neg hk, removeCollider]
      rw [e]
      refine ⟨le_refl _, ⟨[], (List.append_nil _).symm⟩, fun i hi => ?_⟩
      by_cases hik : i = k
      · subst hik
        simp only [Function.update_self]
        exact ⟨removeCollider_dominance _ _, fun h => absurd rfl h⟩
      · simp only [Function.update_of_ne hik]
        exact ⟨trivial, fun _ => ⟨trivial, trivial⟩⟩
  | makeConstraint i0 i1 d =>
    simp only [apply, makeConstraint]
    by_cases h1 : a.count ≤ i0 ∨ a.count ≤ i1
    · exact triv _ (by rw [if_pos h1])
    · by_cases h2 : (a.bodies i0).mass = 0 ∨ (a.bodies i0).inertia = 0 ∨ (a.bodies i1).mass = 0 ∨ (a.bodies i1).inertia = 0
      · exact triv _ (by rw [if_neg h1, if_pos h2])
      · rw [if_neg h1, if_neg h2]
        cases (Bodies.make a.bodies i0 i1 d).checkConstraint with
        | ok u => exact ⟨le_refl _, ⟨_, rfl⟩, fun i _ => ⟨rfl, fun _ => ⟨rfl, rfl⟩⟩⟩
        | throw => exact triv _ rfl
        | ub => exact triv _ rfl
  | push k P =>
    simp only [apply, push]
    cases a.joints[k]? with
    | none => exact triv _ rfl
    | some j => exact ⟨le_refl _, ⟨[], (List.append_nil _).symm⟩, fun i _ => ⟨rfl, fun _ => ⟨rfl, rfl⟩⟩⟩
  | move k p v w =>
    by_cases hk : a.count ≤ k
    · exact triv _ (by simp only [apply, if_pos hk])
    · simp only [apply, if_neg hk]
      refine ⟨le_refl _, ⟨[], (List.append_nil _).symm⟩, fun i hi => ?_⟩
      by_cases hik : i = k
      · subst hik
        simp only [Function.update_self]
        exact ⟨trivial, fun _ => ⟨rfl, rfl⟩⟩
      · simp only [Function.update_of_ne hik]
        exact ⟨trivial, fun _ => ⟨trivial, trivial⟩⟩

theorem run_keeps (ops : List (Op K)) (a : Assembly K) : a.count ≤ (a.run ops).count ∧ (∃ l, (a.run ops).joints = a.joints ++ l) ∧
    ∀ i, i < a.count → ((a.run ops).bodies i).dominance = (a.bodies i).dominance ∧
      ((∀ op ∈ ops, ¬op.Changes i) → ((a.run ops).bodies i).mass = (a.bodies i).mass ∧ ((a.run ops).bodies i).inertia = (a.bodies i).inertia) := by
  induction ops generalizing a with
  | nil => exact ⟨le_refl _, ⟨[], (List.append_nil _).symm⟩, fun _ _ => ⟨rfl, fun _ => ⟨rfl, rfl⟩⟩⟩
  | cons op ops ih =>
    obtain ⟨c1, ⟨l1, j1⟩, k1⟩ := a.apply_keeps op
    obtain ⟨c2, ⟨l2, j2⟩, k2⟩ := ih (a.apply op).1
    have e : a.run (op :: ops) = (a.apply op).1.run ops := rfl
    rw [e]
    refine ⟨c1.trans c2, ⟨l1 ++ l2, by rw [j2, j1, List.append_assoc]⟩, fun i hi => ?_⟩
    have h1 := k1 i hi
    have h2 := k2 i (hi.trans_le c1)
    refine ⟨h2.1.trans h1.1, fun h => ?_⟩
    have g1 := h1.2 (h op (List.mem_cons_self ..))
    have g2 := h2.2 fun op' h' => h op' (List.mem_cons_of_mem _ h')
    exact ⟨g2.1.trans g1.1, g2.2.trans g1.2⟩

theorem makeConstraint_ok {a : Assembly K} {i0 i1 : Nat} {dom : Option (Vec2 K)} (h : (a.makeConstraint i0 i1 dom).2 = .ok ()) :
    i0 < a.count ∧ i1 < a.count ∧ (a.bodies i0).mass ≠ 0 ∧ (a.bodies i0).inertia ≠ 0 ∧ (a.bodies i1).mass ≠ 0 ∧ (a.bodies i1).inertia ≠ 0 ∧
    (a.makeConstraint i0 i1 dom).1 = { a with joints := a.joints ++ [Bodies.make a.bodies i0 i1 dom] } := by
  unfold makeConstraint at h ⊢
  by_cases h1 : a.count ≤ i0 ∨ a.count ≤ i1
  · rw [if_pos h1] at h; simp at h
  · by_cases h2 : (a.bodies i0).mass = 0 ∨ (a.bodies i0).inertia = 0 ∨ (a.bodies i1).mass = 0 ∨ (a.bodies i1).inertia = 0
    · rw [if_neg h1, if_pos h2] at h; simp at h
    · rw [if_neg h1, if_neg h2] at h ⊢
      dsimp only at h ⊢
      push Not at h1 h2
      refine ⟨h1.1, h1.2, h2.1, h2.2.1, h2.2.2.1, h2.2.2.2, ?_⟩
      cases hc : (Bodies.make a.bodies i0 i1 dom).checkConstraint with
      | ok u => rfl
      | throw => rw [hc] at h; simp at h
      | ub => rw [hc] at h; simp at h

/-- C86: whatever happens before a constraint between two bodies is made and after, the impulses it applies change the velocities of its bodies as those of bodies with the masses and
inertias they had when the constraint was made, and change those of no other body. -/
theorem C86_creation (a : Assembly K) (post : List (Op K)) (i0 i1 : Nat) (hi : i0 ≠ i1) (dom : Option (Vec2 K)) (h : (a.makeConstraint i0 i1 dom).2 = .ok ()) (P : MVec K 6) :
    let d := dom.getD ⟨(a.bodies i0).dominance, (a.bodies i1).dominance⟩
    let z := (a.makeConstraint i0 i1 dom).1.run post
    let r := z.push a.joints.length P
    r.2 = .ok () ∧
      Responds (a.bodies i0).mass (a.bodies i0).inertia d.x (z.bodies i0) (r.1.bodies i0) ⟨P.at_ 0, P.at_ 1⟩ (P.at_ 2) ∧
      Responds (a.bodies i1).mass (a.bodies i1).inertia d.y (z.bodies i1) (r.1.bodies i1) ⟨P.at_ 3, P.at_ 4⟩ (P.at_ 5) ∧
      ∀ i, i ≠ i0 → i ≠ i1 → r.1.bodies i = z.bodies i := by
  intro d z r
  obtain ⟨_, _, m0, I0, m1, I1, hmake⟩ := makeConstraint_ok h
  obtain ⟨_, ⟨l, hl⟩, _⟩ := run_keeps post (a.makeConstraint i0 i1 dom).1
  have hj : z.joints[a.joints.length]? = some (Bodies.make a.bodies i0 i1 dom) := by
    have e : z.joints = a.joints ++ (Bodies.make a.bodies i0 i1 dom :: l) := by
      have : z.joints = _ := hl
      rw [this, hmake]
      simp
    rw [e]
    simp
  have hr : r = ({ z with bodies := fun i =>
      { z.bodies i with
        velocity := (((Bodies.make a.bodies i0 i1 dom).proxies.applyImpulse P ⟨fun i => (z.bodies i).position, fun i => ⟨(z.bodies i).velocity, (z.bodies i).angular⟩⟩).vel i).linear
        angular := (((Bodies.make a.bodies i0 i1 dom).proxies.applyImpulse P ⟨fun i => (z.bodies i).position, fun i => ⟨(z.bodies i).velocity, (z.bodies i).angular⟩⟩).vel i).angular } }, .ok ()) := by
    simp only [r, push, hj]
  rw [hr]
  simp only [Proxies.applyImpulse_vel, Responds]
  have hm : (Bodies.make a.bodies i0 i1 dom).proxies = ⟨i0, i1, ⟨d.x * (1 / (a.bodies i0).mass), d.x * (1 / (a.bodies i0).inertia), d.y * (1 / (a.bodies i1).mass), d.y * (1 / (a.bodies i1).inertia)⟩⟩ := rfl
  rw [hm]
  refine ⟨trivial, ⟨?_, ?_⟩, ⟨?_, ?_⟩, fun i h0 h1 => ?_⟩
  · simp only [kick, if_true, if_neg hi, toV]
    ext <;> simp <;> field_simp
  · simp only [kick, if_true, if_neg hi, toV]
    simp
    field_simp
  · simp only [kick, if_true, if_neg hi.symm, toV]
    ext <;> simp <;> field_simp
  · simp only [kick, if_true, if_neg hi.symm, toV]
    simp
    field_simp
  · simp only [kick, if_neg h0, if_neg h1]
    simp

/-- C86 for constraints whose bodies have the same colliders since the constraint was made: the impulses act on the masses and inertias that the bodies report, and opposite impulses keep the
momentum. What is missing: see `C86_disagreement`. -/
theorem C86_present_partial (a : Assembly K) (post : List (Op K)) (i0 i1 : Nat) (hi : i0 ≠ i1) (dom : Option (Vec2 K)) (h : (a.makeConstraint i0 i1 dom).2 = .ok ()) (P : MVec K 6)
    (hpost : ∀ op ∈ post, ¬op.Changes i0 ∧ ¬op.Changes i1) :
    let z := (a.makeConstraint i0 i1 dom).1.run post
    let d := dom.getD ⟨(z.bodies i0).dominance, (z.bodies i1).dominance⟩
    let r := z.push a.joints.length P
    r.2 = .ok () ∧
      Responds (z.bodies i0).mass (z.bodies i0).inertia d.x (z.bodies i0) (r.1.bodies i0) ⟨P.at_ 0, P.at_ 1⟩ (P.at_ 2) ∧
      Responds (z.bodies i1).mass (z.bodies i1).inertia d.y (z.bodies i1) (r.1.bodies i1) ⟨P.at_ 3, P.at_ 4⟩ (P.at_ 5) ∧
      (∀ i, i ≠ i0 → i ≠ i1 → r.1.bodies i = z.bodies i) ∧
      (d = ⟨1, 1⟩ → P.at_ 3 = -P.at_ 0 → P.at_ 4 = -P.at_ 1 → r.1.momentum i0 i1 = z.momentum i0 i1) := by
  intro z d r
  obtain ⟨c0, c1, _, _, _, _, hmake⟩ := makeConstraint_ok h
  obtain ⟨_, _, hk⟩ := run_keeps post (a.makeConstraint i0 i1 dom).1
  rw [hmake] at hk
  obtain ⟨d0, k0⟩ := hk i0 c0
  obtain ⟨d1, k1⟩ := hk i1 c1
  obtain ⟨m0, I0⟩ := k0 fun op ho => (hpost op ho).1
  obtain ⟨m1, I1⟩ := k1 fun op ho => (hpost op ho).2
  rw [← hmake] at d0 d1 m0 m1 I0 I1
  have hz : (a.makeConstraint i0 i1 dom).1.run post = z := rfl
  obtain ⟨e1, e2, e3, e4⟩ := C86_creation a post i0 i1 hi dom h P
  have hb : ∀ i, ((a.makeConstraint i0 i1 dom).1.bodies i) = a.bodies i := fun i => by rw [hmake]
  rw [hz, hb] at d0 d1 m0 m1 I0 I1
  have hd : d = dom.getD ⟨(a.bodies i0).dominance, (a.bodies i1).dominance⟩ := by
    simp only [d, d0, d1]
  rw [← m0, ← I0, ← hd] at e2
  rw [← m1, ← I1, ← hd] at e3
  refine ⟨e1, e2, e3, e4, fun h1 h3 h4 => ?_⟩
  have f0 := e2.1
  have f1 := e3.1
  rw [h1, h3, h4] at *
  have g0 : (r.1.bodies i0).mass = (z.bodies i0).mass := by
    have := ((z.apply_keeps (.push a.joints.length P)).2.2 i0 (by
      have := (run_keeps post (a.makeConstraint i0 i1 dom).1).1
      rw [hz, show (a.makeConstraint i0 i1 dom).1.count = a.count by rw [hmake]] at this
      exact c0.trans_le this)).2 (fun h => h)
    exact this.1
  have g1 : (r.1.bodies i1).mass = (z.bodies i1).mass := by
    have := ((z.apply_keeps (.push a.joints.length P)).2.2 i1 (by
      have := (run_keeps post (a.makeConstraint i0 i1 dom).1).1
      rw [hz, show (a.makeConstraint i0 i1 dom).1.count = a.count by rw [hmake]] at this
      exact c1.trans_le this)).2 (fun h => h)
    exact this.1
  unfold momentum
  rw [g0, g1]
  have x0 := congrArg Vec2.x f0; have y0 := congrArg Vec2.y f0
  have x1 := congrArg Vec2.x f1; have y1 := congrArg Vec2.y f1
  simp only [Vec2.smul_x, Vec2.smul_y, Vec2.sub_x, Vec2.sub_y] at x0 y0 x1 y1
  ext
  · simp only [Vec2.add_x, Vec2.smul_x]
    linear_combination x0 + x1
  · simp only [Vec2.add_y, Vec2.smul_y]
    linear_combination y0 + y1

/-- C86: a body keeps the dominance of its descriptor whatever happens, and constraints made without dominances of their own use it: the impulses of those between bodies of dominances `d0` and `d1` act on
the first one as on a mass divided by `d0`. A body of dominance 0 is not moved by them, and two such bodies cannot be joined. -/
theorem C86_dominance (a : Assembly K) (ops : List (Op K)) (i0 i1 : Nat) (hi : i0 ≠ i1) (h0 : i0 < a.count) (h1 : i1 < a.count) (post : List (Op K)) (P : MVec K 6) :
    (∀ p o d, ((((a.makeBody p o d).run ops).bodies a.count).dominance = d)) ∧
    let b := a.run ops
    ((b.makeConstraint i0 i1 none).2 = .ok () →
      let z := (b.makeConstraint i0 i1 none).1.run post
      let r := z.push b.joints.length P
      Responds (b.bodies i0).mass (b.bodies i0).inertia (a.bodies i0).dominance (z.bodies i0) (r.1.bodies i0) ⟨P.at_ 0, P.at_ 1⟩ (P.at_ 2) ∧
      Responds (b.bodies i1).mass (b.bodies i1).inertia (a.bodies i1).dominance (z.bodies i1) (r.1.bodies i1) ⟨P.at_ 3, P.at_ 4⟩ (P.at_ 5) ∧
      ((a.bodies i0).dominance = 0 → (r.1.bodies i0).velocity = (z.bodies i0).velocity ∧ (r.1.bodies i0).angular = (z.bodies i0).angular)) ∧
    ((a.bodies i0).dominance = 0 → (a.bodies i1).dominance = 0 → (b.makeConstraint i0 i1 none).2 ≠ .ok ()) := by
  have keep : ∀ (c : Assembly K) i, i < c.count → ((c.run ops).bodies i).dominance = (c.bodies i).dominance := fun c i h => ((run_keeps ops c).2.2 i h).1
  refine ⟨fun p o d => ?_, fun h => ?_, fun d0 d1 h => ?_⟩
  · rw [keep _ _ (Nat.lt_succ_self _)]
    simp only [makeBody, Function.update_self]
    rfl
  · obtain ⟨-, e2, e3, -⟩ := C86_creation (a.run ops) post i0 i1 hi none h P
    simp only [Option.getD_none, keep _ _ h0, keep _ _ h1] at e2 e3
    refine ⟨e2, e3, fun hd => ?_⟩
    obtain ⟨-, -, m0, I0, -⟩ := makeConstraint_ok h
    obtain ⟨f1, f2⟩ := e2
    rw [hd] at f1 f2
    have x := congrArg Vec2.x f1
    have y := congrArg Vec2.y f1
    simp only [Vec2.smul_x, Vec2.smul_y, Vec2.sub_x, Vec2.sub_y, mul_zero, zero_mul, mul_eq_zero, m0, or_false, false_or, sub_eq_zero] at x y
    rw [zero_mul, mul_eq_zero, or_iff_right I0, sub_eq_zero] at f2
    exact ⟨Vec2.ext x y, f2⟩
  · unfold makeConstraint at h
    split_ifs at h
    dsimp only at h
    have e : (Bodies.make (a.run ops).bodies i0 i1 none).masses = ⟨0, 0, 0, 0⟩ := by
      simp [Bodies.make, keep _ _ h0, keep _ _ h1, d0, d1]
    have e' : (Bodies.make (a.run ops).bodies i0 i1 none).checkConstraint ≠ .ok () := by
      unfold Bodies.checkConstraint Bodies.isBodyStructural
      rw [e]
      simp [Outcome.check]
    cases hc : (Bodies.make (a.run ops).bodies i0 i1 none).checkConstraint with
    | ok u => exact e' hc
    | throw => rw [hc] at h; simp at h
    | ub => rw [hc] at h; simp at h

theorem addCollider_mass {b : Body K} (hb : b.attached = true) {id : Nat} {polygon : List (Vec2 K)} {material : Material K} {p : MassProperties K}
    (hp : (⟨id, .make polygon, material⟩ : Collider K).properties = .ok p) :
    (b.addCollider id polygon material).2 = .ok () ∧ (b.addCollider id polygon material).1.colliders.properties = b.colliders.properties.combine p ∧
    (b.addCollider id polygon material).1.attached = true := by
  unfold Body.addCollider
  rw [hb]
  simp only [Bool.not_true, Bool.false_eq_true, if_false, Colliders.add, hp]
  exact ⟨trivial, rfl, rfl⟩

end Assembly
end

/-! ### Two rectangles -/
namespace Assembly
section
attribute [local instance] flatTrig

/-- Two bodies, each of them a rectangle of mass 1 (and inertia 5/12). -/
def pair : Assembly ℚ := init.run [.makeBody ⟨0, 0⟩ 0 1, .makeBody ⟨5, 0⟩ 0 1, .addCollider 0 1 exRect (exMat (1 / 2)), .addCollider 1 2 exRect (exMat (1 / 2))]

theorem pair_props : pair.count = 2 ∧ pair.joints = [] ∧ (∀ i, i < 2 → (pair.bodies i).attached = true ∧ (pair.bodies i).dominance = 1 ∧
    (pair.bodies i).colliders.properties = ⟨1, 5 / 12, ⟨1, 1 / 2⟩⟩) := by
  have hp := fun id => exRect_mass id (1 / 2) (by norm_num)
  set b0 : Body ℚ := { Body.make ⟨0, 0⟩ 0 1 with attached := true } with hb0
  set b1 : Body ℚ := { Body.make ⟨5, 0⟩ 0 1 with attached := true } with hb1
  have e : pair = ⟨Function.update (Function.update (Function.update (Function.update (init (K := ℚ)).bodies 0 b0) 1 b1) 0 (b0.addCollider 1 exRect (exMat (1 / 2))).1) 1
      (b1.addCollider 2 exRect (exMat (1 / 2))).1, 2, []⟩ := rfl
  have hc : (0 : MassProperties ℚ).combine ⟨2 * (1 / 2), 5 / 6 * (1 / 2), ⟨1, 1 / 2⟩⟩ = ⟨1, 5 / 12, ⟨1, 1 / 2⟩⟩ := by decide +kernel
  obtain ⟨_, p0, a0⟩ := addCollider_mass (b := b0) rfl (hp 1)
  obtain ⟨_, p1, a1⟩ := addCollider_mass (b := b1) rfl (hp 2)
  have d0 := addCollider_dominance b0 1 exRect (exMat (1 / 2))
  have d1 := addCollider_dominance b1 2 exRect (exMat (1 / 2))
  rw [e]
  refine ⟨rfl, rfl, fun i hi => ?_⟩
  interval_cases i
  · simp only [Function.update_of_ne (show (0 : Nat) ≠ 1 by decide), Function.update_self]
    exact ⟨a0, d0.trans rfl, p0.trans hc⟩
  · simp only [Function.update_self]
    exact ⟨a1, d1.trans rfl, p1.trans hc⟩

theorem pair_joint : (pair.makeConstraint 0 1 none).2 = .ok () := by
  obtain ⟨hc, _, hb⟩ := pair_props
  obtain ⟨_, d0, p0⟩ := hb 0 (by decide)
  obtain ⟨_, d1, p1⟩ := hb 1 (by decide)
  have m0 : (pair.bodies 0).mass = 1 ∧ (pair.bodies 0).inertia = 5 / 12 := by simp [Body.mass, Body.inertia, p0]
  have m1 : (pair.bodies 1).mass = 1 ∧ (pair.bodies 1).inertia = 5 / 12 := by simp [Body.mass, Body.inertia, p1]
  unfold makeConstraint
  rw [if_neg (by rw [hc]; decide), if_neg (by rw [m0.1, m0.2, m1.1, m1.2]; norm_num)]
  have hck : (Bodies.make pair.bodies 0 1 none).checkConstraint = .ok () := by
    have e : Bodies.make pair.bodies 0 1 none = ⟨0, 1, ⟨1, 12 / 5, 1, 12 / 5⟩⟩ := by
      simp only [Bodies.make, Option.getD_none, d0, d1, Body.invMass, Body.invInertia, m0.1, m0.2, m1.1, m1.2]
      norm_num
    rw [e]
    decide +kernel
  simp only [hck]

/-- The hypotheses of `C86_dominance` hold for the two rectangles, which can be joined. -/
example := ((C86_dominance pair [] 0 1 (by decide) (by rw [pair_props.1]; decide) (by rw [pair_props.1]; decide) [] Mat.zero).2.1 pair_joint).1

/-- An impulse to the right on the first body, to the left on the second one. -/
def kickApart : MVec ℚ 6 := Mat.ofFn ![1, 0, 0, -1, 0, 0]

/-- The hypotheses hold for the two rectangles, also after a step moved one of them: the momentum is kept. -/
example : let z := (pair.makeConstraint 0 1 none).1.run [.move 0 (.make ⟨1, 1⟩ 0 ⟨1, 1 / 2⟩) ⟨3, 0⟩ 1]
    (z.push 0 kickApart).1.momentum 0 1 = z.momentum 0 1 := by
  intro z
  have hj : pair.joints.length = 0 := by rw [pair_props.2.1]; rfl
  have h := C86_present_partial pair [.move 0 (.make ⟨1, 1⟩ 0 ⟨1, 1 / 2⟩) ⟨3, 0⟩ 1] 0 1 (by decide) none pair_joint kickApart (by
    intro op ho
    simp only [List.mem_singleton] at ho
    subst ho
    exact ⟨fun h => h, fun h => h⟩)
  simp only [hj] at h
  refine h.2.2.2.2 ?_ (by decide +kernel) (by decide +kernel)
  have hk := run_keeps [.move 0 (.make ⟨1, 1⟩ 0 ⟨1, 1 / 2⟩) ⟨3, 0⟩ 1] (pair.makeConstraint 0 1 none).1
  rw [(makeConstraint_ok pair_joint).2.2.2.2.2.2] at hk ⊢
  have k0 := (hk.2.2 0 (by simp only; rw [pair_props.1]; decide)).1
  have k1 := (hk.2.2 1 (by simp only; rw [pair_props.1]; decide)).1
  rw [k0, k1]
  simp only [Option.getD_none]
  rw [(pair_props.2.2 0 (by decide)).2.1, (pair_props.2.2 1 (by decide)).2.1]

/-- C86 is false when colliders are added to a body that has a constraint (or removed from it): the inverse masses are computed once, when the constraint is made (Bodies.inl.hpp:89-92).
Two bodies of mass 1 at rest are joined, then the first one gets a second collider so that its mass is 2: opposite impulses of 1 give them opposite velocities of 1, as if
the mass was still 1, and the total momentum changes from 0 to 1. -/
theorem C86_disagreement : ∃ (a : Assembly ℚ) (post : List (Op ℚ)) (P : MVec ℚ 6), (a.makeConstraint 0 1 none).2 = .ok () ∧
    (let z := (a.makeConstraint 0 1 none).1.run post
     (z.bodies 0).mass = 2 ∧ (z.bodies 1).mass = 1 ∧ P.at_ 3 = -P.at_ 0 ∧ P.at_ 4 = -P.at_ 1 ∧ (z.push a.joints.length P).2 = .ok () ∧
     (z.push a.joints.length P).1.momentum 0 1 = z.momentum 0 1 + ⟨1, 0⟩) := by
  obtain ⟨hcount, hjoints, hb⟩ := pair_props
  obtain ⟨a0, d0, p0⟩ := hb 0 (by decide)
  obtain ⟨_, d1, p1⟩ := hb 1 (by decide)
  have hp := exRect_mass 3 (1 / 2) (by norm_num)
  obtain ⟨_, q0, _⟩ := addCollider_mass a0 hp
  have hmake := (makeConstraint_ok pair_joint).2.2.2.2.2.2
  set z := (pair.makeConstraint 0 1 none).1.run [.addCollider 0 3 exRect (exMat (1 / 2))] with hz
  have ez : z = { pair with joints := pair.joints ++ [Bodies.make pair.bodies 0 1 none], bodies := Function.update pair.bodies 0 ((pair.bodies 0).addCollider 3 exRect (exMat (1 / 2))).1 } := by
    rw [hz, hmake]
    simp only [run, List.foldl_cons, List.foldl_nil, apply, hcount]
    rw [if_neg (by decide)]
    rfl
  have z0 : (z.bodies 0).mass = 2 := by
    rw [ez]
    simp only [Function.update_self, Body.mass]
    rw [q0, p0]
    decide +kernel
  have z1 : (z.bodies 1).mass = 1 := by
    rw [ez]
    simp only [Function.update_of_ne (show (1 : Nat) ≠ 0 by decide), Body.mass]
    rw [p1]
  obtain ⟨e1, e2, e3, _⟩ := C86_creation pair [.addCollider 0 3 exRect (exMat (1 / 2))] 0 1 (by decide) none pair_joint kickApart
  rw [← hz] at e1 e2 e3
  refine ⟨pair, [.addCollider 0 3 exRect (exMat (1 / 2))], kickApart, pair_joint, ?_⟩
  rw [← hz]
  refine ⟨z0, z1, by decide +kernel, by decide +kernel, e1, ?_⟩
  have m0 : (pair.bodies 0).mass = 1 := by simp [Body.mass, p0]
  have m1 : (pair.bodies 1).mass = 1 := by simp [Body.mass, p1]
  have f0 := e2.1
  have f1 := e3.1
  simp only [Option.getD_none, d0, d1, m0, m1] at f0 f1
  have hz2 : 2 ≤ z.count := by rw [ez]; exact hcount.ge
  have g0 := (((z.apply_keeps (.push pair.joints.length kickApart)).2.2 0 (by omega)).2 (fun h => h)).1
  have g1 := (((z.apply_keeps (.push pair.joints.length kickApart)).2.2 1 (by omega)).2 (fun h => h)).1
  have g0' : ((z.push pair.joints.length kickApart).1.bodies 0).mass = 2 := g0.trans z0
  have g1' : ((z.push pair.joints.length kickApart).1.bodies 1).mass = 1 := g1.trans z1
  unfold momentum
  rw [g0', g1', z0, z1]
  have k : kickApart.at_ 0 = 1 ∧ kickApart.at_ 1 = 0 ∧ kickApart.at_ 3 = -1 ∧ kickApart.at_ 4 = 0 := by decide +kernel
  rw [k.1, k.2.1] at f0
  rw [k.2.2.1, k.2.2.2] at f1
  have x0 := congrArg Vec2.x f0; have y0 := congrArg Vec2.y f0
  have x1 := congrArg Vec2.x f1; have y1 := congrArg Vec2.y f1
  simp only [Vec2.smul_x, Vec2.smul_y, Vec2.sub_x, Vec2.sub_y] at x0 y0 x1 y1
  ext
  · simp only [Vec2.add_x, Vec2.smul_x]
    linear_combination 2 * x0 + x1
  · simp only [Vec2.add_y, Vec2.smul_y]
    linear_combination 2 * y0 + y1

end
end Assembly
end Simu
