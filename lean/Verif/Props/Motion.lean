import Verif.Lemmas.Motion
import Verif.Props.LibrarySound
import Mathlib.Tactic.Module
/-
C76: bodies in flight.
-/
namespace Simu
open Island Finset
section
variable {K : Type*} [Field K] [LinearOrder K] [IsStrictOrderedRing K] [Trig K] [LawfulTrig K]

/-- C76: a step of the world, for a group of bodies whose active constraints and contacts are between its own bodies and fields that cover it, with any settings. The momentum of the
group changes by the impulses of the fields and nothing else; its centre of mass moves with the new momentum. -/
theorem C76_step {L : Library K} {m m' : Motion L} {c : CallCfg K} {cfg : Island.Settings} {sl : Sleep.Settings K} {fields : List (ForceField K)}
    {tree : List (Nat × Collider K)} {world : List Nat} {fuel : Nat} {A : Link → Bool} {group : Finset Nat} {log : List Record} {evals : List (Link × Bool)}
    (hl : Launched c tree world A group m) (hcov : ∀ b ∈ group, ∀ f ∈ fields, ∀ e ∈ tree, e.1 = b → inRegion f.region e = true)
    (h : m.step c cfg sl fields tree world fuel = some (.ok (m', log, evals))) (hA : ∀ e ∈ evals, e.2 = A e.1) :
    ∑ b ∈ group, (m.body b).mass • (m'.body b).velocity =
      ∑ b ∈ group, (m.body b).mass • ((m.body b).velocity + (fields.map (ForceField.promised (m.body b).mass c.dt)).sum) ∧
    ∑ b ∈ group, (m.body b).mass • (m'.body b).centroid =
      ∑ b ∈ group, (m.body b).mass • (m.body b).centroid + c.dt • ∑ b ∈ group, (m.body b).mass • (m'.body b).velocity := by
  obtain ⟨body, st, hf, hs, -, hb'⟩ := hl.parts hcov h hA
  obtain ⟨a, b⟩ := C72_library hl.made c hs (by exact hl.fit) hl.inside hl.isolated hl.fully
  have v0 : ∀ b ∈ group, (({ m with body := body } : Motion L).start.body b).vel.linear =
      (m.body b).velocity + (fields.map (ForceField.promised (m.body b).mass c.dt)).sum := fun b hb => by
    show (body b).velocity = _
    rw [hf b hb]
  have v1 : ∀ b ∈ group, (m'.body b).velocity = (st.body b).vel.linear := fun b hb => by rw [hb' b hb]; rfl
  have p0 : ∀ b ∈ group, (({ m with body := body } : Motion L).start.body b).pos.1.centroid = (m.body b).centroid := fun b hb => by
    obtain ⟨ps, hw⟩ := hl.solid b hb
    have e : (({ m with body := body } : Motion L).start.body b).pos.1 = (body b).position := Motion.start_pose (by
      show (body b).position.orient.Reachable
      rw [hf b hb]; exact hw.inv.orient)
    rw [e, hf b hb]; rfl
  have p1 : ∀ b ∈ group, (m'.body b).centroid = (st.body b).pos.1.centroid := fun b hb => by rw [hb' b hb]; rfl
  rw [← a] at b
  constructor
  · rw [sum_congr rfl fun b hb => by rw [v1 b hb], a]
    exact sum_congr rfl fun b hb => by rw [v0 b hb]
  · rw [sum_congr rfl fun b hb => by rw [p1 b hb], b]
    congr 1
    · exact sum_congr rfl fun b hb => by rw [p0 b hb]
    · exact congrArg _ (sum_congr rfl fun b hb => by rw [v1 b hb])

/-- C76: what a step leaves of the group: masses and inertias, dominances, the colliders and where they are in the body; without sleeping the group is awake. The conditions of the
step hold again when the colliders of the tree follow. -/
theorem C76_keeps {L : Library K} {m m' : Motion L} {c : CallCfg K} {cfg : Island.Settings} {sl : Sleep.Settings K} {fields : List (ForceField K)}
    {tree : List (Nat × Collider K)} {world : List Nat} {fuel : Nat} {A : Link → Bool} {group : Finset Nat} {log : List Record} {evals : List (Link × Bool)}
    (hl : Launched c tree world A group m) (hcov : ∀ b ∈ group, ∀ f ∈ fields, ∀ e ∈ tree, e.1 = b → inRegion f.region e = true)
    (h : m.step c cfg sl fields tree world fuel = some (.ok (m', log, evals))) (hA : ∀ e ∈ evals, e.2 = A e.1) :
    L.Fit m'.s ∧ ∀ b ∈ group, (m'.body b).mass = (m.body b).mass ∧ (m'.body b).inertia = (m.body b).inertia ∧ (m'.body b).dominance = (m.body b).dominance ∧
      (∃ ps, InWorld b (followed tree m'.body) m'.body ps) ∧ (sl.enableSleeping = false → (m'.body b).asleep = false) ∧ (m'.body b).Synced := by
  obtain ⟨body, st, hf, hs, hst, hb'⟩ := hl.parts hcov h hA
  refine ⟨by rw [hst]; exact hs.steady (L.steady c) hl.fit, fun b hb => ?_⟩
  obtain ⟨ps, hw⟩ := hl.solid b hb
  obtain ⟨-, loc⟩ := C72_group hs (L.steady c) (by exact hl.fit) (qv := fun _ _ => (0 : Nat → Vec2 K)) (qp := fun b p => Pi.single b p.1.localCentroid.offset) hl.inside hl.isolated
    (fun b hb l h1 h2 => L.exchanges_local c (hl.fully b hb l h1 h2)) 0 (by
      intro b p v
      show (Pi.single b (Pose.of (p.1.advance (c.dt • v.linear) (v.angular * c.dt))).1.localCentroid.offset : Nat → Vec2 K) = _
      rw [Pose.of_eq (Position.advance_wf _ _ _)]
      simp [Position.advance])
  have loc := congrFun loc b
  simp only [AddMonoidHom.zero_apply, add_zero, Finset.sum_apply] at loc
  rw [Finset.sum_eq_single b (fun i _ hi => Pi.single_eq_of_ne' hi _) (fun h => absurd hb h),
    Finset.sum_eq_single b (fun i _ hi => Pi.single_eq_of_ne' hi _) (fun h => absurd hb h), Pi.single_eq_same, Pi.single_eq_same] at loc
  obtain ⟨r1, r2, r3, r4, r5, r6, r7⟩ := Body.settle_rest (body b) (st.body b) sl c.dt (m.timeImmobile b)
  rw [← hb' b hb] at r1 r2 r3 r4 r5 r6 r7
  have hcol : (body b).colliders = (m.body b).colliders := by rw [hf b hb]
  have hpos : (({ m with body := body } : Motion L).start.body b).pos.1 = (m.body b).position := by
    rw [Motion.start_pose]
    · show (body b).position = _
      rw [hf b hb]
    · show (body b).position.orient.Reachable
      rw [hf b hb]; exact hw.inv.orient
  have hprop : (m'.body b).colliders.properties = (m.body b).colliders.properties := by rw [r6, hcol]; rfl
  refine ⟨by rw [Body.mass, hprop]; rfl, by rw [Body.inertia, hprop]; rfl, by rw [r4, hf b hb], ⟨ps, ⟨?_, fun h => ?_, ?_, ?_⟩, ?_, hw.some⟩, fun hn => ?_, ?_⟩
  · rw [r6, hcol]; exact hw.inv.colliders.update _
  · rw [hprop, r1, loc, hpos]; exact hw.inv.centroid h
  · rw [r1, Rotation.WF.eq (st.body b).pos.2]; exact .ofAngle _
  · rw [r5, hf b hb]; exact hw.inv.attached
  · obtain ⟨qs, h1, h2⟩ := hw.pieces
    exact ⟨qs, h1.followed _, h2⟩
  · rw [r7 hn]
    refine hs.progress.stillAwake b ?_
    show (body b).asleep = false
    rw [hf b hb]; exact hl.awake b hb
  · have := Body.update_synced (m'.body b)
    intro e he
    rw [r6] at he
    simp only [Colliders.update, List.mem_map] at he
    obtain ⟨d, -, rfl⟩ := he
    rw [r1]
    exact ⟨rfl, rfl⟩

omit [IsStrictOrderedRing K] [LawfulTrig K] [Trig K] [LinearOrder K] in
theorem sum_smul_add_const (group : Finset Nat) (f : Nat → K) (v : Nat → Vec2 K) (u : Vec2 K) :
    ∑ b ∈ group, f b • (v b + u) = ∑ b ∈ group, f b • v b + (∑ b ∈ group, f b) • u := by
  induction group using Finset.induction_on with
  | empty => ext <;> simp
  | insert a s ha ih =>
    rw [sum_insert ha, sum_insert ha, sum_insert ha, ih]
    ext <;> simp <;> ring

/-- C76: after `n` steps the momentum of the group is that of `n dt` of gravity, and its centre of mass is on the parabola `Σ m c + n dt Σ m v + dt² n (n + 1) / 2 M g`, whatever the
constraints and contacts inside the group do, whatever happens in the rest of the world, and whatever the numbers of iterations. -/
theorem C76_parabola {group : Finset Nat} {dt : K} {g : Vec2 K} {n : Nat} {B B' : Nat → Body K} (h : Flight group dt g n B B') :
    (∀ b ∈ group, (B' b).mass = (B b).mass) ∧
    ∑ b ∈ group, (B b).mass • (B' b).velocity = ∑ b ∈ group, (B b).mass • (B b).velocity + (n * dt * ∑ b ∈ group, (B b).mass) • g ∧
    ∑ b ∈ group, (B b).mass • (B' b).centroid = ∑ b ∈ group, (B b).mass • (B b).centroid + (n * dt) • ∑ b ∈ group, (B b).mass • (B b).velocity +
      (dt * dt * (n * (n + 1) / 2) * ∑ b ∈ group, (B b).mass) • g := by
  induction h with
  | start B => exact ⟨fun _ _ => rfl, by ext <;> simp, by ext <;> simp⟩
  | @step n B B' _ L m m' c cfg sl tree world fuel A log evals hdt same hl hs hA ih =>
    obtain ⟨i0, i1, i2⟩ := ih
    have hcov : ∀ b ∈ group, ∀ f ∈ [ForceField.gravity g], ∀ e ∈ tree, e.1 = b → inRegion f.region e = true := by
      intro b _ f hf e _ _
      obtain rfl := List.mem_singleton.1 hf
      rfl
    have keep := (C76_keeps hl hcov hs hA).2
    obtain ⟨s1, s2⟩ := C76_step hl hcov hs hA
    have hm : ∀ b ∈ group, (m.body b).mass = (B b).mass := fun b hb => by rw [same b hb, i0 b hb]
    have e : ∀ (v v' : Nat → Vec2 K), (∀ b ∈ group, v b = v' b) → ∑ b ∈ group, (m.body b).mass • v b = ∑ b ∈ group, (B b).mass • v' b := fun v v' hv =>
      sum_congr rfl fun b hb => by rw [hm b hb, hv b hb]
    have pr : ∀ b, ([ForceField.gravity g].map (ForceField.promised (m.body b).mass c.dt)).sum = dt • g := fun b => by
      rw [hdt]; simp [ForceField.promised]
    have r : ∑ b ∈ group, (m.body b).mass • ((m.body b).velocity + ([ForceField.gravity g].map (ForceField.promised (m.body b).mass c.dt)).sum) =
        ∑ b ∈ group, (B b).mass • ((B' b).velocity + dt • g) := sum_congr rfl fun b hb => by rw [pr b, hm b hb, same b hb]
    rw [e (fun b => (m'.body b).velocity) _ fun _ _ => rfl, r, sum_smul_add_const, i1] at s1
    rw [e (fun b => (m'.body b).centroid) _ fun _ _ => rfl, e (fun b => (m'.body b).velocity) _ fun _ _ => rfl,
      e (fun b => (m.body b).centroid) (fun b => (B' b).centroid) fun b hb => by rw [same b hb], i2, s1, hdt] at s2
    refine ⟨fun b hb => by rw [(keep b hb).1, hm b hb], ?_, ?_⟩
    · rw [s1]
      ext <;> simp <;> ring
    · rw [s2]
      ext <;> simp <;> ring

/-- C76: a body alone in flight also keeps its rotation: after `n` steps it has turned by `n dt` times its angular velocity. -/
theorem C76_fall {b : Nat} {dt : K} {g : Vec2 K} {n : Nat} {B B' : Nat → Body K} (h : Flight {b} dt g n B B') (hm : (B b).mass ≠ 0) :
    (B' b).velocity = (B b).velocity + (n * dt) • g ∧
    (B' b).centroid = (B b).centroid + (n * dt) • (B b).velocity + (dt * dt * (n * (n + 1) / 2)) • g ∧
    (B' b).angular = (B b).angular ∧ (B' b).position.orient.theta = (B b).position.orient.theta + n * dt * (B b).angular := by
  obtain ⟨-, p1, p2⟩ := C76_parabola h
  simp only [sum_singleton] at p1 p2
  refine ⟨?_, ?_, ?_⟩
  · have hx := congrArg Vec2.x p1
    have hy := congrArg Vec2.y p1
    simp only [Vec2.smul_x, Vec2.smul_y, Vec2.add_x, Vec2.add_y] at hx hy
    ext
    · apply mul_right_cancel₀ hm; rw [hx]; simp; ring
    · apply mul_right_cancel₀ hm; rw [hy]; simp; ring
  · have hx := congrArg Vec2.x p2
    have hy := congrArg Vec2.y p2
    simp only [Vec2.smul_x, Vec2.smul_y, Vec2.add_x, Vec2.add_y] at hx hy
    ext
    · apply mul_right_cancel₀ hm; rw [hx]; simp; ring
    · apply mul_right_cancel₀ hm; rw [hy]; simp; ring
  clear p1 p2
  induction h with
  | start B => simp
  | @step n B B' _ L m m' c cfg sl tree world fuel A log evals hdt same hl hs hA ih =>
    obtain ⟨i1, i2⟩ := ih hm
    have hcov : ∀ b' ∈ ({b} : Finset Nat), ∀ f ∈ [ForceField.gravity g], ∀ e ∈ tree, e.1 = b' → inRegion f.region e = true := by
      intro b _ f hf e _ _
      obtain rfl := List.mem_singleton.1 hf
      rfl
    obtain ⟨body, st, hf, hsolved, -, hb'⟩ := hl.parts hcov hs hA
    have hb := mem_singleton_self b
    obtain ⟨ps, hw⟩ := hl.solid b hb
    obtain ⟨f1, f2⟩ := C37_free_flight hsolved (hl.inside b hb) (fun l hlb ha => by
      obtain ⟨e1, e2⟩ := hl.isolated b hb l hlb ha
      exact absurd ((mem_singleton.1 e1).trans (mem_singleton.1 e2).symm) (hl.fully b hb l hlb ha).1)
    have hp : (({ m with body := body } : Motion L).start.body b).pos.1 = (m.body b).position := by
      rw [Motion.start_pose]
      · show (body b).position = _
        rw [hf b hb]
      · show (body b).position.orient.Reachable
        rw [hf b hb]; exact hw.inv.orient
    have hv : (({ m with body := body } : Motion L).start.body b).vel.angular = (m.body b).angular := by
      show (body b).angular = _
      rw [hf b hb]
    have a1 : (m'.body b).angular = (m.body b).angular := by
      rw [hb' b hb, ← hv, ← f1]; rfl
    have a2 : (m'.body b).position.orient.theta = (m.body b).position.orient.theta + (m.body b).angular * c.dt := by
      rw [hb' b hb]
      show (st.body b).pos.1.orient.theta = _
      rw [f2]
      show (Pose.of (Position.advance _ _ _)).1.orient.theta = _
      rw [Pose.of_eq (Position.advance_wf _ _ _), hv, hp]
      rfl
    rw [a1, a2, same b hb, i1, i2, hdt]
    refine ⟨rfl, ?_⟩
    push_cast
    ring

theorem Launched.less {L : Library K} {m : Motion L} {c : CallCfg K} {tree : List (Nat × Collider K)} {world : List Nat} {group : Finset Nat}
    (h : Launched c tree world (fun _ => true) group m) (A : Link → Bool) : Launched c tree world A group m :=
  ⟨h.wellFormed, h.made, h.fit, h.inside, fun b hb l hlb _ => h.isolated b hb l hlb rfl, fun b hb l hlb _ => h.fully b hb l hlb rfl, h.awake, h.movable, h.solid⟩

/-- A step of a group whose constraints can be solved succeeds, and its conditions hold again. -/
theorem Launched.next {L : Library K} {m : Motion L} {c : CallCfg K} {tree : List (Nat × Collider K)} {world : List Nat} {group : Finset Nat}
    (hl : Launched c tree world (fun _ => true) group m) (hne : group.Nonempty) (hc : ∀ x, 0 ≤ x → c.sqrt x * c.sqrt x = x) (hf : L.Firm c world m.s)
    (cfg : Island.Settings) {sl : Sleep.Settings K} (hsl : sl.enableSleeping = false) {fuel : Nat} (hfuel : 2 * world.length < fuel) (g : Vec2 K) :
    ∃ m' log evals, m.step c cfg sl [.gravity g] tree world fuel = some (.ok (m', log, evals)) ∧ (∀ e ∈ evals, e.2 = (L.kind e.1).answer (m.s e.1)) ∧
      Launched c (followed tree m'.body) world (fun _ => true) group m' ∧ L.Firm c world m'.s := by
  obtain ⟨b0, hb0⟩ := hne
  obtain ⟨ps, hw⟩ := hl.solid b0 hb0
  obtain ⟨body, hforce, -⟩ := C30_gravity hw g c.dt (hl.awake b0 hb0) (hl.movable b0 hb0)
  obtain ⟨st, log, hsolve, hfirm, hsolved⟩ := C73_library hl.made hc hl.wellFormed (st := ({ m with body := body } : Motion L).start) ⟨fun _ => rfl, fun _ => rfl⟩ rfl
    hf cfg (.of (body 0).position) ⟨0, 0⟩ hfuel
  obtain ⟨m', hstep, hs'⟩ := Motion.step_of (sl := sl) hforce hsolve
  have lA := hl.less fun l => (L.kind l).answer (m.s l)
  have hcov : ∀ b ∈ group, ∀ f ∈ [ForceField.gravity g], ∀ e ∈ tree, e.1 = b → inRegion f.region e = true := by
    intro b _ f hf e _ _
    obtain rfl := List.mem_singleton.1 hf
    rfl
  obtain ⟨k1, k2⟩ := C76_keeps lA hcov hstep hsolved.stable
  have km := Motion.step_masses hstep
  refine ⟨m', log, st.evals, hstep, hsolved.stable, ⟨hl.wellFormed, hl.made.same km, k1, hl.inside, hl.isolated, ?_, ?_, ?_, ?_⟩, ?_⟩
  · intro b hb l hlb _
    obtain ⟨a1, a2, a3⟩ := hl.fully b hb l hlb rfl
    refine ⟨a1, a2, ?_⟩
    rw [a3]
    simp only [(km _).1, (km _).2.1]
  · exact fun b hb => (k2 b hb).2.2.2.2.1 hsl
  · exact fun b hb => by rw [(km b).2.2]; exact hl.movable b hb
  · exact fun b hb => (k2 b hb).2.2.2.1
  · rw [hs']; exact hfirm

/-- C76: a group held together by constraints that can be solved wherever the bodies are (and whose bodies do not go to sleep) can be stepped for ever: there is a flight of any
number of steps. -/
theorem C76_for_ever {L : Library K} {m : Motion L} {c : CallCfg K} {tree : List (Nat × Collider K)} {world : List Nat} {group : Finset Nat}
    (hl : Launched c tree world (fun _ => true) group m) (hne : group.Nonempty) (hc : ∀ x, 0 ≤ x → c.sqrt x * c.sqrt x = x) (hf : L.Firm c world m.s)
    (cfg : Island.Settings) {sl : Sleep.Settings K} (hsl : sl.enableSleeping = false) {fuel : Nat} (hfuel : 2 * world.length < fuel) (g : Vec2 K) (n : Nat) :
    ∃ B', Flight group c.dt g n m.body B' := by
  suffices ∃ (m' : Motion L) (tree' : List (Nat × Collider K)), Flight group c.dt g n m.body m'.body ∧ Launched c tree' world (fun _ => true) group m' ∧ L.Firm c world m'.s from
    this.elim fun m' h => ⟨m'.body, h.elim fun _ h => h.1⟩
  induction n with
  | zero => exact ⟨m, tree, .start _, hl, hf⟩
  | succ n ih =>
    obtain ⟨m1, t1, f1, l1, r1⟩ := ih
    obtain ⟨m', log, evals, h1, h2, h3, h4⟩ := l1.next hne hc r1 cfg hsl hfuel g
    exact ⟨m', _, .step f1 rfl (fun _ _ => rfl) (l1.less fun l => (L.kind l).answer (m1.s l)) h1 h2, h3, h4⟩

end

/-! ### A concrete world: two squares of mass 4 joined by a hinge, one moving -/
section

/-- A hinge at (1, 0) between the bodies 0 and 1. -/
noncomputable def flyLib (B : Nat → Body ℝ) : Library ℝ where
  kind _ := .equality 2 (hingeFunOf B (Bodies.make B 0 1 none) ⟨1, 0⟩)
  bodies _ := Bodies.make B 0 1 none
  joints := fun
    | 0 => [0]
    | 1 => [0]
    | _ => []
  contacts _ := []

/-- The hinge is new. -/
noncomputable def flyMotion (B : Nat → Body ℝ) : Motion (flyLib B) := ⟨B, fun _ => 0, fun _ => (⟨.init, ⟨false, fun _ => .throw⟩⟩ : EqualitySolver ℝ 2)⟩

theorem fly_links (B : Nat → Body ℝ) (b : Nat) (l : Link) (h : l ∈ linksOf ((flyLib B).net libCfg) b) : (b = 0 ∨ b = 1) ∧ l = .joint 0 := by
  have hj : ((flyLib B).net libCfg).joints = (flyLib B).joints := rfl
  have hc : ((flyLib B).net libCfg).contacts = (flyLib B).contacts := rfl
  unfold linksOf at h
  rw [hj, hc] at h
  rcases b with _ | _ | b <;> simp [flyLib] at h ⊢ <;> exact h

/-- The bodies: squares of mass 4 centred at their origins, at (2 i, 0), the first moving at (3, 1). -/
theorem flyBodies : ∃ (B : Nat → Body ℝ) (tree : List (Nat × Collider ℝ)) (ps : Nat → List (MassProperties ℝ)),
    (∀ b, b = 0 ∨ b = 1 → InWorld b tree B (ps b)) ∧
    ∀ b, (B b).mass = 4 ∧ (B b).inertia = 8 / 3 ∧ (B b).dominance = 1 ∧ (B b).asleep = false ∧ (B b).velocity = (if b = 0 then ⟨3, 1⟩ else 0) ∧ (B b).centroid = ⟨2 * b, 0⟩ := by
  obtain ⟨s0, hs0, hm⟩ := exSquare 0
  let b0 : Nat → Body ℝ := fun i => { (Body.make ⟨2 * i, 0⟩ 0 1 : Body ℝ) with attached := true, velocity := if i = 0 then ⟨3, 1⟩ else 0 }
  have inv0 : ∀ i, (b0 i).Inv [] := fun i => ⟨⟨.nil, rfl⟩, fun h => absurd rfl h, .ofAngle _, rfl⟩
  have key : ∀ i, ∃ p, (b0 i).addCollider i s0 exMatR = ((({ b0 i with colliders := ((b0 i).colliders.add i s0 exMatR).1 } : Body ℝ).recenter (b0 i).centroid), .ok ()) ∧
      ((b0 i).addCollider i s0 exMatR).1.Inv [p] ∧ (⟨i, .make s0, exMatR⟩ : Collider ℝ).Good p ∧ ((b0 i).addCollider i s0 exMatR).1.velocity = (b0 i).velocity ∧
      ((b0 i).addCollider i s0 exMatR).1.dominance = 1 ∧ ((b0 i).addCollider i s0 exMatR).1.position =
        (b0 i).position.setLocalCentroid ((b0 i).addCollider i s0 exMatR).1.colliders.properties.centroid := by
    intro i
    obtain ⟨p, h1, h2, h3, -, h5, -, h7, h8⟩ := Body.addCollider_ok (inv0 i) i hs0
    refine ⟨p, ?_, h2, h3, h5, h7, h8⟩
    unfold Body.addCollider
    have : ((b0 i).colliders.add i s0 exMatR).2 = .ok () := by simp [Colliders.add, h3.1]
    simp only [this]
    simp [b0]
  choose p k1 k2 k3 k4 k5 k6 using key
  have hp : ∀ i, (p i).m = 4 ∧ (p i).centroid = ⟨0, 0⟩ ∧ (p i).I = 8 / 3 := fun i => by
    obtain ⟨I, hI, hI'⟩ := hm i
    have := (k3 i).1
    rw [hI] at this
    rw [← Outcome.ok.inj this]
    exact ⟨rfl, rfl, hI'⟩
  have hcomb := fun i => (k2 i).colliders.isCombination
  have hmass : ∀ i, ((b0 i).addCollider i s0 exMatR).1.colliders.properties.m = 4 := fun i => by
    rw [(hcomb i).mass]; simp [totalMass, (hp i).1]
  have hcent : ∀ i, ((b0 i).addCollider i s0 exMatR).1.colliders.properties.centroid = ⟨0, 0⟩ := fun i => by
    have hx := (hcomb i).momentX
    have hy := (hcomb i).momentY
    rw [hmass] at hx hy
    simp [firstMomentX, firstMomentY, (hp i).2.1] at hx hy
    exact Vec2.ext hx hy
  have hI : ∀ i, ((b0 i).addCollider i s0 exMatR).1.inertia = 8 / 3 := fun i => by
    rw [Body.inertia, (hcomb i).inertia, hcent]
    simp only [inertiaAbout, List.map_cons, List.map_nil, List.sum_cons, List.sum_nil, (hp i).1, (hp i).2.1]
    rw [(hp i).2.2]
    norm_num
  refine ⟨fun i => ((b0 i).addCollider i s0 exMatR).1, [(0, ⟨0, .make s0, exMatR⟩), (1, ⟨1, .make s0, exMatR⟩)], fun i => [p i], fun b hb => ⟨k2 b, ⟨[p b], ?_, .refl _⟩, by simp⟩,
    fun b => ⟨hmass b, hI b, k5 b, ?_, k4 b, ?_⟩⟩
  · rcases hb with rfl | rfl
    · exact .take (k3 0) (.skip (by norm_num) ⟨_, k3 1⟩ .nil)
    · exact .skip (by norm_num) ⟨_, k3 0⟩ (.take (k3 1) .nil)
  · show ((b0 b).addCollider b s0 exMatR).1.asleep = false
    rw [k1]; rfl
  · show ((b0 b).addCollider b s0 exMatR).1.position.centroid = _
    rw [Position.centroid_sum, k6, hcent]
    ext <;> simp [b0, Position.setLocalCentroid, Body.make, Body.update, Position.make]

/-- The world of the two squares. -/
theorem fly_launched : ∃ (B : Nat → Body ℝ) (tree : List (Nat × Collider ℝ)), Launched libCfg tree [0, 1] (fun _ => true) {0, 1} (flyMotion B) ∧
    (flyLib B).Firm libCfg [0, 1] (flyMotion B).s ∧ (∀ l, ((flyLib B).bodies l).masses = ⟨1 / 4, 3 / 8, 1 / 4, 3 / 8⟩) ∧
    ∀ b, (B b).mass = 4 ∧ (B b).inertia = 8 / 3 ∧ (B b).dominance = 1 ∧ (B b).asleep = false ∧ (B b).velocity = (if b = 0 then ⟨3, 1⟩ else 0) ∧ (B b).centroid = ⟨2 * b, 0⟩ := by
  obtain ⟨B, tree, ps, hw, hB⟩ := flyBodies
  have hmass : ∀ l, ((flyLib B).bodies l).masses = ⟨1 / 4, 3 / 8, 1 / 4, 3 / 8⟩ := fun l => by
    simp [flyLib, Bodies.make, Body.invMass, Body.invInertia, (hB _).1, (hB _).2.1, (hB _).2.2.1]
  have hnn : (⟨1 / 4, 3 / 8, 1 / 4, 3 / 8⟩ : InvMasses ℝ).Nonneg := by constructor <;> norm_num
  have free : ∀ l, ((flyLib B).net libCfg).structuralIn l (((flyLib B).net libCfg).ends l).1 = false := by
    intro l
    show (match ((flyLib B).bodies l).isBodyStructural ((flyLib B).bodies l).i0 with | .ok r => r | _ => false) = false
    unfold Bodies.isBodyStructural
    rw [if_pos rfl, hmass]
    simp
  have hf : (flyLib B).Firm libCfg [0, 1] (flyMotion B).s := by
    intro b _ l _
    rw [hmass]
    exact ⟨hnn, (C73_effective sqrt_lawful hnn).2.1 _ _ (Or.inl (by norm_num)), fun r => le_of_eq (Mat.at_zero r).symm⟩
  have hl : Launched libCfg tree [0, 1] (fun _ => true) {0, 1} (flyMotion B) := by
    refine ⟨⟨fun b _ l h => ?_, fun b _ l h => ?_, fun b _ l h => ?_, fun b _ l h => Or.inl (free l)⟩, ?_, ?_, by decide, ?_, ?_, fun b _ => (hB b).2.2.2.1, fun b _ => ?_, ?_⟩
    · obtain ⟨hb, rfl⟩ := fly_links B b l h
      exact hb
    · obtain ⟨-, rfl⟩ := fly_links B b l h
      simp [Library.net, flyLib, Bodies.make]
    · obtain ⟨-, rfl⟩ := fly_links B b l h
      simp [Library.net, flyLib, Bodies.make, linksOf]
    · exact fun l => ⟨none, rfl, by show (B _).mass ≠ 0; rw [(hB _).1]; norm_num, by show (B _).mass ≠ 0; rw [(hB _).1]; norm_num, by simp⟩
    · intro l _
      show OppositeLinear (Mat.zero : Mat ℝ 2 6)
      exact fun r => by simp [Mat.get_zero]
    · intro b _ l h _
      obtain ⟨-, rfl⟩ := fly_links B b l h
      simp [Library.net, flyLib, Bodies.make]
    · intro b _ l h _
      obtain ⟨-, rfl⟩ := fly_links B b l h
      refine ⟨by simp [flyLib, Bodies.make], (C72_kinds B _ ⟨1, 0⟩ 0 0).1, ?_⟩
      rw [hmass]
      simp [flyLib, Bodies.make, flyMotion, (hB _).1, (hB _).2.1]
    · show (B b).dominance ≠ 0
      rw [(hB b).2.2.1]; norm_num
    · intro b hb
      exact ⟨ps b, hw b (by simpa using hb)⟩
  exact ⟨B, tree, hl, hf, hmass, hB⟩

/-- C76: the two squares fly for ever, and whatever their common hinge does their centre of mass is at `(1, 0) + n / 60 (3/2, 1/2) - (0, n (n + 1) / 720)` after `n` steps. -/
example : ∃ (B : Nat → Body ℝ) (tree : List (Nat × Collider ℝ)), Launched libCfg tree [0, 1] (fun _ => true) {0, 1} (flyMotion B) ∧
    (flyLib B).Firm libCfg [0, 1] (flyMotion B).s ∧
    ∀ n : Nat, ∃ B', Flight {0, 1} (1 / 60) ⟨0, -10⟩ n B B' ∧
      (4 : ℝ) • (B' 0).velocity + (4 : ℝ) • (B' 1).velocity = ⟨12, 4 - 4 / 3 * n⟩ ∧
      (4 : ℝ) • (B' 0).centroid + (4 : ℝ) • (B' 1).centroid = ⟨8 + n / 5, n / 15 - n * (n + 1) / 90⟩ := by
  obtain ⟨B, tree, hl, hf, -, hB⟩ := fly_launched
  refine ⟨B, tree, hl, hf, fun n => ?_⟩
  obtain ⟨B', h⟩ := C76_for_ever hl ⟨0, by simp⟩ sqrt_lawful hf ⟨8, 2, true⟩ (sl := ⟨false, 1, 1, 1⟩) rfl (fuel := 5) (by decide) ⟨0, -10⟩ n
  refine ⟨B', h, ?_⟩
  obtain ⟨-, h1, h2⟩ := C76_parabola h
  have e : ∀ f : Nat → Vec2 ℝ, ∑ b ∈ ({0, 1} : Finset Nat), ((flyMotion B).body b).mass • f b = (4 : ℝ) • f 0 + (4 : ℝ) • f 1 := fun f => by
    rw [sum_insert (by simp), sum_singleton]
    show (B 0).mass • _ + (B 1).mass • _ = _
    rw [(hB 0).1, (hB 1).1]
  have em : ∑ b ∈ ({0, 1} : Finset Nat), ((flyMotion B).body b).mass = 8 := by
    rw [sum_insert (by simp), sum_singleton]
    show (B 0).mass + (B 1).mass = _
    rw [(hB 0).1, (hB 1).1]; norm_num
  have v0 : ((flyMotion B).body 0).velocity = ⟨3, 1⟩ := by show (B 0).velocity = _; rw [(hB 0).2.2.2.2.1]; simp
  have v1 : ((flyMotion B).body 1).velocity = 0 := by show (B 1).velocity = _; rw [(hB 1).2.2.2.2.1]; simp
  have c0 : ((flyMotion B).body 0).centroid = ⟨0, 0⟩ := by show (B 0).centroid = _; rw [(hB 0).2.2.2.2.2]; simp
  have c1 : ((flyMotion B).body 1).centroid = ⟨2, 0⟩ := by show (B 1).centroid = _; rw [(hB 1).2.2.2.2.2]; simp
  rw [e, e, em, v0, v1] at h1
  rw [e, e, e, em, v0, v1, c0, c1] at h2
  rw [h1, h2]
  constructor
  · ext <;> simp [libCfg] <;> ring
  · ext <;> simp [libCfg] <;> ring

/-- C76: without the hinge the first square alone: after `n` steps it is at `n / 60 (3, 1) - (0, n (n + 1) / 720)` and has not turned. -/
example : ∃ B : Nat → Body ℝ, ∀ n : Nat, ∃ B', Flight {0} (1 / 60) ⟨0, -10⟩ n B B' ∧ (B' 0).centroid = ⟨n / 20, n / 60 - n * (n + 1) / 720⟩ ∧ (B' 0).angular = (B 0).angular := by
  obtain ⟨B, tree, ps, hw, hB⟩ := flyBodies
  let L : Library ℝ := { flyLib B with joints := fun _ => [] }
  let m : Motion L := ⟨B, fun _ => 0, (flyMotion B).s⟩
  have none : ∀ b l, l ∉ linksOf (L.net libCfg) b := fun b l h => by simp [linksOf, L, Library.net, flyLib] at h
  have hl : Launched libCfg tree [0, 1] (fun _ => true) {0} m := by
    refine ⟨⟨fun b _ l h => absurd h (none b l), fun b _ l h => absurd h (none b l), fun b _ l h => absurd h (none b l), fun b _ l h => absurd h (none b l)⟩, ?_, ?_, by decide,
      fun b _ l h => absurd h (none b l), fun b _ l h => absurd h (none b l), fun b _ => (hB b).2.2.2.1, fun b _ => ?_, fun b hb => ⟨ps b, hw b (Or.inl (by simpa using hb))⟩⟩
    · exact fun l => ⟨.none, rfl, by show (B _).mass ≠ 0; rw [(hB _).1]; norm_num, by show (B _).mass ≠ 0; rw [(hB _).1]; norm_num, by simp⟩
    · intro l _
      show OppositeLinear (Mat.zero : Mat ℝ 2 6)
      exact fun r => by simp [Mat.get_zero]
    · show (B b).dominance ≠ 0
      rw [(hB b).2.2.1]; norm_num
  refine ⟨B, fun n => ?_⟩
  obtain ⟨B', h⟩ := C76_for_ever hl ⟨0, by simp⟩ sqrt_lawful (fun b _ l h => absurd h (none b l)) ⟨8, 2, true⟩ (sl := ⟨false, 1, 1, 1⟩) rfl (fuel := 5) (by decide) ⟨0, -10⟩ n
  obtain ⟨-, h2, h3, -⟩ := C76_fall h (by show (B 0).mass ≠ 0; rw [(hB 0).1]; norm_num)
  refine ⟨B', h, ?_, h3⟩
  rw [h2]
  have v0 : (m.body 0).velocity = ⟨3, 1⟩ := by show (B 0).velocity = _; rw [(hB 0).2.2.2.2.1]; simp
  have c0 : (m.body 0).centroid = ⟨0, 0⟩ := by show (B 0).centroid = _; rw [(hB 0).2.2.2.2.2]; simp
  rw [v0, c0]
  ext <;> simp [libCfg] <;> ring

end
end Simu
