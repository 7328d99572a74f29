import Verif.Lemmas.Tumbler
import Mathlib.Topology.Order.IntermediateValue
import Mathlib.Topology.Order.Lattice
/-
C108: the tumbler is closed, and fills up to its limit.
-/
namespace Simu
namespace Tumbler
open Demos

/-- C108: the drum can be made. It has the mass and the inertia of its walls about their common centre, which is at the origin, and does not move. It covers just its four walls, wherever it is
placed. -/
theorem C108_drum : ∃ b, drum = .ok b ∧ b.mass = 400 ∧ b.inertia = 160100 / 3 ∧ b.centroid = 0 ∧ b.velocity = 0 ∧ b.angular = 0 ∧ b.dominance = 0 ∧
    (∀ x, Covers b x ↔ OnWall x) ∧
    ∀ q : Position ℝ, q.orient.Reachable → ∀ x, Covers ({ b with position := q } : Body ℝ).update (q.toWorldSpace.app x) ↔ OnWall x := by
  obtain ⟨b, h1, h2, h3, h4, h5, h6, ⟨o, h7⟩, vs, h8, h9⟩ := addWalls_ok walls (by simp [walls]) (b := Body.born 0 0 0) (ps := [])
    ⟨⟨.nil, rfl⟩, fun h => absurd rfl h, .ofAngle _, rfl⟩ (Body.update_synced _) 0
  have hc := h2.colliders.isCombination
  have hm : b.mass = 400 := by
    have := hc.mass
    simp only [walls, totalMass, List.map_cons, List.map_nil, List.nil_append, List.sum_cons, List.sum_nil] at this
    show b.colliders.properties.m = _
    rw [this]; norm_num
  have hx := hc.momentX
  have hy := hc.momentY
  have hI := hc.inertia
  have hm' : b.colliders.properties.m = 400 := hm
  simp only [walls, firstMomentX, firstMomentY, inertiaAbout, List.map_cons, List.map_nil, List.nil_append, List.sum_cons, List.sum_nil, hm', Vec2.neg_x, Vec2.neg_y] at hx hy hI
  have ex : b.colliders.properties.centroid.x = 0 := by linarith
  have ey : b.colliders.properties.centroid.y = 0 := by linarith
  rw [ex, ey] at hI
  have happ : ∀ x, b.position.toWorldSpace.app x = x := fun x => by
    rw [h7]
    show ((Position.make (0 : Vec2 ℝ) 0 0).setLocalCentroid o).toWorldSpace.app x = x
    rw [app_flat, add_zero]
  have hcov : ∀ q : Position ℝ, q.orient.Reachable → ∀ x, Covers ({ b with position := q } : Body ℝ).update (q.toWorldSpace.app x) ↔ OnWall x := by
    intro q hq x
    have inj : ∀ y, q.toWorldSpace.app y = q.toWorldSpace.app x → y = x := fun y h => by
      rw [← (C27_inverse hq y).1, h, (C27_inverse hq x).1]
    have e1 : Covers ({ b with position := q } : Body ℝ).update (q.toWorldSpace.app x) ↔ ∃ v ∈ vs, Hull v x := by
      have hvs : b.colliders.list.map (fun c => c.geom.localVerts) = vs := by rw [h8]; rfl
      constructor
      · rintro ⟨c, hcm, hh⟩
        simp only [Body.update, Colliders.update, List.mem_map] at hcm
        obtain ⟨d, hd, rfl⟩ := hcm
        obtain ⟨y, hy', e⟩ := (hull_app q.toWorldSpace d.geom.localVerts _).1 hh
        obtain rfl := inj y e
        exact ⟨_, by rw [← hvs]; exact List.mem_map_of_mem hd, hy'⟩
      · rintro ⟨v, hv, hh⟩
        rw [← hvs, List.mem_map] at hv
        obtain ⟨d, hd, rfl⟩ := hv
        refine ⟨{ d with geom := d.geom.update q.toWorldSpace.app }, ?_, ?_⟩
        · simp only [Body.update, Colliders.update, List.mem_map]
          exact ⟨d, hd, rfl⟩
        · exact (hull_app q.toWorldSpace d.geom.localVerts _).2 ⟨x, hh, rfl⟩
    rw [e1]
    simp only [walls] at h9
    obtain ⟨v1, t1, ⟨P1, p1, rfl⟩, r1, rfl⟩ := List.forall₂_cons_left_iff.1 h9
    obtain ⟨v2, t2, ⟨P2, p2, rfl⟩, r2, rfl⟩ := List.forall₂_cons_left_iff.1 r1
    obtain ⟨v3, t3, ⟨P3, p3, rfl⟩, r3, rfl⟩ := List.forall₂_cons_left_iff.1 r2
    obtain ⟨v4, t4, ⟨P4, p4, rfl⟩, r4, rfl⟩ := List.forall₂_cons_left_iff.1 r3
    obtain rfl := List.forall₂_nil_left_iff.1 r4
    have q1 := hull_boxAt (by norm_num) (by norm_num) p1 x
    have q2 := hull_boxAt (by norm_num) (by norm_num) p2 x
    have q3 := hull_boxAt (by norm_num) (by norm_num) p3 x
    have q4 := hull_boxAt (by norm_num) (by norm_num) p4 x
    norm_num at q1 q2 q3 q4
    simp only [List.mem_cons, List.not_mem_nil, or_false, exists_eq_or_imp, exists_eq_left, q1, q2, q3, q4]
    unfold OnWall
    norm_num
  refine ⟨b, h1, hm, ?_, ?_, h4, h5, h6, fun x => ?_, hcov⟩
  · show b.colliders.properties.I = _
    rw [hI]; norm_num
  · show b.position.centroid = 0
    unfold Position.centroid
    rw [happ, h2.centroid (by simp [walls])]
    ext
    · exact ex
    · exact ey
  · have hb : ({ b with position := b.position } : Body ℝ).update.colliders.list = b.colliders.list := by
      simp only [Body.update, Colliders.update]
      conv_rhs => rw [← List.map_id b.colliders.list]
      refine List.map_congr_left fun c hcm => ?_
      obtain ⟨s1, s2⟩ := h3 c hcm
      obtain ⟨i, g, m⟩ := c
      obtain ⟨lv, tr, bx⟩ := g
      simp only [ColliderGeom.update, id] at s1 s2 ⊢
      rw [s1, s2, s1]
    have := hcov b.position h2.orient x
    rw [happ] at this
    rw [← this]
    unfold Covers
    rw [hb]

/-- C108: nothing gets out of the drum without passing through a wall, while it turns and moves in any way. `x` and `y` are coordinates of the drum, `q` its positions. Inside there is room for
19 by 19. -/
theorem C108_closed {b : Body ℝ} (hb : drum = .ok b) (q : ℝ → Position ℝ) (hq : ∀ t, (q t).orient.Reachable) (x y : ℝ → ℝ) (hx : ContinuousOn x (Set.Icc 0 1)) (hy : ContinuousOn y (Set.Icc 0 1))
    (h0 : |x 0| < 19 / 2 ∧ |y 0| < 19 / 2) :
    ¬ Covers ({ b with position := q 0 } : Body ℝ).update ((q 0).toWorldSpace.app ⟨x 0, y 0⟩) ∧
    ((19 / 2 < |x 1| ∨ 19 / 2 < |y 1|) → ∃ t ∈ Set.Icc (0 : ℝ) 1, Covers ({ b with position := q t } : Body ℝ).update ((q t).toWorldSpace.app ⟨x t, y t⟩)) := by
  obtain ⟨b', e, -, -, -, -, -, -, -, hc⟩ := C108_drum
  obtain rfl : b = b' := Outcome.ok.inj (hb.symm.trans e)
  constructor
  · rw [hc _ (hq 0)]
    obtain ⟨h1, h2⟩ := h0
    rw [abs_lt] at h1 h2
    rintro (⟨-, h⟩ | ⟨-, h⟩ | ⟨h, -⟩ | ⟨h, -⟩) <;> rw [abs_le] at h <;> dsimp only at h <;> linarith [h.1, h.2, h1.1, h1.2, h2.1, h2.2]
  · intro h1
    have hf : ContinuousOn (fun t => max |x t| |y t|) (Set.Icc 0 1) := continuous_max.comp_continuousOn (hx.abs.prodMk hy.abs)
    have hlow : max |x 0| |y 0| ≤ min (max |x 1| |y 1|) 10 := by
      have : max |x 0| |y 0| < 19 / 2 := max_lt h0.1 h0.2
      refine le_min (this.le.trans ?_) (by linarith)
      rcases h1 with h | h
      · exact h.le.trans (le_max_left _ _)
      · exact h.le.trans (le_max_right _ _)
    obtain ⟨t, ht, e⟩ := intermediate_value_Icc zero_le_one hf ⟨hlow, min_le_left _ _⟩
    refine ⟨t, ht, (hc _ (hq t) _).2 ?_⟩
    dsimp only at e
    have hhigh : max |x t| |y t| ≤ 10 := e ▸ min_le_right _ _
    have hbig : 19 / 2 < max |x t| |y t| := by
      rw [e]
      refine lt_min ?_ (by norm_num)
      rcases h1 with h | h
      · exact h.trans_le (le_max_left _ _)
      · exact h.trans_le (le_max_right _ _)
    have hxt := (le_max_left _ _).trans hhigh
    have hyt := (le_max_right _ _).trans hhigh
    have hxt' := abs_le.1 hxt
    have hyt' := abs_le.1 hyt
    rcases lt_max_iff.1 hbig with h | h
    · rcases lt_abs.1 h with h | h
      · exact Or.inr (Or.inr (Or.inl ⟨abs_le.2 ⟨by dsimp only; linarith, by dsimp only; linarith⟩, hyt⟩))
      · exact Or.inr (Or.inr (Or.inr ⟨abs_le.2 ⟨by dsimp only; linarith, by dsimp only; linarith⟩, hyt⟩))
    · rcases lt_abs.1 h with h | h
      · exact Or.inl ⟨hxt, abs_le.2 ⟨by dsimp only; linarith, by dsimp only; linarith⟩⟩
      · exact Or.inr (Or.inl ⟨hxt, abs_le.2 ⟨by dsimp only; linarith, by dsimp only; linarith⟩⟩)

/-- A corner of the inside is in no wall; on the way out along the diagonal, while the drum turns, there is a wall. -/
example {b : Body ℝ} (hb : drum = .ok b) : ∃ t ∈ Set.Icc (0 : ℝ) 1, Covers ({ b with position := .make 0 (5 * t) 0 } : Body ℝ).update ((Position.make 0 (5 * t) 0).toWorldSpace.app ⟨30 * t, 30 * t⟩) :=
  (C108_closed hb (fun t => .make 0 (5 * t) 0) (fun _ => .ofAngle _) (fun t => 30 * t) (fun t => 30 * t) (by fun_prop) (by fun_prop) (by norm_num)).2 (by norm_num)

theorem box_fresh (id : Nat) : ∃ b, box.make id = .ok b ∧ FreshBox b := by
  obtain ⟨P, vs, h1, h2, h3, h4, -⟩ := box_around (dims := ⟨1 / 4, 1 / 4⟩) 0 (by norm_num) (by norm_num)
  obtain ⟨b, c, k1, k2, k3, k4, -, k6, k7, k8, k9⟩ := make_valid box vs P h1 h2 h3 (by norm_num [box, material]) id
  have happ : ∀ x, b.position.toWorldSpace.app x = x := fun x => by
    rw [k8]
    show ((Position.make (0 : Vec2 ℝ) 0 0).setLocalCentroid _).toWorldSpace.app x = x
    rw [app_flat, add_zero]
  have hm : b.mass = 1 / 16 := by
    obtain ⟨hv, hpr⟩ := box_properties (dims := ⟨1 / 4, 1 / 4⟩) (by norm_num) (by norm_num) h1 (m := box.material) (by norm_num [box, material]) id
    obtain ⟨p, a1, a2, a3, -⟩ := Body.addCollider_ok (b := Body.born box.position box.orientation box.dominance) (ps := []) ⟨⟨.nil, rfl⟩, fun h => absurd rfl h, .ofAngle _, rfl⟩ id hv
    have hp := Outcome.ok.inj (a3.1.symm.trans hpr)
    have e : box.make id = .ok ((Body.born box.position box.orientation box.dominance).addCollider id P.vertices box.material).1 := by
      have h1' : box.polygon = .ok P := h1
      simp only [Piece.make, h1', Outcome.bind, a1]
      rfl
    obtain rfl := Outcome.ok.inj (k1.symm.trans e)
    have := a2.colliders.isCombination.mass
    simp only [hp, totalMass, List.nil_append, List.map_cons, List.map_nil, List.sum_cons, List.sum_nil] at this
    rw [Body.mass, this]
    norm_num [box, material]
  refine ⟨b, k1, hm, ?_, k2, k3, k4, c, k6, fun p => ?_⟩
  · show b.position.centroid = 0
    unfold Position.centroid
    rw [happ, k9, h4]
  · rw [k7, show P.vertices.map b.position.toWorldSpace.app = P.vertices from (List.map_congr_left fun x _ => happ x).trans (List.map_id _), hull_boxAt (by norm_num) (by norm_num) h1]
    norm_num

/-- What is known of the scene between resets. -/
def Good (s : State) : Prop := (∃ d, s.drum = some d ∧ drum = .ok d) ∧ (∀ b ∈ s.boxes, FreshBox b) ∧ s.count = s.boxes.length

theorem postStep_good {s : State} (h : Good s) : ∃ s', s.postStep = .ok s' ∧ Good s' ∧ s'.maxCount = s.maxCount ∧ s'.isPaused = s.isPaused ∧
    s'.boxes.length = if s.isPaused = false ∧ (s.boxes.length : Int) < s.maxCount then s.boxes.length + 1 else s.boxes.length := by
  unfold State.postStep
  cases hp : s.isPaused with
  | true => exact ⟨s, rfl, h, rfl, hp, by simp⟩
  | false =>
    simp only [Bool.false_eq_true, if_false]
    by_cases hc : s.count < s.maxCount
    · obtain ⟨b, e, hb⟩ := box_fresh (4 + s.boxes.length)
      rw [if_pos hc, e]
      refine ⟨_, rfl, ⟨h.1, ?_, ?_⟩, rfl, rfl, ?_⟩
      · intro b' hb'
        rcases List.mem_append.1 hb' with h' | h'
        · exact h.2.1 b' h'
        · rw [List.mem_singleton.1 h']; exact hb
      · show s.count + 1 = _
        rw [h.2.2]; simp
      · rw [h.2.2] at hc
        simp [hc]
    · rw [if_neg hc]
      rw [h.2.2] at hc
      exact ⟨s, rfl, h, rfl, hp, by simp [hc]⟩

theorem run_good {s : State} (h : Good s) (acts : List Act) (hr : .reset ∉ acts) : ∃ s', s.run acts = .ok s' ∧ Good s' ∧ s.boxes.length ≤ s'.boxes.length ∧
    s'.boxes.length ≤ s.boxes.length + (running s.isPaused s.maxCount acts).length ∧
    (∀ m : Int, (∀ l ∈ running s.isPaused s.maxCount acts, l ≤ m) → (s.boxes.length : Int) ≤ m → (s'.boxes.length : Int) ≤ m) ∧
    (∀ m : Int, (∀ l ∈ running s.isPaused s.maxCount acts, m ≤ l) → min (s.boxes.length + (running s.isPaused s.maxCount acts).length : Int) m ≤ s'.boxes.length) := by
  induction acts generalizing s with
  | nil => exact ⟨s, rfl, h, le_rfl, by simp [running], fun _ _ hm => hm, fun _ _ => by simp [running]⟩
  | cons a acts ih =>
    have hr' : .reset ∉ acts := fun hm => hr (List.mem_cons_of_mem _ hm)
    cases a with
    | reset => exact absurd List.mem_cons_self hr
    | limit n => exact ih (s := { s with maxCount := n }) h hr'
    | pause on => exact ih (s := { s with isPaused := on }) h hr'
    | step =>
      obtain ⟨s1, e, g, m1, p1, l1⟩ := postStep_good h
      obtain ⟨s', i1, i2, i3, i4, i5, i6⟩ := ih g hr'
      have hrun : s.run (.step :: acts) = .ok s' := by
        simp only [State.run, State.act, e, Outcome.bind, i1]
      rw [m1, p1] at i4 i5 i6
      refine ⟨s', hrun, i2, ?_⟩
      cases hp : s.isPaused with
      | true =>
        rw [hp] at i4 i5 i6
        have l1 : s1.boxes.length = s.boxes.length := by rw [l1, hp]; simp
        rw [l1] at i3 i4 i5 i6
        simp only [running, if_true]
        exact ⟨i3, i4, i5, i6⟩
      | false =>
        rw [hp] at i4 i5 i6
        simp only [running, Bool.false_eq_true, if_false, List.length_cons, List.mem_cons, forall_eq_or_imp]
        by_cases hc : (s.boxes.length : Int) < s.maxCount
        · have l1 : s1.boxes.length = s.boxes.length + 1 := by rw [l1, if_pos ⟨hp, hc⟩]
          rw [l1] at i3 i4 i5 i6
          refine ⟨by omega, by omega, fun m hm hb => i5 m hm.2 (by push_cast; linarith [hm.1]), fun m hm => ?_⟩
          have := i6 m hm.2
          push_cast at this ⊢
          rw [add_assoc, add_comm 1] at this
          exact this
        · have l1 : s1.boxes.length = s.boxes.length := by rw [l1, if_neg (fun h => hc h.2)]
          rw [l1] at i3 i4 i5 i6
          refine ⟨i3, by omega, fun m hm hb => i5 m hm.2 hb, fun m hm => ?_⟩
          refine (min_le_right _ _).trans ?_
          have : (s.boxes.length : Int) ≤ s'.boxes.length := by exact_mod_cast i3
          linarith [hm.1, not_lt.1 hc]

/-- C108: after a reset the scene always works, whatever happens until the next one: there is the drum, and boxes that appear at rest in its middle. There are never more than steps that were not
paused, nor more than the highest limit in force during such steps, and boxes are not taken away. If the limit is always at least `m`, there are `m` boxes after `m` such steps. -/
theorem C108_boxes (s : State) (acts : List Act) (hr : .reset ∉ acts) : ∃ s', s.run (.reset :: acts) = .ok s' ∧ (∃ d, s'.drum = some d ∧ drum = .ok d) ∧ (∀ b ∈ s'.boxes, FreshBox b) ∧
    s'.boxes.length ≤ (running s.isPaused s.maxCount acts).length ∧
    (∀ m : Int, 0 ≤ m → (∀ l ∈ running s.isPaused s.maxCount acts, l ≤ m) → (s'.boxes.length : Int) ≤ m) ∧
    (∀ m : Int, (∀ l ∈ running s.isPaused s.maxCount acts, m ≤ l) → min ((running s.isPaused s.maxCount acts).length : Int) m ≤ s'.boxes.length) ∧
    ∀ as, .reset ∉ as → ∃ s'', s'.run as = .ok s'' ∧ s'.boxes.length ≤ s''.boxes.length := by
  obtain ⟨d, hd, -⟩ := C108_drum
  let s0 : State := { s with drum := some d, boxes := [], count := 0 }
  have e : s.reset = .ok s0 := by simp only [State.reset, hd, Outcome.bind]; rfl
  have g : Good s0 := ⟨⟨d, rfl, hd⟩, by simp [s0], rfl⟩
  obtain ⟨s', h1, h2, -, h4, h5, h6⟩ := run_good g acts hr
  refine ⟨s', by simp only [State.run, State.act, e, Outcome.bind, h1], h2.1, h2.2.1, ?_, fun m hm hl => h5 m hl hm, fun m hl => ?_, fun as has => ?_⟩
  · rw [show s0.boxes.length = 0 from rfl, zero_add] at h4
    exact h4
  · have := h6 m hl
    rw [show (s0.boxes.length : Int) = 0 from rfl, zero_add] at this
    exact this
  · obtain ⟨s'', k1, -, k3, -⟩ := run_good h2 as has
    exact ⟨s'', k1, k3⟩

/-- C108: with a limit that does not change, the number of boxes is the smaller one of the limit and the number of steps that were not paused. -/
theorem C108_fills (s : State) (n : Nat) (hp : s.isPaused = false) : ∃ s', s.run (.reset :: List.replicate n .step) = .ok s' ∧ (s'.boxes.length : Int) = min (n : Int) (max 0 s.maxCount) := by
  have hr : .reset ∉ List.replicate n Act.step := fun h => by cases List.eq_of_mem_replicate h
  obtain ⟨s', h1, -, -, h4, h5, h6, -⟩ := C108_boxes s _ hr
  have hrun : ∀ n, running false s.maxCount (List.replicate n .step) = List.replicate n s.maxCount := fun n => by
    induction n with
    | zero => rfl
    | succ n ih => simp only [List.replicate_succ, running, Bool.false_eq_true, if_false, ih]
  rw [hp, hrun] at h4 h5 h6
  rw [List.length_replicate] at h4 h6
  refine ⟨s', h1, ?_⟩
  have a := h5 (max 0 s.maxCount) (le_max_left _ _) (fun l hl => by rw [List.eq_of_mem_replicate hl]; exact le_max_right _ _)
  have b := h6 s.maxCount (fun l hl => by rw [List.eq_of_mem_replicate hl])
  omega

/-- With the initial limit: 100 boxes after 100 steps, 1500 after 10000. Steps that count, when the scene is paused for a step and the limit raised. -/
example : (∃ s', ({} : State).run (.reset :: List.replicate 100 .step) = .ok s' ∧ s'.boxes.length = 100) ∧ (∃ s', ({} : State).run (.reset :: List.replicate 10000 .step) = .ok s' ∧ s'.boxes.length = 1500) ∧
    running false 1 [.step, .pause true, .step, .limit 7, .pause false, .step, .step] = [1, 7, 7] := by
  refine ⟨?_, ?_, rfl⟩
  · obtain ⟨s', h, e⟩ := C108_fills {} 100 rfl
    refine ⟨s', h, ?_⟩
    norm_num at e
    exact_mod_cast e
  · obtain ⟨s', h, e⟩ := C108_fills {} 10000 rfl
    refine ⟨s', h, ?_⟩
    norm_num at e
    exact_mod_cast e

end Tumbler
end Simu
