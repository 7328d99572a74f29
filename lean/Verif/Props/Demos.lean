import Verif.Lemmas.Demos
/-
C89: the demonstration scenes start without bodies inside each other, for all settings.
-/
namespace Simu
namespace Demos

/-- The spawner of the model and that of C88 make the same boxes. -/
theorem spawned_eq (pos dims : Vec2 ℝ) (id : Nat) (world : List (Body ℝ)) (hx : 0 < dims.x) (hy : 0 < dims.y) :
    ∃ b, (spawned pos dims).make id = .ok b ∧ (Spawner.init : Spawner ℝ).makeBox pos (some dims) id world = (world ++ [b], .ok ()) := by
  obtain ⟨b, hb, _⟩ := fits_spawned pos dims hx hy id
  refine ⟨b, hb, ?_⟩
  obtain ⟨b', h', _⟩ := Spawner.C88_box (Spawner.init : Spawner ℝ) pos (some dims) id world dims rfl (mul_pos hx hy).ne' (by norm_num [Spawner.init])
  rw [h']
  have hm : (Spawner.init : Spawner ℝ).material = material 1 (1 / 2) 0 := by
    simp [Spawner.init, Spawner.material, material]
  obtain ⟨P, hP, _⟩ := Spawner.box_polygon (mul_pos hx hy).ne'
  have e1 : (spawned pos dims).make id = ((Body.born pos 0 1).addCollider id P.vertices (material 1 (1 / 2) 0)).2.bind fun _ =>
      .ok ((Body.born pos 0 1).addCollider id P.vertices (material 1 (1 / 2) 0)).1 := by
    simp only [Piece.make, spawned, hP, Outcome.bind]
  have e2 : (Spawner.init : Spawner ℝ).makeBox pos (some dims) id world =
      (world ++ [((Body.born pos 0 1).addCollider id P.vertices (material 1 (1 / 2) 0)).1], ((Body.born pos 0 1).addCollider id P.vertices (material 1 (1 / 2) 0)).2) := by
    simp only [Spawner.makeBox, Option.getD_some, hP, hm]
    rfl
  rw [h'] at e2
  rw [hb] at e1
  obtain ⟨f1, f2⟩ := Prod.mk.inj e2
  rw [← f2] at e1
  simp only [Outcome.bind, Outcome.ok.injEq] at e1
  rw [f1, e1]

/-- What holds of a scene at its start: there are as many bodies as pieces, each of positive mass and with one collider, and with the velocity it was given; none overlaps another one. -/
def Started (ps : List Piece) (bs : List (Body ℝ)) : Prop :=
  bs.length = ps.length ∧ bs.Pairwise NoOverlap ∧
    List.Forall₂ (fun (p : Piece) (b : Body ℝ) => b.velocity = p.velocity.getD 0 ∧ b.angular = 0 ∧ b.dominance = p.dominance ∧ 0 < b.mass ∧ b.colliders.list.length = 1) ps bs

theorem started {ps : List Piece} (hfit : ∀ p ∈ ps, ∃ l r d u, Fits p l r d u)
    (h : ps.Pairwise fun p q => ∃ l r d u l' r' d' u', Fits p l r d u ∧ Fits q l' r' d' u' ∧ (r ≤ l' ∨ r' ≤ l ∨ u ≤ d' ∨ u' ≤ d)) : ∃ bs, build 0 ps = .ok bs ∧ Started ps bs := by
  obtain ⟨bs, h1, h2, h3⟩ := build_apart hfit h 0
  refine ⟨bs, h1, h2.length_eq.symm, h3, ?_⟩
  clear h h1 h3
  induction h2 with
  | nil => exact .nil
  | cons hx _ ih =>
    refine .cons ?_ (ih fun p hp => hfit p (List.mem_cons_of_mem _ hp))
    obtain ⟨k, hk⟩ := hx
    obtain ⟨l, r, d, u, hf⟩ := hfit _ List.mem_cons_self
    obtain ⟨b', e, _, a⟩ := hf k
    rw [hk] at e
    rw [Outcome.ok.inj e]
    exact a

/-- C89: `BoxStacks`, for any number of stacks and any height. -/
theorem C89_stacks (nStacks height : Nat) : ∃ bs, build 0 (boxStacks nStacks height) = .ok bs ∧ Started (boxStacks nStacks height) bs ∧ bs.length = nStacks * height + 1 := by
  have key : ∃ bs, build 0 (boxStacks nStacks height) = .ok bs ∧ Started (boxStacks nStacks height) bs := by
    have f2 : ∀ pos : Vec2 ℝ, Fits (spawned pos ⟨2, 2⟩) (pos.x - 2 / 2) (pos.x + 2 / 2) (pos.y - 2 / 2) (pos.y + 2 / 2) := fun pos => fits_spawned pos ⟨2, 2⟩ (by norm_num) (by norm_num)
    have fg := fits_ground ⟨(nStacks * 2 + 4) * 2 + 2 * height * 2, 20⟩ ⟨0, -20 / 2 - 1⟩ (by dsimp only; positivity) (by norm_num)
    refine started ?_ ?_
    · intro p hp
      simp only [boxStacks, List.mem_append, List.mem_flatMap, List.mem_map, List.mem_singleton] at hp
      rcases hp with ⟨i, _, j, _, rfl⟩ | rfl
      · exact ⟨_, _, _, _, f2 _⟩
      · exact ⟨_, _, _, _, fg⟩
    · unfold boxStacks
      dsimp only
      rw [List.pairwise_append]
      refine ⟨?_, List.pairwise_singleton _ _, ?_⟩
      · rw [List.pairwise_flatMap]
        refine ⟨fun i _ => ?_, ?_⟩
        · rw [List.pairwise_map]
          refine List.pairwise_lt_range.imp fun {j k} hjk => ⟨_, _, _, _, _, _, _, _, f2 _, f2 _, Or.inr (Or.inr (Or.inl ?_))⟩
          have : (j : ℝ) + 1 ≤ k := by exact_mod_cast hjk
          dsimp only
          linarith
        · refine List.pairwise_lt_range.imp fun {i i'} hii p hp q hq => ?_
          rw [List.mem_map] at hp hq
          obtain ⟨j, _, rfl⟩ := hp
          obtain ⟨k, _, rfl⟩ := hq
          refine ⟨_, _, _, _, _, _, _, _, f2 _, f2 _, Or.inl ?_⟩
          have : (i : ℝ) + 1 ≤ i' := by exact_mod_cast hii
          dsimp only
          linarith
      · intro p hp q hq
        rw [List.mem_singleton] at hq
        subst hq
        simp only [List.mem_flatMap, List.mem_map] at hp
        obtain ⟨i, _, j, _, rfl⟩ := hp
        refine ⟨_, _, _, _, _, _, _, _, f2 _, fg, Or.inr (Or.inr (Or.inr ?_))⟩
        have : (0 : ℝ) ≤ j := Nat.cast_nonneg j
        dsimp only
        linarith
  obtain ⟨bs, h1, h2⟩ := key
  refine ⟨bs, h1, h2, h2.1.trans ?_⟩
  simp [boxStacks, List.length_flatMap]

/-- The initial settings of the demonstration: ten stacks of ten boxes. -/
example : ∃ bs, build 0 (boxStacks 10 10) = .ok bs ∧ bs.Pairwise NoOverlap ∧ bs.length = 101 := by
  obtain ⟨bs, h1, h2, h3⟩ := C89_stacks 10 10
  exact ⟨bs, h1, h2.2.1, h3⟩

/-- C89: `Pyramid`, for any height and any spacing that the slider allows. -/
theorem C89_pyramid (height : Nat) (spacing : ℝ) (hs : 0 ≤ spacing) : ∃ bs, build 0 (pyramid height spacing) = .ok bs ∧ Started (pyramid height spacing) bs := by
  have f2 : ∀ pos : Vec2 ℝ, Fits (spawned pos ⟨2, 2⟩) (pos.x - 2 / 2) (pos.x + 2 / 2) (pos.y - 2 / 2) (pos.y + 2 / 2) := fun pos => fits_spawned pos ⟨2, 2⟩ (by norm_num) (by norm_num)
  have fg := fits_ground ⟨400, 20⟩ ⟨0, -11⟩ (by norm_num) (by norm_num)
  refine started ?_ ?_
  · intro p hp
    simp only [pyramid, List.mem_cons, List.mem_flatMap, List.mem_map] at hp
    rcases hp with rfl | ⟨i, _, j, _, rfl⟩
    · exact ⟨_, _, _, _, fg⟩
    · exact ⟨_, _, _, _, f2 _⟩
  · unfold pyramid
    dsimp only
    rw [List.pairwise_cons]
    refine ⟨?_, ?_⟩
    · intro p hp
      simp only [List.mem_flatMap, List.mem_map] at hp
      obtain ⟨y, _, x, _, rfl⟩ := hp
      refine ⟨_, _, _, _, _, _, _, _, fg, f2 _, Or.inr (Or.inr (Or.inl ?_))⟩
      have : (0 : ℝ) ≤ (2 + spacing) * y := by positivity
      dsimp only
      linarith
    · rw [List.pairwise_flatMap]
      refine ⟨fun y _ => ?_, ?_⟩
      · rw [List.pairwise_map]
        refine List.pairwise_lt_range.imp fun {j k} hjk => ⟨_, _, _, _, _, _, _, _, f2 _, f2 _, Or.inl ?_⟩
        have : (j : ℝ) + 1 ≤ k := by exact_mod_cast hjk
        dsimp only
        nlinarith
      · refine List.pairwise_lt_range.imp fun {i i'} hii p hp q hq => ?_
        rw [List.mem_map] at hp hq
        obtain ⟨j, _, rfl⟩ := hp
        obtain ⟨k, _, rfl⟩ := hq
        refine ⟨_, _, _, _, _, _, _, _, f2 _, f2 _, Or.inr (Or.inr (Or.inl ?_))⟩
        have : (i : ℝ) + 1 ≤ i' := by exact_mod_cast hii
        dsimp only
        nlinarith

/-- The initial settings. -/
example : ∃ bs, build 0 (pyramid 60 (1 / 2)) = .ok bs ∧ bs.Pairwise NoOverlap := by
  obtain ⟨bs, h1, h2⟩ := C89_pyramid 60 (1 / 2) (by norm_num)
  exact ⟨bs, h1, h2.2.1⟩

/-- C89: `Tower`, for any height. -/
theorem C89_tower (height : Nat) : ∃ bs, build 0 (tower height) = .ok bs ∧ Started (tower height) bs ∧ bs.length = 3 * height + 1 := by
  have key : ∃ bs, build 0 (tower height) = .ok bs ∧ Started (tower height) bs := by
    have fg := fits_ground ⟨200, 20⟩ ⟨0, -10⟩ (by norm_num) (by norm_num)
    -- the rectangle in which the three slabs of a level are
    have hlevel : ∀ (y : Nat), ∀ p ∈ [slab ⟨-(5 : ℝ) / 2 + 1 / 2, 5 / 2 + y * (5 + 1)⟩ true, slab ⟨5 / 2 - 1 / 2, 5 / 2 + y * (5 + 1)⟩ true, slab ⟨0, (y + 1) * 5 + (y + 1 / 2) * 1⟩ false],
        ∃ l r d u, Fits p l r d u ∧ 6 * (y : ℝ) ≤ d ∧ u ≤ 6 * y + 6 := by
      intro y p hp
      simp only [List.mem_cons, List.not_mem_nil, or_false] at hp
      rcases hp with rfl | rfl | rfl
      · exact ⟨_, _, _, _, fits_slab_up _, by dsimp only; linarith, by dsimp only; linarith⟩
      · exact ⟨_, _, _, _, fits_slab_up _, by dsimp only; linarith, by dsimp only; linarith⟩
      · exact ⟨_, _, _, _, fits_slab_flat _, by dsimp only; linarith, by dsimp only; linarith⟩
    refine started ?_ ?_
    · intro p hp
      simp only [tower] at hp
      rcases List.mem_cons.1 hp with rfl | hp
      · exact ⟨_, _, _, _, fg⟩
      · obtain ⟨y, _, hp⟩ := List.mem_flatMap.1 hp
        obtain ⟨l, r, d, u, hf, _⟩ := hlevel y p hp
        exact ⟨l, r, d, u, hf⟩
    · unfold tower
      dsimp only
      rw [List.pairwise_cons]
      refine ⟨?_, ?_⟩
      · intro p hp
        obtain ⟨y, _, hp⟩ := List.mem_flatMap.1 hp
        obtain ⟨l, r, d, u, hf, hd, _⟩ := hlevel y p hp
        refine ⟨_, _, _, _, _, _, _, _, fg, hf, Or.inr (Or.inr (Or.inl ?_))⟩
        have : (0 : ℝ) ≤ y := Nat.cast_nonneg y
        dsimp only
        linarith
      · rw [List.pairwise_flatMap]
        refine ⟨fun y _ => ?_, ?_⟩
        · refine List.pairwise_cons.2 ⟨fun q hq => ?_, List.pairwise_cons.2 ⟨fun q hq => ?_, List.pairwise_singleton _ _⟩⟩
          · simp only [List.mem_cons, List.not_mem_nil, or_false] at hq
            rcases hq with rfl | rfl
            · exact ⟨_, _, _, _, _, _, _, _, fits_slab_up _, fits_slab_up _, Or.inl (by dsimp only; linarith)⟩
            · exact ⟨_, _, _, _, _, _, _, _, fits_slab_up _, fits_slab_flat _, Or.inr (Or.inr (Or.inl (by dsimp only; linarith)))⟩
          · rw [List.mem_singleton] at hq
            subst hq
            exact ⟨_, _, _, _, _, _, _, _, fits_slab_up _, fits_slab_flat _, Or.inr (Or.inr (Or.inl (by dsimp only; linarith)))⟩
        · refine List.pairwise_lt_range.imp fun {i i'} hii p hp q hq => ?_
          obtain ⟨l, r, d, u, hf, _, hu⟩ := hlevel i p hp
          obtain ⟨l', r', d', u', hf', hd', _⟩ := hlevel i' q hq
          refine ⟨l, r, d, u, l', r', d', u', hf, hf', Or.inr (Or.inr (Or.inl ?_))⟩
          have : (i : ℝ) + 1 ≤ i' := by exact_mod_cast hii
          linarith
  obtain ⟨bs, h1, h2⟩ := key
  refine ⟨bs, h1, h2, h2.1.trans ?_⟩
  simp [tower, List.length_flatMap]
  ring

example : ∃ bs, build 0 (tower 20) = .ok bs ∧ bs.Pairwise NoOverlap ∧ bs.length = 61 := by
  obtain ⟨bs, h1, h2, h3⟩ := C89_tower 20
  exact ⟨bs, h1, h2.2.1, h3⟩

/-- C89: `NewtonPendulum`, for any radius, length of the strings and precision; the strings are taut, of the right length, and, as there are at most ten balls, they hang from the bar. -/
theorem C89_pendulum (n : Nat) (hn : 1 ≤ n) (radius length : ℝ) (hr : 0 < radius) (hl : 0 ≤ length) (precision : Nat) (hp : 3 ≤ precision) (initialPush : Nat) :
    (∃ bs, build 0 (pendulum n radius length precision initialPush) = .ok bs ∧ Started (pendulum n radius length precision initialPush) bs ∧ bs.length = n + 1) ∧
    ∀ i < n, ((string n radius length i).1 - (string n radius length i).2).normSquared = length ^ 2 ∧ (string n radius length i).1 - ⟨ballX n radius i, 0⟩ = ⟨0, radius⟩ ∧
      (n ≤ 11 → -(n * radius) ≤ (string n radius length i).2.x ∧ (string n radius length i).2.x ≤ n * radius) := by
  have hn' : (1 : ℝ) ≤ n := by exact_mod_cast hn
  refine ⟨?_, fun i hi => ⟨?_, ?_, fun hn11 => ?_⟩⟩
  · have key : ∃ bs, build 0 (pendulum n radius length precision initialPush) = .ok bs ∧ Started (pendulum n radius length precision initialPush) bs := by
      obtain ⟨P, h1, h2, h3⟩ := circle_valid hr hp
      have fb : Fits { dominance := 0, polygon := Polygon.box ⟨n * radius * 2, 1⟩ ⟨0, radius + length + 1 / 2⟩, material := material 1 (1 / 2) 0 }
          (0 + 0 - n * radius * 2 / 2) (0 + 0 + n * radius * 2 / 2) (0 + (radius + length + 1 / 2) - 1 / 2) (0 + (radius + length + 1 / 2) + 1 / 2) :=
        fits_box _ ⟨n * radius * 2, 1⟩ ⟨0, radius + length + 1 / 2⟩ (by dsimp only; positivity) (by norm_num) rfl (by norm_num [material]) rfl
      have fball : ∀ i : Nat, Fits { position := ⟨ballX n radius i, 0⟩, polygon := Polygon.mk' (circle radius precision), material := material 10 (1 / 2) 1, velocity := if (n : ℤ) - initialPush ≤ i then some ⟨10, 0⟩ else none } (ballX n radius i - radius) (ballX n radius i + radius) (-radius) radius := by
        intro i
        refine fits_flat _ _ P h1 h1 h2 (by norm_num [material]) rfl fun v hv => ?_
        obtain ⟨⟨a1, a2⟩, a3, a4⟩ := h3 v hv
        dsimp only
        refine ⟨⟨?_, ?_⟩, ?_, ?_⟩ <;> linarith
      refine started ?_ ?_
      · intro p hp
        simp only [pendulum, List.mem_cons, List.mem_map] at hp
        rcases hp with rfl | ⟨i, _, rfl⟩
        · exact ⟨_, _, _, _, fb⟩
        · exact ⟨_, _, _, _, fball i⟩
      · unfold pendulum
        dsimp only
        rw [List.pairwise_cons, List.pairwise_map]
        refine ⟨fun p hp => ?_, ?_⟩
        · obtain ⟨i, _, rfl⟩ := List.mem_map.1 hp
          exact ⟨_, _, _, _, _, _, _, _, fb, fball i, Or.inr (Or.inr (Or.inr (by linarith)))⟩
        · refine List.pairwise_lt_range.imp fun {i i'} hii => ⟨_, _, _, _, _, _, _, _, fball i, fball i', Or.inl ?_⟩
          have : (i : ℝ) + 1 ≤ i' := by exact_mod_cast hii
          unfold ballX
          nlinarith
    obtain ⟨bs, h1, h2⟩ := key
    exact ⟨bs, h1, h2, h2.1.trans (by simp [pendulum])⟩
  · simp only [string, Vec2.normSquared, Vec2.dot_def, Vec2.sub_x, Vec2.sub_y]
    ring
  · ext <;> simp [string]
  · have hi' : (i : ℝ) + 1 ≤ n := by exact_mod_cast hi
    have h11 : (n : ℝ) ≤ 11 := by exact_mod_cast hn11
    have hi0 : (0 : ℝ) ≤ i := Nat.cast_nonneg i
    simp only [string, ballX]
    constructor
    · nlinarith
    · have : (2 + 1 / 10) * (i : ℝ) + 1 ≤ 2 * n := by nlinarith
      nlinarith

example : ∃ bs, build 0 (pendulum 5 1 7 48 1) = .ok bs ∧ bs.Pairwise NoOverlap ∧ bs.length = 6 := by
  obtain ⟨⟨bs, h1, h2, h3⟩, _⟩ := C89_pendulum 5 (by norm_num) 1 7 (by norm_num) (by norm_num) 48 (by norm_num) 1
  exact ⟨bs, h1, h2.2.1, h3⟩

theorem Started.dominances {ps : List Piece} {bs : List (Body ℝ)} (h : Started ps bs) : bs.map (·.dominance) = ps.map (·.dominance) := by
  obtain ⟨-, -, h⟩ := h
  induction h with
  | nil => rfl
  | cons hx _ ih => simp [ih, hx.2.2.1]

theorem Started.velocities {ps : List Piece} {bs : List (Body ℝ)} (h : Started ps bs) : bs.map (·.velocity) = ps.map (·.velocity.getD 0) := by
  obtain ⟨-, -, h⟩ := h
  induction h with
  | nil => rfl
  | cons hx _ ih => simp [ih, hx.1]

/-- C89: in each of the scenes exactly one body is fixed: the ground (which the stacks make last, the others first) or the bar of the pendulum; all others move. -/
theorem C89_fixed :
    (∀ nStacks height bs, build 0 (boxStacks nStacks height) = .ok bs → bs.map (·.dominance) = List.replicate (nStacks * height) 1 ++ [0]) ∧
    (∀ height (spacing : ℝ) bs, 0 ≤ spacing → build 0 (pyramid height spacing) = .ok bs → ∃ l, bs.map (·.dominance) = 0 :: l ∧ ∀ x ∈ l, x = 1) ∧
    (∀ height bs, build 0 (tower height) = .ok bs → bs.map (·.dominance) = 0 :: List.replicate (3 * height) 1) ∧
    (∀ n (radius length : ℝ) precision push bs, 1 ≤ n → 0 < radius → 0 ≤ length → 3 ≤ precision → build 0 (pendulum n radius length precision push) = .ok bs →
      bs.map (·.dominance) = 0 :: List.replicate n 1) := by
  refine ⟨fun n h bs hb => ?_, fun h sp bs hs hb => ?_, fun h bs hb => ?_, fun n r len pr push bs hn hr hl hp hb => ?_⟩
  · obtain ⟨bs', h1, h2, h3⟩ := C89_stacks n h
    obtain rfl : bs = bs' := Outcome.ok.inj (hb.symm.trans h1)
    have hd := h2.dominances
    have hlen : (bs.map (·.dominance)).length = n * h + 1 := by simpa using h3
    rw [hd, boxStacks, List.map_append] at hlen ⊢
    refine congrArg₂ _ (List.eq_replicate_iff.2 ⟨?_, ?_⟩) rfl
    · rw [List.length_append] at hlen
      exact Nat.add_right_cancel hlen
    · intro x hx
      simp only [List.mem_map, List.mem_flatMap] at hx
      obtain ⟨q, ⟨i, _, j, _, rfl⟩, rfl⟩ := hx
      rfl
  · obtain ⟨bs', h1, h2⟩ := C89_pyramid h sp hs
    obtain rfl : bs = bs' := Outcome.ok.inj (hb.symm.trans h1)
    refine ⟨_, h2.dominances, fun x hx => ?_⟩
    simp only [List.mem_map, List.mem_flatMap] at hx
    obtain ⟨q, ⟨i, _, j, _, rfl⟩, rfl⟩ := hx
    rfl
  · obtain ⟨bs', h1, h2, h3⟩ := C89_tower h
    obtain rfl : bs = bs' := Outcome.ok.inj (hb.symm.trans h1)
    have hd := h2.dominances
    have hlen : (bs.map (·.dominance)).length = 3 * h + 1 := by simpa using h3
    rw [hd] at hlen ⊢
    refine List.cons_eq_cons.2 ⟨rfl, List.eq_replicate_iff.2 ⟨by simpa [tower] using hlen, fun x hx => ?_⟩⟩
    simp only [List.mem_map, List.mem_flatMap, List.mem_cons, List.not_mem_nil, or_false] at hx
    obtain ⟨q, ⟨i, _, rfl | rfl | rfl⟩, rfl⟩ := hx <;> rfl
  · obtain ⟨⟨bs', h1, h2, h3⟩, -⟩ := C89_pendulum n hn r len hr hl pr hp push
    obtain rfl : bs = bs' := Outcome.ok.inj (hb.symm.trans h1)
    rw [h2.dominances]
    refine List.cons_eq_cons.2 ⟨rfl, List.eq_replicate_iff.2 ⟨by simp, fun x hx => ?_⟩⟩
    simp only [List.mem_map] at hx
    obtain ⟨q, ⟨i, _, rfl⟩, rfl⟩ := hx
    rfl

/-- C89: the scenes start at rest, except for the last balls of the pendulum, which are pushed to the right. -/
theorem C89_pushed :
    (∀ nStacks height bs, build 0 (boxStacks nStacks height) = .ok bs → ∀ b ∈ bs, b.velocity = 0) ∧
    (∀ height (spacing : ℝ) bs, 0 ≤ spacing → build 0 (pyramid height spacing) = .ok bs → ∀ b ∈ bs, b.velocity = 0) ∧
    (∀ height bs, build 0 (tower height) = .ok bs → ∀ b ∈ bs, b.velocity = 0) ∧
    (∀ n (radius length : ℝ) precision push bs, 1 ≤ n → 0 < radius → 0 ≤ length → 3 ≤ precision → build 0 (pendulum n radius length precision push) = .ok bs →
      bs.map (·.velocity) = 0 :: (List.range n).map fun i => if n ≤ i + push then ⟨10, 0⟩ else 0) := by
  have key : ∀ {ps : List Piece} {bs : List (Body ℝ)}, Started ps bs → (∀ p ∈ ps, p.velocity = none) → ∀ b ∈ bs, b.velocity = 0 := by
    intro ps bs h hp b hb
    have := List.mem_map_of_mem (f := fun b : Body ℝ => b.velocity) hb
    rw [h.velocities] at this
    obtain ⟨q, hq, e⟩ := List.mem_map.1 this
    rw [← e, hp q hq]
    rfl
  refine ⟨fun n h bs hb => ?_, fun h sp bs hs hb => ?_, fun h bs hb => ?_, fun n r len pr push bs hn hr hl hp hb => ?_⟩
  · obtain ⟨bs', h1, h2, -⟩ := C89_stacks n h
    obtain rfl : bs = bs' := Outcome.ok.inj (hb.symm.trans h1)
    refine key h2 fun p hp => ?_
    simp only [boxStacks, List.mem_append, List.mem_flatMap, List.mem_map, List.mem_singleton] at hp
    obtain ⟨i, _, j, _, rfl⟩ | rfl := hp <;> rfl
  · obtain ⟨bs', h1, h2⟩ := C89_pyramid h sp hs
    obtain rfl : bs = bs' := Outcome.ok.inj (hb.symm.trans h1)
    refine key h2 fun p hp => ?_
    simp only [pyramid, List.mem_cons, List.mem_flatMap, List.mem_map] at hp
    obtain rfl | ⟨i, _, j, _, rfl⟩ := hp <;> rfl
  · obtain ⟨bs', h1, h2, -⟩ := C89_tower h
    obtain rfl : bs = bs' := Outcome.ok.inj (hb.symm.trans h1)
    refine key h2 fun p hp => ?_
    simp only [tower, List.mem_cons, List.mem_flatMap, List.not_mem_nil, or_false] at hp
    obtain rfl | ⟨i, _, rfl | rfl | rfl⟩ := hp <;> rfl
  · obtain ⟨⟨bs', h1, h2, -⟩, -⟩ := C89_pendulum n hn r len hr hl pr hp push
    obtain rfl : bs = bs' := Outcome.ok.inj (hb.symm.trans h1)
    rw [h2.velocities]
    refine List.cons_eq_cons.2 ⟨rfl, ?_⟩
    rw [List.map_map]
    refine List.map_congr_left fun i _ => ?_
    show (if (n : ℤ) - push ≤ i then some (⟨10, 0⟩ : Vec2 ℝ) else none).getD 0 = _
    by_cases h : n ≤ i + push
    · rw [if_pos (by omega), if_pos h]; rfl
    · rw [if_neg (by omega), if_neg h]; rfl

/-- The scenes of `C89_fixed` and `C89_pushed` with the settings the program starts with can be built. -/
example : (∃ bs, build 0 (boxStacks 10 10) = .ok bs) ∧ (∃ bs, build 0 (pyramid 60 (1 / 2)) = .ok bs) ∧ (∃ bs, build 0 (tower 20) = .ok bs) ∧
    ∃ bs, build 0 (pendulum 5 1 7 48 1) = .ok bs := by
  obtain ⟨a, ha, -⟩ := C89_stacks 10 10
  obtain ⟨b, hb, -⟩ := C89_pyramid 60 (1 / 2) (by norm_num)
  obtain ⟨c, hc, -⟩ := C89_tower 20
  obtain ⟨⟨d, hd, -⟩, -⟩ := C89_pendulum 5 (by norm_num) 1 7 (by norm_num) (by norm_num) 48 (by norm_num) 1
  exact ⟨⟨a, ha⟩, ⟨b, hb⟩, ⟨c, hc⟩, ⟨d, hd⟩⟩

end Demos
end Simu
