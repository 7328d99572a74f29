import Verif.Lemmas.Separation
import Mathlib.Tactic.NormNum
/-
C20, C70: what `Gjk` answers.
-/
namespace Simu.Gjk
variable {K : Type*} [Field K] [LinearOrder K] [IsStrictOrderedRing K]

/-! ### C20 -/

/-- C20: the algorithm ends after a number of iterations that only depends on the numbers of vertices, without throwing; exactly what it says is known. -/
theorem C20_decides_partial (A B : List (Vec2 K)) (hA : A ≠ []) (hB : B ≠ []) (initialDir : Vec2 K) :
    ∃ s colliding, (∀ fuel, A.length * B.length + 4 ≤ fuel → make fuel A B initialDir = some (.ok (s, colliding))) ∧
      (colliding = true ↔ Common A B ∨ ∀ a ∈ A, ∀ b ∈ B, Vec2.dot (a - b) (if initialDir = 0 then ⟨1, 0⟩ else initialDir) = 0) := by
  obtain ⟨S, c, h, h1, h2, -⟩ := make_spec hA hB initialDir
  refine ⟨S, c, h, h2, ?_⟩
  intro h'
  cases c with
  | true => rfl
  | false =>
    obtain ⟨n1, n2⟩ := h1 rfl
    rcases h' with h' | h'
    · exact absurd h' (n1.not_common hA hB)
    · exact absurd h' n2

theorem proper_not_flat {A B : List (Vec2 K)} (hA : A ≠ []) (hB : B ≠ []) (h : Proper A ∨ Proper B) {d : Vec2 K} (hd : d ≠ 0) : ¬∀ a ∈ A, ∀ b ∈ B, Vec2.dot (a - b) d = 0 := by
  intro hflat
  obtain ⟨a0, ha0⟩ := List.exists_mem_of_ne_nil A hA
  obtain ⟨b0, hb0⟩ := List.exists_mem_of_ne_nil B hB
  have key : ∀ {x y z : Vec2 K}, Vec2.dot (y - x) d = 0 → Vec2.dot (z - x) d = 0 → twiceArea x y z = 0 := by
    intro x y z h1 h2
    have := cross_of_normal hd h1 h2
    simpa [Vec2.cross, twiceArea] using this
  rcases h with ⟨x, hx, y, hy, z, hz, hne⟩ | ⟨x, hx, y, hy, z, hz, hne⟩
  · have e1 := hflat x hx b0 hb0
    have e2 := hflat y hy b0 hb0
    have e3 := hflat z hz b0 hb0
    simp only [Vec2.dot_def, Vec2.sub_x, Vec2.sub_y] at e1 e2 e3
    exact hne (key (by simp only [Vec2.dot_def, Vec2.sub_x, Vec2.sub_y]; linarith) (by simp only [Vec2.dot_def, Vec2.sub_x, Vec2.sub_y]; linarith))
  · have e1 := hflat a0 ha0 x hx
    have e2 := hflat a0 ha0 y hy
    have e3 := hflat a0 ha0 z hz
    simp only [Vec2.dot_def, Vec2.sub_x, Vec2.sub_y] at e1 e2 e3
    exact hne (key (by simp only [Vec2.dot_def, Vec2.sub_x, Vec2.sub_y]; linarith) (by simp only [Vec2.dot_def, Vec2.sub_x, Vec2.sub_y]; linarith))

/-- C20: as soon as one of the geometries is not flat, `areColliding` is true exactly when the hulls share a point, whatever the initial direction. -/
theorem C20_polygons (A B : List (Vec2 K)) (hA : A ≠ []) (hB : B ≠ []) (h : Proper A ∨ Proper B) (initialDir : Vec2 K) :
    ∃ s colliding, (∀ fuel, A.length * B.length + 4 ≤ fuel → make fuel A B initialDir = some (.ok (s, colliding))) ∧ (colliding = true ↔ Common A B) := by
  obtain ⟨S, c, h0, h1⟩ := C20_decides_partial A B hA hB initialDir
  exact ⟨S, c, h0, h1.trans (or_iff_left (proper_not_flat hA hB h (startDir_ne initialDir)))⟩

theorem hull_le {l : List (Vec2 K)} {k : K} (h : ∀ p ∈ l, p.y ≤ k) {q : Vec2 K} (hq : Hull l q) : q.y ≤ k := by
  induction hq with
  | vertex hp => exact h _ hp
  | segment t t0 t1 _ _ i1 i2 =>
    have l1 := mul_le_mul_of_nonneg_left i1 (show 0 ≤ 1 - t by linarith)
    have l2 := mul_le_mul_of_nonneg_left i2 t0
    simp only [Vec2.add_y, Vec2.smul_y]
    linarith

theorem hull_ge {l : List (Vec2 K)} {k : K} (h : ∀ p ∈ l, -p.y ≤ k) {q : Vec2 K} (hq : Hull l q) : -q.y ≤ k := by
  induction hq with
  | vertex hp => exact h _ hp
  | segment t t0 t1 _ _ i1 i2 =>
    have l1 := mul_le_mul_of_nonneg_left i1 (show 0 ≤ 1 - t by linarith)
    have l2 := mul_le_mul_of_nonneg_left i2 t0
    simp only [Vec2.add_y, Vec2.smul_y]
    linarith

/-- C20 is false for flat geometries: two segments on a line that are far from each other are said to collide. -/
theorem C20_flat_disagreement :
    (make 10 [⟨0, 0⟩, ⟨0, 1⟩] [⟨0, 5⟩, ⟨0, 7⟩] (⟨1, 0⟩ : Vec2 ℚ)).map (fun o => match o with | .ok r => some r.2 | _ => none) = some (some true) ∧
      ¬Common ([⟨0, 0⟩, ⟨0, 1⟩] : List (Vec2 ℚ)) [⟨0, 5⟩, ⟨0, 7⟩] := by
  refine ⟨by decide +kernel, ?_⟩
  rintro ⟨q, h1, h2⟩
  have l1 : q.y ≤ 1 := hull_le (fun p hp => by simp at hp; rcases hp with rfl | rfl <;> norm_num) h1
  have l2 : -q.y ≤ -5 := hull_ge (fun p hp => by simp at hp; rcases hp with rfl | rfl <;> norm_num) h2
  linarith

example : (make 20 [⟨0, 0⟩, ⟨2, 0⟩, ⟨2, 2⟩, ⟨0, 2⟩] [⟨1, 1⟩, ⟨4, 1⟩, ⟨3, 5⟩] (⟨1, 0⟩ : Vec2 ℚ)).map (fun o => match o with | .ok r => some r.2 | _ => none) = some (some true) := by
  decide +kernel
example : (make 20 [⟨0, 0⟩, ⟨2, 0⟩, ⟨2, 2⟩, ⟨0, 2⟩] [⟨3, 1⟩, ⟨4, 1⟩, ⟨3, 5⟩] (⟨1, 0⟩ : Vec2 ℚ)).map (fun o => match o with | .ok r => some r.2 | _ => none) = some (some false) := by
  decide +kernel
example : Proper ([⟨0, 0⟩, ⟨2, 0⟩, ⟨2, 2⟩, ⟨0, 2⟩] : List (Vec2 ℚ)) := ⟨⟨0, 0⟩, by simp, ⟨2, 0⟩, by simp, ⟨2, 2⟩, by simp, by norm_num [twiceArea]⟩

/-! ### C70 -/

theorem overlap_iff {A B : List (Vec2 K)} : Overlap A B ↔ ¬Cleared A B 0 := by
  have e : ∀ a b n : Vec2 K, Vec2.dot (a - (b + 0)) n = Vec2.dot (a - b) n := by
    intro a b n
    simp [Vec2.dot_def]
  constructor
  · rintro O ⟨n, hn, h⟩
    obtain ⟨_, ⟨a, ha, b, hb, rfl⟩, hpos⟩ := O n hn
    have := h a ha b hb
    rw [e] at this
    linarith
  · intro h n hn
    by_contra hcon
    push Not at hcon
    exact h ⟨n, hn, fun a ha b hb => by rw [e]; exact hcon _ ⟨a, ha, b, hb, rfl⟩⟩

/-- C70: when the interiors overlap (no line has them on each side), `penetration` ends without throwing, and returns the shortest translation of the second geometry that makes them
only touch. -/
theorem C70_penetration_partial (A B : List (Vec2 K)) (hA : A ≠ []) (hB : B ≠ []) (h : ¬Cleared A B 0) (initialDir : Vec2 K) :
    ∃ s m, (∀ fuel, A.length * B.length + 4 ≤ fuel → make fuel A B initialDir = some (.ok (s, true)) ∧ penetration fuel A B s true = some (.ok m)) ∧
      Touching A B m ∧ Cleared A B m ∧ ∀ m', Cleared A B m' → Vec2.normSquared m ≤ Vec2.normSquared m' := by
  have O := overlap_iff.2 h
  obtain ⟨S, c, h0, h1, -, h3, -⟩ := make_spec hA hB initialDir
  have hc : c = true := by
    cases c with
    | true => rfl
    | false =>
      obtain ⟨⟨d, hd, hs⟩, -⟩ := h1 rfl
      obtain ⟨x, hx, hpos⟩ := O d hd
      exact absurd (hs x hx) (not_lt.2 hpos.le)
  subst hc
  obtain ⟨hne, I⟩ := around_polytope O (h3 rfl O)
  have hk : (diffs A B).countP (fun x => decide (x ∉ polytope S)) < A.length * B.length + 4 := by
    have := List.countP_le_length (p := fun x => decide (x ∉ polytope S)) (l := diffs A B)
    rw [length_diffs] at this
    omega
  obtain ⟨m, hm, rest⟩ := expand_spec hA hB O _ _ hne I hk
  exact ⟨S, m, fun fuel hf => ⟨h0 fuel hf, by simpa [penetration] using hm fuel hf⟩, rest⟩

/-- C70: whatever the geometries, if one is not flat: the constructor and `penetration` end. If they are not said to collide, the vector is null. Otherwise `penetration` returns the shortest
translation of the second geometry that makes them only touch, except that it may throw if they already only touch. -/
theorem C70_ends_partial (A B : List (Vec2 K)) (hA : A ≠ []) (hB : B ≠ []) (h : Proper A ∨ Proper B) (initialDir : Vec2 K) :
    ∃ s colliding, (∀ fuel, A.length * B.length + 4 ≤ fuel → make fuel A B initialDir = some (.ok (s, colliding))) ∧
      ((colliding = false ∧ ¬Common A B ∧ ∀ fuel, penetration fuel A B s colliding = some (.ok 0)) ∨
        (colliding = true ∧ ∃ m, (∀ fuel, A.length * B.length + 4 ≤ fuel → penetration fuel A B s colliding = some (.ok m)) ∧
          Touching A B m ∧ Cleared A B m ∧ ∀ m', Cleared A B m' → Vec2.normSquared m ≤ Vec2.normSquared m') ∨
        (colliding = true ∧ Common A B ∧ Cleared A B 0 ∧ ∀ fuel, A.length * B.length + 4 ≤ fuel → penetration fuel A B s colliding = some .throw)) := by
  obtain ⟨S, c, h0, h1, h2, -, h4⟩ := make_spec hA hB initialDir
  by_cases hcl : Cleared A B 0
  · refine ⟨S, c, h0, ?_⟩
    cases c with
    | false => exact Or.inl ⟨rfl, (h1 rfl).1.not_common hA hB, fun _ => rfl⟩
    | true =>
      right
      have nf : ¬Flat A B (startDir initialDir) := proper_not_flat hA hB h (startDir_ne initialDir)
      have hcom : Common A B := (h2 rfl).resolve_right nf
      obtain ⟨n, hn, hside⟩ := hcl
      have hside' : ∀ x, Diff A B x → Vec2.dot x n ≤ 0 := by
        rintro _ ⟨a, ha, b, hb, rfl⟩
        have := hside a ha b hb
        simpa [Vec2.dot_def] using this
      obtain ⟨hne, hF⟩ := facing_polytope hn hside' (h4 rfl nf)
      have hk : (diffs A B).countP (fun x => decide (x ∉ polytope S)) < A.length * B.length + 4 := by
        have := List.countP_le_length (p := fun x => decide (x ∉ polytope S)) (l := diffs A B)
        rw [length_diffs] at this
        omega
      rcases expand_touch hA hB _ _ hne hF hk with he | he
      · exact Or.inr ⟨rfl, hcom, ⟨n, hn, hside⟩, fun fuel hf => by simpa [penetration] using he fuel hf⟩
      · refine Or.inl ⟨rfl, 0, fun fuel hf => by simpa [penetration] using he fuel hf, ?_, ⟨n, hn, hside⟩, fun m' _ => ?_⟩
        · obtain ⟨q, q1, q2⟩ := hcom
          exact ⟨q, q1, q, q2, by ext <;> simp⟩
        · rw [normSquared_eq, normSquared_eq]
          simp only [Vec2.zero_x, Vec2.zero_y, mul_zero, add_zero]
          exact add_nonneg (mul_self_nonneg _) (mul_self_nonneg _)
  · obtain ⟨s, m, hs, hm⟩ := C70_penetration_partial A B hA hB hcl initialDir
    exact ⟨s, true, fun fuel hf => (hs fuel hf).1, Or.inr (Or.inl ⟨rfl, m, fun fuel hf => (hs fuel hf).2, hm⟩)⟩

/-- What `penetration` returns after the constructor. -/
def penetrationOf (fuel : Nat) (A B : List (Vec2 K)) (d : Vec2 K) : Option (Outcome (Vec2 K)) :=
  match make fuel A B d with
  | some (.ok r) => penetration fuel A B r.1 r.2
  | some .throw => some .throw
  | some .ub => some .ub
  | none => none

/-- The same, for evaluation. -/
def penetrationEval (fuel : Nat) (A B : List (Vec2 K)) (d : Vec2 K) : Option (Outcome (Vec2 K)) :=
  match make fuel A B d with
  | some (.ok r) => if !r.2 then some (.ok 0) else expandEval A B fuel (polytope r.1)
  | some .throw => some .throw
  | some .ub => some .ub
  | none => none

theorem penetrationOf_eval (fuel : Nat) (A B : List (Vec2 K)) (d : Vec2 K) : penetrationOf fuel A B d = penetrationEval fuel A B d := by
  unfold penetrationOf penetrationEval penetration
  simp only [expand_eval]

/-- C70 is false when the geometries touch at a vertex: `penetration` may throw. -/
theorem C70_touching_disagreement :
    penetrationOf 20 [⟨-2, 0⟩, ⟨-1, -2⟩, ⟨1, 1⟩] [⟨1, 1⟩, ⟨6, 1⟩, ⟨5, 5⟩] (⟨1, 0⟩ : Vec2 ℚ) = some .throw ∧ Common ([⟨-2, 0⟩, ⟨-1, -2⟩, ⟨1, 1⟩] : List (Vec2 ℚ)) [⟨1, 1⟩, ⟨6, 1⟩, ⟨5, 5⟩] :=
  ⟨by
    have e := penetrationOf_eval 20 [⟨-2, 0⟩, ⟨-1, -2⟩, ⟨1, 1⟩] [⟨1, 1⟩, ⟨6, 1⟩, ⟨5, 5⟩] (⟨1, 0⟩ : Vec2 ℚ)
    rw [e]
    decide +kernel, ⟨1, 1⟩, .vertex (by simp), .vertex (by simp)⟩

example : penetrationOf 30 [⟨0, 0⟩, ⟨4, 0⟩, ⟨4, 4⟩, ⟨0, 4⟩] [⟨3, 1⟩, ⟨7, 1⟩, ⟨7, 3⟩, ⟨3, 3⟩] (⟨1, 0⟩ : Vec2 ℚ) = some (.ok ⟨1, 0⟩) := by
  rw [penetrationOf_eval]
  decide +kernel
example : ¬Cleared ([⟨0, 0⟩, ⟨4, 0⟩, ⟨4, 4⟩, ⟨0, 4⟩] : List (Vec2 ℚ)) [⟨3, 1⟩, ⟨7, 1⟩, ⟨7, 3⟩, ⟨3, 3⟩] 0 := by
  rintro ⟨n, hn, h⟩
  have h1 := h ⟨4, 4⟩ (by simp) ⟨3, 1⟩ (by simp)
  have h2 := h ⟨4, 0⟩ (by simp) ⟨3, 3⟩ (by simp)
  have h3 := h ⟨0, 0⟩ (by simp) ⟨7, 3⟩ (by simp)
  have h4 := h ⟨0, 4⟩ (by simp) ⟨7, 1⟩ (by simp)
  norm_num [Vec2.dot_def] at h1 h2 h3 h4
  exact hn (Vec2.ext (by simp only [Vec2.zero_x]; linarith) (by simp only [Vec2.zero_y]; linarith))

/-- C70: when they do not collide, `penetration` is null. -/
theorem C70_separated (A B : List (Vec2 K)) (fuel : Nat) (s : Simplex K) : penetration fuel A B s false = some (.ok 0) := rfl

/-! ### C69 -/

/-- C69: when `separation` returns, moving the first geometry by it makes them touch (or is null if they are said to collide). Missing: that it returns, and that no shorter translation does;
both are false (`C69_wrong_disagreement`, `C69_throw_disagreement`, `C69_endless_disagreement`). -/
theorem C69_touches_partial (A B : List (Vec2 K)) (ε : K) (hε : 0 ≤ ε) (fuel fuel' : Nat) (initialDir : Vec2 K) (s : Simplex K) (colliding : Bool)
    (hs : make fuel A B initialDir = some (.ok (s, colliding))) (t : Vec2 K) (ht : separation ε fuel' A B s colliding = some (.ok t)) :
    if colliding then t = 0 else Touching A B (-t) := by
  unfold separation at ht
  cases colliding with
  | true =>
    simp only [if_true, Option.some.injEq, Outcome.ok.injEq] at ht ⊢
    exact ht.symm
  | false =>
    simp only [Bool.false_eq_true, if_false] at ht ⊢
    obtain ⟨P, hn⟩ := pushed_make hs
    cases hr : refine A B fuel' s with
    | none => rw [hr] at ht; simp at ht
    | some o =>
      rw [hr] at ht
      simp only [Option.map_some, Option.some.injEq] at ht
      cases o with
      | ok S' =>
        obtain ⟨P', hn'⟩ := pushed_refine fuel' P hn hr
        simp only [Outcome.bind] at ht
        cases hc : closest ε S' with
        | ok p =>
          rw [hc] at ht
          simp only [Outcome.ok.injEq] at ht
          subst ht
          have := closest_touching hε P' hn' hc
          rwa [show - -p = p by ext <;> simp]
        | throw => rw [hc] at ht; simp at ht
        | ub => rw [hc] at ht; simp at ht
      | throw => simp [Outcome.bind] at ht
      | ub => simp [Outcome.bind] at ht

/-- What `separation` returns after the constructor. -/
def separationOf (ε : K) (fuel : Nat) (A B : List (Vec2 K)) (d : Vec2 K) : Option (Outcome (Vec2 K)) :=
  match make fuel A B d with
  | some (.ok r) => separation ε fuel A B r.1 r.2
  | some .throw => some .throw
  | some .ub => some .ub
  | none => none

example : separationOf (1 / 1000000) 30 [⟨0, 0⟩, ⟨2, 0⟩, ⟨2, 2⟩, ⟨0, 2⟩] [⟨5, 1⟩, ⟨6, 0⟩, ⟨6, 2⟩] (⟨1, 0⟩ : Vec2 ℚ) = some (.ok ⟨3, 0⟩) := by decide +kernel

/-- C69 is false: for these triangles the vector is longer than the shortest translation that makes them touch. -/
theorem C69_wrong_disagreement : ∃ t : Vec2 ℚ,
    separationOf (1 / 1000000) 30 [⟨-2, 3⟩, ⟨0, -3⟩, ⟨3, 1⟩] [⟨-2, -2⟩, ⟨0, -4⟩, ⟨-2, 2⟩] (⟨1, 0⟩ : Vec2 ℚ) = some (.ok t) ∧
      ∃ t', Touching ([⟨-2, 3⟩, ⟨0, -3⟩, ⟨3, 1⟩] : List (Vec2 ℚ)) [⟨-2, -2⟩, ⟨0, -4⟩, ⟨-2, 2⟩] (-t') ∧ Vec2.normSquared t' < Vec2.normSquared t := by
  refine ⟨⟨-248 / 73, 93 / 73⟩, ?_, ⟨-3 / 10, -1 / 10⟩, ?_, ?_⟩
  · decide +kernel
  · refine touching_segment (x := ⟨-2, 7⟩) (y := ⟨2, -5⟩) ⟨⟨-2, 3⟩, by simp, ⟨0, -4⟩, by simp, by ext <;> norm_num⟩ ⟨⟨0, -3⟩, by simp, ⟨-2, 2⟩, by simp, by ext <;> norm_num⟩ ⟨23 / 40, by norm_num, by norm_num, ?_⟩
    ext <;> norm_num
  · decide +kernel

/-- C69 is false: for these triangles, which do not collide, it throws. -/
theorem C69_throw_disagreement :
    separationOf (1 / 1000000) 30 [⟨-3, 2⟩, ⟨3, 0⟩, ⟨3, 3⟩] [⟨3, -3⟩, ⟨9, 0⟩, ⟨6, 3⟩] (⟨1, 0⟩ : Vec2 ℚ) = some .throw ∧
      (make 30 [⟨-3, 2⟩, ⟨3, 0⟩, ⟨3, 3⟩] [⟨3, -3⟩, ⟨9, 0⟩, ⟨6, 3⟩] (⟨1, 0⟩ : Vec2 ℚ)).map (fun o => match o with | .ok r => some r.2 | _ => none) = some (some false) :=
  ⟨by decide +kernel, by decide +kernel⟩

/-- The loop of `separation` does not look at the number of points pushed, once it is three. -/
theorem refine_count (A B : List (Vec2 K)) : ∀ (fuel n : Nat) (s : Simplex K), refine A B fuel { s with nIterations := n + 3 } = none ↔
    refine A B fuel { s with nIterations := 3 } = none
  | 0, _, _ => Iff.rfl
  | fuel + 1, n, s => by
    have hd : ({ s with nIterations := n + 3 } : Simplex K).nextDirection.1 = ({ s with nIterations := 3 } : Simplex K).nextDirection.1 := by
      simp only [Simplex.nextDirection]; split <;> rfl
    have hs : ({ s with nIterations := n + 3 } : Simplex K).nextDirection.2 = { ({ s with nIterations := 3 } : Simplex K).nextDirection.2 with nIterations := n + 3 } := by
      simp only [Simplex.nextDirection]; split <;> rfl
    have hn : ({ s with nIterations := 3 } : Simplex K).nextDirection.2.nIterations = 3 := by
      simp only [Simplex.nextDirection]; split <;> rfl
    unfold refine
    rw [hd, hs]
    revert hn
    generalize ({ s with nIterations := 3 } : Simplex K).nextDirection.2 = r
    intro hn
    cases support A B ({ s with nIterations := 3 } : Simplex K).nextDirection.1 with
    | throw => simp
    | ub => simp
    | ok v =>
      have hp : ({ r with nIterations := n + 3 } : Simplex K).hasPoint v = r.hasPoint v := by
        simp [Simplex.hasPoint, hn]
      simp only [hp]
      by_cases h : r.hasPoint v = true
      · simp [h]
      · simp only [h, Bool.false_eq_true, if_false]
        have e1 : ({ r with nIterations := n + 3 } : Simplex K).pushPoint v = { r.pushPoint v with nIterations := (n + 1) + 3 } := by
          simp only [Simplex.pushPoint]
        have e2 : r.pushPoint v = { r.pushPoint v with nIterations := 1 + 3 } := by
          simp only [Simplex.pushPoint, hn]
        rw [e1, refine_count A B fuel (n + 1), e2, refine_count A B fuel 1]

/-- One turn of the loop of `separation`, if it is not the last one. -/
def turn (A B : List (Vec2 K)) (s : Simplex K) : Option (Simplex K) :=
  match support A B s.nextDirection.1 with
  | .ok v => if s.nextDirection.2.hasPoint v then none else some (s.nextDirection.2.pushPoint v)
  | _ => none

theorem refine_turn {A B : List (Vec2 K)} {s t : Simplex K} (h : turn A B s = some t) (fuel : Nat) : refine A B (fuel + 1) s = refine A B fuel t := by
  unfold turn at h
  rw [refine]
  split at h
  · rename_i v hv
    rw [hv]
    dsimp only
    split at h
    · exact absurd h (by simp)
    · rename_i hp
      rw [if_neg hp, Option.some.inj h]
  · exact absurd h (by simp)

/-- A loop whose simplices come back never ends. -/
theorem refine_endless {A B : List (Vec2 K)} {S : List (Simplex K)} (h : ∀ s ∈ S, ∃ t ∈ S, turn A B { s with nIterations := 3 } = some { t with nIterations := 4 }) :
    ∀ (fuel : Nat), ∀ s ∈ S, refine A B fuel { s with nIterations := 3 } = none
  | 0, _, _ => rfl
  | fuel + 1, s, hs => by
    obtain ⟨t, ht, e⟩ := h s hs
    rw [refine_turn e]
    exact (refine_count A B fuel 1 t).2 (refine_endless h fuel t ht)

/-- C69 is false: for these quadrangles, which do not collide, `separation` never returns: after two turns the simplex takes seven values in turn, for ever. All
numbers met are small integers, for which floating point arithmetic is exact. -/
theorem C69_endless_disagreement (ε : ℚ) :
    let A : List (Vec2 ℚ) := [⟨-1, -1⟩, ⟨-1, 1⟩, ⟨-2, 1⟩, ⟨-2, 0⟩]
    let B : List (Vec2 ℚ) := [⟨0, -7⟩, ⟨3, -7⟩, ⟨2, -6⟩, ⟨0, -6⟩]
    (make 1 A B ⟨1, 0⟩).map (fun o => match o with | .ok r => some r.2 | _ => none) = some (some false) ∧ ∀ fuel, separationOf ε fuel A B ⟨1, 0⟩ = none := by
  intro A B
  refine ⟨by decide +kernel, fun fuel => ?_⟩
  let S : List (Simplex ℚ) := [
    ⟨⟨-3, 5⟩, ⟨-5, 8⟩, ⟨-1, 6⟩, ⟨-3, -2⟩, ⟨1, -2⟩, ⟨2, 4⟩, ⟨1, 0⟩, 3, false⟩,
    ⟨⟨-5, 7⟩, ⟨-3, 5⟩, ⟨-5, 8⟩, ⟨-2, -2⟩, ⟨-1, 0⟩, ⟨3, 2⟩, ⟨1, 0⟩, 3, false⟩,
    ⟨⟨-4, 6⟩, ⟨-5, 7⟩, ⟨-3, 5⟩, ⟨1, 1⟩, ⟨1, 1⟩, ⟨-2, -2⟩, ⟨1, 0⟩, 3, false⟩,
    ⟨⟨-1, 8⟩, ⟨-4, 6⟩, ⟨-3, 5⟩, ⟨-2, 3⟩, ⟨3, -2⟩, ⟨-1, -1⟩, ⟨1, 0⟩, 3, false⟩,
    ⟨⟨-1, 5⟩, ⟨-1, 8⟩, ⟨-3, 5⟩, ⟨3, 0⟩, ⟨0, -2⟩, ⟨-3, 2⟩, ⟨1, 0⟩, 3, false⟩,
    ⟨⟨-1, 6⟩, ⟨-1, 5⟩, ⟨-1, 8⟩, ⟨-1, 0⟩, ⟨-2, 0⟩, ⟨3, 0⟩, ⟨1, 0⟩, 3, false⟩,
    ⟨⟨-5, 8⟩, ⟨-1, 6⟩, ⟨-1, 8⟩, ⟨-2, -4⟩, ⟨0, 4⟩, ⟨2, 0⟩, ⟨1, 0⟩, 3, false⟩]
  have cyc : ∀ s ∈ S, ∃ t ∈ S, turn A B { s with nIterations := 3 } = some { t with nIterations := 4 } := by decide +kernel
  have key : ∀ fuel, refine A B fuel ⟨⟨-1, 6⟩, 0, 0, ⟨-6, -1⟩, ⟨6, 1⟩, 0, ⟨1, 0⟩, 1, false⟩ = none := by
    intro fuel
    match fuel with
    | 0 => rfl
    | 1 => decide +kernel
    | fuel + 2 =>
      rw [refine_turn (t := ⟨⟨-5, 8⟩, ⟨-1, 6⟩, 0, ⟨2, 4⟩, ⟨-8, -5⟩, ⟨6, 1⟩, ⟨1, 0⟩, 2, false⟩) (by decide +kernel),
        refine_turn (t := ⟨⟨-3, 5⟩, ⟨-5, 8⟩, ⟨-1, 6⟩, ⟨-3, -2⟩, ⟨1, -2⟩, ⟨2, 4⟩, ⟨1, 0⟩, 3, false⟩) (by decide +kernel)]
      exact refine_endless cyc fuel ⟨⟨-3, 5⟩, ⟨-5, 8⟩, ⟨-1, 6⟩, ⟨-3, -2⟩, ⟨1, -2⟩, ⟨2, 4⟩, ⟨1, 0⟩, 3, false⟩ (by simp [S])
  match fuel with
  | 0 => rfl
  | fuel + 1 =>
    have hm : make (fuel + 1) A B ⟨1, 0⟩ = some (.ok (⟨⟨-1, 6⟩, 0, 0, ⟨-6, -1⟩, ⟨6, 1⟩, 0, ⟨1, 0⟩, 1, false⟩, false)) := by
      have hi : iterate A B (Simplex.mk' ⟨1, 0⟩) = .ok (⟨⟨-1, 6⟩, 0, 0, ⟨-6, -1⟩, ⟨6, 1⟩, 0, ⟨1, 0⟩, 1, false⟩, some false) := by decide +kernel
      rw [make, run, hi]
    rw [separationOf, hm]
    simp [separation, key]

end Simu.Gjk
