import Verif.Lemmas.Epa
/-
Lemmas about `Gjk::separation`.
-/
set_option linter.unusedSectionVars false
namespace Simu.Gjk
open Vec2 (dot cross)
variable {K : Type*} [Field K] [LinearOrder K] [IsStrictOrderedRing K]

/-- The points of the stack that were pushed are differences. -/
structure Pushed (A B : List (Vec2 K)) (S : Simplex K) : Prop where
  d0 : 1 ≤ S.nIterations → Diff A B S.p0
  d1 : 2 ≤ S.nIterations → Diff A B S.p1
  d2 : 3 ≤ S.nIterations → Diff A B S.p2
  keep : S.keepBottomPoint = true → 3 ≤ S.nIterations

theorem Pushed.next {A B : List (Vec2 K)} {S : Simplex K} (P : Pushed A B S) : Pushed A B S.nextDirection.2 := by
  unfold Simplex.nextDirection
  split
  · exact P
  · exact P
  · exact P
  · rename_i h0 h1 h2
    split
    · exact P
    · exact ⟨P.d0, P.d1, P.d2, fun _ => by
        show 3 ≤ S.nIterations
        rcases hn : S.nIterations with _ | _ | _ | n
        · exact absurd hn h0
        · exact absurd hn h1
        · exact absurd hn h2
        · omega⟩

theorem Pushed.push {A B : List (Vec2 K)} {S : Simplex K} (P : Pushed A B S) {v : Vec2 K} (hv : Diff A B v) : Pushed A B (S.pushPoint v) := by
  refine ⟨fun _ => hv, fun h => P.d0 (by simpa [Simplex.pushPoint] using h), fun h => ?_, fun h => by simp [Simplex.pushPoint] at h⟩
  have h' : 2 ≤ S.nIterations := by
    have : 3 ≤ S.nIterations + 1 := h
    omega
  show Diff A B (if S.keepBottomPoint then S.p2 else S.p1)
  split
  · rename_i hk
    exact P.d2 (P.keep hk)
  · exact P.d1 h'

theorem furthest_mem {l : List (Vec2 K)} {d v : Vec2 K} (h : furthestVertexInDirection l d = .ok v) : v ∈ l := by
  by_cases hd : d = 0
  · rw [hd, C17_zero_direction] at h
    cases h
  · by_cases hl : l = []
    · rw [hl, C17_empty d hd] at h
      cases h
    · obtain ⟨v', e, hm, -⟩ := C17_support l d hl hd
      rw [e] at h
      cases h
      exact hm

theorem support_diff {A B : List (Vec2 K)} {d v : Vec2 K} (h : support A B d = .ok v) : Diff A B v := by
  unfold support at h
  cases h1 : furthestVertexInDirection A d with
  | ok a =>
    cases h2 : furthestVertexInDirection B (-d) with
    | ok b =>
      simp [h1, h2, Outcome.bind] at h
      exact ⟨a, furthest_mem h1, b, furthest_mem h2, h.symm⟩
    | throw => simp [h1, h2, Outcome.bind] at h
    | ub => simp [h1, h2, Outcome.bind] at h
  | throw => simp [h1, Outcome.bind] at h
  | ub => simp [h1, Outcome.bind] at h

theorem pushed_iterate {A B : List (Vec2 K)} {S S' : Simplex K} {o : Option Bool} (P : Pushed A B S) (h : iterate A B S = .ok (S', o)) : Pushed A B S' ∧ 1 ≤ S'.nIterations := by
  unfold iterate at h
  cases hv : support A B S.nextDirection.1 with
  | ok v =>
    have hp := P.next.push (support_diff hv)
    have hn : 1 ≤ (S.nextDirection.2.pushPoint v).nIterations := by simp [Simplex.pushPoint]
    simp only [hv, Outcome.bind] at h
    split_ifs at h <;> (cases h; exact ⟨hp, hn⟩)
  | throw => simp [hv, Outcome.bind] at h
  | ub => simp [hv, Outcome.bind] at h

theorem pushed_run {A B : List (Vec2 K)} (fuel : Nat) : ∀ {S S' : Simplex K} {c : Bool}, Pushed A B S → run A B fuel S = some (.ok (S', c)) → Pushed A B S' ∧ 1 ≤ S'.nIterations := by
  induction fuel with
  | zero => intro S S' c _ h; simp [run] at h
  | succ fuel ih =>
    intro S S' c P h
    rw [run] at h
    cases hi : iterate A B S with
    | ok r =>
      obtain ⟨S1, o⟩ := r
      have hp := pushed_iterate P hi
      rw [hi] at h
      cases o with
      | some b =>
        simp only [Option.some.injEq, Outcome.ok.injEq, Prod.mk.injEq] at h
        obtain ⟨rfl, -⟩ := h
        exact hp
      | none => exact ih hp.1 h
    | throw => rw [hi] at h; simp at h
    | ub => rw [hi] at h; simp at h

theorem pushed_make {A B : List (Vec2 K)} {fuel : Nat} {d : Vec2 K} {S : Simplex K} {c : Bool} (h : make fuel A B d = some (.ok (S, c))) : Pushed A B S ∧ 1 ≤ S.nIterations :=
  pushed_run fuel ⟨by simp [Simplex.mk'], by simp [Simplex.mk'], by simp [Simplex.mk'], by simp [Simplex.mk']⟩ h

theorem pushed_refine {A B : List (Vec2 K)} (fuel : Nat) : ∀ {S S' : Simplex K}, Pushed A B S → 1 ≤ S.nIterations → refine A B fuel S = some (.ok S') → Pushed A B S' ∧ 1 ≤ S'.nIterations := by
  induction fuel with
  | zero => intro S S' _ _ h; simp [refine] at h
  | succ fuel ih =>
    intro S S' P hn h
    have hn' : 1 ≤ S.nextDirection.2.nIterations := by
      have e : S.nextDirection.2.nIterations = S.nIterations := by
        unfold Simplex.nextDirection
        split
        · rfl
        · rfl
        · rfl
        · split <;> rfl
      rw [e]; exact hn
    rw [refine] at h
    cases hv : support A B S.nextDirection.1 with
    | ok v =>
      simp only [hv] at h
      split_ifs at h
      · simp only [Option.some.injEq, Outcome.ok.injEq] at h
        subst h
        exact ⟨P.next, hn'⟩
      · exact ih (P.next.push (support_diff hv)) (by simp [Simplex.pushPoint]) h
    | throw => simp [hv] at h
    | ub => simp [hv] at h

/-- The hulls share a point after the second is moved by a combination of differences. -/
theorem touching_three {A B : List (Vec2 K)} {x y z m : Vec2 K} (hx : Diff A B x) (hy : Diff A B y) (hz : Diff A B z) {a b c : K} (ha : 0 ≤ a) (hb : 0 ≤ b) (hc : 0 ≤ c) (hs : a + b + c = 1)
    (h0 : m.x = a * x.x + b * y.x + c * z.x) (h1 : m.y = a * x.y + b * y.y + c * z.y) : Touching A B m := by
  obtain ⟨xa, hxa, xb, hxb, rfl⟩ := hx
  obtain ⟨ya, hya, yb, hyb, rfl⟩ := hy
  obtain ⟨za, hza, zb, hzb, rfl⟩ := hz
  refine ⟨_, hull_three (.vertex hxa) (.vertex hya) (.vertex hza) ha hb hc hs, _, hull_three (.vertex hxb) (.vertex hyb) (.vertex hzb) ha hb hc hs, ?_⟩
  simp only [Vec2.sub_x, Vec2.sub_y] at h0 h1
  ext
  · simp only [Vec2.add_x, h0]; ring
  · simp only [Vec2.add_y, h1]; ring

theorem touching_segment {A B : List (Vec2 K)} {x y m : Vec2 K} (hx : Diff A B x) (hy : Diff A B y) (h : OnSegment x y m) : Touching A B m := by
  obtain ⟨t, t0, t1, rfl⟩ := h
  refine touching_three hx hy hy (a := 1 - t) (b := t) (c := 0) (by linarith) t0 (le_refl _) (by ring) ?_ ?_ <;> simp <;> ring

/-- The point that `TriangleBarycentric` returns, if any, is in the triangle. -/
theorem triangle_hull {ε : K} (hε : 0 ≤ ε) {a b c q : Vec2 K} {r : TriangleBarycentric K} (h : TriangleBarycentric.mk' ε a b c q = .ok r) : InTriangle a b c r.closestPoint := by
  by_cases hgood : (a ≠ b ∧ b ≠ c ∧ c ≠ a) ∧ (0 ≤ twiceArea a b c ∨ twiceArea a b c < -ε)
  · obtain ⟨⟨h1, h2, h3⟩, h4⟩ := hgood
    obtain ⟨r', e, hr, -⟩ := C19_triangle_partial ε hε a b c q h1 h2 h3 h4
    rw [h] at e
    cases e
    exact hr
  · have tA : InTriangle a b c a := ⟨1, 0, 0, by simp, le_rfl, le_rfl, by simp, by ext <;> simp⟩
    have tB : InTriangle a b c b := ⟨0, 1, 0, le_rfl, by simp, le_rfl, by simp, by ext <;> simp⟩
    have tC : InTriangle a b c c := ⟨0, 0, 1, le_rfl, le_rfl, by simp, by simp, by ext <;> simp⟩
    have degu : ∀ x : Vec2 K, (LineBarycentric.mk' x x q).u = 1 ∧ (LineBarycentric.mk' x x q).v = 0 := fun x => by
      simp [LineBarycentric.mk', Vec2.normSquared, Vec2.dot]
    have degc : ∀ (x : Vec2 K) (p : Prop) [Decidable p], (if p then -(1 / 2 * Vec2.cross (x - q) (x - q)) else 1 / 2 * Vec2.cross (x - q) (x - q)) = 0 := fun x p _ => by
      have : Vec2.cross (x - q) (x - q) = 0 := cross_self' _
      rw [this]; simp
    unfold TriangleBarycentric.mk' at h
    simp only at h
    split_ifs at h with ho h1 h2 h3 h4 h5 h6 h7 h8 h9 h10 h11 h12 h13 h14
    all_goals first
      | (cases h; first | exact tA | exact tB | exact tC | exact .of_segment (C18_closest b c q).1 | exact .rot (.of_segment (C18_closest c a q).1) | exact .rot (.rot (.of_segment (C18_closest a b q).1)))
      | skip
    all_goals exfalso
    · by_cases hab : a = b
      · subst hab; exact h9 ⟨by rw [cross_self']; simp, by rw [(degu a).1]; exact zero_le_one, by rw [(degu a).2]⟩
      by_cases hbc : b = c
      · subst hbc; exact h7 ⟨by rw [cross_self']; simp, by rw [(degu b).1]; exact zero_le_one, by rw [(degu b).2]⟩
      by_cases hca : c = a
      · subst hca; exact h8 ⟨by rw [cross_self']; simp, by rw [(degu c).1]; exact zero_le_one, by rw [(degu c).2]⟩
      have hT : ¬(0 ≤ twiceArea a b c ∨ twiceArea a b c < -ε) := fun h' => hgood ⟨⟨hab, hbc, hca⟩, h'⟩
      push Not at hT
      unfold orientation at h6
      have e : cross (b - a) (c - b) = twiceArea a b c := by simp only [Vec2.cross, Vec2.sub_x, Vec2.sub_y, twiceArea]; ring
      simp only [e] at h6
      rw [if_pos (by simp [Interval.approx, Interval.contains, abs_of_nonneg hε]; exact ⟨hT.2, by linarith [hT.1]⟩)] at h6
      cases h6
    · by_cases hab : a = b
      · subst hab; exact h13 ⟨by rw [cross_self']; simp, by rw [(degu a).1]; exact zero_le_one, by rw [(degu a).2]⟩
      by_cases hbc : b = c
      · subst hbc; exact h11 ⟨by rw [cross_self']; simp, by rw [(degu b).1]; exact zero_le_one, by rw [(degu b).2]⟩
      by_cases hca : c = a
      · subst hca; exact h12 ⟨by rw [cross_self']; simp, by rw [(degu c).1]; exact zero_le_one, by rw [(degu c).2]⟩
      have hT : ¬(0 ≤ twiceArea a b c ∨ twiceArea a b c < -ε) := fun h' => hgood ⟨⟨hab, hbc, hca⟩, h'⟩
      push Not at hT
      have e : 1 / 2 * cross (b - q) (c - q) + 1 / 2 * cross (c - q) (a - q) + 1 / 2 * cross (a - q) (b - q) = twiceArea a b c / 2 := by
        simp only [Vec2.cross, Vec2.sub_x, Vec2.sub_y, twiceArea]; ring
      linarith [hT.1, h14.1, h14.2.1, h14.2.2]

theorem closest_touching {A B : List (Vec2 K)} {ε : K} (hε : 0 ≤ ε) {S : Simplex K} (P : Pushed A B S) (hn : 1 ≤ S.nIterations) {p : Vec2 K} (h : closest ε S = .ok p) : Touching A B p := by
  unfold closest at h
  split at h
  · cases h
    exact touching_segment (P.d0 hn) (P.d0 hn) ⟨0, le_refl _, zero_le_one, by ext <;> simp⟩
  · rename_i h2
    cases h
    exact touching_segment (P.d0 hn) (P.d1 (by omega)) (C18_closest S.p0 S.p1 0).1
  · rename_i h1 h2
    have h3 : 3 ≤ S.nIterations := by
      rcases hh : S.nIterations with _ | _ | _ | n
      · omega
      · exact absurd hh h1
      · exact absurd hh h2
      · omega
    cases ht : TriangleBarycentric.mk' ε S.p0 S.p1 S.p2 0 with
    | ok r =>
      rw [ht] at h
      simp only [Outcome.bind, Outcome.ok.injEq] at h
      subst h
      obtain ⟨a, b, c, ha, hb, hc, hs, e⟩ := triangle_hull hε ht
      refine touching_three (P.d0 hn) (P.d1 (by omega)) (P.d2 h3) ha hb hc hs ?_ ?_ <;> rw [e] <;> simp <;> ring
    | throw => rw [ht] at h; simp [Outcome.bind] at h
    | ub => rw [ht] at h; simp [Outcome.bind] at h

end Simu.Gjk
