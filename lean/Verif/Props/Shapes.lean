import Verif.Model.Renderer
import Verif.Spec.Transform
import Verif.Lemmas.Vec2
import Verif.Lemmas.Samples
import Verif.Props.Geometry
import Mathlib.Tactic.Linarith
import Mathlib.Analysis.SpecialFunctions.Sqrt
import Mathlib.Tactic.FieldSimp
import Mathlib.Tactic.Positivity
/-
C62: points. C64: lines. C65: contours.
-/
namespace Simu
namespace Renderer
section
variable {K : Type*} [Field K] [Trig K]

/-- A renderer obtained by any history of its settings. -/
inductive Reachable (pi : K) : Renderer K → Prop
  | init : Reachable pi (init pi)
  | radius {r} (h : Reachable pi r) (x : K) : Reachable pi (r.setPointRadius pi x)
  | precision {r} (h : Reachable pi r) (n : Nat) : Reachable pi (r.setPointPrecision pi n)
  | width {r} (h : Reachable pi r) (x : K) : Reachable pi (r.setLineWidth x)

omit [Trig K] in
theorem length_offsets (rot : Rotation K) (n : Nat) (o : Vec2 K) : (offsets rot n o).length = n := by
  induction n generalizing o with
  | zero => rfl
  | succ n ih => simp [offsets, ih]

variable [LawfulTrig K]

theorem offsets_get (t : K) (n : Nat) (radius a : K) (k : Nat) (hk : k < n) :
    (offsets (.ofAngle t) n ⟨radius * Trig.cos a, radius * Trig.sin a⟩)[k]? =
      some ⟨radius * Trig.cos (k * t + a), radius * Trig.sin (k * t + a)⟩ := by
  induction n generalizing a k with
  | zero => omega
  | succ n ih =>
    cases k with
    | zero => simp [offsets]
    | succ k =>
      have hrot : (Rotation.ofAngle t).app ⟨radius * Trig.cos a, radius * Trig.sin a⟩ =
          (⟨radius * Trig.cos (a + t), radius * Trig.sin (a + t)⟩ : Vec2 K) := by
        ext
        · simp only [Rotation.app, Rotation.ofAngle, LawfulTrig.cos_add]; ring
        · simp only [Rotation.app, Rotation.ofAngle, LawfulTrig.sin_add]; ring
      simp only [offsets, List.getElem?_cons_succ, hrot]
      rw [ih (a + t) k (by omega)]
      have : (k : K) * t + (a + t) = ((k + 1 : Nat) : K) * t + a := by push_cast; ring
      rw [this]

/-- C62: whatever the settings, a point is drawn with at least three vertices, and these are spread evenly on the circle of the radius asked for. -/
theorem C62_circle {pi : K} {r : Renderer K} (h : r.Reachable pi) :
    3 ≤ r.pointPrecision ∧ ∀ k < r.pointPrecision, r.pointOffsets[k]? = some ⟨r.pointRadius * Trig.cos (k * (2 * pi / r.pointPrecision)),
      r.pointRadius * Trig.sin (k * (2 * pi / r.pointPrecision))⟩ := by
  have upd : ∀ (r : Renderer K) (x : K) (n : Nat), 3 ≤ n → 3 ≤ (r.updatePointOffsets pi x n).pointPrecision ∧
      ∀ k < (r.updatePointOffsets pi x n).pointPrecision, (r.updatePointOffsets pi x n).pointOffsets[k]? =
        some ⟨(r.updatePointOffsets pi x n).pointRadius * Trig.cos (k * (2 * pi / (r.updatePointOffsets pi x n).pointPrecision)),
          (r.updatePointOffsets pi x n).pointRadius * Trig.sin (k * (2 * pi / (r.updatePointOffsets pi x n).pointPrecision))⟩ := by
    intro r x n hn
    have hp : (r.updatePointOffsets pi x n).pointPrecision = n := length_offsets _ _ _
    rw [hp]
    refine ⟨hn, fun k hk => ?_⟩
    have h0 : (x • (⟨1, 0⟩ : Vec2 K)) = ⟨x * Trig.cos 0, x * Trig.sin 0⟩ := by
      rw [LawfulTrig.cos_zero, LawfulTrig.sin_zero]
      ext <;> simp
    have := offsets_get (2 * pi / n) n x 0 k hk
    rw [add_zero] at this
    show (offsets _ n (x • ⟨1, 0⟩))[k]? = _
    rw [h0]
    exact this
  induction h with
  | init => exact upd _ _ _ (by omega)
  | radius h x ih => exact upd _ _ _ ih.1
  | precision h n ih =>
    unfold setPointPrecision
    split_ifs with hn
    · exact upd _ _ _ hn
    · exact ih
  | width h x ih => exact ih

/-- C62: with at most 255 vertices, drawing a point ends and draws these vertices around it. -/
theorem C62_point_partial (r : Renderer K) (hn : r.pointPrecision ≤ 255) (P : Vec2 K) :
    ∃ fuel, r.drawPoint fuel P = some (.ok ⟨P, r.pointOffsets.map (P + ·)⟩) := by
  have key : ∀ (d i fuel : Nat) (v : List (Vec2 K)), r.pointPrecision - i = d → i ≤ r.pointPrecision → d < fuel →
      r.pointLoop P fuel i v = some (.ok (v ++ (r.pointOffsets.drop i).map (P + ·))) := by
    intro d
    induction d with
    | zero =>
      intro i fuel v hd hi hf
      obtain ⟨fuel, rfl⟩ := Nat.exists_eq_succ_of_ne_zero (by omega : fuel ≠ 0)
      have : r.pointOffsets.drop i = [] := by
        rw [List.drop_eq_nil_iff]
        unfold pointPrecision at *; omega
      rw [pointLoop, if_neg (by omega), this]
      simp
    | succ d ih =>
      intro i fuel v hd hi hf
      obtain ⟨fuel, rfl⟩ := Nat.exists_eq_succ_of_ne_zero (by omega : fuel ≠ 0)
      have hi' : i < r.pointOffsets.length := by unfold pointPrecision at *; omega
      rw [pointLoop, if_pos (by omega), List.getElem?_eq_getElem hi']
      have hm : (i + 1) % 256 = i + 1 := by omega
      simp only [hm]
      rw [ih (i + 1) fuel _ (by omega) (by omega) (by omega), List.drop_eq_getElem_cons hi', List.map_cons, List.append_assoc, List.singleton_append]
  refine ⟨r.pointPrecision + 1, ?_⟩
  unfold drawPoint
  rw [key r.pointPrecision 0 _ [] (by omega) (by omega) (by omega)]
  simp

/-- C62 is false: with 256 vertices or more, drawing a point never ends. -/
theorem C62_point_disagreement (r : Renderer K) (hn : 256 ≤ r.pointPrecision) (P : Vec2 K) (fuel : Nat) : r.drawPoint fuel P = none := by
  have key : ∀ (fuel i : Nat) (v : List (Vec2 K)), i < 256 → r.pointLoop P fuel i v = none := by
    intro fuel
    induction fuel with
    | zero => intro i v _; rfl
    | succ fuel ih =>
      intro i v hi
      have hi' : i < r.pointOffsets.length := by unfold pointPrecision at *; omega
      rw [pointLoop, if_pos (by omega), List.getElem?_eq_getElem hi']
      exact ih _ _ (Nat.mod_lt _ (by omega))
  unfold drawPoint
  rw [key fuel 0 [] (by omega)]
  rfl

end

section
variable {K : Type*} [Field K] [LinearOrder K] [IsStrictOrderedRing K]

/-- C64: a line between two different points is drawn as the rectangle along it whose width is that asked for: the ends of the line are the
middles of two opposite sides, these sides are perpendicular to the line, and the center is the middle of the line. Missing: the orientation
(`C64_orientation_disagreement`). -/
theorem C64_line_partial {sqrt : K → K} (hsqrt : ∀ x, 0 ≤ x → sqrt x * sqrt x = x ∧ 0 ≤ sqrt x) (r : Renderer K) {A B : Vec2 K} (hAB : A ≠ B) :
    ∃ a b c d, r.drawLine sqrt A B = .ok ⟨Vec2.sdiv (A + B) 2, [a, b, c, d]⟩ ∧
      A = Vec2.sdiv (a + d) 2 ∧ B = Vec2.sdiv (b + c) 2 ∧ b - a = B - A ∧ c - d = B - A ∧
      Vec2.dot (a - d) (B - A) = 0 ∧ (a - d).normSquared = r.lineWidth ^ 2 := by
  have hne : A.x ≠ B.x ∨ A.y ≠ B.y := by
    by_contra hc
    push Not at hc
    exact hAB (Vec2.ext hc.1 hc.2)
  refine ⟨_, _, _, _, by rw [drawLine, if_pos hne], ?_, ?_, ?_, ?_, ?_, ?_⟩
  · ext <;> simp [Vec2.sdiv]
  · ext <;> simp [Vec2.sdiv]
  · ext <;> simp
  · ext <;> simp
  · simp [Vec2.dot, Vec2.sdiv, Vec2.perp]
    ring
  · set n := ((B - A).perp : Vec2 K).normSquared with hn
    have hnn : n = (B.x - A.x) * (B.x - A.x) + (B.y - A.y) * (B.y - A.y) := by
      rw [hn]; simp [Vec2.normSquared, Vec2.dot, Vec2.perp]; ring
    have hn0 : 0 < n := by
      rw [hnn]
      rcases hne with h | h
      · exact add_pos_of_pos_of_nonneg (mul_self_pos.2 (sub_ne_zero.2 (Ne.symm h))) (mul_self_nonneg _)
      · exact add_pos_of_nonneg_of_pos (mul_self_nonneg _) (mul_self_pos.2 (sub_ne_zero.2 (Ne.symm h)))
    obtain ⟨h1, h2⟩ := hsqrt n hn0.le
    set q := sqrt n
    have hq : q ≠ 0 := fun h => by rw [h, mul_zero] at h1; exact hn0.ne h1
    simp only [Vec2.normSquared, Vec2.dot, Vec2.sdiv, Vec2.perp, Bool.false_eq_true, if_false, Vec2.add_x, Vec2.add_y, Vec2.sub_x, Vec2.sub_y, Vec2.smul_x,
      Vec2.smul_y]
    have : ((B.x - A.x) * (B.x - A.x) + (B.y - A.y) * (B.y - A.y)) / (q * q) = 1 := by rw [← hnn, h1, div_self hn0.ne']
    rw [← hnn] at this
    have e : r.lineWidth ^ 2 = r.lineWidth ^ 2 * (((B.x - A.x) * (B.x - A.x) + (B.y - A.y) * (B.y - A.y)) / (q * q)) := by
      rw [← hnn, this, mul_one]
    rw [e]
    field_simp
    ring

omit [IsStrictOrderedRing K] in
/-- C64: a line between a point and itself is refused. -/
theorem C64_degenerate (sqrt : K → K) (r : Renderer K) (A : Vec2 K) : r.drawLine sqrt A A = .throw := by
  simp [drawLine]

/-- C64: lines have the width that was set last, also if the points are changed after that. Missing: the orientation (`C64_orientation_disagreement`). -/
theorem C64_width_partial [Trig K] {sqrt : K → K} (hsqrt : ∀ x, 0 ≤ x → sqrt x * sqrt x = x ∧ 0 ≤ sqrt x) (pi : K) (r : Renderer K) (width radius : K) (precision : Nat) {A B : Vec2 K}
    (hAB : A ≠ B) :
    ∃ a b c d, (r.setLineWidth width).drawLine sqrt A B = .ok ⟨Vec2.sdiv (A + B) 2, [a, b, c, d]⟩ ∧
      (((r.setLineWidth width).setPointRadius pi radius).setPointPrecision pi precision).drawLine sqrt A B = .ok ⟨Vec2.sdiv (A + B) 2, [a, b, c, d]⟩ ∧
      A = Vec2.sdiv (a + d) 2 ∧ B = Vec2.sdiv (b + c) 2 ∧ b - a = B - A ∧ c - d = B - A ∧ Vec2.dot (a - d) (B - A) = 0 ∧ (a - d).normSquared = width ^ 2 := by
  obtain ⟨a, b, c, d, h, h'⟩ := C64_line_partial hsqrt (r.setLineWidth width) hAB
  refine ⟨a, b, c, d, h, ?_, h'⟩
  rw [← h]
  unfold setPointPrecision
  split <;> rfl

/-- C64: the vertices of a line are given clockwise, although `drawPolygon` asks for positively oriented ones: at each corner the turn is to the right. -/
theorem C64_orientation_disagreement {sqrt : K → K} (hsqrt : ∀ x, 0 ≤ x → sqrt x * sqrt x = x ∧ 0 ≤ sqrt x) (r : Renderer K) {A B : Vec2 K} (hAB : A ≠ B)
    (hw : 0 < r.lineWidth) : ∃ a b c d, r.drawLine sqrt A B = .ok ⟨Vec2.sdiv (A + B) 2, [a, b, c, d]⟩ ∧
      Vec2.cross (b - a) (c - b) < 0 ∧ Vec2.cross (c - b) (d - c) < 0 ∧ Vec2.cross (d - c) (a - d) < 0 ∧ Vec2.cross (a - d) (b - a) < 0 := by
  have hne : A.x ≠ B.x ∨ A.y ≠ B.y := by
    by_contra hc
    push Not at hc
    exact hAB (Vec2.ext hc.1 hc.2)
  set n := ((B - A).perp : Vec2 K).normSquared with hn
  have hnn : n = (B.x - A.x) * (B.x - A.x) + (B.y - A.y) * (B.y - A.y) := by
    rw [hn]; simp [Vec2.normSquared, Vec2.dot, Vec2.perp]; ring
  have hn0 : 0 < n := by
    rw [hnn]
    rcases hne with h | h
    · exact add_pos_of_pos_of_nonneg (mul_self_pos.2 (sub_ne_zero.2 (Ne.symm h))) (mul_self_nonneg _)
    · exact add_pos_of_nonneg_of_pos (mul_self_nonneg _) (mul_self_pos.2 (sub_ne_zero.2 (Ne.symm h)))
  obtain ⟨h1, h2⟩ := hsqrt n hn0.le
  have hq : 0 < sqrt n := lt_of_le_of_ne h2 (fun h => by rw [← h, mul_zero] at h1; exact hn0.ne h1)
  have hneg : -(r.lineWidth * n / sqrt n) < 0 := by
    rw [neg_lt_zero]; positivity
  refine ⟨_, _, _, _, by rw [drawLine, if_pos hne], ?_, ?_, ?_, ?_⟩ <;>
  · refine lt_of_eq_of_lt ?_ hneg
    rw [← hn]
    simp only [Vec2.cross, Vec2.sdiv, Vec2.perp, Bool.false_eq_true, if_false, Vec2.add_x, Vec2.add_y, Vec2.sub_x, Vec2.sub_y, Vec2.smul_x,
      Vec2.smul_y]
    rw [hnn]
    field_simp
    ring

/-- C65: the vertices of the contour: each is beyond both edges at its vertex, by the width times one plus the cosine of the angle between their normals. -/
theorem C65_contour_partial {sqrt : K → K} (hsqrt : ∀ x, 0 ≤ x → sqrt x * sqrt x = x ∧ 0 ≤ sqrt x) (vs : List (Vec2 K)) (hvs : vs ≠ []) (w : K) :
    ∃ es os, edgesOf vs = .ok es ∧ contour sqrt vs w = .ok os ∧ os.length = vs.length ∧
      ∀ (i : Nat) (v o : Vec2 K) (e1 e2 : Vec2 K × Vec2 K), vs[i]? = some v → os[i]? = some o → es[i]? = some e1 → es[(i + 1) % vs.length]? = some e2 →
        e1.1 ≠ e1.2 → e2.1 ≠ e2.2 → e1.2 = v ∧ e2.1 = v ∧
        Vec2.dot (o - v) (edgeUnitNormal sqrt e1) = w * (1 + Vec2.dot (edgeUnitNormal sqrt e1) (edgeUnitNormal sqrt e2)) ∧
        Vec2.dot (o - v) (edgeUnitNormal sqrt e2) = w * (1 + Vec2.dot (edgeUnitNormal sqrt e1) (edgeUnitNormal sqrt e2)) := by
  obtain ⟨es, hes, hlen, hget⟩ := C16_edges vs hvs
  refine ⟨es, _, hes, by rw [contour, hes]; rfl, by simp [hlen], ?_⟩
  intro i v o e1 e2 hv ho he1 he2 hd1 hd2
  have hunit : ∀ e : Vec2 K × Vec2 K, e.1 ≠ e.2 → Vec2.dot (edgeUnitNormal sqrt e) (edgeUnitNormal sqrt e) = 1 := by
    intro e he
    have hn0 : 0 < (edgeNormal e).normSquared := by
      have : (edgeNormal e).normSquared = (e.2.x - e.1.x) * (e.2.x - e.1.x) + (e.2.y - e.1.y) * (e.2.y - e.1.y) := by
        simp [edgeNormal, edgeDirection, Vec2.normSquared, Vec2.dot, Vec2.perp]; ring
      rw [this]
      by_cases hx : e.1.x = e.2.x
      · have hy : e.1.y ≠ e.2.y := fun hy => he (Vec2.ext hx hy)
        exact add_pos_of_nonneg_of_pos (mul_self_nonneg _) (mul_self_pos.2 (sub_ne_zero.2 (Ne.symm hy)))
      · exact add_pos_of_pos_of_nonneg (mul_self_pos.2 (sub_ne_zero.2 (Ne.symm hx))) (mul_self_nonneg _)
    obtain ⟨h1, _⟩ := hsqrt _ hn0.le
    have hq : sqrt (edgeNormal e).normSquared ≠ 0 := fun h => by rw [h, mul_zero] at h1; exact hn0.ne h1
    have : Vec2.dot (edgeUnitNormal sqrt e) (edgeUnitNormal sqrt e) =
        (edgeNormal e).normSquared / (sqrt (edgeNormal e).normSquared * sqrt (edgeNormal e).normSquared) := by
      simp only [edgeUnitNormal, Vec2.dot, Vec2.sdiv]
      set q := sqrt (edgeNormal e).normSquared
      rw [Vec2.normSquared, Vec2.dot]
      field_simp
      ring
    rw [this, h1, div_self hn0.ne']
  have hi : i < vs.length := (List.getElem?_eq_some_iff.1 hv).1
  have ho' : o = v + w • (edgeUnitNormal sqrt e1 + edgeUnitNormal sqrt e2) := by
    rw [List.getElem?_map, List.getElem?_range (show i < es.length by omega), Option.map_some] at ho
    simp only [Option.some.injEq, he1, hlen, he2, hv, Option.elim_some] at ho
    exact ho.symm
  have hend : e1.2 = v := by
    have := hget i
    rw [he1, hv] at this
    simp only [Option.bind_some] at this
    obtain ⟨a, _, ha⟩ := Option.map_eq_some_iff.1 this.symm
    rw [← ha]
  have hstart : e2.1 = v := by
    have := hget ((i + 1) % vs.length)
    rw [he2] at this
    have hj : (i + 1) % vs.length < vs.length := Nat.mod_lt _ (by omega)
    rw [List.getElem?_eq_getElem hj] at this
    simp only [Option.bind_some] at this
    obtain ⟨a, ha, hab⟩ := Option.map_eq_some_iff.1 this.symm
    have hidx : ((i + 1) % vs.length + vs.length - 1) % vs.length = i := by
      by_cases hl : i + 1 = vs.length
      · rw [hl, Nat.mod_self, Nat.zero_add]
        rw [Nat.mod_eq_of_lt (by omega)]
        omega
      · rw [Nat.mod_eq_of_lt (show i + 1 < vs.length by omega)]
        have : i + 1 + vs.length - 1 = i + vs.length := by omega
        rw [this, Nat.add_mod_right, Nat.mod_eq_of_lt hi]
    rw [hidx, hv] at ha
    rw [← hab, Option.some.inj ha]
  have u1 := hunit e1 hd1
  have u2 := hunit e2 hd2
  refine ⟨hend, hstart, ?_, ?_⟩
  · rw [ho']
    have : Vec2.dot (v + w • (edgeUnitNormal sqrt e1 + edgeUnitNormal sqrt e2) - v) (edgeUnitNormal sqrt e1) =
        w * (Vec2.dot (edgeUnitNormal sqrt e1) (edgeUnitNormal sqrt e1) + Vec2.dot (edgeUnitNormal sqrt e1) (edgeUnitNormal sqrt e2)) := by
      simp [Vec2.dot]; ring
    rw [this, u1]
  · rw [ho']
    have : Vec2.dot (v + w • (edgeUnitNormal sqrt e1 + edgeUnitNormal sqrt e2) - v) (edgeUnitNormal sqrt e2) =
        w * (Vec2.dot (edgeUnitNormal sqrt e2) (edgeUnitNormal sqrt e2) + Vec2.dot (edgeUnitNormal sqrt e1) (edgeUnitNormal sqrt e2)) := by
      simp [Vec2.dot]; ring
    rw [this, u2]

/-- C65 is false: the contour does not have the width asked for. Outside the triangle (0, 0), (4, 0), (0, 3), the contour's vertex at (4, 0) is only one
fifth of the width away from the lines of both edges there (and at the right angle the width is respected). -/
theorem C65_contour_disagreement {sqrt : K → K} (hsqrt : ∀ x, 0 ≤ x → sqrt x * sqrt x = x ∧ 0 ≤ sqrt x) (w : K) :
    contour sqrt [⟨0, 0⟩, ⟨4, 0⟩, ⟨0, 3⟩] w = .ok [⟨-w, -w⟩, ⟨4 + 3 / 5 * w, -(1 / 5) * w⟩, ⟨-(2 / 5) * w, 3 + 4 / 5 * w⟩] ∧
      Vec2.dot (⟨4 + 3 / 5 * w, -(1 / 5) * w⟩ - ⟨4, 0⟩ : Vec2 K) ⟨0, -1⟩ = 1 / 5 * w ∧
      Vec2.dot (⟨4 + 3 / 5 * w, -(1 / 5) * w⟩ - ⟨4, 0⟩ : Vec2 K) ⟨3 / 5, 4 / 5⟩ = 1 / 5 * w := by
  have root : ∀ a : K, 0 ≤ a → sqrt (a * a) = a := by
    intro a ha
    obtain ⟨h1, h2⟩ := hsqrt (a * a) (mul_self_nonneg a)
    exact (mul_self_inj h2 ha).1 h1
  have h3 : sqrt 9 = 3 := by rw [← root 3 (by norm_num)]; norm_num
  have h4 : sqrt 16 = 4 := by rw [← root 4 (by norm_num)]; norm_num
  have h5 : sqrt 25 = 5 := by rw [← root 5 (by norm_num)]; norm_num
  refine ⟨?_, ?_, ?_⟩
  · have hes : edgesOf [(⟨0, 0⟩ : Vec2 K), ⟨4, 0⟩, ⟨0, 3⟩] = .ok [(⟨0, 3⟩, ⟨0, 0⟩), (⟨0, 0⟩, ⟨4, 0⟩), (⟨4, 0⟩, ⟨0, 3⟩)] :=
      edgesOf_cons _ _
    rw [contour, hes]
    simp only [Outcome.bind, List.length_cons, List.length_nil, Nat.reduceAdd, List.range_succ, List.range_zero, List.nil_append, List.cons_append,
      List.map_cons, List.map_nil, List.getElem?_cons_zero, List.getElem?_cons_succ, Option.elim_some, Nat.reduceMod, Outcome.ok.injEq, List.cons.injEq,
      and_true]
    have e1 : edgeUnitNormal sqrt ((⟨0, 3⟩ : Vec2 K), ⟨0, 0⟩) = ⟨-1, 0⟩ := by
      have : sqrt (edgeNormal ((⟨0, 3⟩ : Vec2 K), ⟨0, 0⟩)).normSquared = 3 := by
        rw [← h3]; congr 1; simp [edgeNormal, edgeDirection, Vec2.normSquared, Vec2.dot, Vec2.perp, h3]; norm_num
      rw [edgeUnitNormal, this]
      ext <;> simp [edgeNormal, edgeDirection, Vec2.perp, Vec2.sdiv] 
    have e2 : edgeUnitNormal sqrt ((⟨0, 0⟩ : Vec2 K), ⟨4, 0⟩) = ⟨0, -1⟩ := by
      have : sqrt (edgeNormal ((⟨0, 0⟩ : Vec2 K), ⟨4, 0⟩)).normSquared = 4 := by
        rw [← h4]; congr 1; simp [edgeNormal, edgeDirection, Vec2.normSquared, Vec2.dot, Vec2.perp, h4]; norm_num
      rw [edgeUnitNormal, this]
      ext <;> simp [edgeNormal, edgeDirection, Vec2.perp, Vec2.sdiv]
    have e3 : edgeUnitNormal sqrt ((⟨4, 0⟩ : Vec2 K), ⟨0, 3⟩) = ⟨3 / 5, 4 / 5⟩ := by
      have : sqrt (edgeNormal ((⟨4, 0⟩ : Vec2 K), ⟨0, 3⟩)).normSquared = 5 := by
        rw [← h5]; congr 1; simp [edgeNormal, edgeDirection, Vec2.normSquared, Vec2.dot, Vec2.perp]; norm_num
      rw [edgeUnitNormal, this]
      ext <;> simp [edgeNormal, edgeDirection, Vec2.perp, Vec2.sdiv]
    rw [e1, e2, e3]
    refine ⟨?_, ?_, ?_⟩ <;> ext <;> simp <;> ring
  · simp [Vec2.dot]
  · simp [Vec2.dot]; ring

end

/-! ### Concrete cases -/

/-- The square root of the reals is as the theorems ask. -/
theorem realSqrt_lawful (x : ℝ) (hx : 0 ≤ x) : Real.sqrt x * Real.sqrt x = x ∧ 0 ≤ Real.sqrt x := ⟨Real.mul_self_sqrt hx, Real.sqrt_nonneg x⟩

/-- The points of a renderer set to radius 2 and 4 vertices are squares: C62 applies to it. -/
example : ∃ r : Renderer ℝ, r.Reachable Real.pi ∧ r.pointPrecision = 4 ∧ r.pointRadius = 2 ∧ r.pointOffsets[2]? = some ⟨2 * Real.cos Real.pi, 2 * Real.sin Real.pi⟩ := by
  have h : ((init Real.pi).setPointRadius Real.pi 2 |>.setPointPrecision Real.pi 4).Reachable Real.pi := .precision (.radius .init 2) 4
  have hp : ((init Real.pi).setPointRadius Real.pi 2 |>.setPointPrecision Real.pi 4).pointPrecision = 4 := length_offsets _ _ _
  refine ⟨_, h, hp, rfl, ?_⟩
  have := (C62_circle h).2 2 (by omega)
  rw [this, hp]
  have e : ((2 : Nat) : ℝ) * (2 * Real.pi / (4 : Nat)) = Real.pi := by push_cast; ring
  rw [e]
  rfl

/-- A reachable renderer has more than 255 vertices per point: C62's disagreement happens. -/
example : ∃ r : Renderer ℝ, r.Reachable Real.pi ∧ 256 ≤ r.pointPrecision :=
  ⟨(init Real.pi).setPointPrecision Real.pi 300, .precision .init 300, by
    have : ((init Real.pi).setPointPrecision Real.pi 300).pointPrecision = 300 := length_offsets _ _ _
    omega⟩

/-- C64 applies to the line from (1, 2) to (4, 6). -/
example : (⟨1, 2⟩ : Vec2 ℝ) ≠ ⟨4, 6⟩ ∧ (0 : ℝ) < (Renderer.mk [] 3 1 : Renderer ℝ).lineWidth := by
  constructor
  · intro h
    have := congrArg Vec2.x h
    norm_num at this
  · norm_num

/-- C65 applies to a triangle, at its second vertex. -/
example : ∃ es, edgesOf [(⟨0, 0⟩ : Vec2 ℝ), ⟨4, 0⟩, ⟨0, 3⟩] = .ok es ∧ es[1]? = some (⟨0, 0⟩, ⟨4, 0⟩) ∧ es[(1 + 1) % 3]? = some (⟨4, 0⟩, ⟨0, 3⟩) :=
  ⟨_, edgesOf_cons _ _, rfl, rfl⟩

end Renderer
end Simu
