import Verif.Model.Camera
import Verif.Lemmas.Mat9
import Mathlib.Algebra.Order.Ring.Rat
import Mathlib.Algebra.Field.Rat
import Mathlib.Tactic.Linarith
import Mathlib.Tactic.FieldSimp
import Mathlib.Tactic.Ring
/-
C41: the camera. C58: from the window to the scene.
-/
namespace Simu
namespace Camera
variable {K : Type*} [Field K] [LinearOrder K] [IsStrictOrderedRing K]

/-- A camera obtained by any history of public operations. -/
def Reachable (c : Camera K) : Prop := ∃ ops : List (Op K), c = ops.foldl apply init

/-- What the camera shows, as documented: the rectangle around the center, of dimensions `viewDimensions / zoom`. -/
def Shows (c : Camera K) (p : Vec2 K) : Prop :=
  |p.x - c.center.x| ≤ c.viewDimensions.x / c.zoom / 2 ∧ |p.y - c.center.y| ≤ c.viewDimensions.y / c.zoom / 2

/-- The screen square. -/
def OnScreen (p : Vec2 K) : Prop := |p.x| ≤ 1 ∧ |p.y| ≤ 1

/-- C41: whatever is done with the camera, the zoom and the dimensions of the view stay positive. -/
theorem C41_positive {c : Camera K} (h : c.Reachable) : 0 < c.zoom ∧ 0 < c.viewDimensions.x ∧ 0 < c.viewDimensions.y := by
  obtain ⟨ops, rfl⟩ := h
  have step : ∀ (c : Camera K) (op : Op K), 0 < c.zoom ∧ 0 < c.viewDimensions.x ∧ 0 < c.viewDimensions.y →
      0 < (c.apply op).zoom ∧ 0 < (c.apply op).viewDimensions.x ∧ 0 < (c.apply op).viewDimensions.y := by
    intro c op hc
    cases op <;> simp only [apply, setZoom, zoomIn, zoomOut, pan, panTo, setPixelSize, setViewDimensions,
      setDimensionsFromScreenCoordinates] <;> try exact hc
    all_goals split_ifs with h
    all_goals first | exact hc | exact ⟨h, hc.2⟩ | exact ⟨hc.1, h⟩
  have : ∀ (ops : List (Op K)) (c : Camera K), 0 < c.zoom ∧ 0 < c.viewDimensions.x ∧ 0 < c.viewDimensions.y →
      0 < (ops.foldl apply c).zoom ∧ 0 < (ops.foldl apply c).viewDimensions.x ∧ 0 < (ops.foldl apply c).viewDimensions.y := by
    intro ops
    induction ops with
    | nil => exact fun c h => h
    | cons op ops ih => exact fun c h => ih _ (step c op h)
  exact this ops _ ⟨by simp [init], by simp [init], by simp [init]⟩

omit [LinearOrder K] [IsStrictOrderedRing K] in
theorem transform_eq (c : Camera K) : c.transform = .ok (m9 (2 * c.zoom / c.viewDimensions.x) 0 (-(2 * c.zoom / c.viewDimensions.x * c.center.x))
    0 (2 * c.zoom / c.viewDimensions.y) (-(2 * c.zoom / c.viewDimensions.y * c.center.y)) 0 0 1) := by
  rw [transform, Translation.toMat3, ofList9, diagonal9]
  simp only [Outcome.bind_ok, m9_mul, Vec2.sdiv, div_div_eq_mul_div]
  congr 2 <;> simp

omit [LinearOrder K] [IsStrictOrderedRing K] in
theorem invTransform_eq (c : Camera K) : c.invTransform = .ok (m9 (c.viewDimensions.x / c.zoom / 2) 0 c.center.x
    0 (c.viewDimensions.y / c.zoom / 2) c.center.y 0 0 1) := by
  rw [invTransform, Translation.toMat3, ofList9, diagonal9]
  simp only [Outcome.bind_ok, m9_mul, Vec2.sdiv]
  congr 2 <;> simp

/-- C41: in every state of the camera, both matrices exist and undo each other, as matrices and as maps of the plane. -/
theorem C41_inverse {c : Camera K} (h : c.Reachable) :
    ∃ M N, c.transform = .ok M ∧ c.invTransform = .ok N ∧ M.mul N = Mat.identity ∧ N.mul M = Mat.identity ∧
      ∀ p, mat3App N (mat3App M p) = p ∧ mat3App M (mat3App N p) = p := by
  obtain ⟨hz, hx, hy⟩ := C41_positive h
  have h2 : (2 : K) ≠ 0 := two_ne_zero
  refine ⟨_, _, transform_eq c, invTransform_eq c, ?_, ?_, fun p => ⟨?_, ?_⟩⟩
  · rw [m9_mul, identity9]
    congr 1 <;> field_simp <;> ring
  · rw [m9_mul, identity9]
    congr 1 <;> field_simp <;> ring
  · rw [m9_app, m9_app]
    ext <;> dsimp only <;> field_simp <;> ring
  · rw [m9_app, m9_app]
    ext <;> dsimp only <;> field_simp <;> ring

/-- C41: a point is on the screen exactly when it is in the rectangle the camera shows. -/
theorem C41_view {c : Camera K} (h : c.Reachable) :
    ∃ M, c.transform = .ok M ∧ ∀ p, OnScreen (mat3App M p) ↔ c.Shows p := by
  obtain ⟨hz, hx, hy⟩ := C41_positive h
  refine ⟨_, transform_eq c, fun p => ?_⟩
  rw [m9_app]
  have key : ∀ d q m : K, 0 < d → (|2 * c.zoom / d * q + 0 + -(2 * c.zoom / d * m)| ≤ 1 ↔ |q - m| ≤ d / c.zoom / 2) := by
    intro d q m hd
    have : 2 * c.zoom / d * q + 0 + -(2 * c.zoom / d * m) = (q - m) * (2 * c.zoom / d) := by ring
    rw [this, abs_mul, abs_of_pos (div_pos (mul_pos two_pos hz) hd), mul_div_assoc', div_le_one hd, div_div, le_div_iff₀ (mul_pos hz two_pos)]
    rw [mul_comm (2 : K)]
  have key' : ∀ d q m : K, 0 < d → (|0 + 2 * c.zoom / d * q + -(2 * c.zoom / d * m)| ≤ 1 ↔ |q - m| ≤ d / c.zoom / 2) := by
    intro d q m hd
    rw [← key d q m hd, zero_add, add_zero]
  simp only [OnScreen, Shows, zero_mul]
  rw [key _ _ _ hx, key' _ _ _ hy]

/-- C41: what each operation does: a positive zoom or positive dimensions are taken, others are ignored; `panTo` centers the view; `zoomIn` and
`zoomOut` multiply the zoom and undo each other; the dimensions follow the size of the window in pixels; nothing else changes. -/
theorem C41_operations {c : Camera K} (h : c.Reachable) (z s : K) (p d : Vec2 K) :
    (0 < z → c.setZoom z = { c with zoom := z }) ∧ (z ≤ 0 → c.setZoom z = c) ∧
    c.zoomIn = { c with zoom := c.zoom * (5 / 4) } ∧ c.zoomOut = { c with zoom := c.zoom * (4 / 5) } ∧
    c.zoomIn.zoomOut = c ∧ c.zoomOut.zoomIn = c ∧
    c.panTo p = { c with center := p } ∧ c.pan p = { c with center := c.center + p } ∧
    (0 < d.x → 0 < d.y → c.setViewDimensions d = { c with viewDimensions := d }) ∧
    (d.x ≤ 0 ∨ d.y ≤ 0 → c.setViewDimensions d = c) ∧
    (0 < c.pixelSize → 0 < d.x → 0 < d.y → c.setDimensionsFromScreenCoordinates d =
      { c with viewDimensions := ⟨d.x * c.pixelSize, d.y * c.pixelSize⟩ }) ∧
    c.setPixelSize s = { c with pixelSize := s } := by
  have hz := (C41_positive h).1
  have hi : c.zoomIn = { c with zoom := c.zoom * (5 / 4) } := by
    rw [zoomIn, setZoom, if_pos (by positivity), mul_div_assoc]
  have ho : ∀ c : Camera K, 0 < c.zoom → c.zoomOut = { c with zoom := c.zoom * (4 / 5) } := by
    intro c hz
    rw [zoomOut, setZoom, if_pos (by positivity), mul_div_assoc]
  have hi' : ∀ c : Camera K, 0 < c.zoom → c.zoomIn = { c with zoom := c.zoom * (5 / 4) } := by
    intro c hz
    rw [zoomIn, setZoom, if_pos (by positivity), mul_div_assoc]
  refine ⟨fun h => by rw [setZoom, if_pos h], fun h => by rw [setZoom, if_neg (not_lt.2 h)], hi, ho c hz, ?_, ?_, ?_, rfl,
    fun h1 h2 => by rw [setViewDimensions, if_pos ⟨h1, h2⟩], fun h => ?_, fun hp h1 h2 => ?_, rfl⟩
  · rw [hi, ho _ (by dsimp only; positivity)]
    obtain ⟨_, _, z, _⟩ := c
    simp only [Camera.mk.injEq, true_and, and_true]
    ring
  · rw [ho c hz, hi' _ (by dsimp only; positivity)]
    obtain ⟨_, _, z, _⟩ := c
    simp only [Camera.mk.injEq, true_and, and_true]
    ring
  · have : c.center + (p - c.center) = p := by ext <;> simp
    rw [panTo, pan, this]
  · rw [setViewDimensions, if_neg]
    rintro ⟨h1, h2⟩
    rcases h with h | h <;> exact absurd h (not_le.2 ‹_›)
  · rw [setDimensionsFromScreenCoordinates, setViewDimensions, if_pos]
    · rfl
    · exact ⟨mul_pos h1 hp, mul_pos h2 hp⟩

/-- A camera that was moved and zoomed. -/
def sampleCamera : Camera ℚ :=
  [Op.pan ⟨1, 2⟩, .setZoom (-1), .zoomIn, .setViewDimensions ⟨0, 1⟩, .setDimensionsFromScreenCoordinates ⟨640, 480⟩].foldl apply init

theorem sampleCamera_reachable : sampleCamera.Reachable := ⟨_, rfl⟩

-- C41: the lower left corner of what this camera shows is the lower left corner of the screen.
example : (sampleCamera.zoom, sampleCamera.viewDimensions) = (5 / 4, (⟨64, 48⟩ : Vec2 ℚ)) := by decide +kernel

example : ∃ M, sampleCamera.transform = .ok M ∧ mat3App M ⟨1 - 64 / (5 / 4) / 2, 2 - 48 / (5 / 4) / 2⟩ = ⟨-1, -1⟩ := by
  refine ⟨_, rfl, ?_⟩
  decide +kernel

/-- The point of the screen square at which a window of size `wz` shows the pixel `w` (pixels are counted from the top left corner). -/
def pixelOnScreen (wz w : Vec2 K) : Vec2 K := ⟨2 * w.x / wz.x - 1, 1 - 2 * w.y / wz.y⟩

/-- C58: for any window size and camera, what is drawn at the point of the scene given to the mouse callbacks appears under the mouse, and
conversely; in particular the corners of the window are the corners of the view. -/
theorem C58_window {c : Camera K} (h : c.Reachable) {wz : Vec2 K} (hw : 0 < wz.x ∧ 0 < wz.y) :
    ∃ M W, c.transform = .ok M ∧ c.windowToScene wz = .ok W ∧
      (∀ w p, mat3App W w = p ↔ mat3App M p = pixelOnScreen wz w) ∧
      mat3App W 0 = ⟨c.center.x - c.viewDimensions.x / c.zoom / 2, c.center.y + c.viewDimensions.y / c.zoom / 2⟩ ∧
      mat3App W wz = ⟨c.center.x + c.viewDimensions.x / c.zoom / 2, c.center.y - c.viewDimensions.y / c.zoom / 2⟩ := by
  obtain ⟨hz, hx, hy⟩ := C41_positive h
  obtain ⟨M, N, hM, hN, _, _, hinv⟩ := C41_inverse h
  obtain ⟨hw1, hw2⟩ := hw
  have hN' := hN
  rw [invTransform_eq] at hN'
  have hNe := (Outcome.ok.inj hN').symm
  have hW : ∀ w, ∃ W, c.windowToScene wz = .ok W ∧ mat3App W w = mat3App N (pixelOnScreen wz w) := by
    intro w
    refine ⟨_, by rw [windowToScene, ofList9, ofList9, hN]; rfl, ?_⟩
    rw [hNe, m9_mul, m9_mul, m9_app, m9_app]
    simp only [pixelOnScreen]
    ext <;> dsimp only <;> field_simp <;> ring
  obtain ⟨W, hW0, _⟩ := hW 0
  have hWe : ∀ w, mat3App W w = mat3App N (pixelOnScreen wz w) := by
    intro w
    obtain ⟨W', h1, h2⟩ := hW w
    rw [hW0] at h1
    rw [Outcome.ok.inj h1, h2]
  refine ⟨M, W, hM, hW0, fun w p => ?_, ?_, ?_⟩
  · rw [hWe]
    constructor
    · rintro rfl
      exact (hinv _).2
    · intro hp
      rw [← hp]
      exact (hinv _).1
  · rw [hWe, hNe, m9_app]
    simp only [pixelOnScreen]
    ext <;> dsimp only [Vec2.zero_x, Vec2.zero_y] <;> field_simp <;> ring
  · rw [hWe, hNe, m9_app]
    simp only [pixelOnScreen]
    ext <;> dsimp only <;> field_simp <;> ring

-- C58: a click 10 pixels right of the center of a 640x480 window is 10 pixels (of size 1/10, zoomed) right of the center of the view.
example : ∃ W, sampleCamera.windowToScene ⟨640, 480⟩ = .ok W ∧ mat3App W ⟨330, 240⟩ = ⟨1 + 10 * (1 / 10) / (5 / 4), 2⟩ := by
  refine ⟨_, rfl, ?_⟩
  decide +kernel

end Camera
end Simu
