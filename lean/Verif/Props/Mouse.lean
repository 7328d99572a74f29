import Verif.Props.Jacobian
import Verif.Props.LibrarySound
/-
C74: what the constraint of the mouse does to the body it holds.
-/
namespace Simu
open Mat
section
variable {K : Type*} [Field K] [LinearOrder K] [IsStrictOrderedRing K] [Trig K]

omit [LinearOrder K] [IsStrictOrderedRing K] in
/-- C74: what is held is the material point of the body that was under the mouse: for the point `l` of the body (in its own coordinates) that was at `pos` when
the body was grabbed, the error is, wherever the body went, the vector from `pos` to where `l` is now. -/
theorem C74_point [LawfulTrig K] {body : Body K} (h : body.position.orient.Reachable) {l pos : Vec2 K} (hl : body.position.toWorldSpace.app l = pos)
    (p : Proxies K) (s : SolveState K) (r : Fin 2) :
    ((mouseFunOf body pos).eval p s).at_ r = ![((s.pos p.i0).toWorldSpace.app l).x - pos.x, ((s.pos p.i0).toWorldSpace.app l).y - pos.y] r := by
  have : body.position.toLocalSpace.app pos = l := by rw [← hl]; exact (C27_inverse h l).1
  unfold mouseFunOf
  rw [this]
  simp only [mouseFun, Vec2.toMVec, at_ofFn]
  fin_cases r <;> simp

omit [LinearOrder K] [IsStrictOrderedRing K] in
/-- C74: as long as the body has not moved, there is no error. -/
theorem C74_grab [LawfulTrig K] {body : Body K} (h : body.position.orient.Reachable) (pos : Vec2 K) (p : Proxies K) (s : SolveState K)
    (hs : s.pos p.i0 = body.position) (r : Fin 2) : ((mouseFunOf body pos).eval p s).at_ r = 0 := by
  have e := (C27_inverse h pos).2.1
  rw [C74_point h e, hs, e]
  fin_cases r <;> simp

omit [LinearOrder K] [IsStrictOrderedRing K] in
theorem mouse_get (a q : Vec2 K) (p : Proxies K) (s : SolveState K) (r : Fin 2) (c : Fin 6) : ((mouseFun a q).jacobian p s).get r c =
    (![![1, 0, -((s.pos p.i0).toWorldSpace.app a - (s.pos p.i0).centroid).y, 0, 0, 0],
       ![0, 1, ((s.pos p.i0).toWorldSpace.app a - (s.pos p.i0).centroid).x, 0, 0, 0]] : Fin 2 → Fin 6 → K) r c := by
  fin_cases r <;> fin_cases c <;> rfl

omit [LinearOrder K] [IsStrictOrderedRing K] in
theorem mouse_firstOnly (a q : Vec2 K) (p : Proxies K) (s : SolveState K) : FirstOnly ((mouseFun a q).jacobian p s) := by
  intro r
  simp only [mouse_get]
  fin_cases r <;> simp

/-- C74: any body of non-negative inverse masses can be held, structural or not: nothing throws in a step, whatever other constraints do meanwhile. -/
theorem C74_accepted {sqrt : K → K} (hs : ∀ x, 0 ≤ x → sqrt x * sqrt x = x) (e : EqualitySolver K 2) (hb : ∀ r, e.base.damping.at_ r = 1)
    (p : Proxies K) (hm : ∀ c, 0 ≤ p.invMassVec.at_ c) (l q : Vec2 K) (dt : K) (s : SolveState K) (evs : List (SolveEvent K)) :
    ∃ e' e'' s1, e.initSolve sqrt p (mouseFun l q) s = .ok e' ∧
      EqualitySolver.runEvents p (mouseFun l q) dt evs (e', s) = .ok (e'', s1) := by
  obtain ⟨e', h⟩ := (C34_valid hs e p hm (fun r => by rw [hb]; exact zero_le_one) (mouseFun l q) s).1 (fun x _ hx => ext_at fun r => by
    simpa [hb, at_zero] using hx r)
  obtain ⟨e'', s1, h'⟩ := C34_no_throw hs e e' p _ dt s h evs
  exact ⟨e', e'', s1, h, h'⟩

/-- C74: the mouse pulls at the point it holds: however often it is solved (warm start included), the velocity of the body changes, besides what others did meanwhile, by
a single impulse applied at the point where `l` is; no other body and no position changes. -/
theorem C74_impulse {sqrt : K → K} (e e' e'' : EqualitySolver K 2) (body : Nat) (m : InvMasses K) (l q : Vec2 K) (dt : K) (s s1 : SolveState K)
    (evs : List (SolveEvent K)) (h : e.initSolve sqrt ⟨body, body, m⟩ (mouseFun l q) s = .ok e')
    (hr : EqualitySolver.runEvents ⟨body, body, m⟩ (mouseFun l q) dt evs (e', s) = .ok (e'', s1)) :
    let x := (s.pos body).toWorldSpace.app l
    let F : Vec2 K := ⟨e''.base.lambda.at_ 0, e''.base.lambda.at_ 1⟩;
    (s1.vel body = s.vel body + others evs body + ⟨m.m0 • F, m.I0 * Vec2.cross (x - (s.pos body).centroid) F⟩) ∧
    (∀ b, b ≠ body → s1.vel b = s.vel b + others evs b) ∧ s1.pos = s.pos := by
  intro x F
  have key := C33_velocity_change_equality sqrt e e' e'' ⟨body, body, m⟩ (mouseFun l q) dt s s1 evs h hr
  have hp : ∀ c, pull ((mouseFun l q).jacobian ⟨body, body, m⟩ s) e''.base.lambda.toV c =
      ![F.x, F.y, Vec2.cross (x - (s.pos body).centroid) F, 0, 0, 0] c := by
    intro c
    simp only [pull, mouse_get, Fin.sum_univ_two, toV]
    fin_cases c <;> simp [F, x, Vec2.cross] <;> ring
  refine ⟨?_, fun b hb => ?_, (key body).2⟩
  · rw [(key body).1]
    congr 1
    simp only [kick, hp, if_true]
    ext <;> simp [mul_comm]
  · rw [(key b).1]
    simp [kick, hb]

/-- C74: after any velocity solve, the velocity of the point that is held and the impulse given so far make a tenth of the way to the mouse per step. -/
theorem C74_velocity {sqrt : K → K} (hs : ∀ x, 0 ≤ x → sqrt x * sqrt x = x) (e e' e'' : EqualitySolver K 2) (hb : e.base = { e.base with
      restitution := mouseBase.restitution, damping := mouseBase.damping }) (body : Nat) (m : InvMasses K) (l q : Vec2 K)
    {dt : K} (hdt : dt ≠ 0) (s s1 : SolveState K) (evs : List (SolveEvent K)) (h : e.initSolve sqrt ⟨body, body, m⟩ (mouseFun l q) s = .ok e')
    (hr : EqualitySolver.runEvents ⟨body, body, m⟩ (mouseFun l q) dt evs (e', s) = .ok (e'', s1)) :
    let x := (s.pos body).toWorldSpace.app l
    ∃ e3 s3, e''.solveVelocity ⟨body, body, m⟩ (mouseFun l q) dt s1 = .ok (e3, s3) ∧
      pointVelocity (s3.vel body) (x - (s.pos body).centroid) + ⟨e3.base.lambda.at_ 0, e3.base.lambda.at_ 1⟩ = (1 / (10 * dt)) • (q - x) := by
  intro x
  obtain ⟨e3, s3, h3, hv⟩ := C34_solved hs e e' e'' ⟨body, body, m⟩ (mouseFun l q) (fun _ _ => rfl) dt s s1 (Or.inr (mouse_firstOnly l q _ s)) evs h hr
  have hp := (C33_velocity_change_equality sqrt e e' e'' ⟨body, body, m⟩ (mouseFun l q) dt s s1 evs h hr body).2
  refine ⟨e3, s3, h3, ?_⟩
  have hd : ∀ r, e.base.damping.at_ r = 1 := fun r => by rw [hb]; simp [mouseBase, at_ofFn]
  have hres : ∀ r, e.base.restitution.at_ r = 1 / 10 := fun r => by rw [hb]; simp [mouseBase, at_ofFn]
  have v0 := hv 0
  have v1 := hv 1
  simp only [push, mouse_get, Fin.sum_univ_six, toV, Proxies.velocity, at_ofFn, hd, hres] at v0 v1
  simp only [mouseFun, at_zero, Vec2.toMVec, at_ofFn, hp] at v0 v1
  simp at v0 v1
  have e0 : (10 : K)⁻¹ * (x.x - q.x) / dt = (1 / (10 * dt)) * (x.x - q.x) := by field_simp
  have e1 : (10 : K)⁻¹ * (x.y - q.y) / dt = (1 / (10 * dt)) * (x.y - q.y) := by field_simp
  ext
  · simp [pointVelocity]
    simp at e0
    linear_combination v0 - e0
  · simp [pointVelocity]
    simp at e1
    linear_combination v1 - e1

/-- C74: a body at rest that only the mouse acts on goes towards the mouse, and not too far: the velocity `u` of the point that is held satisfies
`|u|² ≤ u · w` where `w` covers a tenth of the way in one step. -/
theorem C74_towards {sqrt : K → K} (hs : ∀ x, 0 ≤ x → sqrt x * sqrt x = x) (e e' e'' : EqualitySolver K 2) (hb : e.base = { e.base with
      restitution := mouseBase.restitution, damping := mouseBase.damping }) (body : Nat) (m : InvMasses K) (hm : 0 ≤ m.m0 ∧ 0 ≤ m.I0) (l q : Vec2 K)
    {dt : K} (hdt : dt ≠ 0) (s s1 : SolveState K) (evs : List (SolveEvent K)) (h : e.initSolve sqrt ⟨body, body, m⟩ (mouseFun l q) s = .ok e')
    (hr : EqualitySolver.runEvents ⟨body, body, m⟩ (mouseFun l q) dt evs (e', s) = .ok (e'', s1))
    (hv : s.vel body = ⟨0, 0⟩) (ho : others evs body = ⟨0, 0⟩) :
    let x := (s.pos body).toWorldSpace.app l
    ∃ e3 s3, e''.solveVelocity ⟨body, body, m⟩ (mouseFun l q) dt s1 = .ok (e3, s3) ∧
      let u := pointVelocity (s3.vel body) (x - (s.pos body).centroid)
      Vec2.dot u u ≤ Vec2.dot u ((1 / (10 * dt)) • (q - x)) := by
  intro x
  obtain ⟨e3, s3, h3, hw⟩ := C74_velocity hs e e' e'' hb body m l q hdt s s1 evs h hr
  refine ⟨e3, s3, h3, ?_⟩
  intro u
  have hr3 : EqualitySolver.runEvents ⟨body, body, m⟩ (mouseFun l q) dt (evs ++ [.solve]) (e', s) = .ok (e3, s3) := by
    clear hw
    suffices key : ∀ (evs : List (SolveEvent K)) es, EqualitySolver.runEvents ⟨body, body, m⟩ (mouseFun l q) dt evs es = .ok (e'', s1) →
        EqualitySolver.runEvents ⟨body, body, m⟩ (mouseFun l q) dt (evs ++ [.solve]) es = .ok (e3, s3) from key evs (e', s) hr
    intro evs
    induction evs with
    | nil => rintro es h; cases h; simp [EqualitySolver.runEvents, h3]
    | cons ev evs ih =>
      intro es h
      cases ev with
      | warmstart => exact ih _ h
      | other c => exact ih _ h
      | solve =>
        simp only [EqualitySolver.runEvents, List.cons_append] at h ⊢
        cases ho : EqualitySolver.solveVelocity es.1 ⟨body, body, m⟩ (mouseFun l q) dt es.2 with
        | ok es' => rw [ho, Outcome.bind_ok] at h; rw [Outcome.bind_ok]; exact ih _ h
        | throw => rw [ho] at h; cases h
        | ub => rw [ho] at h; cases h
  have ho3 : others (evs ++ [.solve]) body = ⟨0, 0⟩ := by
    rw [← ho]
    clear hr hr3 ho
    induction evs with
    | nil => simp [others]
    | cons ev evs ih => cases ev <;> simp [others, ih]
  obtain ⟨k, -⟩ := C74_impulse e e' e3 body m l q dt s s3 _ h hr3
  rw [hv, ho3] at k
  have hu : u = pointVelocity (s3.vel body) (x - (s.pos body).centroid) := rfl
  rw [← hu] at hw
  set F : Vec2 K := ⟨e3.base.lambda.at_ 0, e3.base.lambda.at_ 1⟩
  rw [← hw]
  set t := Vec2.cross (x - (s.pos body).centroid) F with ht
  have hk : s3.vel body = ⟨m.m0 • F, m.I0 * t⟩ := by rw [k]; ext <;> simp
  have : Vec2.dot u F = m.m0 * (F.x * F.x + F.y * F.y) + m.I0 * (t * t) := by
    rw [hu, hk]
    simp [pointVelocity, Vec2.dot]
    rw [ht]
    simp [Vec2.cross]
    ring
  have h1 : 0 ≤ m.m0 * (F.x * F.x + F.y * F.y) := mul_nonneg hm.1 (add_nonneg (mul_self_nonneg _) (mul_self_nonneg _))
  have h2 : 0 ≤ m.I0 * (t * t) := mul_nonneg hm.2 (mul_self_nonneg _)
  have h3 : Vec2.dot u (u + F) = Vec2.dot u u + Vec2.dot u F := by simp [Vec2.dot]; ring
  rw [h3, this]
  linarith

/-- C74: the position phase leaves everything as it is. -/
theorem C74_positions (c : CallCfg K) (f : CFun K 2) (p : Proxies K) (e : (Kind.mouse f).State) (s : SolveState K) :
    (Kind.mouse f).act c .solvePositions p e s = .ok (e, s) := rfl

end

/-- C47 for the mouse. -/
theorem C47_mouse (a q : Vec2 ℝ) : IsJacobian (mouseFun a q) := by
  intro p s r ho
  obtain ⟨x0, y0⟩ := point_deriv (s.pos p.i0) (ho _) a (s.vel p.i0).linear (s.vel p.i0).angular
  simp only [push, mouse_get, Fin.sum_univ_six, toV, Proxies.velocity, at_ofFn]
  simp only [mouseFun, (moved_pos p s _).1, Vec2.toMVec, at_ofFn]
  fin_cases r
  · refine (x0.sub_const q.x).congr_deriv ?_
    simp; ring
  · refine (y0.sub_const q.y).congr_deriv ?_
    simp; ring

/-! ### Body 4 of the world of Props/LibrarySound.lean, grabbed at (4, 1) -/

/-- Case for `C74_point`, `C74_grab`: the point (0, 1) of the body is held. -/
example (p : Proxies ℝ) (s : SolveState ℝ) : ((mouseFunOf (libBody 4) ⟨4, 1⟩).eval p s).at_ 0 = ((s.pos p.i0).toWorldSpace.app ⟨0, 1⟩).x - 4 := by
  rw [C74_point (.ofAngle _) (l := ⟨0, 1⟩) (by
    show (Position.make ⟨(4 : ℕ), 0⟩ 0 ⟨0, 0⟩ : Position ℝ).toWorldSpace.app ⟨0, 1⟩ = ⟨4, 1⟩
    rw [C27_placement]; ext <;> norm_num [rotateAbout, Trig.cos, Trig.sin])]
  rfl

/-- Case for `C74_accepted`, `C74_impulse`, `C74_velocity`, `C74_towards`: the body at rest, the mouse moved from (4, 1) to (5, 1). -/
example (s : SolveState ℝ) (hp : s.pos 4 = (libBody 4).position) (hv : s.vel 4 = ⟨0, 0⟩) (evs : List (SolveEvent ℝ)) (ho : others evs 4 = ⟨0, 0⟩) :
    ∃ e' e'' e3 : EqualitySolver ℝ 2, ∃ s1 s3, (⟨mouseBase, ⟨false, fun _ => .throw⟩⟩ : EqualitySolver ℝ 2).initSolve Real.sqrt ⟨4, 4, ⟨1 / 2, 1 / 3, 1 / 2, 1 / 3⟩⟩
        (mouseFun ⟨0, 1⟩ ⟨5, 1⟩) s = .ok e' ∧
      EqualitySolver.runEvents ⟨4, 4, ⟨1 / 2, 1 / 3, 1 / 2, 1 / 3⟩⟩ (mouseFun ⟨0, 1⟩ ⟨5, 1⟩) (1 / 60) evs (e', s) = .ok (e'', s1) ∧
      e''.solveVelocity ⟨4, 4, ⟨1 / 2, 1 / 3, 1 / 2, 1 / 3⟩⟩ (mouseFun ⟨0, 1⟩ ⟨5, 1⟩) (1 / 60) s1 = .ok (e3, s3) ∧
      let u := pointVelocity (s3.vel 4) ⟨0, 1⟩
      Vec2.dot u u ≤ 6 * u.x := by
  obtain ⟨e', e'', s1, h1, h2⟩ := C74_accepted sqrt_lawful (⟨mouseBase, ⟨false, fun _ => .throw⟩⟩ : EqualitySolver ℝ 2) (fun r => by simp [mouseBase, at_ofFn])
    ⟨4, 4, ⟨1 / 2, 1 / 3, 1 / 2, 1 / 3⟩⟩ (by intro c; fin_cases c <;> simp [Proxies.invMassVec, at_ofFn]) ⟨0, 1⟩ ⟨5, 1⟩ (1 / 60) s evs
  obtain ⟨e3, s3, h3, h4⟩ := C74_towards sqrt_lawful _ e' e'' rfl 4 ⟨1 / 2, 1 / 3, 1 / 2, 1 / 3⟩ (by norm_num) ⟨0, 1⟩ ⟨5, 1⟩ (dt := 1 / 60) (by norm_num) s s1 evs h1 h2 hv ho
  refine ⟨e', e'', e3, s1, s3, h1, h2, h3, ?_⟩
  have hx : (s.pos 4).toWorldSpace.app ⟨0, 1⟩ = ⟨4, 1⟩ := by
    rw [hp]
    show (Position.make ⟨(4 : ℕ), 0⟩ 0 ⟨0, 0⟩ : Position ℝ).toWorldSpace.app ⟨0, 1⟩ = ⟨4, 1⟩
    rw [C27_placement]; ext <;> norm_num [rotateAbout, Trig.cos, Trig.sin]
  have hc : (s.pos 4).centroid = ⟨4, 0⟩ := by
    rw [C27_centroid, hp]; ext <;> simp [libBody, Position.make]
  simp only [hx, hc] at h4
  have hd : (⟨4, 1⟩ : Vec2 ℝ) - ⟨4, 0⟩ = ⟨0, 1⟩ := by ext <;> simp
  rw [hd] at h4
  refine h4.trans (le_of_eq ?_)
  simp [Vec2.dot]
  norm_num
  ring

end Simu
