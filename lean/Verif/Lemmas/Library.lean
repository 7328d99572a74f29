import Verif.Spec.Library
import Verif.Lemmas.Contact
import Verif.Lemmas.Island
import Verif.Props.Momentum
/-
What a call on a constraint of the library does to the vectors of the island.
-/
namespace Simu
open Mat Island
variable {K : Type*} [Field K]

/-- Opposite linear parts. -/
def Opp (P : Six K) : Prop := P 3 = -P 0 ∧ P 4 = -P 1

theorem Opp.zero : Opp (fun _ => (0 : K)) := by simp [Opp]

theorem Opp.sub {P Q : Six K} (hP : Opp P) (hQ : Opp Q) : Opp (fun c => P c - Q c) := by
  obtain ⟨a, b⟩ := hP; obtain ⟨c, d⟩ := hQ
  constructor <;> simp only [*] <;> ring

variable [Trig K]

/-- What a call does: an impulse `dv` and a position correction `dp`. -/
structure Effect (p : Proxies K) (dv dp : Six K) (s s' : SolveState K) : Prop where
  still : ∀ i, (i = p.i0 → p.masses.m0 = 0 ∧ p.masses.I0 = 0) → (i = p.i1 → p.masses.m1 = 0 ∧ p.masses.I1 = 0) →
    s'.vel i = s.vel i ∧ ((s.pos i).orient.WF → s'.pos i = s.pos i)
  vel : p.i0 ≠ p.i1 → ∀ i, s'.vel i = s.vel i + kick p dv i
  off0 : p.i0 ≠ p.i1 → (s'.pos p.i0).pos.offset = (s.pos p.i0).pos.offset + p.masses.m0 • (⟨dp 0, dp 1⟩ : Vec2 K)
  off1 : p.i0 ≠ p.i1 → (s'.pos p.i1).pos.offset = (s.pos p.i1).pos.offset + p.masses.m1 • (⟨dp 3, dp 4⟩ : Vec2 K)
  local_ : ∀ i, (s'.pos i).localCentroid = (s.pos i).localCentroid
  wf : ∀ i, (s.pos i).orient.WF → (s'.pos i).orient.WF

theorem Rotation.wf_ofAngle {r : Rotation K} (h : r.WF) : r = .ofAngle r.theta := by
  obtain ⟨t, c, sn⟩ := r; obtain ⟨h1, h2⟩ := h; simp only at h1 h2; subst h1 h2; rfl

theorem Position.advance_zero {q : Position K} (hq : q.orient.WF) {d : Vec2 K} {t : K} (hd : d = 0) (ht : t = 0) : q.advance d t = q := by
  subst hd ht
  obtain ⟨⟨t⟩, o, c⟩ := q
  have ho : o.mul (.ofAngle 0) = o := by
    rw [Rotation.mul]; simp only [Rotation.ofAngle, add_zero]; exact (Rotation.wf_ofAngle hq).symm
  simp only [Position.advance, Translation.mul, ho]
  congr 2
  ext <;> simp

theorem Position.advance_wf (q : Position K) (d : Vec2 K) (t : K) : (q.advance d t).orient.WF := ⟨rfl, rfl⟩

theorem Effect.refl (p : Proxies K) (s : SolveState K) : Effect p (fun _ => 0) (fun _ => 0) s s where
  still _ _ _ := ⟨rfl, fun _ => rfl⟩
  vel _ i := by rw [kick_zero, add_zero]
  off0 _ := by ext <;> simp
  off1 _ := by ext <;> simp
  local_ _ := rfl
  wf _ h := h

theorem kick_still {p : Proxies K} (P : Six K) {i : Nat} (h0 : i = p.i0 → p.masses.m0 = 0 ∧ p.masses.I0 = 0)
    (h1 : i = p.i1 → p.masses.m1 = 0 ∧ p.masses.I1 = 0) : kick p P i = 0 := by
  unfold kick
  split_ifs with a b b
  · rw [(h0 a).1, (h0 a).2, (h1 b).1, (h1 b).2]; ext <;> simp
  · rw [(h0 a).1, (h0 a).2]; ext <;> simp
  · rw [(h1 b).1, (h1 b).2]; ext <;> simp
  · ext <;> simp

/-- A change of velocities only. -/
theorem Effect.ofKick {p : Proxies K} {P : Six K} {s s' : SolveState K} (hp : s'.pos = s.pos) (hv : ∀ i, s'.vel i = s.vel i + kick p P i) :
    Effect p P (fun _ => 0) s s' where
  still i h0 h1 := ⟨by rw [hv, kick_still P h0 h1, add_zero], fun _ => by rw [hp]⟩
  vel _ := hv
  off0 _ := by rw [hp]; ext <;> simp
  off1 _ := by rw [hp]; ext <;> simp
  local_ _ := by rw [hp]
  wf _ h := by rw [hp]; exact h

theorem Effect.impulse (p : Proxies K) (P : MVec K 6) (s : SolveState K) : Effect p P.toV (fun _ => 0) s (p.applyImpulse P s) :=
  .ofKick rfl fun i => Proxies.applyImpulse_vel p P s i

theorem Effect.correction (p : Proxies K) (P : MVec K 6) (s : SolveState K) : Effect p (fun _ => 0) P.toV s (p.applyPositionCorrection P s) where
  still i h0 h1 := by
    refine ⟨rfl, fun hw => ?_⟩
    simp only [Proxies.applyPositionCorrection, SolveState.advancePos, Function.update_apply]
    split_ifs with a b b
    · rw [Position.advance_zero (Position.advance_wf _ _ _) (by rw [(h1 a).1]; exact zero_smul K _) (by rw [(h1 a).2, zero_mul]),
        Position.advance_zero (by rw [← b, ← a]; exact hw) (by rw [(h0 (a.trans b)).1]; exact zero_smul K _) (by rw [(h0 (a.trans b)).2, zero_mul]), ← b, ← a]
    · rw [Position.advance_zero (by rw [← a]; exact hw) (by rw [(h1 a).1]; exact zero_smul K _) (by rw [(h1 a).2, zero_mul]), ← a]
    · rw [Position.advance_zero (by rw [← b]; exact hw) (by rw [(h0 b).1]; exact zero_smul K _) (by rw [(h0 b).2, zero_mul]), ← b]
    · rfl
  vel _ i := by rw [kick_zero, add_zero]; rfl
  off0 h := by
    simp only [Proxies.applyPositionCorrection, SolveState.advancePos, Function.update_apply, h, if_true, if_false, Position.advance,
      Translation.mul, toV]
  off1 h := by
    simp only [Proxies.applyPositionCorrection, SolveState.advancePos, Function.update_apply, h.symm, if_true, if_false, Position.advance,
      Translation.mul, toV]
  local_ i := by
    simp only [Proxies.applyPositionCorrection, SolveState.advancePos, Function.update_apply]
    split_ifs <;> simp_all [Position.advance]
  wf i h := by
    simp only [Proxies.applyPositionCorrection, SolveState.advancePos, Function.update_apply]
    split_ifs <;> first | exact Position.advance_wf _ _ _ | exact h

/-- A call of the given effect, keeping the linear parts opposite. -/
def Acts (p : Proxies K) (opp : Prop) (s s' : SolveState K) : Prop := ∃ dv dp, Effect p dv dp s s' ∧ (opp → Opp dv ∧ Opp dp)

theorem Acts.refl (p : Proxies K) (opp : Prop) (s : SolveState K) : Acts p opp s s := ⟨_, _, .refl p s, fun _ => ⟨.zero, .zero⟩⟩

section
variable [LinearOrder K]

theorem Acts.impulse {d : Nat} (p : Proxies K) (J : Mat K d 6) (l : MVec K d) (s : SolveState K) :
    Acts p (OppositeLinear J) s (p.applyImpulse (SolverBase.impulse J l) s) :=
  ⟨_, _, .impulse p _ s, fun h => ⟨by rw [toV_impulse]; exact pull_opposite h _, .zero⟩⟩

theorem Acts.correction {d : Nat} (p : Proxies K) (J : Mat K d 6) (l : MVec K d) (s : SolveState K) :
    Acts p (OppositeLinear J) s (p.applyPositionCorrection (J.transpose.mul l) s) :=
  ⟨_, _, .correction p _ s, fun h => ⟨.zero, by rw [show (J.transpose.mul l).toV = pull J l.toV from toV_impulse J l]; exact pull_opposite h _⟩⟩

end

theorem Acts.mono {p : Proxies K} {a b : Prop} {s s' : SolveState K} (h : Acts p a s s') (hab : b → a) : Acts p b s s' := by
  obtain ⟨dv, dp, he, ho⟩ := h
  exact ⟨dv, dp, he, fun hb => ho (hab hb)⟩

variable [LinearOrder K]

section solvers
variable {d : Nat} {p : Proxies K} {f : CFun K d} {s s' : SolveState K}

omit [Trig K] in
theorem SolverBase.computeEffectiveMass_J (b : SolverBase K d) (add : Bool) : (b.computeEffectiveMass p s f add).1.J = f.jacobian p s := rfl

theorem SolverBase.updateLambda_acts (b : SolverBase K d) (dt : K) (dl : MVec K d) :
    Acts p (OppositeLinear b.J) s (b.updateLambda p f dt dl s).2 ∧ (b.updateLambda p f dt dl s).1.J = b.J :=
  ⟨Acts.impulse p b.J _ s, rfl⟩

omit [Trig K] in
theorem EqualitySolver.initSolve_J {sqrt : K → K} {e e' : EqualitySolver K d} (h : e.initSolve sqrt p f s = .ok e') : e'.base.J = f.jacobian p s := by
  unfold EqualitySolver.initSolve at h
  simp only [bind_ok_iff] at h
  obtain ⟨_, _, _, _, h⟩ := h
  cases Outcome.ok.inj h
  rfl

theorem EqualitySolver.solveVelocity_acts {e e' : EqualitySolver K d} {dt : K} (h : e.solveVelocity p f dt s = .ok (e', s')) :
    Acts p (OppositeLinear e.base.J) s s' ∧ e'.base.J = e.base.J := by
  unfold EqualitySolver.solveVelocity at h
  simp only [bind_ok_iff] at h
  obtain ⟨dl, _, h⟩ := h
  cases Outcome.ok.inj h
  exact SolverBase.updateLambda_acts e.base dt dl

theorem EqualitySolver.solvePosition_acts {sqrt : K → K} {e e' : EqualitySolver K d} (h : e.solvePosition sqrt p f s = .ok (e', s')) :
    Acts p (OppositeLinear (f.jacobian p s)) s s' ∧ e'.base.J = f.jacobian p s := by
  unfold EqualitySolver.solvePosition at h
  simp only [bind_ok_iff] at h
  obtain ⟨_, _, l, _, h⟩ := h
  cases Outcome.ok.inj h
  exact ⟨Acts.correction p _ _ s, rfl⟩

theorem InequalitySolver.solveVelocity_acts {epsilon : K} {fuel : Nat} {e e' : InequalitySolver K d} {dt : K}
    (h : e.solveVelocity epsilon fuel p f dt s = some (e', s')) : Acts p (OppositeLinear e.base.J) s s' ∧ e'.base.J = e.base.J := by
  unfold InequalitySolver.solveVelocity at h
  simp only [Option.map_eq_some_iff] at h
  obtain ⟨l, _, h⟩ := h
  cases h
  exact SolverBase.updateLambda_acts e.base dt _

theorem InequalitySolver.solvePosition_acts {sqrt : K → K} {e e' : InequalitySolver K d} (h : e.solvePosition sqrt p f s = .ok (e', s')) :
    Acts p (OppositeLinear (f.jacobian p s)) s s' ∧ e'.base.J = e.base.J := by
  unfold InequalitySolver.solvePosition at h
  simp only [bind_ok_iff] at h
  obtain ⟨_, _, h⟩ := h
  split at h
  · simp only [bind_ok_iff] at h
    obtain ⟨l, _, h⟩ := h
    cases Outcome.ok.inj h
    exact ⟨Acts.correction p _ _ s, rfl⟩
  · cases Outcome.ok.inj h
    exact ⟨Acts.refl p _ s, rfl⟩

end solvers

section limits
variable {p : Proxies K} {f : CFun K 1} {s s' : SolveState K}

omit [Trig K] in
theorem LimitsSolver.initSolve_J {sqrt : K → K} {e e' : LimitsSolver K} (h : e.initSolve sqrt p f s = .ok e') : e'.base.J = f.jacobian p s := by
  unfold LimitsSolver.initSolve at h
  simp only at h
  split at h
  · simp only [bind_ok_iff] at h
    obtain ⟨_, _, h⟩ := h
    cases Outcome.ok.inj h; rfl
  all_goals cases Outcome.ok.inj h; rfl

theorem LimitsSolver.warmstart_acts (e : LimitsSolver K) (dt : K) :
    Acts p (OppositeLinear e.base.J) s (e.warmstart p f dt s).2 ∧ (e.warmstart p f dt s).1.base.J = e.base.J := by
  unfold LimitsSolver.warmstart
  split_ifs
  · exact ⟨Acts.impulse p _ _ s, rfl⟩
  · exact SolverBase.updateLambda_acts e.base dt _
  · exact ⟨Acts.refl p _ s, rfl⟩

theorem LimitsSolver.solveVelocity_acts {epsilon : K} {fuel : Nat} {e e' : LimitsSolver K} {dt : K}
    (h : e.solveVelocity epsilon fuel p f dt s = .ok (some (e', s'))) : Acts p (OppositeLinear e.base.J) s s' ∧ e'.base.J = e.base.J := by
  unfold LimitsSolver.solveVelocity at h
  simp only [bind_ok_iff] at h
  obtain ⟨err, _, h⟩ := h
  split at h
  · simp only [bind_ok_iff] at h
    obtain ⟨dl, _, h⟩ := h
    cases Outcome.ok.inj h
    exact SolverBase.updateLambda_acts e.base dt _
  · obtain ⟨l, _, h⟩ := Option.map_eq_some_iff.1 (Outcome.ok.inj h)
    cases h
    exact SolverBase.updateLambda_acts e.base dt _
  · obtain ⟨l, _, h⟩ := Option.map_eq_some_iff.1 (Outcome.ok.inj h)
    cases h
    exact ⟨Acts.impulse p _ _ s, rfl⟩
  · cases Outcome.ok.inj h
    exact ⟨Acts.refl p _ s, rfl⟩
  · cases h

theorem LimitsSolver.solvePosition_acts {sqrt : K → K} {epsilon : K} {fuel : Nat} {e e' : LimitsSolver K}
    (h : e.solvePosition sqrt epsilon fuel p f s = .ok (some (e', s'))) :
    Acts p (OppositeLinear (f.jacobian p s)) s s' ∧ e'.base.J = f.jacobian p s := by
  unfold LimitsSolver.solvePosition at h
  simp only at h
  split at h
  · simp only [bind_ok_iff] at h
    obtain ⟨_, _, _, _, _, _, h⟩ := h
    cases Outcome.ok.inj h
    exact ⟨Acts.correction p _ _ s, rfl⟩
  · simp only [bind_ok_iff] at h
    obtain ⟨_, _, h⟩ := h
    obtain ⟨l, _, h⟩ := Option.map_eq_some_iff.1 (Outcome.ok.inj h)
    cases h
    exact ⟨Acts.correction p _ _ s, rfl⟩
  · simp only [bind_ok_iff] at h
    obtain ⟨_, _, h⟩ := h
    obtain ⟨l, _, h⟩ := Option.map_eq_some_iff.1 (Outcome.ok.inj h)
    cases h
    exact ⟨Acts.correction p _ _ s, rfl⟩
  · cases Outcome.ok.inj h
    exact ⟨Acts.correction p _ _ s, rfl⟩

end limits

namespace Contact
variable {p : Proxies K} {s s' : SolveState K}

/-- The Jacobians of a contact have opposite linear parts. -/
def FitC (e : Contact K) : Prop := OppositeLinear e.Jn ∧ ∀ c, OppositeLinear (e.Jf c)

theorem computeJacobians_fit (e : Contact K) (b : Bool) : FitC (e.computeJacobians p s b) := by
  constructor
  · intro r
    rw [computeJacobians_Jn, computeJacobians_Jn, computeJacobians_Jn, computeJacobians_Jn]
    split_ifs <;> simp [rowOf, row]
  · intro c r
    have : r = 0 := Subsingleton.elim _ _
    subst this
    rw [computeJacobians_Jf, computeJacobians_Jf, computeJacobians_Jf, computeJacobians_Jf]
    split_ifs <;> simp [rowOf, row]

theorem computeKs_fit {e : Contact K} (h : FitC e) (b : Bool) : FitC (e.computeKs p b) := by
  obtain ⟨h1, h2, -⟩ := computeKs_eq e p b
  unfold FitC
  rw [h1, h2]; exact h

theorem initSolve_fit (e : Contact K) : FitC (e.initSolve p s) := computeKs_fit (computeJacobians_fit e true) true

theorem totalImpulse_opp {e : Contact K} (h : FitC e) : Opp (totalImpulse e) := by
  obtain ⟨h1, h2⟩ := h
  obtain ⟨a, b⟩ := pull_opposite h1 e.normalLambda.toV
  constructor
  · simp only [totalImpulse, a, (h2 0 0).1, (h2 1 0).1]; ring
  · simp only [totalImpulse, b, (h2 0 0).2, (h2 1 0).2]; ring

theorem warmstart_acts (e : Contact K) : Acts p (FitC e) s (e.warmstart p s).2 ∧ (FitC e → FitC (e.warmstart p s).1) := by
  refine ⟨⟨_, _, .impulse p _ s, fun h => ⟨?_, .zero⟩⟩, fun h => h⟩
  obtain ⟨h1, h2⟩ := h
  obtain ⟨a, b⟩ := pull_opposite h1 e.previousNormalLambda.toV
  simp only [pull, toV] at a b
  constructor
  · simp only [toV, at_add, at_smul, at_mul, get_transpose, a, at_eq_get (e.Jf _).transpose, (h2 0 0).1, (h2 1 0).1]; ring
  · simp only [toV, at_add, at_smul, at_mul, get_transpose, b, at_eq_get (e.Jf _).transpose, (h2 0 0).2, (h2 1 0).2]; ring

theorem solveVelocities_acts {e e' : Contact K} (h : e.solveVelocities p s = .ok (e', s')) :
    Acts p (FitC e) s s' ∧ (FitC e → FitC e') := by
  obtain ⟨l, v', hn, he', hs'⟩ := solveVelocities_eq e p s h
  have hfit : FitC e → FitC e' := by rw [he']; exact fun h => h
  have hpos : s'.pos = s.pos := by rw [hs']; rfl
  refine ⟨⟨_, _, ?_, fun hf => ⟨Opp.sub (totalImpulse_opp (hfit hf)) (totalImpulse_opp hf), .zero⟩⟩, hfit⟩
  by_cases hi : p.i0 = p.i1
  · refine ⟨fun i h0 h1 => ⟨?_, fun _ => by rw [hpos]⟩, fun h => absurd hi h, fun h => absurd hi h, fun h => absurd hi h, fun _ => by rw [hpos],
      fun _ h => by rw [hpos]; exact h⟩
    have hv := solveNormal_velocity e p _ hn
    have hf := frictionLoop_eq e p (p.velocity s)
    rw [hs']
    simp only [SolveState.setVel, Function.update_apply]
    by_cases a : i = p.i1
    · obtain ⟨m, I⟩ := h1 a
      rw [if_pos a, a]
      simp only [hv, hf, velocity_toV, Proxies.invMassVec, at_ofFn]
      ext <;> simp [m, I]
    · rw [if_neg a, if_neg (by rw [hi]; exact a)]
  · exact .ofKick hpos fun i => solveVelocities_kick e p hi s h i

theorem solvePositions_acts {e e' : Contact K} (h : e.solvePositions p s = .ok (e', s')) : Acts p True s s' ∧ FitC e' := by
  unfold solvePositions at h
  simp only at h
  set e1 := (computeJacobians _ p s false).computeKs p false with he1
  have hfit : FitC e1 := computeKs_fit (computeJacobians_fit _ false) false
  clear_value e1
  split at h
  · cases Outcome.ok.inj h
    exact ⟨Acts.refl p _ s, hfit⟩
  split at h
  · simp only [bind_ok_iff] at h
    obtain ⟨k, _, h⟩ := h
    cases Outcome.ok.inj h
    refine ⟨⟨_, _, .correction p _ s, fun _ => ⟨.zero, ?_⟩⟩, hfit⟩
    simp only [Opp, toV, at_smul, at_eq_get (normalJacobian _ _).transpose, get_transpose, normalJacobian_get, (hfit.1 0).1, (hfit.1 0).2]
    constructor <;> ring
  split at h
  · simp only [bind_ok_iff] at h
    obtain ⟨_, _, l, _, h⟩ := h
    cases Outcome.ok.inj h
    exact ⟨(Acts.correction p _ _ s).mono fun _ => hfit.1, hfit⟩
  · cases Outcome.ok.inj h
    exact ⟨Acts.refl p _ s, hfit⟩

end Contact

theorem returned_ok {α : Type*} {o : Option α} {a : α} (h : returned o = .ok a) : o = some a := by
  cases o with
  | none => cases h
  | some b => cases Outcome.ok.inj h; rfl

/-- What any call on any constraint does. -/
theorem Kind.act_acts (c : CallCfg K) (k : Kind K) (ph : Phase) {p : Proxies K} {e e' : k.State} {s s' : SolveState K}
    (h : k.act c ph p e s = .ok (e', s')) : Acts p (k.Opposite ∧ k.Fit e) s s' ∧ (k.Opposite → k.Fit e → k.Fit e') := by
  have keep : ∀ {d : Nat} {J J' : Mat K d 6}, J' = J → OppositeLinear J → OppositeLinear J' := fun h => by rw [h]; exact id
  cases k with
  | equality d f =>
    cases ph with
    | initSolve =>
      obtain ⟨e1, h1, h⟩ := bind_ok_iff.1 h
      cases Outcome.ok.inj h
      exact ⟨Acts.refl p _ s, fun ho _ => keep (EqualitySolver.initSolve_J h1) (ho p s)⟩
    | warmstart =>
      cases Outcome.ok.inj h
      obtain ⟨a, b⟩ := SolverBase.updateLambda_acts (p := p) (f := f) (s := s) (e : EqualitySolver K d).base c.dt (e : EqualitySolver K d).base.previousLambda
      exact ⟨a.mono And.right, fun _ hf => keep b hf⟩
    | solveVelocities =>
      obtain ⟨a, b⟩ := EqualitySolver.solveVelocity_acts h
      exact ⟨a.mono And.right, fun _ hf => keep b hf⟩
    | solvePositions =>
      obtain ⟨a, b⟩ := EqualitySolver.solvePosition_acts h
      exact ⟨a.mono fun ho => ho.1 p s, fun ho _ => keep b (ho p s)⟩
  | inequality d f =>
    cases ph with
    | initSolve =>
      cases Outcome.ok.inj h
      exact ⟨Acts.refl p _ s, fun ho _ => ho p s⟩
    | warmstart =>
      cases Outcome.ok.inj h
      obtain ⟨a, b⟩ := SolverBase.updateLambda_acts (p := p) (f := f) (s := s) (e : InequalitySolver K d).base c.dt (e : InequalitySolver K d).base.previousLambda
      exact ⟨a.mono And.right, fun _ hf => keep b hf⟩
    | solveVelocities =>
      obtain ⟨a, b⟩ := InequalitySolver.solveVelocity_acts (returned_ok h)
      exact ⟨a.mono And.right, fun _ hf => keep b hf⟩
    | solvePositions =>
      obtain ⟨a, b⟩ := InequalitySolver.solvePosition_acts h
      exact ⟨a.mono fun ho => ho.1 p s, fun _ hf => keep b hf⟩
  | limits f =>
    cases ph with
    | initSolve =>
      obtain ⟨e1, h1, h⟩ := bind_ok_iff.1 h
      cases Outcome.ok.inj h
      exact ⟨Acts.refl p _ s, fun ho _ => keep (LimitsSolver.initSolve_J h1) (ho p s)⟩
    | warmstart =>
      have h : LimitsSolver.warmstart e p f c.dt s = (e', s') := Outcome.ok.inj h
      obtain ⟨a, b⟩ := LimitsSolver.warmstart_acts (p := p) (f := f) (s := s) e c.dt
      rw [h] at a b
      exact ⟨a.mono And.right, fun _ hf => keep b hf⟩
    | solveVelocities =>
      obtain ⟨r, h1, h⟩ := bind_ok_iff.1 h
      rw [returned_ok h] at h1
      obtain ⟨a, b⟩ := LimitsSolver.solveVelocity_acts h1
      exact ⟨a.mono And.right, fun _ hf => keep b hf⟩
    | solvePositions =>
      obtain ⟨r, h1, h⟩ := bind_ok_iff.1 h
      rw [returned_ok h] at h1
      obtain ⟨a, b⟩ := LimitsSolver.solvePosition_acts h1
      exact ⟨a.mono fun ho => ho.1 p s, fun ho _ => keep b (ho p s)⟩
  | mouse f =>
    cases ph with
    | initSolve =>
      obtain ⟨e1, h1, h⟩ := bind_ok_iff.1 h
      cases Outcome.ok.inj h
      exact ⟨Acts.refl p _ s, fun ho _ => ho.elim⟩
    | warmstart =>
      cases Outcome.ok.inj h
      obtain ⟨a, b⟩ := SolverBase.updateLambda_acts (p := p) (f := f) (s := s) (e : EqualitySolver K 2).base c.dt (e : EqualitySolver K 2).base.previousLambda
      exact ⟨a.mono fun ho => ho.1.elim, fun ho _ => ho.elim⟩
    | solveVelocities =>
      obtain ⟨a, b⟩ := EqualitySolver.solveVelocity_acts h
      exact ⟨a.mono fun ho => ho.1.elim, fun ho _ => ho.elim⟩
    | solvePositions =>
      cases Outcome.ok.inj h
      exact ⟨Acts.refl p _ s, fun ho _ => ho.elim⟩
  | contact =>
    cases ph with
    | initSolve =>
      cases Outcome.ok.inj h
      exact ⟨Acts.refl p _ s, fun _ _ => Contact.initSolve_fit _⟩
    | warmstart =>
      cases Outcome.ok.inj h
      obtain ⟨a, b⟩ := Contact.warmstart_acts (p := p) (s := s) e
      exact ⟨a.mono And.right, fun _ hf => b hf⟩
    | solveVelocities =>
      obtain ⟨a, b⟩ := Contact.solveVelocities_acts h
      exact ⟨a.mono And.right, fun _ hf => b hf⟩
    | solvePositions =>
      obtain ⟨a, b⟩ := Contact.solvePositions_acts h
      exact ⟨a.mono fun _ => trivial, fun _ _ => b⟩

end Simu
