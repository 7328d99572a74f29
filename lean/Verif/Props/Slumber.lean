import Verif.Spec.Slumber
import Verif.Props.Standing
/-
C107: structures that fell asleep in equilibrium stay where they are.
-/
namespace Simu
open Island Mat Finset

section
variable {K : Type*} [Field K] [LinearOrder K] [IsStrictOrderedRing K] [Trig K]

/-- C107: a step without warm starting leaves a sleeping structure without anything to correct where it is, whatever forces act and whatever impulses it remembers. Missing: warm starting, see
`C107_creep_disagreement`. -/
theorem C107_step_partial {L : Library K} {m m' : Motion L} {c : CallCfg K} {cfg : Island.Settings} {sl : Sleep.Settings K} {fields : List (ForceField K)}
    {tree : List (Nat × Collider K)} {world : List Nat} {fuel : Nat} {A : Link → Bool} {group : Finset Nat} {log : List Record}
    {evals : List (Link × Bool)} (hr : Dormant c A group m) (hl : Sleeping c world A group m) (hw : cfg.enableWarmstarting = false)
    (h : m.step c cfg sl fields tree world fuel = some (.ok (m', log, evals))) (hA : ∀ e ∈ evals, e.2 = A e.1) :
    (∀ b ∈ group, (m'.body b).position = (m.body b).position ∧ (m'.body b).velocity = 0 ∧ (m'.body b).angular = 0) ∧ Dormant c A group m' := by
  obtain ⟨body, st, h1, h2, rfl, h4, h5⟩ := Motion.step_ok h
  have hsame : ∀ b ∈ group, body b = m.body b := fun b hb => applyForces_untouched (Or.inl (hl.asleep b hb)) h1
  have hvel : ∀ b ∈ group, (⟨(body b).velocity, (body b).angular⟩ : Velocity K) = ⟨0, 0⟩ := fun b hb => by
    rw [hsame b hb, (hr.velocity b hb).1, (hr.velocity b hb).2]
  have hp : ∀ b ∈ group, (L.Propped c (fun _ => ⟨0, 0⟩) b ↔ interactsAsStructural (L.net c) ({ m with body := body } : Motion L).start b = true) := fun b hb => propped_iff (hvel b hb)
  have hnp : ∀ b ∈ group, interactsAsStructural (L.net c) ({ m with body := body } : Motion L).start b = false → ¬ L.Propped c (fun _ => ⟨0, 0⟩) b := fun b hb hf hq => by
    rw [(hp b hb).1 hq] at hf
    cases hf
  have hH : Held L c A group (fun b => Pose.of (m.body b).position) (fun _ => ⟨0, 0⟩) (fun _ => 0) ({ m with body := body } : Motion L).start := by
    refine ⟨fun b hb => ⟨?_, hvel b hb⟩, fun b hb hf => hl.enclosed b hb (hnp b hb hf), fun b hb hf => ?_⟩
    · show Pose.of (body b).position = Pose.of (m.body b).position
      rw [hsame b hb]
    · rw [Finset.sum_eq_zero fun l _ => ?_, add_zero]
      · rfl
      · unfold Library.share kick
        simp only [Pi.zero_apply, mul_zero]
        show (if _ then (0 : Velocity K) else 0) + (if _ then (0 : Velocity K) else 0) = 0
        simp only [ite_self, add_zero]
  obtain ⟨k1, k2⟩ := solveLoop_stands hl.made hw (fun _ _ => rfl) (C37_library hl.made c).lawful hl.wellFormed.consistent hl.inside hl.sqrt hl.epsilon hl.fuel fuel hH
    (progress_start (Ready.idle ⟨fun _ => rfl, fun _ => rfl⟩))
    ⟨fun b hb hf l hlb ha => by
      obtain ⟨Q, hQ⟩ := hr.carrying b hb (hnp b hb hf) l hlb ha
      exact ⟨Q, by simp, hQ⟩, fun b _ hD => by simp at hD⟩ ⟨rfl, rfl, rfl⟩ h2 hA
  have keep : ∀ b ∈ group, (m'.body b).position = (m.body b).position ∧ (m'.body b).velocity = 0 ∧ (m'.body b).angular = 0 := fun b hb' => by
    rw [h5 b (hl.inside b hb')]
    refine ⟨?_, ?_, ?_⟩
    · show (st.body b).pos.1 = _
      rw [(k2 b hb').1, Pose.of_eq (hr.orient b hb')]
    · show (st.body b).vel.linear = 0
      rw [(k2 b hb').2]
    · show (st.body b).vel.angular = 0
      rw [(k2 b hb').2]
  refine ⟨keep, fun b hb => (keep b hb).2, fun b hb => by rw [(keep b hb).1]; exact hr.orient b hb, fun b hb hq l hlb ha => ?_⟩
  obtain ⟨Q, -, this⟩ := k1 b hb (by
    by_contra hf
    exact hq ((hp b hb).2 (by simpa using hf))) l hlb ha
  obtain ⟨e0, e1⟩ := hl.enclosed b hb hq l hlb ha
  refine ⟨Q, ?_⟩
  rw [h4]
  unfold Library.Carrying at this ⊢
  simp only [(keep _ e0).1, (keep _ e1).1]
  exact this

/-- C107: without warm starting, a sleeping structure without anything to correct is where it was after any number of steps in which it sleeps, for any number of iterations, whatever forces act
and whatever impulses it remembers. Missing: with warm starting, which is the default, this is false (`C107_creep_disagreement`). -/
theorem C107_sleeps_partial {L : Library K} {c : CallCfg K} {A : Link → Bool} {group : Finset Nat} {n : Nat} {m m' : Motion L}
    (h : Slumber c A group n m m') (hr : Dormant c A group m) :
    (∀ b ∈ group, (m'.body b).position = (m.body b).position ∧ (m'.body b).velocity = 0 ∧ (m'.body b).angular = 0) ∧ Dormant c A group m' := by
  induction h with
  | start m => exact ⟨fun b hb => ⟨rfl, hr.velocity b hb⟩, hr⟩
  | @step n m0 m1 before m m' cfg sl fields tree world fuel log evals hw same states hl hs hA ih =>
    obtain ⟨i1, i2⟩ := ih hr
    have hr' : Dormant c A group m := by
      refine ⟨fun b hb => ?_, fun b hb => ?_, fun b hb hq l hlb ha => ?_⟩
      · rw [same b hb]; exact i2.velocity b hb
      · rw [same b hb]; exact i2.orient b hb
      · obtain ⟨Q, this⟩ := i2.carrying b hb hq l hlb ha
        obtain ⟨e0, e1⟩ := hl.enclosed b hb hq l hlb ha
        refine ⟨Q, ?_⟩
        unfold Library.Carrying at this ⊢
        simp only [same _ e0, same _ e1, states b hb l hlb]
        exact this
    obtain ⟨j1, j2⟩ := C107_step_partial hr' hl hw hs hA
    refine ⟨fun b hb => ?_, j2⟩
    obtain ⟨a1, a2, a3⟩ := j1 b hb
    rw [same b hb] at a1
    exact ⟨a1.trans (i1 b hb).1, a2, a3⟩

end

/-! ### A chain of two bodies that hangs at a third -/
section
attribute [local instance] flatTrig

/-- Bodies below each other, of mass one; the first is fixed. They sleep. -/
def chainBody (b : Nat) : Body ℚ := ⟨.make ⟨0, -2 * b⟩ 0 0, 0, 0, ⟨[], ⟨1, 1, 0⟩⟩, if b = 0 then 0 else 1, true, true⟩

/-- Hinges halfway between the bodies. -/
def chainLib : Library ℚ where
  kind _ := .equality 2 (hingeFun ⟨0, -1⟩ ⟨0, 1⟩)
  bodies := fun | .joint 0 => Bodies.make chainBody 0 1 none | _ => Bodies.make chainBody 1 2 none
  joints := fun | 0 => [0] | 1 => [0, 1] | 2 => [1] | _ => []
  contacts _ := []

/-- The impulse of a hinge: the weight below it, for a 60th of a second and gravity 10. -/
def chainWeight : Link → ℚ
  | .joint 0 => 1 / 3
  | _ => 1 / 6

/-- The hinges remember the impulses that bear the weight. -/
def chain : Motion chainLib :=
  ⟨chainBody, fun _ => 1, fun l => (⟨{ SolverBase.init with lambda := (⟨0, chainWeight l⟩ : Vec2 ℚ).toMVec }, ⟨false, fun _ => .throw⟩⟩ : EqualitySolver ℚ 2)⟩

/-- The only root that is needed is that of 4. -/
def chainCfg : CallCfg ℚ := ⟨1 / 60, fun x => if x = 4 then 2 else x, 1 / 100, 9⟩

/-- What gravity does in a step, to bodies that are awake. -/
def chainVel (b : Nat) : Velocity ℚ := if b = 0 then ⟨0, 0⟩ else ⟨⟨0, -1 / 6⟩, 0⟩

def chainImpulse (l : Link) : Six ℚ := ![0, -chainWeight l, 0, 0, chainWeight l, 0]

/-- What there is to see after a step: whether all constraints were active, the velocity of the last body, whether it is at the height where it was, and whether it sleeps. -/
def chainSeen (cfg : Island.Settings) : Option (Bool × ℚ × Bool × Bool) :=
  match chain.step chainCfg cfg ⟨true, 1, 1, 1⟩ [.gravity ⟨0, -10⟩] [] [0, 1, 2] 5 with
  | some (.ok (m', _, evals)) => some (evals.all (fun e => e.2), (m'.body 2).velocity.y, decide ((m'.body 2).centroid.y = (chain.body 2).centroid.y), (m'.body 2).asleep)
  | _ => none

/-- The hinges bear the chain, in the sense of C106. -/
theorem chain_standing : Standing chainCfg (fun _ => true) {0, 1, 2} chainVel chainImpulse chain := by
  have wf : ∀ b, (chainBody b).position.orient.WF := fun b => ⟨rfl, rfl⟩
  refine ⟨fun _ _ => ⟨rfl, rfl⟩, fun b _ => wf b, fun b hb _ l hl _ => ?_⟩
  have hm : ∀ b0 b1, (Bodies.make chainBody b0 b1 none).masses.Nonneg := fun b0 b1 => by
    have e : ∀ b, (chainBody b).mass = 1 ∧ (chainBody b).inertia = 1 ∧ 0 ≤ (chainBody b).dominance := fun b => ⟨rfl, rfl, by unfold chainBody; dsimp only; split <;> norm_num⟩
    constructor <;> simp [Bodies.make, Body.invMass, Body.invInertia, e]
  have hlink : l = .joint 0 ∨ l = .joint 1 := by
    simp only [Finset.mem_insert, Finset.mem_singleton] at hb
    rcases hb with rfl | rfl | rfl <;> simp [linksOf, Library.net, chainLib] at hl <;> simp [hl]
  have key : ∀ b (l : Link), (chainBody b).position.toWorldSpace.app ⟨0, -1⟩ = (chainBody (b + 1)).position.toWorldSpace.app ⟨0, 1⟩ →
      (Kind.equality 2 (hingeFun ⟨0, -1⟩ ⟨0, 1⟩)).Carrying chainCfg (Bodies.make chainBody b (b + 1) none).masses (Pose.of (chainBody b).position).1 (Pose.of (chainBody (b + 1)).position).1
        (chainVel b) (chainVel (b + 1)) (chainImpulse l) (chain.s l) := by
    intro b l hx
    rw [congrArg Subtype.val (Pose.of_eq (wf b)), congrArg Subtype.val (Pose.of_eq (wf (b + 1)))]
    have h := C106_hinge chainCfg (Bodies.make chainBody b (b + 1) none).masses (chainBody b).position (chainBody (b + 1)).position (chainVel b) (chainVel (b + 1)) ⟨0, -1⟩ ⟨0, 1⟩
      ⟨{ SolverBase.init with lambda := (⟨0, chainWeight l⟩ : Vec2 ℚ).toMVec }, ⟨false, fun _ => .throw⟩⟩ (fun r => Mat.at_zero r) hx ⟨0, chainWeight l⟩ rfl
    dsimp only at h
    have hx0 : ((chainBody b).position.toWorldSpace.app ⟨0, -1⟩).x = 0 := by
      simp [chainBody, Position.make, Position.toWorldSpace, Transform.mulTranslation, Translation.mulRotation, Translation.mul, Translation.inverse, Transform.app, Rotation.app,
        Rotation.ofAngle, Trig.cos, Trig.sin]
    have hc : ∀ b, (chainBody b).position.centroid.x = 0 := fun b => by
      simp [chainBody, Position.make, Position.centroid, Position.toWorldSpace, Transform.mulTranslation, Translation.mulRotation, Translation.mul, Translation.inverse, Transform.app, Rotation.app,
        Rotation.ofAngle, Trig.cos, Trig.sin]
    have e : chainImpulse l = ![-0, -chainWeight l, -Vec2.cross ((chainBody b).position.toWorldSpace.app ⟨0, -1⟩ - (chainBody b).position.centroid) ⟨0, chainWeight l⟩, 0, chainWeight l,
        Vec2.cross ((chainBody b).position.toWorldSpace.app ⟨0, -1⟩ - (chainBody (b + 1)).position.centroid) ⟨0, chainWeight l⟩] := by
      unfold chainImpulse
      funext k
      fin_cases k <;> simp [Vec2.cross, hx0, hc]
    rw [e]
    exact h
  rcases hlink with rfl | rfl
  · exact ⟨hm 0 1, Nat.zero_ne_one, trivial, key 0 (.joint 0) (by decide +kernel)⟩
  · exact ⟨hm 1 2, by decide, trivial, key 1 (.joint 1) (by decide +kernel)⟩

/-- C107 is false with warm starting. The chain sleeps and does not move; its hinges have nothing to correct and remember just the impulses that bore its weight while it was awake. A step with the
default settings pushes it up with these impulses, against forces that are not applied to sleeping bodies; the iterations do not remove this. The chain still sleeps, and moves. -/
theorem C107_creep_disagreement : Standing chainCfg (fun _ => true) {0, 1, 2} chainVel chainImpulse chain ∧ (∀ b, (chain.body b).asleep = true) ∧
    (∀ b ∈ ({1, 2} : Finset Nat), chainVel b + ∑ l ∈ (linksOf (chainLib.net chainCfg) b).toFinset, chainLib.share l (chainImpulse l) b = 0) ∧
    ∃ m' log evals, chain.step chainCfg ⟨8, 2, true⟩ ⟨true, 1, 1, 1⟩ [.gravity ⟨0, -10⟩] [] [0, 1, 2] 5 = some (.ok (m', log, evals)) ∧ (∀ e ∈ evals, e.2 = true) ∧
      (m'.body 2).asleep = true ∧ (m'.body 2).velocity.y = 1 / 768 ∧ (m'.body 2).centroid ≠ (chain.body 2).centroid := by
  refine ⟨chain_standing, fun _ => rfl, ?_, ?_⟩
  · intro b hb
    have vext : ∀ {v w : Velocity ℚ}, v.linear.x = w.linear.x → v.linear.y = w.linear.y → v.angular = w.angular → v = w := by
      rintro ⟨⟨_, _⟩, _⟩ ⟨⟨_, _⟩, _⟩ rfl rfl rfl; rfl
    simp only [Finset.mem_insert, Finset.mem_singleton] at hb
    rcases hb with rfl | rfl
    · have hl : (linksOf (chainLib.net chainCfg) 1).toFinset = {.joint 0, .joint 1} := by simp [linksOf, Library.net, chainLib]
      rw [hl, Finset.sum_pair (by simp)]
      exact vext (by decide +kernel) (by decide +kernel) (by decide +kernel)
    · have hl : (linksOf (chainLib.net chainCfg) 2).toFinset = {.joint 1} := by simp [linksOf, Library.net, chainLib]
      rw [hl, Finset.sum_singleton]
      exact vext (by decide +kernel) (by decide +kernel) (by decide +kernel)
  · have h : chainSeen ⟨8, 2, true⟩ = some (true, 1 / 768, false, true) := by decide +kernel
    unfold chainSeen at h
    split at h
    · rename_i m' log evals e
      simp only [Option.some.injEq, Prod.mk.injEq, List.all_eq_true, decide_eq_false_iff_not] at h
      obtain ⟨h1, h2, h3, h4⟩ := h
      exact ⟨m', log, evals, e, h1, h4, h2, fun hc => h3 (congrArg Vec2.y hc)⟩
    · simp at h

/-- C107: without warm starting the chain stays. -/
example : chainSeen ⟨8, 2, false⟩ = some (true, 0, true, true) := by decide +kernel

end

/-- C107: the square that hangs at another one, asleep: without warm starting it stays where it is. -/
example : ∃ (B : Nat → Body ℝ) (m m' : Motion (flyLib (hungBody B))), Slumber libCfg (fun _ => true) {0, 1} 1 m m' ∧ Dormant libCfg (fun _ => true) {0, 1} m ∧
    m.s = (hung B).s ∧ ∀ b ∈ ({0, 1} : Finset Nat), (m.body b).asleep = true ∧ (m'.body b).position = (m.body b).position ∧ (m'.body b).velocity = 0 ∧ (m'.body b).angular = 0 := by
  obtain ⟨B, tree, -, hr, hl, ⟨body, hforce⟩, hf⟩ := hung_stands
  let m : Motion (flyLib (hungBody B)) := { hung B with body := fun b => { hungBody B b with asleep := true } }
  have hp : ∀ b, ¬ (flyLib (hungBody B)).Propped libCfg (fun _ => ⟨0, 0⟩) b → ¬ (flyLib (hungBody B)).Propped libCfg hungVel b := fun b hn hq => hn ⟨rfl, hq.2⟩
  have hd : Dormant libCfg (fun _ => true) {0, 1} m := by
    refine ⟨fun _ _ => ⟨rfl, rfl⟩, fun b hb => hr.orient b hb, fun b hb hn l hlb ha => ⟨hungImpulse, ?_⟩⟩
    obtain ⟨c1, c2, c3, c4⟩ := hr.carrying b hb (hp b hn) l hlb ha
    exact ⟨c1, c2, c3, c4⟩
  have hs : Sleeping libCfg [0, 1] (fun _ => true) {0, 1} m :=
    ⟨hl.sqrt, hl.epsilon, hl.fuel, hl.wellFormed, hl.made, hl.inside, fun _ _ => rfl, fun b hb hn => hl.enclosed b hb (hp b hn)⟩
  obtain ⟨st, log, h1, -, -, h4⟩ := C73_answers hs.made hl.sqrt hl.wellFormed (st := m.start) ⟨fun _ => rfl, fun _ => rfl⟩ rfl hf
    (A := fun _ => true) (fun _ _ _ _ => rfl) ⟨8, 2, false⟩ (.of (m.body 0).position) ⟨0, 0⟩ (fuel := 5) (by decide)
  obtain ⟨m', hstep, -⟩ := Motion.step_of (m := m) (sl := ⟨true, 1, 1, 1⟩) (fields := [.gravity ⟨-10, 0⟩]) (tree := []) (body := m.body) rfl h1
  have hb : Slumber libCfg (fun _ => true) {0, 1} 1 m m' := .step (.start _) (cfg := ⟨8, 2, false⟩) rfl (fun _ _ => rfl) (fun _ _ _ _ => rfl) hs hstep h4.stable
  exact ⟨B, m, m', hb, hd, rfl, fun b h => ⟨rfl, (C107_sleeps_partial hb hd).1 b h⟩⟩

end Simu
