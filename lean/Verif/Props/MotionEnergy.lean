import Verif.Spec.MotionEnergy
import Verif.Props.Motion
import Verif.Props.LibraryEnergy
/-
C75 for whole steps; C77: the mechanical energy of bodies in flight.
-/
namespace Simu
open Island Finset
section
variable {K : Type*} [Field K] [LinearOrder K] [IsStrictOrderedRing K] [Trig K]

/-- C75: a step of the world without warmstarting. The kinetic energy of a group whose active constraints are passive and between its own bodies is afterwards at most what the
fields made it. The group may contain immovable bodies at rest, like the ground: they stay at rest. -/
theorem C75_step {L : Library K} {m m' : Motion L} {c : CallCfg K} {cfg : Island.Settings} {sl : Sleep.Settings K} {fields : List (ForceField K)}
    {tree : List (Nat × Collider K)} {world : List Nat} {fuel : Nat} {A : Link → Bool} {group : Finset Nat} {log : List Record} {evals : List (Link × Bool)}
    (hsq : ∀ x, 0 ≤ x → c.sqrt x * c.sqrt x = x) (he : 0 ≤ c.epsilon) (hfuel : 2 ≤ c.fuel) (hcold : cfg.enableWarmstarting = false)
    (hg : WellFormed (L.net c) world) (hL : L.MadeFor m.body) (hin : ∀ b ∈ group, b ∈ world) (hiso : Isolated (L.net c) A group)
    (still : Nat → Prop) [DecidablePred still] (hstill : ∀ b ∈ group, still b → (m.body b).dominance = 0 ∧ (m.body b).velocity = 0 ∧ (m.body b).angular = 0)
    (hmove : ∀ b ∈ group, ¬ still b → (m.body b).asleep = false ∧ (m.body b).dominance ≠ 0 ∧ (∃ ps, InWorld b tree m.body ps) ∧
      ∀ f ∈ fields, ∀ e ∈ tree, e.1 = b → inRegion f.region e = true)
    (htree : ∀ e ∈ tree, ∃ p, e.2.Good p) (hres : ∀ b ∈ group, ∀ l ∈ linksOf (L.net c) b, A l = true → L.Resists m.body still m.s l)
    (h : m.step c cfg sl fields tree world fuel = some (.ok (m', log, evals))) (hA : ∀ e ∈ evals, e.2 = A e.1) :
    ∑ b ∈ group, (m.body b).energy ⟨(m'.body b).velocity, (m'.body b).angular⟩ ≤
      ∑ b ∈ group, (m.body b).energy ⟨(m.body b).velocity + (if still b then 0 else (fields.map (ForceField.promised (m.body b).mass c.dt)).sum), (m.body b).angular⟩ ∧
    ∀ b ∈ group, still b → (m'.body b).velocity = 0 ∧ (m'.body b).angular = 0 := by
  obtain ⟨body, st, h1, h2, rfl, h4, h5⟩ := Motion.step_ok h
  have hb : ∀ b ∈ group, (body b).velocity = (m.body b).velocity + (if still b then 0 else (fields.map (ForceField.promised (m.body b).mass c.dt)).sum) ∧
      (body b).angular = (m.body b).angular := by
    intro b hb
    by_cases hs : still b
    · obtain ⟨body', e1, e2⟩ := C30_untouched (i := b) htree m.body fields c.dt (Or.inr (hstill b hb hs).1)
      rw [h1] at e1
      obtain rfl := Outcome.ok.inj e1
      rw [e2, if_pos hs]
      simp
    · obtain ⟨ha, hd, ⟨ps, hw⟩, hcov⟩ := hmove b hb hs
      obtain ⟨body', e1, e2⟩ := C30_superposition hw fields c.dt hcov ha hd
      rw [h1] at e1
      obtain rfl := Outcome.ok.inj e1
      rw [e2, if_neg hs]
      exact ⟨rfl, rfl⟩
  have hsol : Solved (L.net c) A world ({ m with body := body } : Motion L).start st log := ⟨C37_library hL c, hg, ⟨fun _ => rfl, fun _ => rfl⟩, ⟨_, _, _, _, h2⟩, hA⟩
  obtain ⟨a, b⟩ := C75_library hsq he hfuel (body := m.body) hsol ⟨_, _, _, _, hcold, h2⟩ hiso still (by
    intro b hb' hs
    obtain ⟨-, v, w⟩ := hstill b hb' hs
    show (⟨(body b).velocity, (body b).angular⟩ : Velocity K) = _
    rw [(hb b hb').1, (hb b hb').2, v, w, if_pos hs, add_zero]) hres
  have hv : ∀ b ∈ group, (m'.body b).velocity = (st.body b).vel.linear ∧ (m'.body b).angular = (st.body b).vel.angular := fun b hb => by
    rw [h5 b (hin b hb)]; exact ⟨rfl, rfl⟩
  refine ⟨?_, fun b' hb' hs => ?_⟩
  · refine le_trans (le_of_eq (sum_congr rfl fun b hb' => ?_)) (a.trans (le_of_eq (sum_congr rfl fun b hb' => ?_)))
    · rw [(hv b hb').1, (hv b hb').2]
    · show (m.body b).energy ⟨(body b).velocity, (body b).angular⟩ = _
      rw [(hb b hb').1, (hb b hb').2]
  · rw [(hv b' hb').1, (hv b' hb').2, b b' hb' hs]
    exact ⟨rfl, rfl⟩

variable [LawfulTrig K]

theorem CalmFlight.flight {group : Finset Nat} {dt : K} {g : Vec2 K} {n : Nat} {B B' : Nat → Body K} (h : CalmFlight group dt g n B B') : Flight group dt g n B B' := by
  induction h with
  | start B => exact .start B
  | step _ hdt same hl _ hs hA ih => exact .step ih hdt same hl hs hA

theorem PiecesOf.good {i : Nat} {l : List (Nat × Collider K)} {ps : List (MassProperties K)} (h : PiecesOf i l ps) : ∀ e ∈ l, ∃ p, e.2.Good p := by
  induction h with
  | nil => intro e he; simp at he
  | skip _ hg _ ih =>
    intro e he
    rcases List.mem_cons.1 he with rfl | he
    · exact hg
    · exact ih e he
  | take hp _ ih =>
    intro e he
    rcases List.mem_cons.1 he with rfl | he
    · exact ⟨_, hp⟩
    · exact ih e he

theorem sum_mul_dot (group : Finset Nat) (f : Nat → K) (g : Vec2 K) (v : Nat → Vec2 K) : ∑ b ∈ group, f b * Vec2.dot g (v b) = Vec2.dot g (∑ b ∈ group, f b • v b) := by
  induction group using Finset.induction_on with
  | empty => simp [Vec2.dot]
  | insert a s ha ih =>
    rw [sum_insert ha, sum_insert ha, ih]
    simp only [Vec2.dot, Vec2.add_x, Vec2.add_y, Vec2.smul_x, Vec2.smul_y]
    ring

/-- C77: a step of a flight takes at least `dt² M |g|² / 2` from the mechanical energy of the group, exactly the loss of the integration scheme. -/
theorem C77_step {L : Library K} {m m' : Motion L} {c : CallCfg K} {cfg : Island.Settings} {sl : Sleep.Settings K} {g : Vec2 K}
    {tree : List (Nat × Collider K)} {world : List Nat} {fuel : Nat} {A : Link → Bool} {group : Finset Nat} {log : List Record} {evals : List (Link × Bool)}
    (hl : Launched c tree world A group m) (hq : Calmly c cfg A group m)
    (h : m.step c cfg sl [.gravity g] tree world fuel = some (.ok (m', log, evals))) (hA : ∀ e ∈ evals, e.2 = A e.1) :
    ∑ b ∈ group, (m'.body b).mechanical g ≤ ∑ b ∈ group, (m.body b).mechanical g - c.dt * c.dt / 2 * (∑ b ∈ group, (m.body b).mass) * g.normSquared := by
  rcases group.eq_empty_or_nonempty with rfl | ⟨b0, hb0⟩
  · simp
  have hcov : ∀ b ∈ group, ∀ f ∈ [ForceField.gravity g], ∀ e ∈ tree, e.1 = b → inRegion f.region e = true := by
    intro b _ f hf e _ _
    obtain rfl := List.mem_singleton.1 hf
    rfl
  obtain ⟨ps, hw⟩ := hl.solid b0 hb0
  obtain ⟨qs, hqs, -⟩ := hw.pieces
  obtain ⟨en, -⟩ := C75_step hq.sqrt hq.epsilon hq.fuel hq.cold hl.wellFormed hl.made hl.inside hl.isolated (fun _ => False) (fun _ _ h => h.elim)
    (fun b hb _ => ⟨hl.awake b hb, hl.movable b hb, hl.solid b hb, hcov b hb⟩) hqs.good hq.resists h hA
  obtain ⟨mv, mc⟩ := C76_step hl hcov h hA
  have keep := (C76_keeps hl hcov h hA).2
  have pr : ∀ b, ([ForceField.gravity g].map (ForceField.promised (m.body b).mass c.dt)).sum = c.dt • g := fun b => by simp [ForceField.promised]
  simp only [pr, if_false] at en mv
  rw [sum_smul_add_const] at mv
  have e1 : ∑ b ∈ group, (m'.body b).mechanical g =
      (∑ b ∈ group, (m.body b).energy ⟨(m'.body b).velocity, (m'.body b).angular⟩) / 2 - Vec2.dot g (∑ b ∈ group, (m.body b).mass • (m'.body b).centroid) := by
    rw [← sum_mul_dot, Finset.sum_div, ← Finset.sum_sub_distrib]
    refine sum_congr rfl fun b hb => ?_
    obtain ⟨k1, k2, -⟩ := keep b hb
    simp only [Body.mechanical, Body.energy, k1, k2]
  have e0 : ∑ b ∈ group, (m.body b).mechanical g =
      (∑ b ∈ group, (m.body b).energy ⟨(m.body b).velocity, (m.body b).angular⟩) / 2 - Vec2.dot g (∑ b ∈ group, (m.body b).mass • (m.body b).centroid) := by
    rw [← sum_mul_dot, Finset.sum_div, ← Finset.sum_sub_distrib]
    exact sum_congr rfl fun b hb => rfl
  have e2 : ∑ b ∈ group, (m.body b).energy ⟨(m.body b).velocity + c.dt • g, (m.body b).angular⟩ =
      ∑ b ∈ group, (m.body b).energy ⟨(m.body b).velocity, (m.body b).angular⟩ + 2 * c.dt * Vec2.dot g (∑ b ∈ group, (m.body b).mass • (m.body b).velocity) +
        (∑ b ∈ group, (m.body b).mass) * (c.dt * c.dt * g.normSquared) := by
    rw [← sum_mul_dot, Finset.mul_sum, Finset.sum_mul, ← Finset.sum_add_distrib, ← Finset.sum_add_distrib]
    refine sum_congr rfl fun b _ => ?_
    simp only [Body.energy, Vec2.normSquared, Vec2.dot, Vec2.add_x, Vec2.add_y, Vec2.smul_x, Vec2.smul_y]
    ring
  have d : ∀ (u v : Vec2 K) (k : K), Vec2.dot g (u + k • v) = Vec2.dot g u + k * Vec2.dot g v := fun u v k => by
    simp only [Vec2.dot, Vec2.add_x, Vec2.add_y, Vec2.smul_x, Vec2.smul_y]; ring
  have dg : Vec2.dot g (c.dt • g) = c.dt * g.normSquared := by
    simp only [Vec2.dot, Vec2.normSquared, Vec2.smul_x, Vec2.smul_y]; ring
  rw [e1, e0, mc, d, mv, d, dg]
  rw [e2] at en
  linarith

/-- C77: after `n` steps a group in flight, whose constraints only resist, has lost at least `n dt² M |g|² / 2` of its mechanical energy: it never gains any. -/
theorem C77_flight {group : Finset Nat} {dt : K} {g : Vec2 K} {n : Nat} {B B' : Nat → Body K} (h : CalmFlight group dt g n B B') :
    ∑ b ∈ group, (B' b).mechanical g ≤ ∑ b ∈ group, (B b).mechanical g - n * (dt * dt / 2 * (∑ b ∈ group, (B b).mass) * g.normSquared) := by
  induction h with
  | start B => simp
  | @step n B B' before L m m' c cfg sl tree world fuel A log evals hdt same hl hq hs hA ih =>
    have s := C77_step hl hq hs hA
    have hm := (C76_parabola before.flight).1
    have e0 : ∑ b ∈ group, (m.body b).mechanical g = ∑ b ∈ group, (B' b).mechanical g := sum_congr rfl fun b hb => by rw [same b hb]
    have e : ∑ b ∈ group, (m.body b).mass = ∑ b ∈ group, (B b).mass := sum_congr rfl fun b hb => by rw [same b hb, hm b hb]
    rw [e, e0, hdt] at s
    refine s.trans ?_
    push_cast
    linarith

/-- A step keeps the constraints passive. -/
theorem Calmly.next {L : Library K} {m m' : Motion L} {c : CallCfg K} {cfg : Island.Settings} {sl : Sleep.Settings K} {fields : List (ForceField K)}
    {tree : List (Nat × Collider K)} {world : List Nat} {fuel : Nat} {A A' : Link → Bool} {group : Finset Nat} {log : List Record} {evals : List (Link × Bool)}
    (hl : Launched c tree world A group m) (hq : Calmly c cfg A' group m)
    (h : m.step c cfg sl fields tree world fuel = some (.ok (m', log, evals))) (hA : ∀ e ∈ evals, e.2 = A e.1) : Calmly c cfg A' group m' := by
  refine ⟨hq.cold, hq.sqrt, hq.epsilon, hq.fuel, ?_⟩
  obtain ⟨body, st, h1, h2, rfl, h4, -⟩ := Motion.step_ok h
  have hsol : Solved (L.net c) A world ({ m with body := body } : Motion L).start st log :=
    ⟨C37_library hl.made c, hl.wellFormed, ⟨fun _ => rfl, fun _ => rfl⟩, ⟨_, _, _, _, h2⟩, hA⟩
  have hr := hsol.steady (L.resist_steady c m.body (fun _ => False) A' group) hq.resists
  have km := Motion.step_masses h
  intro b hb l hlb ha
  obtain ⟨r1, r2, r3, r4, r5⟩ := hr b hb l hlb ha
  refine ⟨r1, r2, ?_, ?_, by rw [h4]; exact r5⟩
  · simpa only [Partakes, (km _).1, (km _).2.1] using r3
  · simpa only [Partakes, (km _).1, (km _).2.1] using r4

/-- C77: such flights go on for ever under the conditions of `C76_for_ever`. -/
theorem C77_for_ever {L : Library K} {m : Motion L} {c : CallCfg K} {tree : List (Nat × Collider K)} {world : List Nat} {group : Finset Nat} {cfg : Island.Settings}
    (hl : Launched c tree world (fun _ => true) group m) (hne : group.Nonempty) (hf : L.Firm c world m.s) (hq : Calmly c cfg (fun _ => true) group m)
    {sl : Sleep.Settings K} (hsl : sl.enableSleeping = false) {fuel : Nat} (hfuel : 2 * world.length < fuel) (g : Vec2 K) (n : Nat) :
    ∃ B', CalmFlight group c.dt g n m.body B' := by
  suffices ∃ (m' : Motion L) (tree' : List (Nat × Collider K)), CalmFlight group c.dt g n m.body m'.body ∧ Launched c tree' world (fun _ => true) group m' ∧ L.Firm c world m'.s ∧
      Calmly c cfg (fun _ => true) group m' from this.elim fun m' h => ⟨m'.body, h.elim fun _ h => h.1⟩
  induction n with
  | zero => exact ⟨m, tree, .start _, hl, hf, hq⟩
  | succ n ih =>
    obtain ⟨m1, t1, f1, l1, r1, q1⟩ := ih
    obtain ⟨m', log, evals, h1, h2, h3, h4⟩ := l1.next hne hq.sqrt r1 cfg hsl hfuel g
    have la := l1.less fun l => (L.kind l).answer (m1.s l)
    exact ⟨m', _, .step f1 rfl (fun _ _ => rfl) la ⟨q1.cold, q1.sqrt, q1.epsilon, q1.fuel, fun b hb l hlb _ => q1.resists b hb l hlb rfl⟩ h1 h2, h3, h4, Calmly.next la q1 h1 h2⟩

end

/-- C77: the two squares joined by a hinge (mass 8, kinetic energy 20, potential energy 0) have at most `20 - n / 9` after `n` steps. -/
example : ∃ (B : Nat → Body ℝ) (tree : List (Nat × Collider ℝ)), Launched libCfg tree [0, 1] (fun _ => true) {0, 1} (flyMotion B) ∧
    Calmly libCfg ⟨8, 2, false⟩ (fun _ => true) {0, 1} (flyMotion B) ∧
    ∀ n : Nat, ∃ B', CalmFlight {0, 1} (1 / 60) ⟨0, -10⟩ n B B' ∧ (B' 0).mechanical ⟨0, -10⟩ + (B' 1).mechanical ⟨0, -10⟩ ≤ 20 + 4 / 3 * (B 0).angular ^ 2 + 4 / 3 * (B 1).angular ^ 2 - n / 9 := by
  obtain ⟨B, tree, hl, hf, hm, hB⟩ := fly_launched
  have part : ∀ i, Partakes (B i) False (1 / 4) (3 / 8) := fun i => Or.inl ⟨id, by rw [(hB i).1]; norm_num, by rw [(hB i).2.1]; norm_num⟩
  have hq : Calmly libCfg ⟨8, 2, false⟩ (fun _ => true) {0, 1} (flyMotion B) := by
    refine ⟨rfl, sqrt_lawful, by norm_num [libCfg], by norm_num [libCfg], fun b _ l _ _ => ⟨by simp [flyLib, Bodies.make], ?_, ?_, ?_, (C75_kinds B _ _ ⟨1, 0⟩ 0 0).1 _⟩⟩
    · rw [hm]; constructor <;> norm_num
    · rw [hm]; exact part _
    · rw [hm]; exact part _
  refine ⟨B, tree, hl, hq, fun n => ?_⟩
  obtain ⟨B', h⟩ := C77_for_ever hl ⟨0, by simp⟩ hf hq (sl := ⟨false, 1, 1, 1⟩) rfl (fuel := 5) (by decide) ⟨0, -10⟩ n
  refine ⟨B', h, ?_⟩
  have e := C77_flight h
  have s : ∀ f : Nat → ℝ, ∑ b ∈ ({0, 1} : Finset Nat), f b = f 0 + f 1 := fun f => by rw [sum_insert (by simp), sum_singleton]
  rw [s, s, s] at e
  refine e.trans (le_of_eq ?_)
  show (B 0).mechanical _ + (B 1).mechanical _ - _ * (_ * ((B 0).mass + (B 1).mass) * _) = _
  obtain ⟨a1, a2, -, -, a5, a6⟩ := hB 0
  obtain ⟨b1, b2, -, -, b5, b6⟩ := hB 1
  simp [Body.mechanical, Body.energy, a1, a2, a5, a6, b1, b2, b5, b6, Vec2.normSquared, Vec2.dot, libCfg]
  ring

/-- C75: the first square hangs by the hinge on an immovable one. A step under gravity leaves it at most the energy the field gave it, and the other at rest. -/
example : ∃ (B : Nat → Body ℝ) (m' : Motion (flyLib B)) (tree : List (Nat × Collider ℝ)) (log : List Record) (evals : List (Link × Bool)),
    (flyMotion B).step libCfg ⟨8, 2, false⟩ ⟨true, 1, 1, 1⟩ [.gravity ⟨0, -60⟩] tree [0, 1] 5 = some (.ok (m', log, evals)) ∧ (B 0).velocity = ⟨3, 1⟩ ∧ (B 1).dominance = 0 ∧
    (B 0).energy ⟨(m'.body 0).velocity, (m'.body 0).angular⟩ ≤ 36 + 8 / 3 * (B 0).angular ^ 2 ∧ (m'.body 1).velocity = 0 ∧ (m'.body 1).angular = 0 := by
  obtain ⟨B0, tree, ps, hw, hB⟩ := flyBodies
  let B : Nat → Body ℝ := fun b => if b = 1 then { B0 1 with dominance := 0, angular := 0 } else B0 b
  have w0 : InWorld 0 tree B (ps 0) := ⟨(hw 0 (Or.inl rfl)).inv, (hw 0 (Or.inl rfl)).pieces, (hw 0 (Or.inl rfl)).some⟩
  have hm : ∀ b, (B b).mass = 4 := fun b => by
    by_cases h : b = 1
    · simp only [B, if_pos h]; exact (hB 1).1
    · simp only [B, if_neg h]; exact (hB b).1
  have hi : ∀ b, (B b).inertia = 8 / 3 := fun b => by
    by_cases h : b = 1
    · simp only [B, if_pos h]; exact (hB 1).2.1
    · simp only [B, if_neg h]; exact (hB b).2.1
  have hd0 : (B 0).dominance = 1 := (hB 0).2.2.1
  have hd1 : (B 1).dominance = 0 := rfl
  have hmass : ∀ l, ((flyLib B).bodies l).masses = ⟨1 / 4, 3 / 8, 0, 0⟩ := fun l => by
    simp [flyLib, Bodies.make, Body.invMass, Body.invInertia, hm, hi, hd0, hd1]
  have hnn : (⟨1 / 4, 3 / 8, 0, 0⟩ : InvMasses ℝ).Nonneg := by constructor <;> norm_num
  have free : ∀ l, ((flyLib B).net libCfg).structuralIn l (((flyLib B).net libCfg).ends l).1 = false := by
    intro l
    show (match ((flyLib B).bodies l).isBodyStructural ((flyLib B).bodies l).i0 with | .ok r => r | _ => false) = false
    unfold Bodies.isBodyStructural
    rw [if_pos rfl, hmass]
    simp
  have hmade : (flyLib B).MadeFor (flyMotion B).body := fun l => ⟨none, rfl, by show (B _).mass ≠ 0; rw [hm]; norm_num, by show (B _).mass ≠ 0; rw [hm]; norm_num, by simp⟩
  have hg : WellFormed ((flyLib B).net libCfg) [0, 1] := by
    refine ⟨fun b _ l h => ?_, fun b _ l h => ?_, fun b _ l h => ?_, fun b _ l h => Or.inl (free l)⟩
    · obtain ⟨hb, rfl⟩ := fly_links B b l h
      exact hb
    · obtain ⟨-, rfl⟩ := fly_links B b l h
      simp [Library.net, flyLib, Bodies.make]
    · obtain ⟨-, rfl⟩ := fly_links B b l h
      simp [Library.net, flyLib, Bodies.make, linksOf]
  obtain ⟨body, hforce, -⟩ := C30_gravity w0 ⟨0, -60⟩ libCfg.dt (hB 0).2.2.2.1 (by rw [hd0]; norm_num)
  obtain ⟨st, log, hsolve, -, hsolved⟩ := C73_library hmade (c := libCfg) sqrt_lawful hg (st := ({ flyMotion B with body := body } : Motion (flyLib B)).start) ⟨fun _ => rfl, fun _ => rfl⟩ rfl
    (by
      intro b _ l _
      rw [hmass]
      exact ⟨hnn, (C73_effective sqrt_lawful hnn).2.1 _ _ (Or.inl (by norm_num)), fun r => le_of_eq (Mat.at_zero r).symm⟩) ⟨8, 2, false⟩ (.of (body 0).position) ⟨0, 0⟩ (fuel := 5) (by decide)
  obtain ⟨m', hstep, -⟩ := Motion.step_of (sl := ⟨true, 1, 1, 1⟩) hforce hsolve
  refine ⟨B, m', tree, log, st.evals, hstep, ?_, rfl, ?_⟩
  · exact (hB 0).2.2.2.2.1.trans (if_pos rfl)
  obtain ⟨qs, hqs, -⟩ := w0.pieces
  obtain ⟨e1, e2⟩ := C75_step (c := libCfg) (A := fun l => ((flyLib B).kind l).answer ((flyMotion B).s l)) sqrt_lawful (by norm_num [libCfg]) (by norm_num [libCfg]) rfl hg hmade (group := {0, 1}) (by decide) (by
      intro b _ l h _
      obtain ⟨-, rfl⟩ := fly_links B b l h
      simp [Library.net, flyLib, Bodies.make]) (fun b => b = 1) (by
      rintro b - rfl
      exact ⟨rfl, (hB 1).2.2.2.2.1.trans (if_neg (by norm_num)), rfl⟩) (by
      intro b hb h1
      obtain rfl : b = 0 := by simpa [h1] using hb
      refine ⟨(hB 0).2.2.2.1, by show (B 0).dominance ≠ 0; rw [hd0]; norm_num, ⟨_, w0⟩, ?_⟩
      intro f hf e _ _
      obtain rfl := List.mem_singleton.1 hf
      rfl) hqs.good (by
      intro b _ l _ _
      refine ⟨by simp [flyLib, Bodies.make], ?_, ?_, ?_, (C75_kinds B _ _ ⟨1, 0⟩ 0 0).1 _⟩
      · rw [hmass]; exact hnn
      · rw [hmass]
        refine Or.inl ⟨?_, ?_, ?_⟩
        · simp [flyLib, Bodies.make]
        · show (B _).mass * _ = 1; rw [hm]; norm_num
        · show (B _).inertia * _ = 1; rw [hi]; norm_num
      · rw [hmass]
        refine Or.inr ⟨?_, rfl, rfl⟩
        simp [flyLib, Bodies.make]) hstep hsolved.stable
  obtain ⟨k1, k2⟩ := e2 1 (by simp) rfl
  refine ⟨?_, k1, k2⟩
  have s : ∀ f : Nat → ℝ, ∑ b ∈ ({0, 1} : Finset Nat), f b = f 0 + f 1 := fun f => by rw [sum_insert (by simp), sum_singleton]
  rw [s, s, k1, k2] at e1
  have v0 : (B 0).velocity = ⟨3, 1⟩ := (hB 0).2.2.2.2.1.trans (if_pos rfl)
  have v1 : (B 1).velocity = 0 := (hB 1).2.2.2.2.1.trans (if_neg (by norm_num))
  have z : ∀ b : Body ℝ, b.energy ⟨0, 0⟩ = 0 := fun b => by simp [Body.energy, Vec2.normSquared, Vec2.dot]
  rw [z, add_zero] at e1
  refine e1.trans (le_of_eq ?_)
  show (B 0).energy ⟨(B 0).velocity + _, (B 0).angular⟩ + (B 1).energy ⟨(B 1).velocity + _, (B 1).angular⟩ = _
  rw [if_neg (by norm_num), if_pos rfl, v1, add_zero, show (B 1).angular = 0 from rfl, z]
  simp [Body.energy, hm, hi, v0, Vec2.normSquared, Vec2.dot, ForceField.promised, libCfg]
  ring

end Simu
