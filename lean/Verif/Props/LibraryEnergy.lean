import Verif.Lemmas.LibraryEnergy
import Verif.Props.LibrarySound
import Verif.Lemmas.IslandMomentum
/-
C75: passive constraints never add kinetic energy to a group of bodies.
-/
namespace Simu
open Mat Island Finset

namespace Island
variable {P V S M : Type*} [AddCommGroup M] [LinearOrder M] [IsOrderedAddMonoid M] {N : Net P V S} {A : Link → Bool} {world : List Nat} {st st' : St P V S}
  {log : List Record}

/-- C75: if the active constraints of an isolated group only spend energy, the group has no more of it after `solveIslands` (without warmstarting) than before, however
many iterations are made, into however many islands the group falls and whatever else is in the world. -/
theorem C75_group (h : Solved N A world st st' log)
    (hw : ∃ cfg fuel p v, cfg.enableWarmstarting = false ∧ solveIslands N cfg fuel p v world st = some (.ok (st', log)))
    {good : S → Prop} (hg : Steady N good) (hs : good st.s) {ready : Link → Nat → Nat → S → Prop} {en : Nat → V → M} {store : Link → S → M} {ok : Nat → V → Prop}
    {group : Finset Nat} (hiso : Isolated N A group) (hx : ∀ b ∈ group, ∀ l ∈ linksOf N b, A l = true → Spends N good ready en store ok l)
    (hok : ∀ b ∈ group, ok b (st.body b).vel) :
    ∑ b ∈ group, en b (st'.body b).vel ≤ ∑ b ∈ group, en b (st.body b).vel ∧ (∀ b ∈ group, ok b (st'.body b).vel) ∧ good st'.s := by
  obtain ⟨cfg, fuel, p, v, hc, he⟩ := hw
  obtain ⟨a, b, c⟩ := solveLoop_spend hc h.behaved.lawful hg h.graph.consistent hiso hx fuel (progress_start h.ready.idle) ⟨hs, le_rfl, hok⟩ ⟨rfl, rfl, rfl⟩ he h.stable
  exact ⟨b, c, a⟩

end Island

section
variable {K : Type*} [Field K] [LinearOrder K] [IsStrictOrderedRing K] [Trig K]

/-- The active constraints of the bodies of the group are passive. -/
def Library.AllResist (L : Library K) (c : CallCfg K) (body : Nat → Body K) (still : Nat → Prop) (A : Link → Bool) (group : Finset Nat)
    (s : (l : Link) → (L.kind l).State) : Prop := ∀ b ∈ group, ∀ l ∈ linksOf (L.net c) b, A l = true → L.Resists body still s l

theorem Library.resist_steady (L : Library K) (c : CallCfg K) (body : Nat → Body K) (still : Nat → Prop) (A : Link → Bool) (group : Finset Nat) :
    Steady (L.net c) (L.AllResist c body still A group) := by
  constructor
  · intro ph l i0 i1 s ps vs s' ps' vs' hs ha b hb l' hl' hA
    obtain ⟨e', t, hk, he, -, -⟩ := Library.act_ok ha
    obtain ⟨r1, r2, r3, r4, r5⟩ := hs b hb l' hl' hA
    refine ⟨r1, r2, r3, r4, ?_⟩
    rw [he]
    by_cases hl : l' = l
    · subst hl
      rw [Function.update_self]
      exact Kind.act_passive c _ _ _ r5 ph i0 i1 ps vs hk
    · rw [Function.update_of_ne hl]; exact r5
  · intro l s p q hs b hb l' hl' hA
    obtain ⟨r1, r2, r3, r4, r5⟩ := hs b hb l' hl' hA
    refine ⟨r1, r2, r3, r4, ?_⟩
    show (L.kind l').Passive (L.bodies l').masses (Function.update s l _ l')
    by_cases hl : l' = l
    · subst hl
      rw [Function.update_self]
      revert r5
      generalize s l' = e
      revert e
      generalize L.kind l' = k
      intro e r5
      cases k with
      | contact =>
        obtain ⟨-, h2, h3, h4, h5⟩ := r5
        exact ⟨⟨p, q, rfl⟩, h2, h3, h4, h5⟩
      | equality d f => exact r5
      | inequality d f => exact r5
      | limits f => exact r5
      | mouse f => exact r5
    · rw [Function.update_of_ne hl]; exact r5

/-- A passive constraint spends. -/
theorem Library.spends {L : Library K} {c : CallCfg K} (hsq : ∀ x, 0 ≤ x → c.sqrt x * c.sqrt x = x) (he : 0 ≤ c.epsilon) (hfuel : 2 ≤ c.fuel) {body : Nat → Body K}
    {still : Nat → Prop} {good : ((l : Link) → (L.kind l).State) → Prop} {l : Link} (hl : ∀ s, good s → L.Resists body still s l) (hex : ∃ s, good s) :
    Spends (L.net c) good (fun l i0 i1 s => (L.kind l).Prepared c.sqrt ⟨i0, i1, (L.bodies l).masses⟩ (s l)) (fun b v => (body b).energy v)
      (fun l s => (L.kind l).store (s l)) (fun b v => still b → v = ⟨0, 0⟩) l := by
  constructor
  · obtain ⟨s, hs⟩ := hex
    exact (hl s hs).two
  · intro i0 i1 s hs _
    exact Kind.store_nonneg _ _ (hl s hs).passive
  · intro i0 i1 s ps vs s' ps' vs' _ hs ha
    obtain ⟨e', t, hk, he, hv, -⟩ := Library.act_ok ha
    obtain ⟨h1, h2, h3⟩ := Kind.init_spend c _ _ _ (hl s hs).passive i0 i1 hk
    rw [hv, h1, he, Function.update_self]
    exact ⟨rfl, rfl, h2, h3⟩
  · intro i0 i1 s ps vs s' ps' vs' hi hs hr ho0 ho1 ha
    obtain ⟨e', t, hk, he', hv, -⟩ := Library.act_ok ha
    obtain ⟨r1, r2, r3, r4, r5⟩ := hl s hs
    have mov : ∀ {b : Nat} {m I : K} {v : Velocity K}, Partakes (body b) (still b) m I → (still b → v = ⟨0, 0⟩) → Movable (body b).mass (body b).inertia m I v := by
      intro b m I v hp hv
      rcases hp with ⟨-, a, b⟩ | ⟨a, b, c⟩
      · exact Or.inl ⟨a, b⟩
      · exact Or.inr ⟨b, c, hv a⟩
    have hB := backed_of_movable (p := ⟨i0, i1, (L.bodies l).masses⟩) (s := ⟨fun i => (ps i).1, vs⟩) (mov r3 ho0) (mov r4 ho1)
    obtain ⟨hE, hP⟩ := Kind.velocity_spend hsq he hfuel r2 _ _ _ r5 hi hr hB hk
    rw [energyOf_velocity, energyOf_velocity] at hE
    obtain ⟨⟨dv, dp, hf, -⟩, -⟩ := Kind.act_acts c _ _ hk
    rw [he', Function.update_self, hv]
    refine ⟨hP, fun h => ?_, fun h => ?_, hE⟩
    · rcases r3 with ⟨a, -⟩ | ⟨-, a, b⟩
      · exact absurd h a
      · have := (hf.still i0 (fun _ => ⟨a, b⟩) (fun h => absurd h hi)).1
        rw [this]; exact ho0 h
    · rcases r4 with ⟨a, -⟩ | ⟨-, a, b⟩
      · exact absurd h a
      · have := (hf.still i1 (fun h => absurd h.symm hi) (fun _ => ⟨a, b⟩)).1
        rw [this]; exact ho1 h
  · intro i0 i1 s ps vs s' ps' vs' _ hs ha
    obtain ⟨e', t, hk, -, hv, -⟩ := Library.act_ok ha
    have := Kind.positions_vel c _ _ _ _ hk
    rw [hv, this]
    exact ⟨rfl, rfl⟩
  · intro ph i0 i1 s ps vs s' ps' vs' ha l' hne
    obtain ⟨e', t, -, he, -, -⟩ := Library.act_ok ha
    rw [he, Function.update_of_ne hne]
    exact ⟨rfl, fun _ _ h => h⟩

/-- C75: in a world made of constraints of the library, solved without warmstarting, a group of bodies whose active constraints are passive (joints without bias, restitution and
negative damping, contacts without restitution and friction) and between its own bodies has no more kinetic energy afterwards than before. Immovable bodies of the group are at rest and
stay so. Whatever happens in the rest of the world. -/
theorem C75_library {L : Library K} {c : CallCfg K} (hsq : ∀ x, 0 ≤ x → c.sqrt x * c.sqrt x = x) (he : 0 ≤ c.epsilon) (hfuel : 2 ≤ c.fuel)
    {body : Nat → Body K} {A : Link → Bool} {world : List Nat} {st st' : St (Pose K) (Velocity K) ((l : Link) → (L.kind l).State)} {log : List Record}
    (h : Solved (L.net c) A world st st' log)
    (hw : ∃ cfg fuel p v, cfg.enableWarmstarting = false ∧ solveIslands (L.net c) cfg fuel p v world st = some (.ok (st', log)))
    {group : Finset Nat} (hiso : Isolated (L.net c) A group) (still : Nat → Prop) (hrest : ∀ b ∈ group, still b → (st.body b).vel = ⟨0, 0⟩)
    (hm : ∀ b ∈ group, ∀ l ∈ linksOf (L.net c) b, A l = true → L.Resists body still st.s l) :
    ∑ b ∈ group, (body b).energy (st'.body b).vel ≤ ∑ b ∈ group, (body b).energy (st.body b).vel ∧
    ∀ b ∈ group, still b → (st'.body b).vel = ⟨0, 0⟩ := by
  obtain ⟨a, b, -⟩ := C75_group h hw (L.resist_steady c body still A group) hm (ready := fun l i0 i1 s => (L.kind l).Prepared c.sqrt ⟨i0, i1, (L.bodies l).masses⟩ (s l))
    (en := fun b v => (body b).energy v) (store := fun l s => (L.kind l).store (s l)) (ok := fun b v => still b → v = ⟨0, 0⟩) hiso
    (fun b hb l hl hA => Library.spends hsq he hfuel (fun s hs => hs b hb l hl hA) ⟨st.s, hm⟩) hrest
  exact ⟨a, b⟩

/-- C75: which joints are passive when new: hinges, welds, rotation constraints and rods (distance constraints with one distance). -/
theorem C75_kinds (bodies : Nat → Body K) (b : Bodies K) (m : InvMasses K) (shared p0 p1 : Vec2 K) :
    (∀ s, (Kind.equality 2 (hingeFunOf bodies b shared)).Passive m ⟨SolverBase.init, s⟩) ∧
    (∀ s, (Kind.equality 1 (rotationFunOf bodies b)).Passive m ⟨SolverBase.init, s⟩) ∧
    (∀ s, (Kind.equality 3 (weldFunOf bodies b)).Passive m ⟨SolverBase.init, s⟩) ∧
    (∀ r e, distanceLimits (some r) (some r) = .ok e → (Kind.limits (distanceFunOf bodies b p0 p1)).Passive m e) := by
  have calm : ∀ {d : Nat}, (SolverBase.init : SolverBase K d).Calm := fun {d} => ⟨fun r => at_zero r, fun r => le_of_eq (at_zero r).symm⟩
  have plainH : ∀ x, (hingeFunOf bodies b x).Plain := fun x => ⟨fun _ _ => rfl, fun _ _ r => at_zero r⟩
  have plainR : (rotationFunOf bodies b).Plain := ⟨fun _ _ => rfl, fun _ _ r => at_zero r⟩
  refine ⟨fun s => ⟨plainH _, calm⟩, fun s => ⟨plainR, calm⟩, fun s => ⟨⟨fun l dt => ?_, fun p s r => ?_⟩, calm⟩, fun r e h => ?_⟩
  · refine ext_at fun i => ?_
    have h := C50_composite (hingeFunOf bodies b (((bodies b.i0).centroid + (bodies b.i1).centroid).sdiv 2)) (rotationFunOf bodies b) ⟨0, 0, m⟩ ⟨fun i => (bodies i).position, fun _ => ⟨0, 0⟩⟩
    refine Fin.addCases (m := 2) (n := 1) (fun j => ?_) (fun j => ?_) i
    · refine (h.2.2.2.2.2.2.1 l dt j).trans ?_
      rw [(plainH _).1, at_ofFn]
    · refine (h.2.2.2.2.2.2.2.1 l dt j).trans ?_
      rw [plainR.1, at_ofFn]
  · have h := C50_composite (hingeFunOf bodies b (((bodies b.i0).centroid + (bodies b.i1).centroid).sdiv 2)) (rotationFunOf bodies b) p s
    refine Fin.addCases (m := 2) (n := 1) (fun j => ?_) (fun j => ?_) r
    · exact (h.2.2.1 j).trans ((plainH _).2 p s j)
    · exact (h.2.2.2.1 j).trans (plainR.2 p s j)
  · unfold distanceLimits at h
    simp only [bind_ok_iff] at h
    obtain ⟨-, -, -, -, -, -, -, -, -, -, h⟩ := h
    cases Outcome.ok.inj h
    exact ⟨⟨fun _ _ => rfl, fun _ _ r => at_zero r⟩, calm, Or.inr ⟨_, _, rfl, rfl, rfl⟩⟩

/-- C75: a contact at two different points of a side, without friction and restitution, is passive. -/
theorem C75_contact [LawfulTrig K] {m : InvMasses K} (hm : m.Nonneg) (e : Contact K) (P0 P1 : Pose K)
    (hf : e.frame = e.manifold.frame ![P0.1.toWorldSpace, P1.1.toWorldSpace]) (h2 : e.manifold.nContacts = 2) (ha : 0 < m.m0 + m.m1)
    (hi : 0 < (if e.manifold.refIndex = 0 then m.I0 else m.I1))
    (hx : Vec2.cross (e.manifold.contacts e.manifold.refIndex 0 - e.manifold.contacts e.manifold.refIndex 1) e.manifold.normal ≠ 0)
    (hr : e.restitution = 0) (hμ : e.friction = 0) : (Kind.contact : Kind K).Passive m e :=
  ⟨⟨P0, P1, hf⟩, Or.inr h2, (C73_contact hm e P0 P1 hf fun _ => ⟨ha, hi, hx⟩).2 h2, hr, hμ⟩

end

/-- C75: the contact of 4 and 5 would be passive if it had neither friction nor restitution. -/
example : (Kind.contact : Kind ℝ).Passive ⟨1 / 2, 1 / 3, 1 / 2, 1 / 3⟩ ({ libContact with restitution := 0, friction := 0 } : Contact ℝ) := by
  refine C75_contact (by constructor <;> norm_num) _ (libPose 4) (libPose 5) rfl rfl (by norm_num) ?_ ?_ rfl rfl
  · show (0 : ℝ) < if (1 : Fin 2) = 0 then 1 / 3 else 1 / 3
    norm_num
  · show Vec2.cross ((⟨-1, 1 / 2⟩ : Vec2 ℝ) - ⟨1, 1 / 2⟩) ⟨0, 1⟩ ≠ 0
    simp [Vec2.cross]
    norm_num

/-- C75: 1, 2 and 3, joined by a hinge and a weld, end up with no more than the kinetic energy they had, whatever the mouse and the contact do to 4 and 5. -/
example : ∃ st' log, Solved (lib.net libCfg) (fun l => (lib.kind l).answer (libState.s l)) libWorld libState st' log ∧
    ∑ b ∈ ({1, 2, 3} : Finset Nat), (libBody b).energy (st'.body b).vel ≤ 43 := by
  obtain ⟨st', log, hr, -, h⟩ := C73_library lib_made (c := libCfg) sqrt_lawful lib_graph (st := libState) ⟨fun _ => rfl, fun _ => rfl⟩ rfl lib_firm ⟨8, 2, false⟩
    (libPose 0) ⟨0, 0⟩ (fuel := 11) (by decide)
  have hm := libBodies_masses
  obtain ⟨a, -⟩ := C75_library (c := libCfg) sqrt_lawful (by norm_num [libCfg]) (by norm_num [libCfg]) (body := libBody) h ⟨_, _, _, _, rfl, hr⟩ (group := {1, 2, 3}) (by
    intro b hb l hl _
    simp only [Finset.mem_insert, Finset.mem_singleton] at hb
    rcases lib_links b l hl with ⟨rfl, rfl⟩ | ⟨rfl, rfl⟩ | ⟨rfl, rfl⟩ | ⟨rfl, rfl⟩ | ⟨rfl, rfl⟩ | ⟨rfl, rfl⟩ | ⟨rfl, rfl⟩ <;>
      simp [Library.net, lib, libBodies, Bodies.make] at hb ⊢) (fun _ => False) (fun _ _ h => h.elim) (by
    intro b hb l hl _
    simp only [Finset.mem_insert, Finset.mem_singleton] at hb
    have kinds := fun b m x => C75_kinds libBody b m x 0 0
    have nn : ∀ l, (lib.bodies l).masses.Nonneg := fun l => by
      rw [hm]; exact ⟨by norm_num, by norm_num, by norm_num, by norm_num⟩
    have part : ∀ l i, Partakes (libBody i) False (lib.bodies l).masses.m0 (lib.bodies l).masses.I0 ∧
        Partakes (libBody i) False (lib.bodies l).masses.m1 (lib.bodies l).masses.I1 := fun l i => by
      rw [hm]; exact ⟨Or.inl ⟨id, by norm_num [libBody, Body.mass], by norm_num [libBody, Body.inertia]⟩, Or.inl ⟨id, by norm_num [libBody, Body.mass], by norm_num [libBody, Body.inertia]⟩⟩
    rcases lib_links b l hl with ⟨rfl, rfl⟩ | ⟨rfl, rfl⟩ | ⟨rfl, rfl⟩ | ⟨rfl, rfl⟩ | ⟨rfl, rfl⟩ | ⟨rfl, rfl⟩ | ⟨rfl, rfl⟩
    · exact ⟨by decide, nn _, (part _ _).1, (part _ _).2, (kinds _ _ _).1 _⟩
    · exact ⟨by decide, nn _, (part _ _).1, (part _ _).2, (kinds _ _ _).1 _⟩
    · exact ⟨by decide, nn _, (part _ _).1, (part _ _).2, (kinds _ _ 0).2.2.1 _⟩
    · exact ⟨by decide, nn _, (part _ _).1, (part _ _).2, (kinds _ _ 0).2.2.1 _⟩
    all_goals omega)
  refine ⟨st', log, h, a.trans (le_of_eq ?_)⟩
  rw [Finset.sum_insert (by decide), Finset.sum_insert (by decide), Finset.sum_singleton]
  simp [libState, libBody, Body.energy, Body.mass, Body.inertia, Vec2.normSquared, Vec2.dot]
  norm_num

end Simu
