import Verif.Lemmas.LibrarySound
import Verif.Props.Library
import Verif.Lemmas.ContactSample
/-
C73: worlds whose constraints can always be solved. A case for C72.
-/
namespace Simu
open Mat Island Finset

namespace Island
variable {P V S : Type*} {N : Net P V S} {world : List Nat} {st : St P V S}

/-- C73: if the constraints of the bodies can be solved, `solveIslands` succeeds. -/
theorem C73_completes (hN : WellBehaved N) (hg : WellFormed N world) (hr : Ready st) {T : Link → Prop} {A : Link → Bool} {good : S → Prop}
    {ready : Link → S → Prop} (hS : Sound N T A good ready) (hT : ∀ b ∈ world, ∀ l ∈ linksOf N b, T l) (hs : good st.s)
    (hA : ∀ e ∈ st.evals, e.2 = A e.1) (cfg : Settings) (p : P) (v : V) {fuel : Nat} (hf : 2 * world.length < fuel) :
    ∃ st' log, solveIslands N cfg fuel p v world st = some (.ok (st', log)) ∧ good st'.s ∧ Solved N A world st st' log := by
  obtain ⟨o, h⟩ := Option.ne_none_iff_exists'.1 (C37_ends hN hg hr cfg p v hf)
  obtain ⟨⟨st', log⟩, rfl, h1, h2⟩ := solveLoop_sound hN.lawful hS cfg hg.consistent.closed hT fuel (fun b hb => hb) hr.idle ⟨rfl, rfl, rfl⟩ hs hA h
  exact ⟨st', log, h, h1, hN, hg, hr, ⟨cfg, fuel, p, v, h⟩, h2⟩

end Island

section
variable {K : Type*} [Field K] [LinearOrder K] [IsStrictOrderedRing K] [Trig K]

/-- What the calls need and keep. -/
theorem Library.sound (L : Library K) {c : CallCfg K} (hc : ∀ x, 0 ≤ x → c.sqrt x * c.sqrt x = x) (T : Link → Prop) (A : Link → Bool)
    (hm : ∀ l, T l → (L.bodies l).masses.Nonneg) :
    Sound (L.net c) T A (fun s => ∀ l, T l → (L.kind l).Firm (L.bodies l).masses (s l) ∧ (L.kind l).answer (s l) = A l)
      (fun l s => (L.kind l).Ready (s l)) := by
  constructor
  · intro ph l i0 i1 s ps vs hl hg hr
    obtain ⟨e', t, h1, h2, h3, h4⟩ := Kind.act_sound hc (hm l hl) (L.kind l) (s l) (hg l hl).1 ph hr i0 i1 ps vs
    refine ⟨Function.update s l e', fun i => Pose.of (t.pos i), t.vel, ?_, ?_, ?_, ?_⟩
    · show ((L.kind l).act c ph _ _ _).bind _ = _
      rw [h1]; rfl
    · intro l' hl'
      by_cases h : l' = l
      · subst h
        rw [Function.update_self]
        exact ⟨h2, h4.trans (hg l' hl').2⟩
      · rw [Function.update_of_ne h]; exact hg l' hl'
    · show (L.kind l).Ready (Function.update s l e' l)
      rw [Function.update_self]; exact h3
    · intro l' hl'
      show (L.kind l').Ready (Function.update s l e' l')
      by_cases h : l' = l
      · subst h; rw [Function.update_self]; exact h3
      · rw [Function.update_of_ne h]; exact hl'
  · intro l s p q hl hg
    have key : ∀ (k : Kind K) (e : k.State) (m : InvMasses K), k.Firm m e →
        let r := k.isActive ⟨0, 1, m⟩ e ⟨fun i => if i = 0 then p.1 else q.1, fun _ => ⟨0, 0⟩⟩;
        k.Firm m r.1 ∧ k.answer r.1 = k.answer e ∧ r.2 = k.answer e := by
      intro k e m he
      cases k with
      | equality d f => exact ⟨he, rfl, rfl⟩
      | mouse f => exact ⟨he, rfl, rfl⟩
      | inequality d f => exact he.elim
      | limits f => exact he.elim
      | contact => exact ⟨⟨⟨p, q, rfl⟩, he.2⟩, rfl, rfl⟩
    obtain ⟨k1, k2, k3⟩ := key (L.kind l) (s l) (L.bodies l).masses (hg l hl).1
    refine ⟨?_, ?_⟩
    · intro l' hl'
      show (L.kind l').Firm _ (Function.update s l _ l') ∧ (L.kind l').answer (Function.update s l _ l') = _
      by_cases h : l' = l
      · subst h
        rw [Function.update_self]
        exact ⟨k1, k2.trans (hg l' hl').2⟩
      · rw [Function.update_of_ne h]; exact hg l' hl'
    · exact k3.trans (hg l hl).2

/-- C73: a world whose constraints are equality constraints and motors that are effective, constraints of the mouse, contacts at one point and solvable contacts at two:
`solveIslands` succeeds, whatever the positions and velocities of the bodies and the multipliers kept from earlier steps, and leaves the world such that this
holds again. `std::sqrt` is exact. -/
theorem C73_library {L : Library K} {body : Nat → Body K} (hL : L.MadeFor body) {c : CallCfg K} (hc : ∀ x, 0 ≤ x → c.sqrt x * c.sqrt x = x)
    {world : List Nat} (hg : WellFormed (L.net c) world) {st : St (Pose K) (Velocity K) ((l : Link) → (L.kind l).State)} (hr : Ready st) (he : st.evals = [])
    (hs : L.Firm c world st.s) (cfg : Settings) (p : Pose K) (v : Velocity K) {fuel : Nat} (hf : 2 * world.length < fuel) :
    ∃ st' log, solveIslands (L.net c) cfg fuel p v world st = some (.ok (st', log)) ∧ L.Firm c world st'.s ∧
      Solved (L.net c) (fun l => (L.kind l).answer (st.s l)) world st st' log := by
  obtain ⟨st', log, h1, h2, h3⟩ := C73_completes (C37_library hL c) hg hr
    (L.sound hc (fun l => ∃ b ∈ world, l ∈ linksOf (L.net c) b) (fun l => (L.kind l).answer (st.s l)) fun l ⟨b, hb, hl⟩ => (hs b hb l hl).1)
    (fun b hb l hl => ⟨b, hb, hl⟩) (fun l ⟨b, hb, hl⟩ => ⟨(hs b hb l hl).2, rfl⟩) (by simp [he]) cfg p v hf
  exact ⟨st', log, h1, fun b hb l hl => ⟨(hs b hb l hl).1, (h2 l ⟨b, hb, hl⟩).1⟩, h3⟩

/-- A constraint that `initSolve` accepts without damping wherever its bodies are is effective. -/
theorem effective_of {d : Nat} {sqrt : K → K} (hs : ∀ x, 0 ≤ x → sqrt x * sqrt x = x) {m : InvMasses K} (hm : m.Nonneg) {f : CFun K d}
    (h : ∀ i0 i1 s (e : EqualitySolver K d), e.base.damping = Mat.zero → ∃ e', e.initSolve sqrt ⟨i0, i1, m⟩ f s = .ok e') : Effective m f := by
  intro i0 i1 s x hx
  by_contra hne
  let e : EqualitySolver K d := ⟨.init, ⟨false, fun _ => .throw⟩⟩
  obtain ⟨e', he⟩ := h i0 i1 s e rfl
  have := (C34_valid hs e ⟨i0, i1, m⟩ (hm.vec i0 i1) (fun r => le_of_eq (at_zero r).symm) f s).2 ⟨x, hx, fun r => by
    rw [show e.base.damping.at_ r = 0 from at_zero r, zero_mul], hne⟩
  rw [he] at this
  simp at this

/-- C73: which constraints are meant: rotation constraints, hinges, welds, motors and the mouse, for bodies that can move in the way needed. -/
theorem C73_effective {sqrt : K → K} (hs : ∀ x, 0 ≤ x → sqrt x * sqrt x = x) {m : InvMasses K} (hm : m.Nonneg) :
    (∀ a, m.I0 ≠ 0 ∨ m.I1 ≠ 0 → Effective m (rotationFun a)) ∧ (∀ l0 l1, m.m0 ≠ 0 ∨ m.m1 ≠ 0 → Effective m (hingeFun l0 l1)) ∧
    (∀ bodies b, (m.m0 ≠ 0 ∧ m.I0 ≠ 0) ∨ (m.m1 ≠ 0 ∧ m.I1 ≠ 0) → Effective m (weldFunOf bodies b)) ∧
    (∀ mo, m.I0 ≠ 0 → Effective m (rotationMotor mo)) ∧ (∀ mo, m.m0 ≠ 0 → Effective m (translationMotor mo)) ∧
    (∀ a q, m.m0 ≠ 0 → Effective m (mouseFun a q)) := by
  have lib := fun i0 i1 s => C34_library_valid hs ⟨i0, i1, m⟩ (hm.vec i0 i1) s
  have zero : ∀ {d : Nat} {e : EqualitySolver K d}, e.base.damping = Mat.zero → ∀ r, 0 ≤ e.base.damping.at_ r := fun h r => by rw [h, at_zero]
  refine ⟨fun a h => effective_of hs hm fun i0 i1 s e he => (lib i0 i1 s).1 a e (zero he) h,
    fun l0 l1 h => effective_of hs hm fun i0 i1 s e he => (lib i0 i1 s).2.1 l0 l1 e (zero he) h,
    fun bs b h => effective_of hs hm fun i0 i1 s e he => (lib i0 i1 s).2.2.1 bs b e (zero he) h,
    fun mo h => effective_of hs hm fun i0 i1 s e he => (lib i0 i1 s).2.2.2.1 mo e (zero he) h,
    fun mo h => effective_of hs hm fun i0 i1 s e he => (lib i0 i1 s).2.2.2.2 mo e (zero he) h, ?_⟩
  intro a q h i0 i1 s x hx
  obtain ⟨v0, v1, -⟩ := invMassVec_at (⟨i0, i1, m⟩ : Proxies K)
  have h0 := hx 0
  have h1 := hx 1
  simp only [pull, v0, v1, toV, Fin.sum_univ_two] at h0 h1
  have g00 : ((mouseFun a q).jacobian ⟨i0, i1, m⟩ s).get 0 0 = 1 := rfl
  have g10 : ((mouseFun a q).jacobian ⟨i0, i1, m⟩ s).get 1 0 = 0 := rfl
  have g01 : ((mouseFun a q).jacobian ⟨i0, i1, m⟩ s).get 0 1 = 0 := rfl
  have g11 : ((mouseFun a q).jacobian ⟨i0, i1, m⟩ s).get 1 1 = 1 := rfl
  rw [g00, g10] at h0
  rw [g01, g11] at h1
  apply ext_at
  intro r
  rw [at_zero]
  fin_cases r
  · simpa [h] using h0
  · simpa [h] using h1

/-- C73: contacts. At one point always; at two if the body with the reference edge can turn and the two points of that edge are apart along it. -/
theorem C73_contact [LawfulTrig K] {m : InvMasses K} (hm : m.Nonneg) (e : Contact K) (P0 P1 : Pose K)
    (hf : e.frame = e.manifold.frame ![P0.1.toWorldSpace, P1.1.toWorldSpace])
    (h2 : e.manifold.nContacts = 2 → 0 < m.m0 + m.m1 ∧ 0 < (if e.manifold.refIndex = 0 then m.I0 else m.I1) ∧
      Vec2.cross (e.manifold.contacts e.manifold.refIndex 0 - e.manifold.contacts e.manifold.refIndex 1) e.manifold.normal ≠ 0) :
    (Kind.contact : Kind K).Firm m e := by
  refine ⟨⟨P0, P1, hf⟩, fun hn P0 P1 => ?_⟩
  obtain ⟨a, i, x⟩ := h2 hn
  have rot : ∀ (P : Pose K) (u v : Vec2 K), Vec2.cross (P.1.toWorldSpace.app u - P.1.toWorldSpace.app v) (P.1.toWorldSpace.r.app e.manifold.normal) =
      Vec2.cross (u - v) e.manifold.normal := by
    intro P u v
    have hw : P.1.orient.cosine * P.1.orient.cosine + P.1.orient.sine * P.1.orient.sine = 1 := by
      rw [P.2.1, P.2.2]
      exact LawfulTrig.sq_add_sq _
    simp only [Position.toWorldSpace, Transform.app, Transform.mulTranslation, Translation.mulRotation, Vec2.cross, Rotation.app, Vec2.sub_x, Vec2.sub_y,
      Vec2.add_x, Vec2.add_y]
    linear_combination ((u.x - v.x) * e.manifold.normal.y - (u.y - v.y) * e.manifold.normal.x) * hw
  have nz : ∀ (P : Pose K), P.1.toWorldSpace.r.app e.manifold.normal ≠ 0 := by
    intro P h0
    have := rot P (e.manifold.contacts e.manifold.refIndex 0) (e.manifold.contacts e.manifold.refIndex 1)
    rw [h0] at this
    apply x
    rw [← this]
    simp [Vec2.cross]
  have neg : ∀ u v : Vec2 K, Vec2.cross u (-v) ≠ 0 ↔ Vec2.cross u v ≠ 0 := by
    intro u v
    have : Vec2.cross u (-v) = -Vec2.cross u v := by simp [Vec2.cross]; ring
    rw [this, neg_ne_zero]
  have ri : e.manifold.refIndex = 0 ∨ e.manifold.refIndex = 1 := by
    rcases h : e.manifold.refIndex with ⟨_ | _ | n, hlt⟩
    · exact Or.inl rfl
    · exact Or.inr rfl
    · omega
  refine ⟨hm.m0, hm.m1, hm.I0, hm.I1, a, ?_, fun _ => ?_⟩
  · unfold Manifold.frame
    dsimp only
    have hne : (![P0.1.toWorldSpace, P1.1.toWorldSpace] e.manifold.refIndex).r.app e.manifold.normal ≠ 0 := by
      rcases ri with h | h <;> rw [h]
      · exact nz P0
      · exact nz P1
    split
    · rw [neg_ne_zero]; exact hne
    · exact hne
  · unfold Manifold.frame
    simp only [hn, Fin.val_zero, Fin.val_one, show (0 : Nat) < 2 from by decide, show (1 : Nat) < 2 from by decide, if_true]
    by_cases h0 : e.manifold.refIndex = 0
    · rw [if_pos h0] at i
      simp only [h0] at x ⊢
      refine Or.inl ⟨i, ?_⟩
      show Vec2.cross (P0.1.toWorldSpace.app _ - P0.1.toWorldSpace.app _) (if True then -P0.1.toWorldSpace.r.app e.manifold.normal else _) ≠ 0
      rw [if_pos trivial, neg, rot]; exact x
    · have h1 : e.manifold.refIndex = 1 := ri.resolve_left h0
      rw [if_neg h0] at i ⊢
      simp only [h1] at x ⊢
      refine Or.inr ⟨i, ?_⟩
      show Vec2.cross (P1.1.toWorldSpace.app _ - P1.1.toWorldSpace.app _) (P1.1.toWorldSpace.r.app e.manifold.normal) ≠ 0
      rw [rot]; exact x

end

/-! ### A concrete world: 1 and 2 share a hinge, 2 and 3 are welded, 4 is held by the mouse and touches 5 at two points -/
section

/-- Bodies of mass 2 and inertia 3 with the centroid at their origin, at `(i, 0)`. -/
noncomputable def libBody (i : Nat) : Body ℝ := ⟨.make ⟨i, 0⟩ 0 ⟨0, 0⟩, 0, 0, ⟨[], ⟨2, 3, ⟨0, 0⟩⟩⟩, 1, false, true⟩

noncomputable def libKind : Link → Kind ℝ
  | .joint 0 => .equality 2 (hingeFunOf libBody (Bodies.make libBody 1 2 none) ⟨1, 1⟩)
  | .joint 1 => .equality 3 (weldFunOf libBody (Bodies.make libBody 2 3 none))
  | .joint _ => .mouse (mouseFunOf (libBody 4) ⟨4, 1⟩)
  | .contact _ => .contact

noncomputable def libBodies : Link → Bodies ℝ
  | .joint 0 => Bodies.make libBody 1 2 none
  | .joint 1 => Bodies.make libBody 2 3 none
  | .joint _ => Bodies.singleBody libBody 4
  | .contact _ => Bodies.make libBody 4 5 none

noncomputable def lib : Library ℝ where
  kind := libKind
  bodies := libBodies
  joints := fun
    | 1 => [0]
    | 2 => [0, 1]
    | 3 => [1]
    | 4 => [2]
    | _ => []
  contacts := fun
    | 4 => [0]
    | 5 => [0]
    | _ => []

noncomputable def libCfg : CallCfg ℝ := ⟨1 / 60, Real.sqrt, 1 / 1000, 100⟩

noncomputable def libPose (b : Nat) : Pose ℝ := ⟨(libBody b).position, rfl, rfl⟩

/-- The contact of 4 and 5, new. -/
noncomputable def libContact : Contact ℝ :=
  { contactSample 2 (1 / 2) (1 / 2) with frame := (contactSample 2 (1 / 2) (1 / 2)).manifold.frame ![(libPose 4).1.toWorldSpace, (libPose 5).1.toWorldSpace] }

/-- All constraints are new; the bodies move in all directions. -/
noncomputable def libState : St (Pose ℝ) (Velocity ℝ) ((l : Link) → (lib.kind l).State) where
  body := fun b => ⟨libPose b, ⟨⟨b, 1⟩, 1⟩, false, none⟩
  proxies := fun _ => none
  s := fun
    | .joint 0 => (⟨.init, ⟨false, fun _ => .throw⟩⟩ : EqualitySolver ℝ 2)
    | .joint 1 => (⟨.init, ⟨false, fun _ => .throw⟩⟩ : EqualitySolver ℝ 3)
    | .joint (_ + 2) => (⟨mouseBase, ⟨false, fun _ => .throw⟩⟩ : EqualitySolver ℝ 2)
    | .contact _ => libContact
  evals := []
  moved := []

theorem libBodies_masses (l : Link) : (lib.bodies l).masses = ⟨1 / 2, 1 / 3, 1 / 2, 1 / 3⟩ := by
  rcases l with (_ | _ | n) | n <;>
    simp [lib, libBodies, Bodies.singleBody, Bodies.make, Body.invMass, Body.invInertia, Body.mass, Body.inertia, libBody]

theorem lib_made : lib.MadeFor libBody := by
  have hm : ∀ b, (libBody b).mass ≠ 0 := fun b => by simp [libBody, Body.mass]
  intro l
  rcases l with (_ | _ | n) | n
  · exact ⟨none, rfl, hm _, hm _, by simp⟩
  · exact ⟨none, rfl, hm _, hm _, by simp⟩
  · refine ⟨some ⟨1, 1⟩, rfl, hm _, hm _, ?_⟩
    rintro - d h
    cases h
    rfl
  · exact ⟨none, rfl, hm _, hm _, by simp⟩

def libWorld : List Nat := [1, 2, 3, 4, 5]

theorem lib_links (b : Nat) (l : Link) (h : l ∈ linksOf (lib.net libCfg) b) :
    (b = 1 ∧ l = .joint 0) ∨ (b = 2 ∧ l = .joint 0) ∨ (b = 2 ∧ l = .joint 1) ∨ (b = 3 ∧ l = .joint 1) ∨ (b = 4 ∧ l = .joint 2) ∨
    (b = 4 ∧ l = .contact 0) ∨ (b = 5 ∧ l = .contact 0) := by
  have hj : (lib.net libCfg).joints = lib.joints := rfl
  have hc : (lib.net libCfg).contacts = lib.contacts := rfl
  unfold linksOf at h
  rw [hj, hc] at h
  rcases b with _ | _ | _ | _ | _ | _ | b <;> simp [lib] at h ⊢ <;> tauto

theorem lib_graph : WellFormed (lib.net libCfg) libWorld := by
  have hmass := libBodies_masses
  have free : ∀ l, (lib.net libCfg).structuralIn l ((lib.net libCfg).ends l).1 = false := by
    intro l
    show (match (lib.bodies l).isBodyStructural (lib.bodies l).i0 with | .ok r => r | _ => false) = false
    unfold Bodies.isBodyStructural
    rw [if_pos rfl, hmass]
    simp
  refine ⟨fun b _ l h => ?_, fun b _ l h => ?_, fun b _ l h => ?_, fun b _ l h => Or.inl (free l)⟩ <;>
    rcases lib_links b l h with ⟨rfl, rfl⟩ | ⟨rfl, rfl⟩ | ⟨rfl, rfl⟩ | ⟨rfl, rfl⟩ | ⟨rfl, rfl⟩ | ⟨rfl, rfl⟩ | ⟨rfl, rfl⟩ <;>
    simp [Library.net, lib, libBodies, Bodies.make, Bodies.singleBody, libWorld, linksOf]

theorem lib_firm : lib.Firm libCfg libWorld libState.s := by
  intro b _ l _
  have hn : (⟨1 / 2, 1 / 3, 1 / 2, 1 / 3⟩ : InvMasses ℝ).Nonneg := by constructor <;> norm_num
  obtain ⟨-, e1, e2, -, -, e3⟩ := C73_effective sqrt_lawful hn
  rw [libBodies_masses]
  refine ⟨hn, ?_⟩
  rcases l with (_ | _ | n) | n
  · exact ⟨e1 _ _ (Or.inl (by norm_num)), fun r => le_of_eq (at_zero r).symm⟩
  · exact ⟨e2 _ _ (Or.inl ⟨by norm_num, by norm_num⟩), fun r => le_of_eq (at_zero r).symm⟩
  · refine ⟨e3 _ _ (by norm_num), fun r => ?_⟩
    show (0 : ℝ) ≤ (Mat.ofFn fun _ => 1 : MVec ℝ 2).at_ r
    rw [at_ofFn]; norm_num
  · refine C73_contact hn libContact (libPose 4) (libPose 5) rfl fun _ => ⟨by norm_num, ?_, ?_⟩
    · show (0 : ℝ) < if (1 : Fin 2) = 0 then 1 / 3 else 1 / 3
      norm_num
    · show Vec2.cross ((⟨-1, 1 / 2⟩ : Vec2 ℝ) - ⟨1, 1 / 2⟩) ⟨0, 1⟩ ≠ 0
      simp [Vec2.cross]
      norm_num

/-- C73: the world is solved. -/
theorem lib_solved : ∃ st' log, Solved (lib.net libCfg) (fun l => (lib.kind l).answer (libState.s l)) libWorld libState st' log := by
  obtain ⟨st', log, -, -, h⟩ := C73_library lib_made (c := libCfg) sqrt_lawful lib_graph (st := libState) ⟨fun _ => rfl, fun _ => rfl⟩ rfl lib_firm ⟨8, 2, true⟩
    (libPose 0) ⟨0, 0⟩ (fuel := 11) (by decide)
  exact ⟨st', log, h⟩

theorem lib_fit : lib.Fit libState.s := by
  have zero : ∀ {d : Nat}, OppositeLinear (Mat.zero : Mat ℝ d 6) := fun r => by simp [get_zero]
  intro l _
  rcases l with (_ | _ | n) | n
  · exact zero (d := 2)
  · exact zero (d := 3)
  · trivial
  · exact ⟨zero, fun _ => zero⟩

/-- C72: 1, 2 and 3 keep their momentum and their centre of mass moves accordingly. -/
example : ∃ st' log, Solved (lib.net libCfg) (fun l => (lib.kind l).answer (libState.s l)) libWorld libState st' log ∧
    ∑ b ∈ ({1, 2, 3} : Finset Nat), (libBody b).mass • (st'.body b).vel.linear = ⟨12, 6⟩ ∧
    ∑ b ∈ ({1, 2, 3} : Finset Nat), (libBody b).mass • (st'.body b).pos.1.centroid = ⟨12 + 1 / 5, 1 / 10⟩ := by
  obtain ⟨st', log, h⟩ := lib_solved
  have hm := libBodies_masses
  obtain ⟨a, b⟩ := C72_library lib_made libCfg h lib_fit (group := {1, 2, 3}) (by decide) (by
    intro b hb l hl _
    simp only [Finset.mem_insert, Finset.mem_singleton] at hb
    rcases lib_links b l hl with ⟨rfl, rfl⟩ | ⟨rfl, rfl⟩ | ⟨rfl, rfl⟩ | ⟨rfl, rfl⟩ | ⟨rfl, rfl⟩ | ⟨rfl, rfl⟩ | ⟨rfl, rfl⟩ <;>
      simp [Library.net, lib, libBodies, Bodies.make] at hb ⊢) (by
    intro b hb l hl _
    simp only [Finset.mem_insert, Finset.mem_singleton] at hb
    have kinds := C72_kinds libBody
    have heq : ∀ l, (lib.bodies l).masses = ⟨1 / (libBody (lib.bodies l).i0).mass, 1 / (libBody (lib.bodies l).i0).inertia,
        1 / (libBody (lib.bodies l).i1).mass, 1 / (libBody (lib.bodies l).i1).inertia⟩ := fun l => by
      rw [hm]; rfl
    rcases lib_links b l hl with ⟨rfl, rfl⟩ | ⟨rfl, rfl⟩ | ⟨rfl, rfl⟩ | ⟨rfl, rfl⟩ | ⟨rfl, rfl⟩ | ⟨rfl, rfl⟩ | ⟨rfl, rfl⟩
    · exact ⟨by decide, (kinds (Bodies.make libBody 1 2 none) ⟨1, 1⟩ 0 0).1, heq _⟩
    · exact ⟨by decide, (kinds (Bodies.make libBody 1 2 none) ⟨1, 1⟩ 0 0).1, heq _⟩
    · exact ⟨by decide, (kinds (Bodies.make libBody 2 3 none) 0 0 0).2.2.1, heq _⟩
    · exact ⟨by decide, (kinds (Bodies.make libBody 2 3 none) 0 0 0).2.2.1, heq _⟩
    all_goals omega)
  have hd : libCfg.dt = 1 / 60 := rfl
  have hv : ∑ b ∈ ({1, 2, 3} : Finset Nat), (libBody b).mass • (libState.body b).vel.linear = ⟨12, 6⟩ := by
    rw [Finset.sum_insert (by decide), Finset.sum_insert (by decide), Finset.sum_singleton]
    ext <;> simp [libState, libBody, Body.mass] <;> norm_num
  have hp : ∑ b ∈ ({1, 2, 3} : Finset Nat), (libBody b).mass • (libState.body b).pos.1.centroid = ⟨12, 0⟩ := by
    rw [Finset.sum_insert (by decide), Finset.sum_insert (by decide), Finset.sum_singleton]
    simp only [Position.centroid_sum]
    ext <;> simp [libState, libPose, libBody, Body.mass, Position.make] <;> norm_num
  refine ⟨st', log, h, a.trans hv, b.trans ?_⟩
  rw [hv, hp, hd]
  ext <;> simp <;> norm_num

end
end Simu
