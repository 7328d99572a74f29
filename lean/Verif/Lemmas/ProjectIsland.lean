import Verif.Lemmas.Project
import Verif.Lemmas.ProjectKinds
/-
The velocity iterations as a projected Gauss-Seidel iteration.
-/
namespace Simu
open Mat Contact Island
variable {K : Type*} [Field K] [LinearOrder K] [IsStrictOrderedRing K] [Trig K] {L : Library K} {c : CallCfg K} {ls : List Link} {M : Nat → K × K} {n : Nat}
  {P : Link → Proxies K} {x0 y : St (Pose K) (Velocity K) ((l : Link) → (L.kind l).State) × Isl (Pose K) (Velocity K)}

/-- What is required of the constraints of the island. -/
structure Setting (L : Library K) (c : CallCfg K) (ls : List Link) (P : Link → Proxies K)
    (x0 : St (Pose K) (Velocity K) ((l : Link) → (L.kind l).State) × Isl (Pose K) (Velocity K)) : Prop where
  sqrt : ∀ x, 0 ≤ x → c.sqrt x * c.sqrt x = x
  proxy : ∀ l ∈ ls, ∃ ends, x0.1.proxies l = some ends ∧ P l = L.proxies l ends
  nonneg : ∀ l ∈ ls, ∀ i, 0 ≤ (P l).invMassVec.at_ i
  distinct : ∀ l ∈ ls, L.kind l = .contact → (P l).i0 ≠ (P l).i1
  plain : ∀ l ∈ ls, (L.kind l).Plain (P l) (x0.1.s l)

/-- What is required of the island and of the state `y` it is compared with. -/
structure Comparing (L : Library K) (c : CallCfg K) (ls : List Link) (M : Nat → K × K) (n : Nat) (P : Link → Proxies K)
    (x0 y : St (Pose K) (Velocity K) ((l : Link) → (L.kind l).State) × Isl (Pose K) (Velocity K)) : Prop extends Setting L c ls P x0 where
  low : ∀ l ∈ ls, (P l).i0 < n ∧ (P l).i1 < n
  masses : ∀ l ∈ ls, (P l).masses = ⟨(M (P l).i0).1, (M (P l).i0).2, (M (P l).i1).1, (M (P l).i1).2⟩
  tallied : Tallied L ls P x0 y
  regular : ∀ l ∈ ls, (L.kind l).Regular c (P l) x0.2.view (y.1.s l)
  started : ∀ l ∈ ls, (L.kind l).Started c (P l) x0.2.view (y.1.s l)
  law : ∀ l ∈ ls, (L.kind l).Law c (P l) x0.2.view y.2.view (y.1.s l)

/-- A state of the island during the velocity iterations. -/
structure Going (L : Library K) (c : CallCfg K) (ls : List Link) (P : Link → Proxies K)
    (x0 z : St (Pose K) (Velocity K) ((l : Link) → (L.kind l).State) × Isl (Pose K) (Velocity K)) : Prop where
  tallied : Tallied L ls P x0 z
  started : ∀ l ∈ ls, (L.kind l).Regular c (P l) x0.2.view (z.1.s l) ∧ (L.kind l).Started c (P l) x0.2.view (z.1.s l)
  tame : ∀ l ∈ ls, (L.kind l).Tame (P l) x0.2.view (z.1.s l)

/-- A constraint that was solved at least once. -/
def Done (L : Library K) (c : CallCfg K) (P : Link → Proxies K) (x0 z : St (Pose K) (Velocity K) ((l : Link) → (L.kind l).State) × Isl (Pose K) (Velocity K)) (l : Link) : Prop :=
  (L.kind l).Smooth (P l) x0.2.view (z.1.s l) ∧ ∀ r, (L.kind l).pmult (z.1.s l) r ∈ (L.kind l).pset c (P l) x0.2.view (z.1.s l) r

/-- Differences of the multipliers. -/
def gaps (L : Library K) (ls : List Link) (y z : St (Pose K) (Velocity K) ((l : Link) → (L.kind l).State) × Isl (Pose K) (Velocity K)) :
    ((l : ls.toFinset) × Fin (L.kind l).size) → K :=
  fun r => (L.kind r.1).pmult (z.1.s r.1) r.2 - (L.kind r.1).pmult (y.1.s r.1) r.2

/-- What is left to do at `y`. -/
def slack (L : Library K) (c : CallCfg K) (ls : List Link) (P : Link → Proxies K)
    (x0 y : St (Pose K) (Velocity K) ((l : Link) → (L.kind l).State) × Isl (Pose K) (Velocity K)) : ((l : ls.toFinset) × Fin (L.kind l).size) → K :=
  fun r => (L.kind r.1).pres c (P r.1) x0.2.view y.2.view (y.1.s r.1) r.2

/-- The matrix of the rows of an island. -/
def rowsMass (L : Library K) (ls : List Link) (M : Nat → K × K) (n : Nat) (P : Link → Proxies K)
    (x0 y : St (Pose K) (Velocity K) ((l : Link) → (L.kind l).State) × Isl (Pose K) (Velocity K)) :
    Matrix ((l : ls.toFinset) × Fin (L.kind l).size) ((l : ls.toFinset) × Fin (L.kind l).size) K :=
  allMass n (fun l : ls.toFinset => (P l).i0) (fun l => (P l).i1) (fun l => (L.kind l).prow (P l) x0.2.view (y.1.s l)) (invMass3 M)
    fun l => (L.kind l).pdamp (P l) x0.2.view (y.1.s l)

theorem gaps_velocity (hc : Comparing L c ls M n P x0 y)
    {z : St (Pose K) (Velocity K) ((l : Link) → (L.kind l).State) × Isl (Pose K) (Velocity K)} (hz : Going L c ls P x0 z) (hd : ∀ l ∈ ls, Done L c P x0 z l)
    (i : Nat) (q : Fin 3) :
    (z.2.vs i).comp q - (y.2.vs i).comp q = invMass3 M i q * ∑ l : ls.toFinset,
      ((if i = (P l).i0 then ∑ r, (L.kind l).prow (P l) x0.2.view (y.1.s l) r (Fin.castAdd 3 q) * gaps L ls y z ⟨l, r⟩ else 0) +
        (if i = (P l).i1 then ∑ r, (L.kind l).prow (P l) x0.2.view (y.1.s l) r (Fin.natAdd 3 q) * gaps L ls y z ⟨l, r⟩ else 0)) := by
  have hsum : ∀ w : St (Pose K) (Velocity K) ((l : Link) → (L.kind l).State) × Isl (Pose K) (Velocity K), Tallied L ls P x0 w →
      (∀ l ∈ ls, (L.kind l).Started c (P l) x0.2.view (w.1.s l)) → (∀ l ∈ ls, (L.kind l).Smooth (P l) x0.2.view (w.1.s l)) →
      (w.2.vs i).comp q = (x0.2.vs i).comp q + invMass3 M i q * ∑ l : ls.toFinset,
        ((if i = (P l).i0 then ∑ r, (L.kind l).prow (P l) x0.2.view (y.1.s l) r (Fin.castAdd 3 q) * (L.kind l).pmult (w.1.s l) r else 0) +
          (if i = (P l).i1 then ∑ r, (L.kind l).prow (P l) x0.2.view (y.1.s l) r (Fin.natAdd 3 q) * (L.kind l).pmult (w.1.s l) r else 0)) := by
    intro w hw hst hsm
    rw [hw.total, map_add, map_sum, Pi.add_apply, Finset.sum_apply, Finset.mul_sum, ← Finset.sum_coe_sort]
    congr 1
    refine Finset.sum_congr rfl fun l _ => ?_
    have hl : l.1 ∈ ls := List.mem_toFinset.1 l.2
    have hsame := (Kind.rows_same (c := c) (p := P l) (s0 := x0.2.view) _ (((hc.tallied.same l hl).symm).trans (hw.same l hl))).1
    rw [kick_comp (P l) M (hc.masses l hl) _ i q, Kind.given_rows _ (hst l hl) (hw.idle l hl) (hsm l hl), Kind.given_rows _ (hst l hl) (hw.idle l hl) (hsm l hl), hsame]
    rfl
  rw [hsum z hz.tallied (fun l hl => (hz.started l hl).2) (fun l hl => (hd l hl).1), hsum y hc.tallied hc.started (fun l hl =>
    Kind.law_smooth _ (Kind.plain_same (hc.tallied.same l hl) (hc.plain l hl)) (hc.law l hl)), add_sub_add_left_eq_sub, ← mul_sub, ← Finset.sum_sub_distrib]
  congr 1
  refine Finset.sum_congr rfl fun l _ => ?_
  simp only [gaps, mul_sub, Finset.sum_sub_distrib]
  split_ifs <;> ring

/-- What is left to do. -/
theorem gaps_residual (hc : Comparing L c ls M n P x0 y)
    {z : St (Pose K) (Velocity K) ((l : Link) → (L.kind l).State) × Isl (Pose K) (Velocity K)} (hz : Going L c ls P x0 z) (hd : ∀ l ∈ ls, Done L c P x0 z l)
    (r : (l : ls.toFinset) × Fin (L.kind l).size) :
    (rowsMass L ls M n P x0 y).mulVec (gaps L ls y z) r + slack L c ls P x0 y r = (L.kind r.1).pres c (P r.1) x0.2.view z.2.view (z.1.s r.1) r.2 := by
  have hmem : ∀ l : ls.toFinset, l.1 ∈ ls := fun l => List.mem_toFinset.1 l.2
  rw [rowsMass, allMass_mulVec (κ := ls.toFinset) n _ _ (fun l => (hc.low l (hmem l)).1) (fun l => (hc.low l (hmem l)).2) _ _ _ _
    (fun i q => (z.2.vs i).comp q - (y.2.vs i).comp q) (fun b => by rw [momenta_mulVec]; exact gaps_velocity hc hz hd b.1 b.2)]
  have hl := hmem r.1
  have hpos : z.2.view.pos = y.2.view.pos := by
    show (fun b => (z.2.ps b).1) = fun b => (y.2.ps b).1
    rw [hz.tallied.still, hc.tallied.still]
  have h1 := Kind.pres_diff _ (hz.started _ hl).2 (hc.started _ hl) (((hc.tallied.same _ hl).symm).trans (hz.tallied.same _ hl))
    (Kind.plain_same (hz.tallied.same _ hl) (hc.plain _ hl)) hpos r.2
  rw [sub_eq_iff_eq_add] at h1
  rw [h1, sum_six]
  rfl

/-- One call. -/
theorem Going.call (hs : ∀ x, 0 ≤ x → c.sqrt x * c.sqrt x = x) {z : St (Pose K) (Velocity K) ((l : Link) → (L.kind l).State) × Isl (Pose K) (Velocity K)}
    (hz : Going L c ls P x0 z) {l : Link}
    (hl : l ∈ ls) (hm : ∀ i, 0 ≤ (P l).invMassVec.at_ i) (hi : L.kind l = .contact → (P l).i0 ≠ (P l).i1) (hpl : (L.kind l).Plain (P l) (x0.1.s l))
    {e' : (L.kind l).State} {s' : SolveState K} (ha : (L.kind l).act c .solveVelocities (P l) (z.1.s l) z.2.view = .ok (e', s'))
    {w : St (Pose K) (Velocity K) ((l : Link) → (L.kind l).State) × Isl (Pose K) (Velocity K)}
    (hw : w = ({ z.1 with s := Function.update z.1.s l e' }, { z.2 with ps := fun i => Pose.of (s'.pos i), vs := s'.vel })) :
    Going L c ls P x0 w ∧ (L.kind l).Law c (P l) x0.2.view w.2.view (w.1.s l) ∧ Done L c P x0 w l ∧ ∀ m, m ≠ l → w.1.s m = z.1.s m := by
  subst hw
  obtain ⟨-, t2, -⟩ := Kind.telescope _ .solveVelocities (Or.inr rfl) hi ha
  have hview : ({ z.2 with ps := fun i => Pose.of (s'.pos i), vs := s'.vel } : Isl (Pose K) (Velocity K)).view = s' := by
    obtain ⟨pos, vel⟩ := s'
    obtain rfl : pos = z.2.view.pos := t2
    have h : ∀ i, (Pose.of (z.2.view.pos i)).1 = z.2.view.pos i := fun i => congrArg (fun z : Isl (Pose K) (Velocity K) => (z.ps i).1) (view_back z.2)
    exact congrArg (fun q => (⟨q, vel⟩ : SolveState K)) (funext h)
  have hgo : Going L c ls P x0 ({ z.1 with s := Function.update z.1.s l e' }, { z.2 with ps := fun i => Pose.of (s'.pos i), vs := s'.vel }) := by
    refine ⟨hz.tallied.call hl .solveVelocities (Or.inr rfl) hi ha, fun m hml' => ?_, fun m hml' => ?_⟩
    · by_cases hml : m = l
      · subst hml
        simp only [Function.update_self]
        exact Kind.started_act _ (hz.started m hml').1 (hz.started m hml').2 _ (Or.inr rfl) ha
      · simp only [Function.update_of_ne hml]
        exact hz.started m hml'
    · by_cases hml : m = l
      · subst hml
        simp only [Function.update_self]
        exact Kind.tame_act _ (by decide) (hz.tame m hml') ha
      · simp only [Function.update_of_ne hml]
        exact hz.tame m hml'
  have hplz := Kind.plain_same (hz.tallied.same l hl) hpl
  have hlaw := Kind.solve_law hs hm _ (hz.started l hl).1 (hz.started l hl).2 hplz (hz.tame l hl) t2 ha
  have hplw := Kind.plain_same (hgo.tallied.same l hl) hpl
  have hstw := (hgo.started l hl).2
  have hidw := hgo.tallied.idle l hl
  simp only [Function.update_self] at hplw hstw hidw
  refine ⟨hgo, ?_, ⟨?_, fun r => ?_⟩, fun m hm => Function.update_of_ne hm _ _⟩
  · simp only [Function.update_self, hview]
    exact hlaw
  · simp only [Function.update_self]
    exact Kind.law_smooth _ hplw hlaw
  · simp only [Function.update_self]
    exact (Kind.law_rows _ hstw hidw hlaw r).1

omit [IsStrictOrderedRing K] in
theorem Done.of_eq {z w : St (Pose K) (Velocity K) ((l : Link) → (L.kind l).State) × Isl (Pose K) (Velocity K)} {l : Link} (h : Done L c P x0 z l) (he : w.1.s l = z.1.s l) :
    Done L c P x0 w l := by
  unfold Done
  rw [he]; exact h

/-- After a round all its constraints were solved. -/
theorem round_done (hc : Setting L c ls P x0) :
    ∀ (ks : List Link) {z w : St (Pose K) (Velocity K) ((l : Link) → (L.kind l).State) × Isl (Pose K) (Velocity K)}, (∀ l ∈ ks, l ∈ ls) →
      Going L c ls P x0 z → actAll (L.net c) .solveVelocities ks z = .ok w → Going L c ls P x0 w ∧ ∀ l, Done L c P x0 z l ∨ l ∈ ks → Done L c P x0 w l
  | [], z, w, _, hz, h => by cases Outcome.ok.inj h; exact ⟨hz, fun l h => h.resolve_right List.not_mem_nil⟩
  | l :: ks, z, w, hsub, hz, h => by
    obtain ⟨ends, e', s', hp, ha, h⟩ := actAll_library_cons h
    have hl := hsub l List.mem_cons_self
    obtain ⟨ends', q1, q2⟩ := hc.proxy l hl
    have : ends' = ends := by rw [hz.tallied.proxies, q1] at hp; exact Option.some.inj hp
    subst this
    rw [← q2] at ha
    obtain ⟨g1, -, g3, g4⟩ := hz.call hc.sqrt hl (hc.nonneg l hl) (hc.distinct l hl) (hc.plain l hl) ha rfl
    obtain ⟨i1, i2⟩ := round_done hc ks (fun m hm => hsub m (List.mem_cons_of_mem _ hm)) g1 h
    refine ⟨i1, fun m hm => i2 m ?_⟩
    by_cases hml : m = l
    · subst hml; exact Or.inl g3
    · rcases hm with hm | hm
      · exact Or.inl (hm.of_eq (g4 m hml))
      · exact Or.inr ((List.mem_cons.1 hm).resolve_left hml)

/-- A velocity iteration is a sweep. -/
theorem round_psweep (hc : Comparing L c ls M n P x0 y) :
    ∀ (ks : List Link) {z w : St (Pose K) (Velocity K) ((l : Link) → (L.kind l).State) × Isl (Pose K) (Velocity K)}, (∀ l ∈ ks, l ∈ ls) →
      Going L c ls P x0 z → (∀ l ∈ ls, Done L c P x0 z l) → actAll (L.net c) .solveVelocities ks z = .ok w →
      PSweep (rowsMass L ls M n P x0 y) (slack L c ls P x0 y) (fun r => r.1.1) ks (gaps L ls y z) (gaps L ls y w)
  | [], z, w, _, hz, _, h => by cases Outcome.ok.inj h; rfl
  | l :: ks, z, w, hsub, hz, hd, h => by
    obtain ⟨ends, e', s', hp, ha, h⟩ := actAll_library_cons h
    have hl := hsub l List.mem_cons_self
    obtain ⟨ends', q1, q2⟩ := hc.proxy l hl
    have : ends' = ends := by rw [hz.tallied.proxies, q1] at hp; exact Option.some.inj hp
    subst this
    rw [← q2] at ha
    generalize hu : (({ z.1 with s := Function.update z.1.s l e' }, { z.2 with ps := fun i => Pose.of (s'.pos i), vs := s'.vel }) :
      St (Pose K) (Velocity K) ((l : Link) → (L.kind l).State) × Isl (Pose K) (Velocity K)) = u at h
    obtain ⟨g1, g2, g3, g4⟩ := hz.call hc.sqrt hl (hc.nonneg l hl) (hc.distinct l hl) (hc.plain l hl) ha hu.symm
    have hd' : ∀ m ∈ ls, Done L c P x0 u m := by
      intro m hm
      by_cases hml : m = l
      · subst hml; exact g3
      · exact (hd m hm).of_eq (g4 m hml)
    refine ⟨_, fun r hr => ?_, fun r hr => ?_, round_psweep hc ks (fun m hm => hsub m (List.mem_cons_of_mem _ hm)) g1 hd' h⟩
    · have hr : r.1.1 ≠ l := hr
      simp only [gaps, g4 _ hr]
    · rw [gaps_residual hc g1 hd']
      obtain ⟨⟨m, hm⟩, r⟩ := r
      obtain rfl : m = l := hr
      have hb := (Kind.law_rows _ (g1.started m hl).2 (g1.tallied.idle m hl) g2 r).2
      have hsz := (Kind.rows_same (c := c) (p := P m) (s0 := x0.2.view) _ (((hz.tallied.same m hl).symm).trans (g1.tallied.same m hl))).2
      have hsy := (Kind.rows_same (c := c) (p := P m) (s0 := x0.2.view) _ (((hc.tallied.same m hl).symm).trans (g1.tallied.same m hl))).2
      have b1 := hb _ (by rw [hsz]; exact (hd m hl).2 r)
      have b2 := hb _ (by rw [hsy]; exact (Kind.law_rows _ (hc.started m hl) (hc.tallied.idle m hl) (hc.law m hl) r).1)
      simp only [gaps]
      constructor
      · refine b1.trans_eq ?_
        ring
      · refine le_of_neg_le_neg ?_
        rw [neg_zero]
        refine b2.trans_eq ?_
        ring

/-- The differences are feasible directions at `y`. -/
theorem gaps_feasible (hc : Comparing L c ls M n P x0 y)
    {z : St (Pose K) (Velocity K) ((l : Link) → (L.kind l).State) × Isl (Pose K) (Velocity K)} (hz : Going L c ls P x0 z) (hd : ∀ l ∈ ls, Done L c P x0 z l)
    (r : (l : ls.toFinset) × Fin (L.kind l).size) : 0 ≤ slack L c ls P x0 y r * gaps L ls y z r := by
  have hl : r.1.1 ∈ ls := List.mem_toFinset.1 r.1.2
  have hsz := (Kind.rows_same (c := c) (p := P r.1) (s0 := x0.2.view) _ (((hc.tallied.same r.1 hl).symm).trans (hz.tallied.same r.1 hl))).2
  exact (Kind.law_rows _ (hc.started r.1 hl) (hc.tallied.idle r.1 hl) (hc.law r.1 hl) r.2).2 _ (by rw [← hsz]; exact (hd r.1 hl).2 r.2)

theorem rowsMass_nonneg (hc : Comparing L c ls M n P x0 y) (hm : ∀ i < n, ∀ q, 0 ≤ invMass3 M i q) (x : ((l : ls.toFinset) × Fin (L.kind l).size) → K) :
    0 ≤ quad (rowsMass L ls M n P x0 y) x :=
  allMass_nonneg n _ _ _ _ hm _ (fun l r => by
    have hl : l.1 ∈ ls := List.mem_toFinset.1 l.2
    exact Kind.pdamp_nonneg _ (hc.regular l hl) (Kind.plain_same (hc.tallied.same l hl) (hc.plain l hl)) r) x

/-- The velocities of the bodies. -/
theorem gaps_bound (hc : Comparing L c ls M n P x0 y) (hm : ∀ i < n, ∀ q, 0 ≤ invMass3 M i q)
    {z : St (Pose K) (Velocity K) ((l : Link) → (L.kind l).State) × Isl (Pose K) (Velocity K)} (hz : Going L c ls P x0 z) (hd : ∀ l ∈ ls, Done L c P x0 z l)
    (i : Nat) (q : Fin 3) :
    (i < n → ((z.2.vs i).comp q - (y.2.vs i).comp q) ^ 2 ≤ invMass3 M i q * quad (rowsMass L ls M n P x0 y) (gaps L ls y z)) ∧
    (n ≤ i → (z.2.vs i).comp q = (y.2.vs i).comp q) := by
  have hv := gaps_velocity hc hz hd i q
  constructor
  · intro hi
    have hmom := momenta_mulVec n (fun l : ls.toFinset => (P l).i0) (fun l => (P l).i1) (fun l => (L.kind l).prow (P l) x0.2.view (y.1.s l)) (gaps L ls y z) (⟨i, hi⟩, q)
    simp only at hmom
    rw [← hmom] at hv
    rw [hv, rowsMass, allMass_quad]
    set mo := (momenta n (fun l : ls.toFinset => (P l).i0) (fun l => (P l).i1) (fun l => (L.kind l).prow (P l) x0.2.view (y.1.s l))).mulVec (gaps L ls y z) with hmo
    have h1 : invMass3 M i q * (mo (⟨i, hi⟩, q) * mo (⟨i, hi⟩, q)) ≤ ∑ b : Fin n × Fin 3, invMass3 M b.1 b.2 * (mo b * mo b) :=
      Finset.single_le_sum (f := fun b : Fin n × Fin 3 => invMass3 M b.1 b.2 * (mo b * mo b))
        (fun b _ => mul_nonneg (hm _ b.1.isLt _) (mul_self_nonneg _)) (Finset.mem_univ ((⟨i, hi⟩, q) : Fin n × Fin 3))
    have h2 : 0 ≤ ∑ r : (l : ls.toFinset) × Fin (L.kind l).size, (L.kind r.1).pdamp (P r.1) x0.2.view (y.1.s r.1) r.2 * (gaps L ls y z r * gaps L ls y z r) :=
      Finset.sum_nonneg fun r _ => by
        have hl : r.1.1 ∈ ls := List.mem_toFinset.1 r.1.2
        exact mul_nonneg (Kind.pdamp_nonneg _ (hc.regular _ hl) (Kind.plain_same (hc.tallied.same _ hl) (hc.plain _ hl)) _) (mul_self_nonneg _)
    have h3 := mul_le_mul_of_nonneg_left (h1.trans (le_add_of_nonneg_right h2)) (hm i hi q)
    refine le_trans (le_of_eq ?_) h3
    ring
  · intro hi
    have : ∀ l : ls.toFinset, i ≠ (P l).i0 ∧ i ≠ (P l).i1 := fun l => by
      have := hc.low l (List.mem_toFinset.1 l.2)
      omega
    have h0 : (z.2.vs i).comp q - (y.2.vs i).comp q = 0 := by
      rw [hv]
      simp only [if_neg (this _).1, if_neg (this _).2, add_zero, Finset.sum_const_zero, mul_zero]
    exact sub_eq_zero.1 h0

end Simu
