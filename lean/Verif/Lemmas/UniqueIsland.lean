import Verif.Lemmas.Unique
/-
Velocities of an island for which the laws of its constraints hold.
-/
namespace Simu
open Mat Contact Island
variable {K : Type*} [Field K] [LinearOrder K] [IsStrictOrderedRing K]

omit [LinearOrder K] [IsStrictOrderedRing K] in
theorem sum_six (a : Fin 6 → K) : ∑ c, a c = ∑ q : Fin 3, (a (Fin.castAdd 3 q) + a (Fin.natAdd 3 q)) := by
  rw [Finset.sum_add_distrib]
  exact Fin.sum_univ_add (a := 3) (b := 3) a

/-- Impulses that oppose the changes of the velocities they cause change no velocity. -/
theorem no_change {ι : Type*} [DecidableEq ι] (S : Finset ι) (i0 i1 : ι → Nat) (D : ι → Fin 6 → K) (M δ : Nat → Fin 3 → K)
    (hM : ∀ l ∈ S, ∀ q, 0 ≤ M (i0 l) q ∧ 0 ≤ M (i1 l) q)
    (hδ : ∀ i q, δ i q = M i q * ∑ l ∈ S, ((if i = i0 l then D l (Fin.castAdd 3 q) else 0) + (if i = i1 l then D l (Fin.natAdd 3 q) else 0)))
    (hw : ∀ l ∈ S, ∑ q : Fin 3, (D l (Fin.castAdd 3 q) * δ (i0 l) q + D l (Fin.natAdd 3 q) * δ (i1 l) q) ≤ 0) : ∀ i q, δ i q = 0 := by
  set R : Nat → Fin 3 → K := fun i q => ∑ l ∈ S, ((if i = i0 l then D l (Fin.castAdd 3 q) else 0) + (if i = i1 l then D l (Fin.natAdd 3 q) else 0)) with hR
  have hδ' : ∀ i q, δ i q = M i q * R i q := hδ
  set T : Finset Nat := S.image i0 ∪ S.image i1 with hT
  have t0 : ∀ l ∈ S, i0 l ∈ T := fun l h => Finset.mem_union_left _ (Finset.mem_image_of_mem _ h)
  have t1 : ∀ l ∈ S, i1 l ∈ T := fun l h => Finset.mem_union_right _ (Finset.mem_image_of_mem _ h)
  have hMT : ∀ i ∈ T, ∀ q, 0 ≤ M i q := by
    intro i hi q
    rcases Finset.mem_union.1 hi with h | h
    · obtain ⟨l, hl, rfl⟩ := Finset.mem_image.1 h; exact (hM l hl q).1
    · obtain ⟨l, hl, rfl⟩ := Finset.mem_image.1 h; exact (hM l hl q).2
  have key : ∑ q : Fin 3, ∑ i ∈ T, R i q * δ i q = ∑ l ∈ S, ∑ q : Fin 3, (D l (Fin.castAdd 3 q) * δ (i0 l) q + D l (Fin.natAdd 3 q) * δ (i1 l) q) := by
    rw [Finset.sum_comm (s := S)]
    refine Finset.sum_congr rfl fun q _ => ?_
    simp only [hR, Finset.sum_mul]
    rw [Finset.sum_comm]
    refine Finset.sum_congr rfl fun l hl => ?_
    simp only [add_mul, ite_mul, zero_mul]
    rw [Finset.sum_add_distrib, Finset.sum_ite_eq' T (i0 l) (fun i => D l (Fin.castAdd 3 q) * δ i q), if_pos (t0 l hl),
      Finset.sum_ite_eq' T (i1 l) (fun i => D l (Fin.natAdd 3 q) * δ i q), if_pos (t1 l hl)]
  have hterm : ∀ q : Fin 3, ∀ i ∈ T, 0 ≤ R i q * δ i q := by
    intro q i hi
    have : R i q * δ i q = M i q * (R i q * R i q) := by rw [hδ']; ring
    rw [this]; exact mul_nonneg (hMT i hi q) (mul_self_nonneg _)
  have hle : ∑ q : Fin 3, ∑ i ∈ T, R i q * δ i q ≤ 0 := by rw [key]; exact Finset.sum_nonpos hw
  have hz : ∀ q : Fin 3, ∀ i ∈ T, R i q * δ i q = 0 := by
    intro q i hi
    have h1 : ∑ i ∈ T, R i q * δ i q ≤ ∑ q : Fin 3, ∑ i ∈ T, R i q * δ i q :=
      Finset.single_le_sum (f := fun q => ∑ i ∈ T, R i q * δ i q) (fun q _ => Finset.sum_nonneg (hterm q)) (Finset.mem_univ q)
    have h2 : R i q * δ i q ≤ ∑ i ∈ T, R i q * δ i q := Finset.single_le_sum (f := fun i => R i q * δ i q) (hterm q) hi
    exact le_antisymm (h2.trans (h1.trans hle)) (hterm q i hi)
  intro i q
  by_cases hi : i ∈ T
  · rcases mul_eq_zero.1 (hz q i hi) with h | h
    · rw [hδ', h, mul_zero]
    · exact h
  · have : R i q = 0 := by
      refine Finset.sum_eq_zero fun l hl => ?_
      rw [if_neg (fun h : i = i0 l => hi (by rw [h]; exact t0 l hl)), if_neg (fun h : i = i1 l => hi (by rw [h]; exact t1 l hl)), add_zero]
    rw [hδ', this, mul_zero]

/-- The three components of a velocity. -/
def Velocity.comp : Velocity K →+ (Fin 3 → K) where
  toFun v := ![v.linear.x, v.linear.y, v.angular]
  map_zero' := by funext q; fin_cases q <;> rfl
  map_add' a b := by funext q; fin_cases q <;> rfl

omit [LinearOrder K] [IsStrictOrderedRing K] in
theorem Velocity.comp_inj {v w : Velocity K} (h : v.comp = w.comp) : v = w := by
  ext
  · exact congrFun h 0
  · exact congrFun h 1
  · exact congrFun h 2

omit [LinearOrder K] [IsStrictOrderedRing K] in
theorem kick_comp (p : Proxies K) (M : Nat → K × K) (hm : p.masses = ⟨(M p.i0).1, (M p.i0).2, (M p.i1).1, (M p.i1).2⟩) (P : Six K) (i : Nat) (q : Fin 3) :
    (kick p P i).comp q = ![(M i).1, (M i).1, (M i).2] q *
      ((if i = p.i0 then P (Fin.castAdd 3 q) else 0) + (if i = p.i1 then P (Fin.natAdd 3 q) else 0)) := by
  unfold kick
  rw [map_add, Pi.add_apply, mul_add, hm]
  congr 1
  · split_ifs with h
    · subst h; fin_cases q <;> rfl
    · rw [map_zero, mul_zero]; rfl
  · split_ifs with h
    · subst h; fin_cases q <;> rfl
    · rw [map_zero, mul_zero]; rfl

omit [LinearOrder K] [IsStrictOrderedRing K] in
theorem velocity_comp (p : Proxies K) (s : SolveState K) (q : Fin 3) :
    (p.velocity s).toV (Fin.castAdd 3 q) = (s.vel p.i0).comp q ∧ (p.velocity s).toV (Fin.natAdd 3 q) = (s.vel p.i1).comp q := by
  fin_cases q <;> exact ⟨at_ofFn _ _, at_ofFn _ _⟩

variable [Trig K] {L : Library K} {c : CallCfg K}

/-- A round leaves alone the constraints it does not call. -/
theorem actAll_untouched {ph : Phase} {l : Link} :
    ∀ (ls : List Link) {x y : St (Pose K) (Velocity K) ((l : Link) → (L.kind l).State) × Isl (Pose K) (Velocity K)}, l ∉ ls →
      actAll (L.net c) ph ls x = .ok y → y.1.s l = x.1.s l
  | [], x, y, _, h => by cases Outcome.ok.inj h; rfl
  | k :: ks, x, y, hk, h => by
    rw [List.mem_cons, not_or] at hk
    obtain ⟨_, e'', s'', -, -, h⟩ := actAll_library_cons h
    rw [actAll_untouched ks hk.2 h]
    simp only [Function.update_of_ne hk.1]

/-- Starting the solve of all constraints. -/
theorem actAll_blank :
    ∀ (ls : List Link) {x y : St (Pose K) (Velocity K) ((l : Link) → (L.kind l).State) × Isl (Pose K) (Velocity K)},
      actAll (L.net c) .initSolve ls x = .ok y →
      ∀ l ∈ ls, (L.kind l).Blank (y.1.s l) ∧ (L.kind l).Same (x.1.s l) (y.1.s l) ∧ (L.kind l).Idle (y.1.s l)
  | [], x, y, _, l, hl => (List.not_mem_nil hl).elim
  | k :: ks, x, y, h, l, hl => by
    obtain ⟨_, e', s', -, ha, h⟩ := actAll_library_cons h
    obtain ⟨b1, b2⟩ := Kind.blank_init _ ha
    have b3 := Kind.idle_init _ ha
    by_cases hm : l ∈ ks
    · obtain ⟨i1, i2, i3⟩ := actAll_blank ks h l hm
      refine ⟨i1, ?_, i3⟩
      by_cases hlk : l = k
      · subst hlk
        simp only [Function.update_self] at i2
        exact b2.trans i2
      · simp only [Function.update_of_ne hlk] at i2
        exact i2
    · have : l = k := (List.mem_cons.1 hl).resolve_right hm
      subst this
      rw [actAll_untouched ks hm h]
      simp only [Function.update_self]
      exact ⟨b1, b2, b3⟩

/-- What is known of an island between the calls of its constraints `all`. -/
structure Tallied (L : Library K) (all : List Link) (P : Link → Proxies K)
    (x0 z : St (Pose K) (Velocity K) ((l : Link) → (L.kind l).State) × Isl (Pose K) (Velocity K)) : Prop where
  proxies : z.1.proxies = x0.1.proxies
  still : z.2.ps = x0.2.ps
  same : ∀ l ∈ all, (L.kind l).Same (x0.1.s l) (z.1.s l)
  idle : ∀ l ∈ all, (L.kind l).Idle (z.1.s l)
  total : ∀ i, z.2.vs i = x0.2.vs i + ∑ l ∈ all.toFinset, kick (P l) ((L.kind l).given (z.1.s l)) i

/-- One call. -/
theorem Tallied.call {all : List Link} {P : Link → Proxies K}
    {x0 z : St (Pose K) (Velocity K) ((l : Link) → (L.kind l).State) × Isl (Pose K) (Velocity K)} (h : Tallied L all P x0 z) {l : Link}
    (hl : l ∈ all) (ph : Phase) (hph : (ph = .warmstart ∧ (L.kind l).Blank (z.1.s l)) ∨ ph = .solveVelocities)
    (hi : L.kind l = .contact → (P l).i0 ≠ (P l).i1) {e' : (L.kind l).State} {s' : SolveState K}
    (ha : (L.kind l).act c ph (P l) (z.1.s l) z.2.view = .ok (e', s')) :
    Tallied L all P x0 ({ z.1 with s := Function.update z.1.s l e' }, { z.2 with ps := fun i => Pose.of (s'.pos i), vs := s'.vel }) := by
  obtain ⟨t1, t2, t3⟩ := Kind.telescope _ ph hph hi ha
  have hidle := Kind.idle_act _ ph (hph.imp And.left id) (h.idle l hl) ha
  refine ⟨h.proxies, ?_, ?_, ?_, ?_⟩
  · show (fun i => Pose.of (s'.pos i)) = _
    rw [t2, ← h.still]
    funext i
    apply Subtype.ext
    show (Pose.of (z.2.ps i).1).1 = _
    rw [Pose.of_eq (z.2.ps i).2]
  · intro m hm
    by_cases hml : m = l
    · subst hml
      simp only [Function.update_self]
      exact (h.same m hm).trans t1
    · simp only [Function.update_of_ne hml]
      exact h.same m hm
  · intro m hm
    by_cases hml : m = l
    · subst hml
      simp only [Function.update_self]
      exact hidle
    · simp only [Function.update_of_ne hml]
      exact h.idle m hm
  · have hmem : l ∈ all.toFinset := List.mem_toFinset.2 hl
    have hV := t3 (fun i => x0.2.vs i + ∑ m ∈ all.toFinset.erase l, kick (P m) ((L.kind m).given (z.1.s m)) i) (by
      intro i
      show z.2.vs i = _
      rw [h.total, ← Finset.sum_erase_add _ _ hmem, add_assoc])
    intro i
    show s'.vel i = _
    rw [hV, ← Finset.sum_erase_add _ _ hmem, add_assoc]
    congr 2
    · refine Finset.sum_congr rfl fun m hm => ?_
      simp only [Function.update_of_ne (Finset.ne_of_mem_erase hm)]
    · simp only [Function.update_self]

/-- A round. -/
theorem Tallied.round {all : List Link} {P : Link → Proxies K}
    {x0 : St (Pose K) (Velocity K) ((l : Link) → (L.kind l).State) × Isl (Pose K) (Velocity K)} 
    (hP : ∀ l ∈ all, ∃ ends, x0.1.proxies l = some ends ∧ P l = L.proxies l ends)
    (hi : ∀ l ∈ all, L.kind l = .contact → (P l).i0 ≠ (P l).i1) (ph : Phase) (hph : ph = .warmstart ∨ ph = .solveVelocities) :
    ∀ (ls : List Link) {z y : St (Pose K) (Velocity K) ((l : Link) → (L.kind l).State) × Isl (Pose K) (Velocity K)}, Tallied L all P x0 z →
      (∀ l ∈ ls, l ∈ all) → (ph = .warmstart → ls.Nodup ∧ ∀ l ∈ ls, (L.kind l).Blank (z.1.s l)) →
      actAll (L.net c) ph ls z = .ok y → Tallied L all P x0 y
  | [], z, y, hz, _, _, h => by cases Outcome.ok.inj h; exact hz
  | l :: ls, z, y, hz, hsub, hbl, h => by
    obtain ⟨ends, e', s', hp, ha, h⟩ := actAll_library_cons h
    have hl := hsub l List.mem_cons_self
    obtain ⟨ends', q1, q2⟩ := hP l hl
    have : ends' = ends := by rw [hz.proxies, q1] at hp; exact Option.some.inj hp
    subst this
    rw [← q2] at ha
    refine (fun hyp hyp' => Tallied.round hP hi ph hph ls hyp (fun m hm => hsub m (List.mem_cons_of_mem _ hm)) hyp' h)
      (hz.call hl ph ?_ (hi l hl) ha) ?_
    · rcases hph with rfl | rfl
      · exact Or.inl ⟨rfl, (hbl rfl).2 l List.mem_cons_self⟩
      · exact Or.inr rfl
    · intro hw
      obtain ⟨hnd, hb⟩ := hbl hw
      obtain ⟨n1, n2⟩ := List.nodup_cons.1 hnd
      refine ⟨n2, fun m hm => ?_⟩
      have : m ≠ l := fun h => n1 (h ▸ hm)
      simp only [Function.update_of_ne this]
      exact hb m (List.mem_cons_of_mem _ hm)

theorem Tallied.rounds {all : List Link} {P : Link → Proxies K}
    {x0 : St (Pose K) (Velocity K) ((l : Link) → (L.kind l).State) × Isl (Pose K) (Velocity K)} 
    (hP : ∀ l ∈ all, ∃ ends, x0.1.proxies l = some ends ∧ P l = L.proxies l ends)
    (hi : ∀ l ∈ all, L.kind l = .contact → (P l).i0 ≠ (P l).i1) (ls : List Link) (hsub : ∀ l ∈ ls, l ∈ all) :
    ∀ (n : Nat) {z y : St (Pose K) (Velocity K) ((l : Link) → (L.kind l).State) × Isl (Pose K) (Velocity K)}, Tallied L all P x0 z →
      actRounds (L.net c) .solveVelocities ls n z = .ok y → Tallied L all P x0 y
  | 0, z, y, hz, h => by cases Outcome.ok.inj h; exact hz
  | n + 1, z, y, hz, h => by
    obtain ⟨w, h1, h2⟩ := bind_ok_iff.1 h
    exact Tallied.rounds hP hi ls hsub n (Tallied.round hP hi _ (Or.inr rfl) ls hz hsub (fun h => by cases h) h1) h2

/-- The whole solve of the velocities. -/
theorem Island.Reached.tallied {ls : List Link} {n : Nat} {P : Link → Proxies K}
    {x0 x : St (Pose K) (Velocity K) ((l : Link) → (L.kind l).State) × Isl (Pose K) (Velocity K)} (hp : Posed L c ls x0)
    (hP : ∀ l ∈ ls, ∃ ends, x0.1.proxies l = some ends ∧ P l = L.proxies l ends) (h : Reached L c ls n x0 x) : Tallied L ls P x0 x := by
  have hi : ∀ l ∈ ls, L.kind l = .contact → (P l).i0 ≠ (P l).i1 := by
    intro l hl hk
    obtain ⟨ends, q1, q2⟩ := hP l hl
    obtain ⟨ends', q3, q4⟩ := hp.regular l hl
    have : ends' = ends := Option.some.inj (q3.symm.trans q1)
    subst this
    rw [q2]
    revert q4
    generalize x0.1.s l = e
    revert e
    rw [hk]
    intro e q4
    exact q4.2.1
  obtain ⟨x1, x2, h1, h2, h3⟩ := h
  obtain ⟨-, g1, -, g2⟩ := actAll_started x0.2.view ls rfl hp.regular h1
  have hb := actAll_blank ls h1
  have hps : x1.2.ps = x0.2.ps := by
    funext i
    exact Subtype.ext (congrFun (congrArg SolveState.pos g1) i)
  have t1 : Tallied L ls P x0 x1 := by
    refine ⟨g2, hps, fun l hl => (hb l hl).2.1, fun l hl => (hb l hl).2.2, fun i => ?_⟩
    have : ∑ l ∈ ls.toFinset, kick (P l) ((L.kind l).given (x1.1.s l)) i = 0 :=
      Finset.sum_eq_zero fun l hl => by rw [Kind.given_blank _ (hb l (List.mem_toFinset.1 hl)).1, kick_zero]
    rw [this, add_zero]
    exact congrFun (congrArg SolveState.vel g1) i
  have t2 : Tallied L ls P x0 x2 := by
    rcases h2 with rfl | h2
    · exact t1
    · exact Tallied.round hP hi .warmstart (Or.inl rfl) ls t1 (fun _ h => h) (fun _ => ⟨hp.nodup, fun l hl => (hb l hl).1⟩) h2
  exact Tallied.rounds hP hi ls (fun _ h => h) n t2 h3

end Simu
