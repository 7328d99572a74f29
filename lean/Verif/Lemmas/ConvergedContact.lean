import Verif.Lemmas.ConvergedLimits
/-
Contacts whose velocity solve changes nothing.
-/
namespace Simu
open Mat Contact
variable {K : Type*} [Field K] [LinearOrder K] [IsStrictOrderedRing K]

omit [LinearOrder K] [IsStrictOrderedRing K] in
theorem setAt_same {n : Nat} (x : MVec K n) (i : Fin n) : x.setAt i (x.at_ i) = x := by
  apply ext_at; intro j
  rw [at_setAt]
  split_ifs with h
  · rw [h]
  · rfl

/-- Friction at one contact point. -/
theorem frictionStep_fixed (e : Contact K) (p : Proxies K) (c : Fin 2) (hk : 0 < inner p ((e.Jf c).get 0) ((e.Jf c).get 0))
    (hi : e.invTangentKs.at_ c = 1 / inner p ((e.Jf c).get 0) ((e.Jf c).get 0)) (hb : 0 ≤ e.friction * e.normalLambda.at_ c)
    (st : MVec K 2 × MVec K 6) :
    ((frictionStep e p c st).1.at_ c = st.1.at_ c → frictionStep e p c st = st) ∧
    (frictionStep e p c st = st ↔ Best {m | |m| ≤ e.friction * e.normalLambda.at_ c} (st.1.at_ c) (∑ i, (e.Jf c).get 0 i * st.2.at_ i)) := by
  obtain ⟨h1, h2⟩ := frictionStep_eq e p c st
  set B := e.friction * e.normalLambda.at_ c with hB
  set k := inner p ((e.Jf c).get 0) ((e.Jf c).get 0) with hkd
  set u := ∑ i, (e.Jf c).get 0 i * st.2.at_ i with hu
  have hlh : -B ≤ B := by linarith
  have hset : {m : K | |m| ≤ B} = {y | ∃ w, Algo.clamp w (-B) B = y} := by
    rw [clamp_range hlh]; ext m; exact abs_le
  have hval : (frictionStep e p c st).1.at_ c = Algo.clamp (st.1.at_ c + -u / k) (-B) B := by
    rw [h1, at_setAt, if_pos rfl, hi, mul_one_div]
  have back : (frictionStep e p c st).1.at_ c = st.1.at_ c → frictionStep e p c st = st := by
    intro h
    have e1 : (frictionStep e p c st).1 = st.1 := by
      rw [h1] at h ⊢
      rw [at_setAt, if_pos rfl] at h
      rw [h, setAt_same]
    have e2 : (frictionStep e p c st).2 = st.2 := by
      apply ext_at; intro i
      rw [h2, h]; ring
    exact Prod.ext e1 e2
  refine ⟨back, ?_⟩
  rw [hset, ← best_of_projection (clamp_projection hlh) hk, ← hval]
  exact ⟨fun h => by rw [h], back⟩

/-- Friction at all contact points. -/
theorem frictionLoop_fixed (e : Contact K) (p : Proxies K) (hn : e.frame.nContacts = 1 ∨ e.frame.nContacts = 2)
    (hk : ∀ c : Fin 2, c.val < e.frame.nContacts → 0 < inner p ((e.Jf c).get 0) ((e.Jf c).get 0))
    (hi : ∀ c : Fin 2, c.val < e.frame.nContacts → e.invTangentKs.at_ c = 1 / inner p ((e.Jf c).get 0) ((e.Jf c).get 0))
    (hb : ∀ c : Fin 2, 0 ≤ e.friction * e.normalLambda.at_ c) (v : MVec K 6) :
    ((e.frictionLoop p v).1 = e.tangentLambda → (e.frictionLoop p v).2 = v) ∧
    ((e.frictionLoop p v).1 = e.tangentLambda ↔ ∀ c : Fin 2, c.val < e.frame.nContacts →
      Best {m | |m| ≤ e.friction * e.normalLambda.at_ c} (e.tangentLambda.at_ c) (∑ i, (e.Jf c).get 0 i * v.at_ i)) := by
  rcases hn with h1 | h2
  · have hl : e.frictionLoop p v = frictionStep e p 0 (e.tangentLambda, v) := by
      simp only [frictionLoop, forFin_succ, forFin_zero, h1]
      simp
    obtain ⟨a, b⟩ := frictionStep_fixed e p 0 (hk 0 (by simp [h1])) (hi 0 (by simp [h1])) (hb 0) (e.tangentLambda, v)
    rw [hl]
    have fwd : (frictionStep e p 0 (e.tangentLambda, v)).1 = e.tangentLambda → frictionStep e p 0 (e.tangentLambda, v) = (e.tangentLambda, v) :=
      fun h => a (by rw [h])
    refine ⟨fun h => by rw [fwd h], ⟨fun h c hc => ?_, fun h => ?_⟩⟩
    · have hc0 : c = 0 := by apply Fin.ext; rw [h1] at hc; simpa using hc
      subst hc0
      exact b.1 (fwd h)
    · rw [b.2 (h 0 (by simp [h1]))]
  · have hl : e.frictionLoop p v = frictionStep e p 1 (frictionStep e p 0 (e.tangentLambda, v)) := by
      simp only [frictionLoop, forFin_succ, forFin_zero, h2]
      simp
    obtain ⟨a, b⟩ := frictionStep_fixed e p 0 (hk 0 (by simp [h2])) (hi 0 (by simp [h2])) (hb 0) (e.tangentLambda, v)
    obtain ⟨a', b'⟩ := frictionStep_fixed e p 1 (hk 1 (by simp [h2])) (hi 1 (by simp [h2])) (hb 1) (e.tangentLambda, v)
    have fwd : (e.frictionLoop p v).1 = e.tangentLambda → frictionStep e p 0 (e.tangentLambda, v) = (e.tangentLambda, v) ∧
        frictionStep e p 1 (e.tangentLambda, v) = (e.tangentLambda, v) := by
      intro h
      rw [hl] at h
      have h0 : frictionStep e p 0 (e.tangentLambda, v) = (e.tangentLambda, v) := by
        apply a
        have := congrArg (fun x => x.at_ 0) h
        rw [(frictionStep_eq e p 1 _).1, at_setAt, if_neg (by decide)] at this
        exact this
      rw [h0] at h
      exact ⟨h0, a' (by rw [h])⟩
    refine ⟨fun h => by rw [hl, (fwd h).1, (fwd h).2], ⟨fun h c hc => ?_, fun h => ?_⟩⟩
    · fin_cases c
      · exact b.1 (fwd h).1
      · exact b'.1 (fwd h).2
    · rw [hl, b.2 (h 0 (by simp [h2])), b'.2 (h 1 (by simp [h2]))]

theorem solveNormal_second (e : Contact K) (p : Proxies K) (v : MVec K 6) {l : MVec K 2} {v' : MVec K 6} (h : e.solveNormal p v = .ok (l, v'))
    (hn : e.frame.nContacts = 1) : l.at_ 1 = e.normalLambda.at_ 1 := by
  unfold solveNormal at h
  rw [if_pos hn] at h
  cases hk : e.normalSolver with
  | unset => simp [hk, NormalSolver.getInverse] at h
  | lcp s => simp [hk, NormalSolver.getInverse] at h
  | inverse k =>
    simp only [hk, NormalSolver.getInverse, Outcome.bind_ok, Outcome.ok.injEq, Prod.mk.injEq] at h
    rw [← h.1, at_setAt, if_neg (by decide), at_setAt, if_neg (by decide)]

/-- The normal problem at all contact points. -/
theorem solveNormal_fixed [Trig K] {p : Proxies K} {f : Frame K} {pos : Nat → Position K} {e : Contact K} (hr : Ready p f pos e)
    (hn : f.nContacts = 1 ∨ f.nContacts = 2) (hs : Solvable f p) (v : MVec K 6) :
    ∃ l v', e.solveNormal p v = .ok (l, v') ∧ (l = e.normalLambda → v' = v) ∧
      (l = e.normalLambda ↔ ∀ c : Fin 2, c.val < f.nContacts →
        Best {m | 0 ≤ m} (e.normalLambda.at_ c) (push e.Jn v.toV c + e.bounce.at_ c)) := by
  obtain ⟨hK, hdet⟩ := hs.positive hr
  obtain ⟨l, v', hsol, hcomp⟩ := solveNormal_complement hr hn hK hdet v
  have hv := solveNormal_velocity e p v hsol
  have same : l = e.normalLambda → v' = v := by
    intro h
    apply ext_at; intro i
    rw [hv]
    have : pull e.Jn (fun c => l.at_ c - e.normalLambda.at_ c) = fun _ => 0 := by
      rw [← pull_zero e.Jn]; congr 1; funext c; rw [h, sub_self]
    rw [this, mul_zero, add_zero]
  refine ⟨l, v', hsol, same, fun h c hc => ?_, fun h => ?_⟩
  · rw [best_nonneg]
    have := hcomp c hc
    rwa [same h, h] at this
  · have hpush : ∀ c, push e.Jn v'.toV c = push e.Jn v.toV c + (inner p (e.Jn.get c) (e.Jn.get 0) * (l.at_ 0 - e.normalLambda.at_ 0) +
        inner p (e.Jn.get c) (e.Jn.get 1) * (l.at_ 1 - e.normalLambda.at_ 1)) := by
      intro c
      have : v'.toV = fun i => v.toV i + p.invMassVec.at_ i * pull e.Jn (fun c => l.at_ c - e.normalLambda.at_ c) i := by
        funext i; exact hv i
      rw [this, push_pull]
    have hmono : ∀ c : Fin 2, c.val < f.nContacts → (l.at_ c - e.normalLambda.at_ c) * (push e.Jn v'.toV c - push e.Jn v.toV c) ≤ 0 := by
      intro c hc
      obtain ⟨a1, a2, a3⟩ := hcomp c hc
      obtain ⟨b1, b2, b3⟩ := (best_nonneg _ _).1 (h c hc)
      have c1 := mul_nonneg a1 b2
      have c2 := mul_nonneg b1 a2
      have : (l.at_ c - e.normalLambda.at_ c) * (push e.Jn v'.toV c - push e.Jn v.toV c) =
          l.at_ c * (push e.Jn v'.toV c + e.bounce.at_ c) + e.normalLambda.at_ c * (push e.Jn v.toV c + e.bounce.at_ c) -
          l.at_ c * (push e.Jn v.toV c + e.bounce.at_ c) - e.normalLambda.at_ c * (push e.Jn v'.toV c + e.bounce.at_ c) := by ring
      rw [this]
      linarith
    have hic := inner_comm p (e.Jn.get 1) (e.Jn.get 0)
    have key : l.at_ 0 = e.normalLambda.at_ 0 ∧ l.at_ 1 = e.normalLambda.at_ 1 := by
      set a := inner p (e.Jn.get 0) (e.Jn.get 0) with ha
      set b := inner p (e.Jn.get 0) (e.Jn.get 1) with hb
      set d := inner p (e.Jn.get 1) (e.Jn.get 1) with hd
      set x := l.at_ 0 - e.normalLambda.at_ 0 with hx
      set y := l.at_ 1 - e.normalLambda.at_ 1 with hy
      have a0 : 0 < a := hK 0 (by rcases hn with h | h <;> simp [h])
      have m0 := hmono 0 (by rcases hn with h | h <;> simp [h])
      rw [hpush, ← hx] at m0
      rcases hn with h1 | h2
      · have hy0 := solveNormal_second e p v hsol (by rw [hr.frame, h1])
        have hy1 : y = 0 := by rw [hy, hy0, sub_self]
        refine ⟨?_, hy0⟩
        rw [hy1] at m0
        have : a * (x * x) ≤ 0 := by linarith
        have hx2 : x * x ≤ 0 := by
          by_contra hc
          have := mul_pos a0 (not_le.1 hc)
          linarith
        have := mul_self_eq_zero.1 (le_antisymm hx2 (mul_self_nonneg x))
        linarith
      · have m1 := hmono 1 (by simp [h2])
        rw [hpush, ← hy, hic] at m1
        have hD := hdet h2
        rw [Matrix.det_fin_two] at hD
        have hM' : ∀ r c, (normalK p e.Jn).toM r c = inner p (e.Jn.get r) (e.Jn.get c) := fun r c => normalK_get p e.Jn r c
        rw [hM', hM', hM', hM', hic, ← ha, ← hb, ← hd] at hD
        have hq : a * (x * x) + 2 * b * (x * y) + d * (y * y) ≤ 0 := by linarith
        have hq2 : a * (a * (x * x) + 2 * b * (x * y) + d * (y * y)) = (a * x + b * y) * (a * x + b * y) + (a * d - b * b) * (y * y) := by ring
        have hq3 := mul_nonpos_of_nonneg_of_nonpos a0.le hq
        rw [hq2] at hq3
        have s1 := mul_self_nonneg (a * x + b * y)
        have s2 := mul_nonneg hD.le (mul_self_nonneg y)
        have y2 : y * y = 0 := by
          have : (a * d - b * b) * (y * y) = 0 := by linarith
          exact (mul_eq_zero.1 this).resolve_left hD.ne'
        have y0 := mul_self_eq_zero.1 y2
        have t1 : (a * x + b * y) * (a * x + b * y) = 0 := by linarith
        have t0 := mul_self_eq_zero.1 t1
        rw [y0, mul_zero, add_zero] at t0
        have x0 := (mul_eq_zero.1 t0).resolve_left a0.ne'
        exact ⟨by linarith, by linarith⟩
    apply ext_at; intro c
    fin_cases c
    · exact key.1
    · exact key.2

/-- A contact, as prepared with the bodies in the state `s0`. -/
structure Contact.PreparedAt [Trig K] (p : Proxies K) (s0 : SolveState K) (e : Contact K) : Prop where
  ready : Ready p (e.manifold.frame ![(s0.pos p.i0).toWorldSpace, (s0.pos p.i1).toWorldSpace]) s0.pos e
  bounce : ∀ c : Fin 2, c.val < e.manifold.nContacts → e.bounce.at_ c = -requested e.restitution
    ((e.manifold.frame ![(s0.pos p.i0).toWorldSpace, (s0.pos p.i1).toWorldSpace]).separationSpeed p s0.pos s0.vel c)
  pushes : ∀ c, 0 ≤ e.normalLambda.at_ c
  pushed : ∀ c, 0 ≤ e.previousNormalLambda.at_ c

theorem Contact.fixed_iff [Trig K] {c : CallCfg K} {p : Proxies K} {s0 : SolveState K} {e : Contact K} (h : e.PreparedAt p s0)
    (hi : p.i0 ≠ p.i1) (f : Frame K) (hf : f = e.manifold.frame ![(s0.pos p.i0).toWorldSpace, (s0.pos p.i1).toWorldSpace])
    (hn : f.nContacts = 1 ∨ f.nContacts = 2) (hs : Solvable f p) (ht : f.tangent ≠ 0) (hμ : 0 ≤ e.friction) (s : SolveState K) :
    (e.solveVelocities p s = .ok (e, s) ↔ Kind.Law c p s0 s (.contact) e) ∧
    ∀ s', e.solveVelocities p s = .ok (e, s') → s' = s := by
  obtain ⟨hr, hbounce, hpush, -⟩ := h
  rw [← hf] at hr
  have hfr := hr.frame
  have hkt : ∀ c : Fin 2, c.val < f.nContacts → 0 < inner p ((e.Jf c).get 0) ((e.Jf c).get 0) := by
    intro c hc
    have hget : (e.Jf c).get 0 = rowOf f p s0.pos f.tangent c := by funext i; rw [hr.Jf, if_pos hc]
    rw [hget, rowOf, inner_row]
    have h0 := mul_nonneg hs.I0 (mul_self_nonneg (Vec2.cross (f.contacts 0 c - (s0.pos p.i0).centroid) f.tangent))
    have h1 := mul_nonneg hs.I1 (mul_self_nonneg (Vec2.cross (f.contacts 1 c - (s0.pos p.i1).centroid) f.tangent))
    have := mul_pos hs.moves (normSquared_pos_of_ne ht)
    linarith
  obtain ⟨fr1, fr2⟩ := frictionLoop_fixed e p (by rw [hfr]; exact hn) (by rw [hfr]; exact hkt) (by rw [hfr]; exact hr.tangentK)
    (fun c => mul_nonneg hμ (hpush c)) (p.velocity s)
  rw [hfr] at fr2
  obtain ⟨l, v', hsol, nr1, nr2⟩ := solveNormal_fixed hr hn hs (e.frictionLoop p (p.velocity s)).2
  have hsv : e.solveVelocities p s = .ok ({ e with tangentLambda := (e.frictionLoop p (p.velocity s)).1, normalLambda := l },
      (s.setVel p.i0 ⟨v'.at_ 0, v'.at_ 1⟩ (v'.at_ 2)).setVel p.i1 ⟨v'.at_ 3, v'.at_ 4⟩ (v'.at_ 5)) := by
    unfold Contact.solveVelocities
    dsimp only
    rw [hsol]
    rfl
  have hback : (s.setVel p.i0 ⟨(p.velocity s).at_ 0, (p.velocity s).at_ 1⟩ ((p.velocity s).at_ 2)).setVel p.i1
      ⟨(p.velocity s).at_ 3, (p.velocity s).at_ 4⟩ ((p.velocity s).at_ 5) = s := by
    have hvel : ((s.setVel p.i0 ⟨(p.velocity s).at_ 0, (p.velocity s).at_ 1⟩ ((p.velocity s).at_ 2)).setVel p.i1
      ⟨(p.velocity s).at_ 3, (p.velocity s).at_ 4⟩ ((p.velocity s).at_ 5)).vel = s.vel := by
      funext i
      simp only [SolveState.setVel, Function.update_apply, velocity_toV]
      split_ifs with h1 h0
      · rw [h1]; rfl
      · rw [h0]; rfl
      · rfl
    cases s
    simp only [SolveState.setVel] at hvel ⊢
    rw [hvel]
  have fwd : ∀ s', e.solveVelocities p s = .ok (e, s') → (e.frictionLoop p (p.velocity s)).1 = e.tangentLambda ∧ l = e.normalLambda := by
    intro s' h
    rw [hsv, Outcome.ok.injEq, Prod.mk.injEq] at h
    exact ⟨congrArg (fun z : Contact K => z.tangentLambda) h.1, congrArg (fun z : Contact K => z.normalLambda) h.1⟩
  have bwd : (e.frictionLoop p (p.velocity s)).1 = e.tangentLambda → l = e.normalLambda → e.solveVelocities p s = .ok (e, s) := by
    intro h1 h2
    rw [hsv, h1, h2, nr1 h2, fr1 h1, hback]
  have hslide : ∀ c : Fin 2, c.val < f.nContacts → ∑ i, (e.Jf c).get 0 i * (p.velocity s).at_ i = f.slidingSpeed p s0.pos s.vel c := by
    intro c hc
    simp only [hr.Jf, hc, if_true]
    exact push_row f p s0.pos f.tangent c s
  have hsep : ∀ c : Fin 2, c.val < f.nContacts → push e.Jn (p.velocity s).toV c + e.bounce.at_ c =
      f.separationSpeed p s0.pos s.vel c - requested e.restitution (f.separationSpeed p s0.pos s0.vel c) := by
    intro c hc
    have hcm : c.val < e.manifold.nContacts := by rw [hf] at hc; exact hc
    rw [hr.push_Jn s c hc, hbounce c hcm, ← hf]; ring
  refine ⟨⟨fun h => ?_, fun h => ?_⟩, fun s' h => ?_⟩
  · obtain ⟨h1, h2⟩ := fwd s h
    simp only [Kind.Law, ← hf]
    intro i hc
    have hN := nr2.1 h2 i hc
    have hF := fr2.1 h1 i hc
    rw [fr1 h1, hsep i hc] at hN
    rw [hslide i hc] at hF
    exact ⟨hN, hF⟩
  · simp only [Kind.Law, ← hf] at h
    have h1 : (e.frictionLoop p (p.velocity s)).1 = e.tangentLambda := fr2.2 fun i hc => by
      rw [hslide i hc]; exact (h i hc).2
    refine bwd h1 (nr2.2 fun i hc => ?_)
    rw [fr1 h1, hsep i hc]
    exact (h i hc).1
  · obtain ⟨h1, h2⟩ := fwd s' h
    have := (bwd h1 h2).symm.trans h
    simp only [Outcome.ok.injEq, Prod.mk.injEq, true_and] at this
    exact this.symm

end Simu
