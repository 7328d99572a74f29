import Verif.Model.RTree
import Verif.Lemmas.Box
import Verif.Lemmas.Algo
import Mathlib.Data.List.Perm.Basic
import Mathlib.Tactic.Tauto
/-
Invariants of the R-tree.
-/
set_option linter.unusedSectionVars false
set_option linter.unusedSimpArgs false
namespace Simu.RTree
variable {K C α : Type*} [Field K] [LinearOrder K] [IsStrictOrderedRing K]
open BoundingBox Spec

/-- Bounds of a node up to `==`. -/
def Node.nb (t : Node K α) : Option (BoundingBox K) := t.bounds.norm

/-- A proper subtree: internal nodes have two children, bounds are the union of the children's. -/
def Good : Node K α → Prop
  | .null => False
  | .leaf _ _ => True
  | .node b l r => Good l ∧ Good r ∧ b.norm = join l.nb r.nb

def GoodOrNull (t : Node K α) : Prop := t = .null ∨ Good t

/-- The root: an internal node which may miss children. -/
def GoodRoot : Node K α → Prop
  | .node b l r => GoodOrNull l ∧ GoodOrNull r ∧ b.norm = join l.nb r.nb
  | _ => False

/-- The ancestors of a node with bounds `b`. -/
def GoodPath (b : Option (BoundingBox K)) : List (Frame K α) → Prop
  | [] => True
  | [f] => GoodOrNull f.other ∧ f.bounds.norm = join b f.other.nb
  | f :: g :: fs => Good f.other ∧ f.bounds.norm = join b f.other.nb ∧ GoodPath f.bounds.norm (g :: fs)

def pathEntries : List (Frame K α) → List (Entry K α)
  | [] => []
  | f :: fs => f.other.entries ++ pathEntries fs

theorem Good.ne_null {t : Node K α} (h : Good t) : t ≠ .null := by
  rintro rfl; exact h

theorem Good.orNull {t : Node K α} (h : Good t) : GoodOrNull t := Or.inr h

@[simp] theorem nb_null : (Node.null : Node K α).nb = none := by
  simp [Node.nb, Node.bounds, norm, BoundingBox.isValid, BoundingBox.invalid]

@[simp] theorem nb_node (b : BoundingBox K) (l r : Node K α) : (Node.node b l r).nb = b.norm := rfl
@[simp] theorem nb_leaf (b : BoundingBox K) (a : α) : (Node.leaf b a).nb = b.norm := rfl

theorem norm_combined_bounds (l r : Node K α) :
    (l.bounds.combined r.bounds).norm = join l.nb r.nb := norm_combined _ _

/-! ### Rotations -/

theorem rotate_spec (cfg : Cfg K C) {u x y : Node K α} {pb : BoundingBox K} (hu : Good u) (hx : Good x)
    (hy : Good y) (hb : pb.norm = join x.nb y.nb) :
    ∃ u' pb' x', rotate cfg u pb x y = .ok (u', pb', x') ∧ Good u' ∧ Good x' ∧
      pb'.norm = join x'.nb y.nb ∧ (u'.entries ++ x'.entries).Perm (u.entries ++ x.entries) ∧
      join u'.nb x'.nb = join u.nb x.nb := by
  have hr : rotate cfg u pb x y =
      if cfg.lt (cfg.area (y.bounds.combined u.bounds)) (cfg.area pb) then
        .ok (x, y.bounds.combined u.bounds, u) else .ok (u, pb, x) := by
    cases x <;> cases y <;> first | rfl | exact hx.elim | exact hy.elim
  rw [hr]
  split
  · refine ⟨_, _, _, rfl, hx, hu, ?_, List.perm_append_comm, join_comm _ _⟩
    rw [norm_combined_bounds, join_comm]
  · exact ⟨_, _, _, rfl, hu, hx, hb, List.Perm.refl _, rfl⟩

theorem rotateBoth_spec (cfg : Cfg K C) {u x y : Node K α} {pb : BoundingBox K} (hu : Good u)
    (hx : Good x) (hy : Good y) (hb : pb.norm = join x.nb y.nb) :
    ∃ u' s', rotateBoth cfg u pb x y = .ok (u', s') ∧ Good u' ∧ Good s' ∧
      (u'.entries ++ s'.entries).Perm (u.entries ++ (x.entries ++ y.entries)) ∧
      join u'.nb s'.nb = join u.nb pb.norm := by
  obtain ⟨u1, pb1, x1, h1, g1, g2, g3, g4, g5⟩ := rotate_spec cfg hu hx hy hb
  obtain ⟨u2, pb2, y2, k1, k2, k3, k4, k5, k6⟩ :=
    rotate_spec cfg g1 hy g2 (by rw [g3, join_comm])
  refine ⟨u2, .node pb2 x1 y2, ?_, k2, ⟨g2, k3, by rw [k4, join_comm]⟩, ?_, ?_⟩
  · simp [rotateBoth, h1, k1]
  · simp only [Node.entries]
    calc u2.entries ++ (x1.entries ++ y2.entries)
        |>.Perm (u2.entries ++ (y2.entries ++ x1.entries)) :=
          List.Perm.append_left _ List.perm_append_comm
      _ = (u2.entries ++ y2.entries) ++ x1.entries := by simp
      _ |>.Perm ((u1.entries ++ y.entries) ++ x1.entries) := k5.append_right _
      _ |>.Perm ((u1.entries ++ x1.entries) ++ y.entries) := by
          simp only [List.append_assoc]
          exact List.Perm.append_left _ List.perm_append_comm
      _ |>.Perm ((u.entries ++ x.entries) ++ y.entries) := g4.append_right _
      _ = _ := by simp
  · have e : join u2.nb pb2.norm = join (join u2.nb y2.nb) x1.nb := by rw [k4]; ac_rfl
    rw [nb_node, e, k6, hb]
    have e2 : join (join u1.nb y.nb) x1.nb = join (join u1.nb x1.nb) y.nb := by ac_rfl
    rw [e2, g5]; ac_rfl

theorem rotateRight_spec (cfg : Cfg K C) {l r : Node K α} (hl : Good l) (hr : Good r) :
    ∃ l' r', rotateRight cfg l r = .ok (l', r') ∧ Good l' ∧ Good r' ∧
      (l'.entries ++ r'.entries).Perm (l.entries ++ r.entries) ∧ join l'.nb r'.nb = join l.nb r.nb := by
  cases r with
  | null => exact hr.elim
  | leaf b a => exact ⟨_, _, rfl, hl, hr, List.Perm.refl _, rfl⟩
  | node b x y => exact rotateBoth_spec cfg hl hr.1 hr.2.1 hr.2.2

theorem rotateLeft_spec (cfg : Cfg K C) {l r : Node K α} (hl : Good l) (hr : Good r) :
    ∃ l' r', rotateLeft cfg l r = .ok (l', r') ∧ Good l' ∧ Good r' ∧
      (l'.entries ++ r'.entries).Perm (l.entries ++ r.entries) ∧ join l'.nb r'.nb = join l.nb r.nb := by
  cases l with
  | null => exact hl.elim
  | leaf b a => exact ⟨_, _, rfl, hl, hr, List.Perm.refl _, rfl⟩
  | node b x y =>
    obtain ⟨u', s', h, h1, h2, h3, h4⟩ := rotateBoth_spec cfg hr hl.1 hl.2.1 hl.2.2
    refine ⟨s', u', by simp [rotateLeft, h], h2, h1, ?_, ?_⟩
    · exact (List.perm_append_comm.trans h3).trans List.perm_append_comm
    · rw [join_comm, h4, join_comm]; rfl

theorem checkRotations_spec (cfg : Cfg K C) {l r : Node K α} (hl : Good l) (hr : Good r) :
    ∃ l' r', checkRotations cfg l r = .ok (l', r') ∧ Good l' ∧ Good r' ∧
      (l'.entries ++ r'.entries).Perm (l.entries ++ r.entries) ∧ join l'.nb r'.nb = join l.nb r.nb := by
  obtain ⟨l1, r1, h, h1, h2, h3, h4⟩ := rotateRight_spec cfg hl hr
  obtain ⟨l2, r2, k, k1, k2, k3, k4⟩ := rotateLeft_spec cfg h1 h2
  refine ⟨l2, r2, ?_, k1, k2, k3.trans h3, k4.trans h4⟩
  have : checkRotations cfg l r =
      (rotateRight cfg l r).bind fun p => rotateLeft cfg p.1 p.2 := by
    cases l <;> cases r <;> first | rfl | exact hl.elim | exact hr.elim
  rw [this, h]; exact k

theorem checkRotations_orNull (cfg : Cfg K C) {l r : Node K α} (hl : GoodOrNull l) (hr : GoodOrNull r) :
    ∃ l' r', checkRotations cfg l r = .ok (l', r') ∧ GoodOrNull l' ∧ GoodOrNull r' ∧
      (l'.entries ++ r'.entries).Perm (l.entries ++ r.entries) ∧ join l'.nb r'.nb = join l.nb r.nb := by
  rcases hl with rfl | hl
  · exact ⟨.null, r, by cases r <;> rfl, Or.inl rfl, hr, List.Perm.refl _, rfl⟩
  · rcases hr with rfl | hr
    · exact ⟨l, .null, by cases l <;> rfl, Or.inr hl, Or.inl rfl, List.Perm.refl _, rfl⟩
    · obtain ⟨l', r', h, h1, h2, h3, h4⟩ := checkRotations_spec cfg hl hr
      exact ⟨l', r', h, h1.orNull, h2.orNull, h3, h4⟩

/-! ### Paths -/

theorem entries_close (f : Frame K α) (t : Node K α) :
    (f.close t).entries.Perm (t.entries ++ f.other.entries) := by
  unfold Frame.close
  split
  · exact List.Perm.refl _
  · exact List.perm_append_comm

theorem entries_zip (t : Node K α) (path : List (Frame K α)) :
    (zip t path).entries.Perm (t.entries ++ pathEntries path) := by
  induction path generalizing t with
  | nil => simp [zip, pathEntries]
  | cons f fs ih =>
    simp only [zip, pathEntries]
    refine (ih _).trans ?_
    rw [← List.append_assoc]
    exact (entries_close f t).append_right _

theorem close_good {f : Frame K α} {t : Node K α} (ht : Good t) (hf : Good f.other)
    (hb : f.bounds.norm = join t.nb f.other.nb) : Good (f.close t) := by
  unfold Frame.close
  split
  · exact ⟨ht, hf, hb⟩
  · exact ⟨hf, ht, by rw [hb, join_comm]⟩

theorem close_goodRoot {f : Frame K α} {t : Node K α} (ht : GoodOrNull t) (hf : GoodOrNull f.other)
    (hb : f.bounds.norm = join t.nb f.other.nb) : GoodRoot (f.close t) := by
  unfold Frame.close
  split
  · exact ⟨ht, hf, hb⟩
  · exact ⟨hf, ht, by rw [hb, join_comm]⟩

@[simp] theorem close_nb (f : Frame K α) (t : Node K α) : (f.close t).nb = f.bounds.norm := by
  unfold Frame.close; split <;> rfl

theorem zip_good {t : Node K α} (ht : Good t) (f : Frame K α) (fs : List (Frame K α))
    (h : GoodPath t.nb (f :: fs)) : GoodRoot (zip t (f :: fs)) := by
  induction fs generalizing t f with
  | nil => exact close_goodRoot ht.orNull h.1 h.2
  | cons g fs ih =>
    exact ih (close_good ht h.1 h.2.1) g (by simpa using h.2.2)

/-- From the root down to a node: what is known of a node and of its ancestors. -/
theorem good_of_zip {t : Node K α} (hne : t ≠ .null) (f : Frame K α) (fs : List (Frame K α))
    (h : GoodRoot (zip t (f :: fs))) : Good t ∧ GoodPath t.nb (f :: fs) := by
  induction fs generalizing t f with
  | nil =>
    simp only [zip, Frame.close] at h
    split at h
    · exact ⟨h.1.resolve_left hne, h.2.1, h.2.2⟩
    · exact ⟨h.2.1.resolve_left hne, h.1, by rw [h.2.2, join_comm]⟩
  | cons g fs ih =>
    have hne' : f.close t ≠ .null := by unfold Frame.close; split <;> simp
    obtain ⟨h1, h2⟩ := ih hne' g h
    rw [close_nb] at h2
    simp only [Frame.close] at h1
    split at h1
    · exact ⟨h1.1, h1.2.1, h1.2.2, h2⟩
    · exact ⟨h1.2.1, h1.1, by rw [h1.2.2, join_comm], h2⟩

/-! ### refit -/

/-- What the children of the node at the end of `path` must satisfy: the root may miss children. -/
def ChildOk (path : List (Frame K α)) (t : Node K α) : Prop :=
  match path with
  | [] => GoodOrNull t
  | _ :: _ => Good t

theorem refit_spec (cfg : Cfg K C) (l r : Node K α) (b : BoundingBox K) (path : List (Frame K α))
    (hl : ChildOk path l) (hr : ChildOk path r) (hp : GoodPath b.norm path) :
    ∃ t, refit cfg l r b path = .ok t ∧ GoodRoot t ∧
      t.entries.Perm (l.entries ++ r.entries ++ pathEntries path) := by
  induction path generalizing l r b with
  | nil =>
    simp only [refit]
    split
    · rename_i h
      rw [beq_iff_norm, norm_combined_bounds] at h
      exact ⟨_, rfl, ⟨hl, hr, h.symm⟩, by simp [Node.entries, pathEntries]⟩
    · obtain ⟨l', r', h, h1, h2, h3, h4⟩ := checkRotations_orNull cfg hl hr
      rw [h]
      exact ⟨_, rfl, ⟨h1, h2, by rw [norm_combined_bounds, h4]⟩, by simpa [Node.entries, pathEntries] using h3⟩
  | cons f fs ih =>
    simp only [refit]
    split
    · rename_i h
      rw [beq_iff_norm, norm_combined_bounds] at h
      have hg : Good (.node b l r) := ⟨hl, hr, h.symm⟩
      exact ⟨_, rfl, zip_good hg f fs (by simpa using hp), entries_zip _ _⟩
    · obtain ⟨l', r', h, h1, h2, h3, h4⟩ := checkRotations_spec cfg hl hr
      rw [h]
      have hg : Good (.node (l.bounds.combined r.bounds) l' r') :=
        ⟨h1, h2, by rw [norm_combined_bounds, h4]⟩
      have key : ChildOk fs (.node (l.bounds.combined r.bounds) l' r') ∧ ChildOk fs f.other ∧
          GoodPath f.bounds.norm fs := by
        cases fs with
        | nil => exact ⟨hg.orNull, hp.1, trivial⟩
        | cons g fs => exact ⟨hg, hp.1, hp.2.2⟩
      obtain ⟨k1, k2, k3⟩ := key
      simp only [Outcome.bind_ok]
      split
      · obtain ⟨t, ht, hg', hperm⟩ := ih _ _ f.bounds k1 k2 k3
        refine ⟨t, ht, hg', hperm.trans ?_⟩
        simp only [Node.entries, pathEntries]
        rw [← List.append_assoc (l.entries ++ r.entries)]
        exact (h3.append_right _).append_right _
      · obtain ⟨t, ht, hg', hperm⟩ := ih _ _ f.bounds k2 k1 k3
        refine ⟨t, ht, hg', hperm.trans ?_⟩
        simp only [Node.entries, pathEntries]
        rw [← List.append_assoc (l.entries ++ r.entries)]
        exact (List.perm_append_comm.trans (h3.append_right _)).append_right _

theorem refitParent_spec (cfg : Cfg K C) (t : Node K α) (f : Frame K α) (fs : List (Frame K α))
    (ht : Good t) (b : Option (BoundingBox K)) (hp : GoodPath b (f :: fs)) :
    ∃ t', refitParent cfg t f fs = .ok t' ∧ GoodRoot t' ∧
      t'.entries.Perm (t.entries ++ pathEntries (f :: fs)) := by
  have key : ChildOk fs t ∧ ChildOk fs f.other ∧ GoodPath f.bounds.norm fs := by
    cases fs with
    | nil => exact ⟨ht.orNull, hp.1, trivial⟩
    | cons g fs => exact ⟨ht, hp.1, hp.2.2⟩
  obtain ⟨k1, k2, k3⟩ := key
  unfold refitParent
  split
  · obtain ⟨t', h1, h2, h3⟩ := refit_spec cfg t f.other f.bounds fs k1 k2 k3
    exact ⟨t', h1, h2, by simpa [pathEntries] using h3⟩
  · obtain ⟨t', h1, h2, h3⟩ := refit_spec cfg f.other t f.bounds fs k2 k1 k3
    refine ⟨t', h1, h2, h3.trans ?_⟩
    simp only [pathEntries]
    rw [← List.append_assoc]
    exact List.perm_append_comm.append_right _

/-! ### Insertion -/

theorem addLeafTo_spec (cfg : Cfg K C) (path : List (Frame K α)) (n root : Node K α)
    (lb : BoundingBox K) (id : α) (hroot : GoodRoot root) (hn : n ≠ .null) (hz : zip n path = root) :
    ∃ t, addLeafTo cfg path n lb id = .ok t ∧ GoodRoot t ∧ t.entries.Perm (⟨id, lb⟩ :: root.entries) := by
  subst hz
  have hleaf : Good (Node.leaf lb id : Node K α) := trivial
  have hperm : (zip n path).entries.Perm (n.entries ++ pathEntries path) := entries_zip _ _
  cases path with
  | nil =>
    simp only [zip] at *
    cases n with
    | null => exact hroot.elim
    | leaf b a => exact hroot.elim
    | node b l r =>
      obtain ⟨hl, hr, hb⟩ := hroot
      rcases hl with rfl | hl
      · obtain ⟨t, h1, h2, h3⟩ := refit_spec cfg (.leaf lb id) r b [] hleaf.orNull hr trivial
        exact ⟨t, h1, h2, by simpa [Node.entries, pathEntries] using h3⟩
      · rcases hr with rfl | hr
        · obtain ⟨t, h1, h2, h3⟩ := refit_spec cfg l (.leaf lb id) b [] hl.orNull hleaf.orNull trivial
          refine ⟨t, ?_, h2, h3.trans ?_⟩
          · rw [← h1]; cases l <;> first | rfl | exact hl.elim
          · simp only [Node.entries, pathEntries, List.append_nil]
            exact List.perm_append_comm
        · have hg : Good (.node b l r) := ⟨hl, hr, hb⟩
          obtain ⟨t, h1, h2, h3⟩ := refit_spec cfg (.node b l r) (.leaf lb id) b [] hg.orNull hleaf.orNull trivial
          refine ⟨t, ?_, h2, h3.trans ?_⟩
          · rw [← h1]; cases l <;> cases r <;> first | rfl | exact hl.elim | exact hr.elim
          · simp only [Node.entries, pathEntries, List.append_nil]
            exact List.perm_append_comm
  | cons f fs =>
    obtain ⟨hg, hp⟩ := good_of_zip hn f fs hroot
    cases n with
    | null => exact absurd rfl hn
    | leaf b a =>
      have hg' : Good (.node (b.combined lb) (.leaf b a) (.leaf lb id) : Node K α) :=
        ⟨trivial, trivial, norm_combined _ _⟩
      obtain ⟨t, h1, h2, h3⟩ := refitParent_spec cfg _ f fs hg' _ hp
      refine ⟨t, h1, h2, h3.trans ?_⟩
      refine List.Perm.trans ?_ (hperm.cons _).symm
      simp only [Node.entries, List.singleton_append, List.cons_append]
      exact List.Perm.swap _ _ _
    | node b l r =>
      obtain ⟨t, h1, h2, h3⟩ := refit_spec cfg (.node b l r) (.leaf lb id) b (f :: fs) hg hleaf hp
      refine ⟨t, ?_, h2, h3.trans ?_⟩
      · rw [← h1]
        obtain ⟨hl, hr, _⟩ := hg
        cases l <;> cases r <;> first | rfl | exact hl.elim | exact hr.elim
      · refine List.Perm.trans ?_ (hperm.cons _).symm
        rw [← List.cons_append]
        exact (List.perm_append_comm.append_right _)

/-- A candidate refers to an existing node of the tree. -/
def CandOk (root : Node K α) (e : Cand K C α) : Prop := e.sub ≠ .null ∧ zip e.sub e.path = root

omit [Field K] [LinearOrder K] [IsStrictOrderedRing K] in
theorem pushChildren_ok {root : Node K α} {e : Cand K C α} (he : CandOk root e) (c : C)
    {q : List (Cand K C α)} (hq : ∀ x ∈ q, CandOk root x) : ∀ x ∈ pushChildren e c q, CandOk root x := by
  obtain ⟨path, sub, cost⟩ := e
  obtain ⟨_, hz⟩ := he
  cases sub with
  | null => simpa [pushChildren] using hq
  | leaf b a => simpa [pushChildren] using hq
  | node b l r =>
    simp only [pushChildren]
    have h1 : ∀ x ∈ (match l with | .null => q | _ => ⟨⟨true, b, r⟩ :: path, l, c⟩ :: q),
        CandOk root x := by
      cases l with
      | null => exact hq
      | leaf => intro x hx; rcases List.mem_cons.1 hx with rfl | hx; exacts [⟨by simp, hz⟩, hq x hx]
      | node => intro x hx; rcases List.mem_cons.1 hx with rfl | hx; exacts [⟨by simp, hz⟩, hq x hx]
    cases r with
    | null => exact h1
    | leaf => intro x hx; rcases List.mem_cons.1 hx with rfl | hx; exacts [⟨by simp, hz⟩, h1 x hx]
    | node => intro x hx; rcases List.mem_cons.1 hx with rfl | hx; exacts [⟨by simp, hz⟩, h1 x hx]

theorem searchLoop_ok (cfg : Cfg K C) (pq : PQ (Cand K C α)) (box : BoundingBox K) (root : Node K α)
    (q : List (Cand K C α)) (best : Option (List (Frame K α) × Node K α)) (bestCost : C)
    (hq : ∀ e ∈ q, CandOk root e)
    (hb : ∀ p n, best = some (p, n) → n ≠ .null ∧ zip n p = root) :
    ∃ res, searchLoop cfg pq box q best bestCost = .ok res ∧
      (∀ p n, res = some (p, n) → n ≠ .null ∧ zip n p = root) ∧ (best.isSome → res.isSome) := by
  fun_induction searchLoop cfg pq box q best bestCost with
  | case1 best bestCost => exact ⟨best, rfl, hb, id⟩
  | case2 q best bestCost h cur h' => exact ⟨best, rfl, hb, id⟩
  | case3 q best bestCost h cur h' hn =>
    have hc : CandOk root cur := hq _ ((pq.perm q h).subset List.mem_cons_self)
    obtain ⟨h1, _⟩ := hc
    cases hs : cur.sub <;> simp_all [Node.isNull]
  | case4 q best bestCost h cur rest h' hn directCost totalCost better best' bestCost' inducedCost hlt ih =>
    have hc : CandOk root cur := hq _ ((pq.perm q h).subset List.mem_cons_self)
    have hrest : ∀ e ∈ rest, CandOk root e :=
      fun e he => hq e ((pq.perm q h).subset (List.mem_cons_of_mem _ he))
    have hb' : ∀ p n, best' = some (p, n) → n ≠ .null ∧ zip n p = root := by
      intro p n hpn
      simp only [best'] at hpn
      split at hpn
      · simp only [Option.some.injEq, Prod.mk.injEq] at hpn
        obtain ⟨rfl, rfl⟩ := hpn; exact hc
      · exact hb p n hpn
    obtain ⟨res, h1, h2, h3⟩ := ih (pushChildren_ok hc _ hrest) hb'
    refine ⟨res, h1, h2, fun hs => h3 ?_⟩
    simp only [best']; split <;> simp_all
  | case5 q best bestCost h cur rest h' hn directCost totalCost better best' bestCost' inducedCost hlt ih =>
    have hc : CandOk root cur := hq _ ((pq.perm q h).subset List.mem_cons_self)
    have hrest : ∀ e ∈ rest, CandOk root e :=
      fun e he => hq e ((pq.perm q h).subset (List.mem_cons_of_mem _ he))
    have hb' : ∀ p n, best' = some (p, n) → n ≠ .null ∧ zip n p = root := by
      intro p n hpn
      simp only [best'] at hpn
      split at hpn
      · simp only [Option.some.injEq, Prod.mk.injEq] at hpn
        obtain ⟨rfl, rfl⟩ := hpn; exact hc
      · exact hb p n hpn
    obtain ⟨res, h1, h2, h3⟩ := ih hrest hb'
    refine ⟨res, h1, h2, fun hs => h3 ?_⟩
    simp only [best']; split <;> simp_all


/-- Costs of boxes are never infinite. -/
def Cfg.FiniteAreas (cfg : Cfg K C) : Prop :=
  ∀ b, cfg.ge (cfg.add cfg.zero (cfg.area b)) cfg.inf = false ∧
    cfg.lt (cfg.add cfg.zero (cfg.area b)) cfg.inf = true

theorem pq_pop_singleton {E : Type*} (pq : PQ E) (e : E) (h : [e] ≠ []) :
    (pq.pop [e] h).1 = e ∧ (pq.pop [e] h).2 = [] := by
  have := (List.perm_singleton.1 (pq.perm [e] h))
  simpa using this

theorem search_found (cfg : Cfg K C) (hfin : cfg.FiniteAreas) (pq : PQ (Cand K C α))
    (box : BoundingBox K) (root : Node K α) (hroot : GoodRoot root) :
    ∃ p n, searchLoop cfg pq box [⟨[], root, cfg.zero⟩] none cfg.inf = .ok (some (p, n)) ∧
      n ≠ .null ∧ zip n p = root := by
  have hne : root ≠ .null := by rintro rfl; exact hroot
  have hnull : root.isNull = false := by cases root <;> simp_all [Node.isNull]
  rw [searchLoop]
  obtain ⟨e1, e2⟩ := pq_pop_singleton pq (⟨[], root, cfg.zero⟩ : Cand K C α) (by simp)
  have f1 : ∀ b, cfg.ge (cfg.add cfg.zero (cfg.area b)) cfg.inf = false := fun b => (hfin b).1
  have f2 : ∀ b, cfg.lt (cfg.add cfg.zero (cfg.area b)) cfg.inf = true := fun b => (hfin b).2
  simp only [e1, e2, f1, f2, hnull, List.cons_ne_self, dite_false, if_false, if_true,
    Bool.false_eq_true, reduceDIte, reduceCtorEq]
  have hb : ∀ p n, (some (([] : List (Frame K α)), root)) = some (p, n) → n ≠ .null ∧ zip n p = root := by
    intro p n h
    simp only [Option.some.injEq, Prod.mk.injEq] at h
    obtain ⟨rfl, rfl⟩ := h; exact ⟨hne, rfl⟩
  split
  · obtain ⟨res, h1, h2, h3⟩ := searchLoop_ok cfg pq box root _ (some ([], root)) _
      (pushChildren_ok (e := ⟨[], root, cfg.zero⟩) ⟨hne, rfl⟩ _ (q := []) (by simp)) hb
    obtain ⟨⟨p, n⟩, hpn⟩ := Option.isSome_iff_exists.1 (h3 rfl)
    exact ⟨p, n, by rw [h1, hpn], h2 p n hpn⟩
  · obtain ⟨res, h1, h2, h3⟩ := searchLoop_ok cfg pq box root [] (some ([], root))
      (cfg.add cfg.zero (cfg.area (root.bounds.combined box))) (by simp) hb
    obtain ⟨⟨p, n⟩, hpn⟩ := Option.isSome_iff_exists.1 (h3 rfl)
    exact ⟨p, n, by rw [h1, hpn], h2 p n hpn⟩

theorem insert_spec (cfg : Cfg K C) (hfin : cfg.FiniteAreas) (pq : PQ (Cand K C α)) (root : Node K α)
    (hroot : GoodRoot root) (lb : BoundingBox K) (id : α) :
    ∃ t, insert cfg pq root lb id = .ok t ∧ GoodRoot t ∧ t.entries.Perm (⟨id, lb⟩ :: root.entries) := by
  obtain ⟨p, n, h1, h2, h3⟩ := search_found cfg hfin pq lb root hroot
  obtain ⟨t, h4, h5, h6⟩ := addLeafTo_spec cfg p n root lb id hroot h2 h3
  exact ⟨t, by simp [insert, h1, h4], h5, h6⟩

/-- Without assumption on costs: an insertion is either correct or undefined. -/
theorem insert_spec' (cfg : Cfg K C) (pq : PQ (Cand K C α)) (root : Node K α)
    (hroot : GoodRoot root) (lb : BoundingBox K) (id : α) :
    insert cfg pq root lb id = .ub ∨
    ∃ t, insert cfg pq root lb id = .ok t ∧ GoodRoot t ∧ t.entries.Perm (⟨id, lb⟩ :: root.entries) := by
  have hne : root ≠ .null := by rintro rfl; exact hroot
  obtain ⟨res, h1, h2, -⟩ := searchLoop_ok cfg pq lb root [⟨[], root, cfg.zero⟩] none cfg.inf
    (by intro e he; rw [List.mem_singleton] at he; subst he; exact ⟨hne, rfl⟩) (by simp)
  cases res with
  | none => left; simp [insert, h1]
  | some pn =>
    obtain ⟨p, n⟩ := pn
    obtain ⟨h3, h4⟩ := h2 p n rfl
    obtain ⟨t, h4, h5, h6⟩ := addLeafTo_spec cfg p n root lb id hroot h3 h4
    exact Or.inr ⟨t, by simp [insert, h1, h4], h5, h6⟩

/-! ### Locating, extraction -/

theorem locate_zip [DecidableEq α] (id : α) (t : Node K α) (path p : List (Frame K α))
    (b : BoundingBox K) (h : locate id t path = some (p, b)) :
    zip (.leaf b id) p = zip t path ∧ (⟨id, b⟩ : Entry K α) ∈ t.entries := by
  induction t generalizing path with
  | null => simp [locate] at h
  | leaf b' a =>
    simp only [locate] at h
    split at h
    · simp only [Option.some.injEq, Prod.mk.injEq] at h
      obtain ⟨rfl, rfl⟩ := h
      rename_i e; subst e
      exact ⟨rfl, by simp [Node.entries]⟩
    · simp at h
  | node b' l r ihl ihr =>
    simp only [locate] at h
    split at h
    · rename_i res hl
      obtain rfl : res = (p, b) := by simpa using h
      obtain ⟨h1, h2⟩ := ihl _ hl
      exact ⟨h1, by simp [Node.entries, h2]⟩
    · obtain ⟨h1, h2⟩ := ihr _ h
      exact ⟨h1, by simp [Node.entries, h2]⟩

theorem locate_some [DecidableEq α] (id : α) (t : Node K α) (path : List (Frame K α))
    (h : ∃ e ∈ t.entries, e.id = id) : ∃ p b, locate id t path = some (p, b) := by
  induction t generalizing path with
  | null => simp [Node.entries] at h
  | leaf b' a =>
    simp only [Node.entries, List.mem_singleton, exists_eq_left] at h
    exact ⟨path, b', by simp [locate, h]⟩
  | node b' l r ihl ihr =>
    simp only [locate]
    split
    · rename_i res _; exact ⟨res.1, res.2, rfl⟩
    · rename_i hl
      obtain ⟨e, he, hid⟩ := h
      rcases List.mem_append.1 he with he | he
      · obtain ⟨p, b, hpb⟩ := ihl (⟨true, b', r⟩ :: path) ⟨e, he, hid⟩
        rw [hl] at hpb; simp at hpb
      · exact ihr _ ⟨e, he, hid⟩

theorem locate_none [DecidableEq α] (id : α) (t : Node K α) (path : List (Frame K α))
    (h : ∀ e ∈ t.entries, e.id ≠ id) : locate id t path = none := by
  cases hl : locate id t path with
  | none => rfl
  | some res => exact absurd rfl (h _ (locate_zip id t path res.1 res.2 hl).2)

theorem extract_spec (cfg : Cfg K C) (path : List (Frame K α)) (root : Node K α) (b : BoundingBox K)
    (id : α) (hroot : GoodRoot root) (hz : zip (.leaf b id) path = root) :
    ∃ t, extract cfg path = .ok t ∧ GoodRoot t ∧ root.entries.Perm (⟨id, b⟩ :: t.entries) := by
  subst hz
  have hperm : (zip (.leaf b id) path).entries.Perm ((Node.leaf b id).entries ++ pathEntries path) :=
    entries_zip _ _
  match path, hroot, hperm with
  | [], hroot, _ => exact hroot.elim
  | [f], hroot, hperm =>
    obtain ⟨_, hp⟩ := good_of_zip (by simp) f [] hroot
    obtain ⟨ho, hb⟩ := hp
    have hnl : GoodOrNull (Node.null : Node K α) := Or.inl rfl
    suffices h : ∃ t, extract cfg [f] = .ok t ∧ GoodRoot t ∧ t.entries.Perm f.other.entries by
      obtain ⟨t, h1, h2, h3⟩ := h
      refine ⟨t, h1, h2, hperm.trans ?_⟩
      simp only [pathEntries, List.append_nil]
      exact (h3.symm.cons _)
    obtain ⟨onLeft, fb, other⟩ := f
    cases other with
    | null =>
      cases onLeft
      · obtain ⟨t, h1, h2, h3⟩ := refit_spec cfg .null .null fb [] hnl hnl trivial
        exact ⟨t, by simpa [extract] using h1, h2, by simpa [pathEntries, Node.entries] using h3⟩
      · obtain ⟨t, h1, h2, h3⟩ := refit_spec cfg .null .null fb [] hnl hnl trivial
        exact ⟨t, by simpa [extract] using h1, h2, by simpa [pathEntries, Node.entries] using h3⟩
    | leaf ob oa =>
      cases onLeft
      · obtain ⟨t, h1, h2, h3⟩ := refit_spec cfg (.leaf ob oa) .null fb [] ho hnl trivial
        exact ⟨t, by simpa [extract] using h1, h2, by simpa [pathEntries, Node.entries] using h3⟩
      · obtain ⟨t, h1, h2, h3⟩ := refit_spec cfg .null (.leaf ob oa) fb [] hnl ho trivial
        exact ⟨t, by simpa [extract] using h1, h2, by simpa [pathEntries, Node.entries] using h3⟩
    | node ob ol or_ =>
      have hg : Good (.node ob ol or_) := ho.resolve_left (by simp)
      obtain ⟨g1, g2, _⟩ := hg
      have he : extract cfg [⟨onLeft, fb, .node ob ol or_⟩] =
          if onLeft then refit cfg ol or_ fb [] else refit cfg or_ ol fb [] := by
        cases ol <;> cases or_ <;> first | rfl | exact g1.elim | exact g2.elim
      rw [he]
      cases onLeft
      · obtain ⟨t, h1, h2, h3⟩ := refit_spec cfg or_ ol fb [] g2.orNull g1.orNull trivial
        refine ⟨t, by simpa using h1, h2, h3.trans ?_⟩
        simp only [pathEntries, List.append_nil, Node.entries]
        exact List.perm_append_comm
      · obtain ⟨t, h1, h2, h3⟩ := refit_spec cfg ol or_ fb [] g1.orNull g2.orNull trivial
        exact ⟨t, by simpa using h1, h2, by simpa [pathEntries, Node.entries] using h3⟩
  | f :: g :: rest, hroot, hperm =>
    obtain ⟨_, hp⟩ := good_of_zip (by simp) f (g :: rest) hroot
    obtain ⟨ho, hb, hp'⟩ := hp
    have he : extract cfg (f :: g :: rest) = refitParent cfg f.other g rest := by
      simp only [extract]
      cases hf : f.other <;> first | rfl | (rw [hf] at ho; exact ho.elim)
    obtain ⟨t, h1, h2, h3⟩ := refitParent_spec cfg f.other g rest ho _ hp'
    refine ⟨t, by rw [he, h1], h2, hperm.trans ?_⟩
    simp only [Node.entries, List.singleton_append, pathEntries] at h3 ⊢
    exact (h3.symm.cons _)

theorem erase_spec [DecidableEq α] (cfg : Cfg K C) (root : Node K α) (hroot : GoodRoot root) (id : α)
    (h : ∃ e ∈ root.entries, e.id = id) :
    ∃ t b, erase cfg root id = .ok t ∧ GoodRoot t ∧ root.entries.Perm (⟨id, b⟩ :: t.entries) := by
  obtain ⟨p, b, hl⟩ := locate_some id root [] h
  obtain ⟨h1, _⟩ := locate_zip id root [] p b hl
  obtain ⟨t, h2, h3, h4⟩ := extract_spec cfg p root b id hroot h1
  exact ⟨t, b, by simp [erase, hl, h2], h3, h4⟩

theorem update_spec [DecidableEq α] (cfg : Cfg K C) (hfin : cfg.FiniteAreas) (pq : PQ (Cand K C α))
    (root : Node K α) (hroot : GoodRoot root) (id : α) (nb : BoundingBox K)
    (h : ∃ e ∈ root.entries, e.id = id) :
    ∃ t b rest, update cfg pq root id nb = .ok t ∧ GoodRoot t ∧
      root.entries.Perm (⟨id, b⟩ :: rest) ∧ t.entries.Perm (⟨id, nb⟩ :: rest) := by
  obtain ⟨p, b, hl⟩ := locate_some id root [] h
  obtain ⟨h1, _⟩ := locate_zip id root [] p b hl
  obtain ⟨t, h2, h3, h4⟩ := extract_spec cfg p root b id hroot h1
  obtain ⟨t', h5, h6, h7⟩ := insert_spec cfg hfin pq t h3 nb id
  exact ⟨t', b, t.entries, by simp [update, hl, h2, h5], h6, h4, h7⟩

/-! ### Rebuilding -/

theorem booleanSort_perm {β : Type*} (p : β → Bool) (l : List β) :
    ((Algo.booleanSort p l).1 ++ (Algo.booleanSort p l).2.1).Perm l ∧
    (∀ a ∈ (Algo.booleanSort p l).1, p a = true) ∧ (∀ a ∈ (Algo.booleanSort p l).2.1, p a = false) := by
  have := Algo.booleanSortLoop_spec p [] l [] [] (by simp) (by simp)
  simp only [List.nil_append, List.append_nil] at this
  exact ⟨this.1, this.2.1, this.2.2.1⟩

theorem splitNodes_perm (cfg : Cfg K C) (nodes : List (Entry K α)) :
    ((splitNodes cfg nodes).1 ++ (splitNodes cfg nodes).2).Perm nodes := by
  simp only [splitNodes, List.take_append_drop]
  exact (booleanSort_perm _ _).1

theorem splitNodes_ne_nil (cfg : Cfg K C) (nodes : List (Entry K α)) (h : 2 ≤ nodes.length) :
    (splitNodes cfg nodes).1 ≠ [] ∧ (splitNodes cfg nodes).2 ≠ [] := by
  have h1 := splitNodes_length cfg nodes h
  have h2 := (splitNodes_perm cfg nodes).length_eq
  simp only [List.length_append] at h2
  constructor <;> intro h' <;> simp [h'] at h2 <;> omega

/-- Union of the bounds of a list of elements. -/
def hull (ns : List (Entry K α)) : Option (BoundingBox K) := ns.foldr (fun n b => join n.bounds.norm b) none

theorem hull_append (a b : List (Entry K α)) : hull (a ++ b) = join (hull a) (hull b) := by
  induction a with
  | nil => simp [hull]
  | cons x xs ih => simp only [hull, List.cons_append, List.foldr_cons] at *; rw [ih, join_assoc]

theorem hull_perm {a b : List (Entry K α)} (h : a.Perm b) : hull a = hull b := by
  induction h with
  | nil => rfl
  | cons x _ ih => simp only [hull, List.foldr_cons] at *; rw [ih]
  | swap x y l => simp only [hull, List.foldr_cons]; ac_rfl
  | trans _ _ ih1 ih2 => rw [ih1, ih2]

theorem constructBounds_norm (ns : List (Entry K α)) : (constructBounds ns).norm = hull ns := by
  have : ∀ (ns : List (Entry K α)) (b : BoundingBox K),
      (ns.foldl (fun b n => b.combined n.bounds) b).norm = join b.norm (hull ns) := by
    intro ns
    induction ns with
    | nil => intro b; simp [hull]
    | cons x xs ih =>
      intro b
      rw [List.foldl_cons, ih, norm_combined]
      simp only [hull, List.foldr_cons]; rw [join_assoc]
  rw [constructBounds, this]
  have : (BoundingBox.invalid : BoundingBox K).norm = none := nb_null (α := α)
  rw [this, join_none_left]

theorem Good.nb_eq_hull {t : Node K α} (h : Good t) : t.nb = hull t.entries := by
  induction t with
  | null => exact h.elim
  | leaf b a => simp [Node.entries, hull]
  | node b l r ihl ihr =>
    obtain ⟨h1, h2, h3⟩ := h
    rw [nb_node, h3, ihl h1, ihr h2, Node.entries, hull_append]

theorem GoodOrNull.nb_eq_hull {t : Node K α} (h : GoodOrNull t) : t.nb = hull t.entries := by
  rcases h with rfl | h
  · simp [Node.entries, hull]
  · exact h.nb_eq_hull

theorem GoodRoot.nb_eq_hull {t : Node K α} (h : GoodRoot t) : t.nb = hull t.entries := by
  cases t with
  | null => exact h.elim
  | leaf b a => exact h.elim
  | node b l r =>
    obtain ⟨h1, h2, h3⟩ := h
    rw [nb_node, h3, h1.nb_eq_hull, h2.nb_eq_hull, Node.entries, hull_append]

theorem rebuild_good (cfg : Cfg K C) (nodes : List (Entry K α)) (o : OverlapList K α) (h : nodes ≠ []) :
    Good (rebuild cfg nodes o).1 ∧ (rebuild cfg nodes o).1.entries.Perm nodes := by
  fun_induction rebuild cfg nodes o with
  | case1 => exact absurd rfl h
  | case2 n => exact ⟨trivial, List.Perm.refl _⟩
  | case3 o n₁ n₂ ns s lb rb lc rc lists l r ihl ihr =>
    obtain ⟨hl, hr⟩ := splitNodes_ne_nil cfg (n₁ :: n₂ :: ns) (by simp)
    obtain ⟨gl, pl⟩ := ihl hl
    obtain ⟨gr, pr⟩ := ihr hr
    refine ⟨⟨gl, gr, ?_⟩, ?_⟩
    · rw [norm_combined, gl.nb_eq_hull, gr.nb_eq_hull, hull_perm pl, hull_perm pr,
        constructBounds_norm, constructBounds_norm]
    · simp only [Node.entries]
      exact (pl.append pr).trans (splitNodes_perm cfg _)

theorem Good.root {t : Node K α} (h : Good t) (hn : 2 ≤ t.entries.length) : GoodRoot t := by
  cases t with
  | null => exact h.elim
  | leaf b a => simp [Node.entries] at hn
  | node b l r => exact ⟨h.1.orNull, h.2.1.orNull, h.2.2⟩

theorem updateAndCollide_spec (cfg : Cfg K C) (hfin : cfg.FiniteAreas) (pq : PQ (Cand K C α))
    (root : Node K α) (hroot : GoodRoot root) (upd : Entry K α → BoundingBox K) :
    ∃ t calls, updateAndCollide cfg pq root upd = .ok (t, calls) ∧ GoodRoot t ∧
      t.entries.Perm (root.entries.map fun e => ⟨e.id, upd e⟩) := by
  simp only [updateAndCollide]
  split
  · rename_i h
    rw [h]
    simp only [List.map_eq_nil_iff] at h
    exact ⟨root, [], rfl, hroot, by simp [h]⟩
  · rename_i n h
    rw [h]
    -- the childless root, still carrying its old bounds
    have hne : (Node.node root.bounds .null .null : Node K α) ≠ .null := by simp
    obtain ⟨p, m, h1, h2, h3⟩ : ∃ p m, searchLoop cfg pq n.bounds
        [⟨[], .node root.bounds .null .null, cfg.zero⟩] none cfg.inf = .ok (some (p, m)) ∧
        p = [] ∧ m = .node root.bounds .null .null := by
      rw [searchLoop]
      obtain ⟨e1, e2⟩ := pq_pop_singleton pq
        (⟨[], .node root.bounds .null .null, cfg.zero⟩ : Cand K C α) (by simp)
      have f1 : ∀ b, cfg.ge (cfg.add cfg.zero (cfg.area b)) cfg.inf = false := fun b => (hfin b).1
      have f2 : ∀ b, cfg.lt (cfg.add cfg.zero (cfg.area b)) cfg.inf = true := fun b => (hfin b).2
      simp only [e1, e2, f1, f2, Node.isNull, List.cons_ne_self, dite_false, if_false, if_true,
        Bool.false_eq_true, reduceDIte, reduceCtorEq, pushChildren]
      refine ⟨[], _, ?_, rfl, rfl⟩
      rw [searchLoop]; simp
    subst h2 h3
    obtain ⟨t, k1, k2, k3⟩ := refit_spec cfg (.leaf n.bounds n.id) .null root.bounds []
      (Or.inr trivial) (Or.inl rfl) trivial
    exact ⟨t, [], by simp [insert, h1, addLeafTo, k1], k2, by simpa [Node.entries, pathEntries] using k3⟩
  · rename_i h1 h2
    generalize hn : root.entries.map (fun e => (⟨e.id, upd e⟩ : Entry K α)) = nodes at *
    have hlen : 2 ≤ nodes.length := by
      match nodes, h1, h2 with
      | [], h1, _ => exact absurd rfl h1
      | [x], _, h2 => exact absurd rfl (h2 x)
      | _ :: _ :: _, _, _ => simp
    obtain ⟨g, p⟩ := rebuild_good cfg nodes ⟨[], 0⟩ (by rintro rfl; simp at hlen)
    exact ⟨_, _, rfl, g.root (by rw [p.length_eq]; exact hlen), p⟩

/-! ### Iteration -/

theorem goLeft_node {b : BoundingBox K} {l r : Node K α} (path : List (Frame K α)) (hl : Good l) :
    goLeft (.node b l r) path = goLeft l (⟨true, b, r⟩ :: path) := by
  cases l <;> first | exact hl.elim | (cases r <;> rfl)

theorem next_left {b : BoundingBox K} {l r : Node K α} (path : List (Frame K α)) (hr : Good r) :
    next l (⟨true, b, r⟩ :: path) = goLeft r (⟨false, b, l⟩ :: path) := by
  cases r <;> first | exact hr.elim | rfl

theorem iterate_good {t : Node K α} (ht : Good t) (f : Frame K α) (fs : List (Frame K α)) (k : Nat)
    (rest : List (Entry K α)) (h : iterate k (next t (f :: fs)).1 (next t (f :: fs)).2 = .ok rest) :
    iterate (t.entries.length + k) (goLeft t (f :: fs)).1 (goLeft t (f :: fs)).2 =
      .ok (t.entries ++ rest) := by
  induction t generalizing f fs k rest with
  | null => exact ht.elim
  | leaf b a =>
    simp only [Node.entries, List.length_singleton, goLeft, List.singleton_append]
    rw [Nat.add_comm]
    simp [iterate, h]
  | node b l r ihl ihr =>
    obtain ⟨hl, hr, _⟩ := ht
    rw [goLeft_node _ hl]
    simp only [Node.entries, List.length_append, List.append_assoc, Nat.add_assoc]
    apply ihl hl
    rw [next_left _ hr]
    exact ihr hr _ _ _ _ (by simpa [next, Frame.close] using h)

theorem iterate_root {root : Node K α} (h : GoodRoot root) (k : Nat) :
    iterate (root.entries.length + k) (goLeft root []).1 (goLeft root []).2 = .ok root.entries := by
  cases root with
  | null => exact h.elim
  | leaf b a => exact h.elim
  | node b l r =>
    obtain ⟨hl, hr, _⟩ := h
    have hend : ∀ (n : Node K α), iterate k n [] = .ok [] := fun n => by cases k <;> rfl
    rcases hl with rfl | hl
    · rcases hr with rfl | hr
      · simp [goLeft, iterate, Node.entries]
      · have : goLeft (.node b .null r) [] = goLeft r [⟨false, b, .null⟩] := by
          cases r <;> first | exact hr.elim | rfl
        rw [this]
        have := iterate_good hr ⟨false, b, .null⟩ [] k [] (by simp [next, hend])
        simpa [Node.entries] using this
    · rw [goLeft_node _ hl]
      rcases hr with rfl | hr
      · have := iterate_good hl ⟨true, b, .null⟩ [] k [] (by simp [next, hend])
        simpa [Node.entries] using this
      · simp only [Node.entries, List.length_append, Nat.add_assoc]
        refine iterate_good hl _ _ _ _ ?_
        rw [next_left _ hr]
        have := iterate_good hr ⟨false, b, l⟩ [] k [] (by simp [next, hend])
        simpa [Node.entries] using this

theorem size_eq (t : Node K α) : size t = t.entries.length := by
  induction t with
  | null => rfl
  | leaf => rfl
  | node b l r ihl ihr => simp [size, Node.entries, ihl, ihr]

theorem Good.entries_ne_nil {t : Node K α} (h : Good t) : t.entries ≠ [] := by
  induction t with
  | null => exact h.elim
  | leaf => simp [Node.entries]
  | node b l r ihl _ => simp [Node.entries, ihl h.1]

theorem isEmpty_iff {root : Node K α} (h : GoodRoot root) : isEmpty root = true ↔ root.entries = [] := by
  cases root with
  | null => exact h.elim
  | leaf b a => exact h.elim
  | node b l r =>
    obtain ⟨hl, hr, _⟩ := h
    rcases hl with rfl | hl
    · rcases hr with rfl | hr
      · simp [isEmpty, Node.entries]
      · have := hr.entries_ne_nil
        cases r <;> first | exact hr.elim | simp_all [isEmpty, Node.entries]
    · have := hl.entries_ne_nil
      cases l <;> first | exact hl.elim | simp_all [isEmpty, Node.entries]

/-! ### Queries -/

/-- The overlap test does not lose overlaps when the second box grows. -/
def Cfg.Monotone (cfg : Cfg K C) : Prop := ∀ a b c, subBox b c → cfg.ovl a b = true → cfg.ovl a c = true

theorem subBox_of_norm_join {a b c : BoundingBox K} (h : c.norm = join a.norm b.norm) :
    subBox a c ∧ subBox b c := by
  rw [← norm_combined] at h
  exact ⟨(subBox_congr rfl h).2 (subBox_combined_left a b), (subBox_congr rfl h).2 (subBox_combined_right a b)⟩

theorem Good.entry_subBox {t : Node K α} (h : Good t) : ∀ e ∈ t.entries, subBox e.bounds t.bounds := by
  induction t with
  | null => exact h.elim
  | leaf b a => intro e he; simp only [Node.entries, List.mem_singleton] at he; subst he; exact subBox_refl _
  | node b l r ihl ihr =>
    obtain ⟨h1, h2, h3⟩ := h
    obtain ⟨s1, s2⟩ := subBox_of_norm_join h3
    intro e he
    rcases List.mem_append.1 he with he | he
    · exact subBox_trans (ihl h1 e he) s1
    · exact subBox_trans (ihr h2 e he) s2

theorem forEachIn_good (cfg : Cfg K C) (hm : cfg.Monotone) (box : BoundingBox K) {t : Node K α}
    (h : Good t) : forEachIn cfg box t = t.entries.filter fun e => cfg.ovl box e.bounds := by
  induction t with
  | null => exact h.elim
  | leaf b a => simp [forEachIn, Node.entries, List.filter_cons]
  | node b l r ihl ihr =>
    have hs := Good.entry_subBox h
    simp only [forEachIn, Node.entries, List.filter_append]
    split
    · rw [ihl h.1, ihr h.2.1]
    · rename_i hov
      have hnone : ∀ e ∈ l.entries ++ r.entries, cfg.ovl box e.bounds = false := by
        intro e he
        by_contra hc
        exact hov (hm box e.bounds b (hs e he) (by simpa using hc))
      rw [← List.filter_append, List.filter_eq_nil_iff.2]
      intro e he; simp [hnone e he]

theorem forEachIn_orNull (cfg : Cfg K C) (hm : cfg.Monotone) (box : BoundingBox K) {t : Node K α}
    (h : GoodOrNull t) : forEachIn cfg box t = t.entries.filter fun e => cfg.ovl box e.bounds := by
  rcases h with rfl | h
  · simp [forEachIn, Node.entries]
  · exact forEachIn_good cfg hm box h

theorem GoodRoot.entry_subBox {t : Node K α} (h : GoodRoot t) : ∀ e ∈ t.entries, subBox e.bounds t.bounds := by
  cases t with
  | null => exact h.elim
  | leaf b a => exact h.elim
  | node b l r =>
    obtain ⟨h1, h2, h3⟩ := h
    obtain ⟨s1, s2⟩ := subBox_of_norm_join h3
    intro e he
    rcases List.mem_append.1 he with he | he
    · rcases h1 with rfl | h1
      · simp [Node.entries] at he
      · exact subBox_trans (h1.entry_subBox e he) s1
    · rcases h2 with rfl | h2
      · simp [Node.entries] at he
      · exact subBox_trans (h2.entry_subBox e he) s2

theorem forEachIn_root (cfg : Cfg K C) (hm : cfg.Monotone) (box : BoundingBox K) {t : Node K α}
    (h : GoodRoot t) : forEachIn cfg box t = t.entries.filter fun e => cfg.ovl box e.bounds := by
  have hs := h.entry_subBox
  cases t with
  | null => exact h.elim
  | leaf b a => exact h.elim
  | node b l r =>
    obtain ⟨h1, h2, h3⟩ := h
    simp only [forEachIn, Node.entries, List.filter_append]
    split
    · rw [forEachIn_orNull cfg hm box h1, forEachIn_orNull cfg hm box h2]
    · rename_i hov
      have hnone : ∀ e ∈ l.entries ++ r.entries, cfg.ovl box e.bounds = false := by
        intro e he
        by_contra hc
        exact hov (hm box e.bounds b (hs e he) (by simpa using hc))
      rw [← List.filter_append, List.filter_eq_nil_iff.2]
      intro e he; simp [hnone e he]

theorem forEachOverlappingPath_eq (cfg : Cfg K C) (hm : cfg.Monotone) (box : BoundingBox K)
    (b : Option (BoundingBox K)) (path : List (Frame K α)) (h : GoodPath b path) :
    forEachOverlappingPath cfg box path = (pathEntries path).filter fun e => cfg.ovl box e.bounds := by
  induction path generalizing b with
  | nil => rfl
  | cons f fs ih =>
    simp only [forEachOverlappingPath, pathEntries, List.filter_append]
    cases fs with
    | nil => rw [forEachIn_orNull cfg hm box h.1]; simp [forEachOverlappingPath, pathEntries]
    | cons g fs => rw [forEachIn_good cfg hm box h.1, ih _ h.2.2]

end Simu.RTree
