import Verif.Spec.WorldTree
import Verif.Props.RTree
import Verif.Props.World
/-
A world and its tree agree on the colliders.
-/
namespace Simu.World
open World RTree RTree.Spec Simu.Spec
variable {K C : Type*} [Field K] [LinearOrder K] [IsStrictOrderedRing K]

theorem bind_pure {X : Type*} (x : Outcome X) : (x.bind fun y => .ok y) = x := by cases x <;> rfl

theorem runOps_append (tc : RTree.Cfg K C) (pq : PQ (Cand K C Nat)) (t : Node K Nat) (o1 o2 : List (RTree.Spec.Op K Nat)) :
    runOps tc pq t (o1 ++ o2) = (runOps tc pq t o1).bind fun t => runOps tc pq t o2 := by
  induction o1 generalizing t with
  | nil => rfl
  | cons o o1 ih =>
    simp only [List.cons_append, runOps]
    cases RTree.step tc pq t o <;> simp [Outcome.bind, ih]

theorem legalHistory_append (m : Contents K Nat) (o1 o2 : List (RTree.Spec.Op K Nat)) :
    legalHistory m (o1 ++ o2) ↔ legalHistory m o1 ∧ legalHistory (RTree.Spec.run m o1) o2 := by
  induction o1 generalizing m with
  | nil => simp [legalHistory, RTree.Spec.run]
  | cons o o1 ih => simp only [List.cons_append, legalHistory, ih, RTree.Spec.run, List.foldl_cons, and_assoc]

/-- The tree was obtained by a legal history and holds the given colliders. -/
def TreeInv (tc : RTree.Cfg K C) (pq : PQ (Cand K C Nat)) (root : Node K Nat) (T : List Nat) : Prop :=
  ∃ ops : List (RTree.Spec.Op K Nat), legalHistory (fun _ => none) ops ∧ runOps tc pq empty ops = .ok root ∧
    ∀ k, RTree.Spec.run (fun _ => none) ops k ≠ none ↔ k ∈ T

theorem TreeInv.congr {tc : RTree.Cfg K C} {pq : PQ (Cand K C Nat)} {root : Node K Nat} {T T' : List Nat} (h : TreeInv tc pq root T)
    (e : ∀ k, k ∈ T' ↔ k ∈ T) : TreeInv tc pq root T' := by
  obtain ⟨ops, h1, h2, h3⟩ := h
  exact ⟨ops, h1, h2, fun k => (h3 k).trans (e k).symm⟩

theorem TreeInv.empty (tc : RTree.Cfg K C) (pq : PQ (Cand K C Nat)) : TreeInv tc pq RTree.empty [] :=
  ⟨[], trivial, rfl, fun k => by simp [RTree.Spec.run]⟩

theorem TreeInv.more {tc : RTree.Cfg K C} (hfin : tc.FiniteAreas) {pq : PQ (Cand K C Nat)} {root : Node K Nat} {T : List Nat} {ops o2 : List (RTree.Spec.Op K Nat)}
    (h1 : legalHistory (fun _ => none) ops) (h2 : runOps tc pq RTree.empty ops = .ok root) (h3 : legalHistory (RTree.Spec.run (fun _ => none) ops) o2)
    (h4 : ∀ k, RTree.Spec.run (RTree.Spec.run (fun _ => none) ops) o2 k ≠ none ↔ k ∈ T) :
    ∃ root', runOps tc pq root o2 = .ok root' ∧ TreeInv tc pq root' T := by
  obtain ⟨root', e, -⟩ := runOps_spec tc hfin pq RTree.empty _ empty_spec.1 empty_spec.2 (ops ++ o2) ((legalHistory_append _ _ _).2 ⟨h1, h3⟩)
  have e' := e
  rw [runOps_append, h2, Outcome.bind_ok] at e'
  refine ⟨root', e', ops ++ o2, (legalHistory_append _ _ _).2 ⟨h1, h3⟩, e, fun k => ?_⟩
  rw [← h4 k]
  simp [RTree.Spec.run, List.foldl_append]

theorem TreeInv.insert {tc : RTree.Cfg K C} (hfin : tc.FiniteAreas) {pq : PQ (Cand K C Nat)} {root : Node K Nat} {T : List Nat} (h : TreeInv tc pq root T)
    {k : Nat} (hk : k ∉ T) (box : BoundingBox K) : ∃ root', RTree.insert tc pq root box k = .ok root' ∧ TreeInv tc pq root' (T ++ [k]) := by
  obtain ⟨ops, h1, h2, h3⟩ := h
  obtain ⟨root', e, t⟩ := TreeInv.more hfin (o2 := [.insert k box]) (T := T ++ [k]) h1 h2 ⟨by
      have := mt (h3 k).1 hk
      simpa [legal] using this, trivial⟩ (fun j => by
    simp only [RTree.Spec.run, List.foldl_cons, List.foldl_nil, RTree.Spec.apply, List.mem_append, List.mem_singleton]
    have := h3 j
    simp only [RTree.Spec.run] at this
    by_cases e : j = k <;> simp [e, ← this])
  refine ⟨root', ?_, t⟩
  simpa only [runOps, RTree.step, bind_pure] using e

theorem run_erase (ks : List Nat) (m : Contents K Nat) (j : Nat) :
    RTree.Spec.run m (ks.map .erase) j = if j ∈ ks then none else m j := by
  induction ks generalizing m with
  | nil => simp [RTree.Spec.run]
  | cons k ks ih =>
    have := ih (RTree.Spec.apply m (.erase k))
    simp only [RTree.Spec.run, List.map_cons, List.foldl_cons] at this ⊢
    rw [this]
    by_cases h1 : j ∈ ks <;> by_cases h2 : j = k <;> simp [h1, h2, RTree.Spec.apply]

theorem legal_erase (ks : List Nat) (m : Contents K Nat) (hn : ks.Nodup) (h : ∀ k ∈ ks, m k ≠ none) : legalHistory m (ks.map .erase) := by
  induction ks generalizing m with
  | nil => trivial
  | cons k ks ih =>
    obtain ⟨a, b⟩ := List.nodup_cons.1 hn
    refine ⟨h k (by simp), ih _ b fun j hj => ?_⟩
    have : j ≠ k := fun e => a (e ▸ hj)
    simp only [RTree.Spec.apply, this, if_false]
    exact h j (by simp [hj])

theorem eraseAll_eq (tc : RTree.Cfg K C) (pq : PQ (Cand K C Nat)) (ks : List Nat) (t : Node K Nat) :
    Engine.eraseAll tc ks t = runOps tc pq t (ks.map .erase) := by
  induction ks generalizing t with
  | nil => rfl
  | cons k ks ih =>
    simp only [Engine.eraseAll, List.map_cons, runOps, RTree.step]
    congr 1
    funext t
    exact ih t

theorem TreeInv.eraseAll {tc : RTree.Cfg K C} (hfin : tc.FiniteAreas) {pq : PQ (Cand K C Nat)} {root : Node K Nat} {T : List Nat} (h : TreeInv tc pq root T)
    {ks : List Nat} (hn : ks.Nodup) (hk : ∀ k ∈ ks, k ∈ T) :
    ∃ root', Engine.eraseAll tc ks root = .ok root' ∧ TreeInv tc pq root' (T.filter (· ∉ ks)) := by
  obtain ⟨ops, h1, h2, h3⟩ := h
  rw [eraseAll_eq tc pq]
  refine TreeInv.more hfin h1 h2 (legal_erase _ _ hn fun k m => (h3 k).2 (hk k m)) fun j => ?_
  rw [run_erase]
  by_cases e : j ∈ ks
  · simp [e]
  · simp only [e, if_false, h3 j]
    simp [e]

theorem TreeInv.erase {tc : RTree.Cfg K C} (hfin : tc.FiniteAreas) {pq : PQ (Cand K C Nat)} {root : Node K Nat} {T : List Nat} (h : TreeInv tc pq root T)
    {k : Nat} (hk : k ∈ T) : ∃ root', RTree.erase tc root k = .ok root' ∧ TreeInv tc pq root' (T.filter (· ≠ k)) := by
  obtain ⟨r, e, t⟩ := h.eraseAll hfin (ks := [k]) (by simp) (by simpa using hk)
  refine ⟨r, by
    rw [← e, Engine.eraseAll]
    exact (bind_pure _).symm, t.congr fun j => by simp⟩

/-- What the tree reports. -/
theorem TreeInv.collide {tc : RTree.Cfg K C} (hfin : tc.FiniteAreas) (hov : tc.ovl = BoundingBox.overlaps) {pq : PQ (Cand K C Nat)} {root : Node K Nat} {T : List Nat}
    (h : TreeInv tc pq root T) (boxes : Nat → BoundingBox K) :
    ∃ root' calls, updateAndCollide tc pq root (fun n => boxes n.id) = .ok (root', calls) ∧ TreeInv tc pq root' T ∧
      (Lists root'.entries fun k => if k ∈ T then some (boxes k) else none) ∧
      (∀ c ∈ calls, c.1.id ∈ T ∧ c.2.id ∈ T ∧ c.1.id ≠ c.2.id ∧ BoxesMeet (boxes c.1.id) (boxes c.2.id)) ∧
      ∀ a ∈ T, ∀ b ∈ T, a ≠ b → BoxesMeet (boxes a) (boxes b) → ∃ c ∈ calls, (c.1.id = a ∧ c.2.id = b) ∨ (c.1.id = b ∧ c.2.id = a) := by
  obtain ⟨ops, h1, h2, h3⟩ := h
  obtain ⟨root', calls, e, l, c1, c2⟩ := C24_pairs_reported_once tc hfin hov pq ops h1 root h2 fun k _ => boxes k
  have hm : (fun k => (RTree.Spec.run (fun _ => none) ops k).map fun _ => boxes k) = fun k => if k ∈ T then some (boxes k) else none := by
    funext k
    have := h3 k
    cases hr : RTree.Spec.run (fun _ => none) ops k with
    | none => rw [hr] at this; simp [← this]
    | some b => rw [hr] at this; simp [← this]
  have hm' : ∀ k, (RTree.Spec.run (fun _ => none) ops k).map (fun _ => boxes k) = if k ∈ T then some (boxes k) else none := fun k => congrFun hm k
  rw [hm] at l
  simp only [hm'] at c1 c2
  have mem : ∀ k b, (if k ∈ T then some (boxes k) else none) = some b ↔ k ∈ T ∧ b = boxes k := by
    intro k b
    split_ifs with hk <;> simp [hk, eq_comm]
  refine ⟨root', calls, e, ?_, l, fun c hc => ?_, fun a ha b hb hne hm => ?_⟩
  · obtain ⟨r, e', t⟩ := TreeInv.more hfin (o2 := [.updateAll fun k _ => boxes k]) (T := T) h1 h2 ⟨trivial, trivial⟩ fun k => by
      have := congrFun hm k
      simp only [RTree.Spec.run, List.foldl_cons, List.foldl_nil, RTree.Spec.apply] at this ⊢
      rw [this]
      simp
    simp only [runOps, RTree.step, e, Outcome.bind_ok, Outcome.ok.injEq] at e'
    exact e' ▸ t
  · obtain ⟨a1, a2, a3⟩ := c1 c hc
    have b1 := (mem _ _).1 a1
    have b2 := (mem _ _).1 a2
    refine ⟨b1.1, b2.1, a3, ?_⟩
    by_contra hno
    have := (c2 c.1.id c.2.id _ _ a3 a1 a2).2 (by rw [b1.2, b2.2]; exact hno)
    rw [List.countP_eq_zero] at this
    exact absurd (this c hc) (by simp)
  · have := (c2 a b _ _ hne ((mem _ _).2 ⟨ha, rfl⟩) ((mem _ _).2 ⟨hb, rfl⟩)).1 hm
    obtain ⟨c, hc, hp⟩ := List.countP_pos_iff.1 (by rw [this]; exact Nat.one_pos)
    exact ⟨c, hc, by simpa using hp⟩

/-! ### Colliders of destroyed bodies -/

theorem mem_collidersOf {w : World} {bs : List Nat} {k : Nat} :
    k ∈ Engine.collidersOf w bs ↔ ∃ b ∈ bs, ∃ r, w.body b = some r ∧ k ∈ r.colliders := by
  simp only [Engine.collidersOf, List.mem_flatMap]
  refine exists_congr fun b => and_congr_right fun _ => ?_
  cases w.body b <;> simp

theorem collidersOf_nodup {w : World} (h : Inv0 w) {bs : List Nat} (hn : bs.Nodup) : (Engine.collidersOf w bs).Nodup := by
  unfold Engine.collidersOf
  rw [List.nodup_flatMap]
  refine ⟨fun b _ => ?_, hn.imp fun {a b} hne => ?_⟩
  · cases hr : w.body b with
    | none => simp
    | some r => simpa using (h.colliders b r hr).1
  · intro k ha hb
    cases hr : w.body a with
    | none => simp [hr] at ha
    | some r =>
      cases hr' : w.body b with
      | none => simp [hr'] at hb
      | some r' =>
        simp only [hr, hr', Option.map_some, Option.getD_some] at ha hb
        exact hne (((h.colliders a r hr).2 k ha).symm.trans ((h.colliders b r' hr').2 k hb))

theorem collidersOf_tree {cfg : Cfg} {w : World} {bs : List Nat} (hd : ∀ b ∈ bs, Destructible cfg w b) : ∀ k ∈ Engine.collidersOf w bs, k ∈ w.tree := by
  intro k hk
  obtain ⟨b, hb, r, hr, hkr⟩ := mem_collidersOf.1 hk
  rcases hd b hb r hr with e | ⟨-, e⟩
  · rw [e] at hkr; simp at hkr
  · exact e k hkr

theorem dead_iff {w : World} (h : Inv0 w) {b : Nat} : b ∈ (w.bodies.filter fun b => (w.body b).any (·.killed)) ↔ DeadBody w b := by
  rw [List.mem_filter, h.bodies_iff]
  unfold DeadBody
  cases w.body b <;> simp

/-- The invariant of a world with its tree. -/
structure EngineInv (cfg : Cfg) (tc : RTree.Cfg K C) (pq : PQ (Cand K C Nat)) (e : Engine K) : Prop where
  reach : Reachable cfg e.world
  tree : TreeInv tc pq e.root e.world.tree

/-- The tree after the dead bodies are gone holds the colliders of the others. -/
theorem EngineInv.cleaned {cfg : Cfg} {tc : RTree.Cfg K C} (hfin : tc.FiniteAreas) {pq : PQ (Cand K C Nat)} {e : Engine K} (h : EngineInv cfg tc pq e)
    (hd : ∀ b, DeadBody e.world b → Destructible cfg e.world b) :
    ∃ t, Engine.eraseAll tc (Engine.collidersOf e.world (e.world.bodies.filter fun b => (e.world.body b).any (·.killed))) e.root = .ok t ∧
      TreeInv tc pq t (cleaned e.world).tree := by
  have i := h.reach.inv
  obtain ⟨t, e1, e2⟩ := h.tree.eraseAll hfin (collidersOf_nodup i.toInv0 (i.bodies_nodup.filter _))
    (collidersOf_tree (cfg := cfg) fun b hb => hd b ((dead_iff i.toInv0).1 hb))
  refine ⟨t, e1, e2.congr fun k => ?_⟩
  rw [cleaned_tree i.toInv0, List.mem_filter]
  refine and_congr_right fun hk => ?_
  rw [decide_eq_true_eq, mem_collidersOf]
  refine not_congr ⟨fun hdead => ?_, ?_⟩
  · obtain ⟨r, hr, hkr⟩ := i.tree_owned k hk
    exact ⟨_, (dead_iff i.toInv0).2 hdead, r, hr, hkr⟩
  · rintro ⟨b, hb, r, hr, hkr⟩
    rw [(i.colliders b r hr).2 k hkr]
    exact (dead_iff i.toInv0).1 hb

/-- The calls that the tree makes can be extended to all lists. -/
theorem reports_extend {ov : Nat → Nat → Prop} {T : List Nat} {calls : List (Nat × Nat)}
    (h1 : ∀ p ∈ calls, p.1 ∈ T ∧ p.2 ∈ T ∧ p.1 ≠ p.2 ∧ ov p.1 p.2) (h2 : ∀ a ∈ T, ∀ b ∈ T, a ≠ b → ov a b → (a, b) ∈ calls ∨ (b, a) ∈ calls)
    (hsym : ∀ a b, ov a b → ov b a) :
    ∃ c, c T = calls ∧ Reports ov c := by
  classical
  refine ⟨fun l => if l = T then calls else (allPairs l).filter fun p => ov p.1 p.2, by simp, fun l hl => ?_⟩
  by_cases e : l = T
  · subst e
    simp only [if_true]
    exact ⟨h1, h2⟩
  · simp only [e, if_false, List.mem_filter, decide_eq_true_eq]
    obtain ⟨a1, a2⟩ := allPairs_reports l hl
    refine ⟨fun p hp => ?_, fun a ha b hb hne ho => ?_⟩
    · obtain ⟨b1, b2, b3, -⟩ := a1 p hp.1
      exact ⟨b1, b2, b3, hp.2⟩
    · exact (a2 a ha b hb hne trivial).imp (fun x => ⟨x, ho⟩) fun x => ⟨x, hsym _ _ ho⟩

theorem BoxesMeet.symm {a b : BoundingBox K} (h : BoxesMeet a b) : BoxesMeet b a := by
  obtain ⟨p, h1, h2⟩ := h
  exact ⟨p, h2, h1⟩

/-- A step only looks at the calls for the colliders it has. -/
theorem step_congr {cfg : Cfg} {w : World} (h : Inv w) {p : Bool} {c c' : List Nat → List (Nat × Nat)} {f : Option Stage} (hd : ∀ b, DeadBody w b → Destructible cfg w b)
    (e : c (cleaned w).tree = c' (cleaned w).tree) : w.step cfg p c f = w.step cfg p c' f := by
  rw [step_cases h hd, step_cases h hd, e]

/-- A whole step: the tree makes the calls that the world needs. -/
theorem EngineInv.step_full {cfg : Cfg} {tc : RTree.Cfg K C} (hfin : tc.FiniteAreas) (hov : tc.ovl = BoundingBox.overlaps) {pq : PQ (Cand K C Nat)} {e : Engine K}
    (h : EngineInv cfg tc pq e) (boxes : Nat → BoundingBox K) (hd : ∀ b, DeadBody e.world b → Destructible cfg e.world b) :
    ∃ c root', Reports (fun a b => BoxesMeet (boxes a) (boxes b)) c ∧ TreeInv tc pq root' (World.cleaned e.world).tree ∧
      (Lists root'.entries fun k => if k ∈ (World.cleaned e.world).tree then some (boxes k) else none) ∧
      e.step cfg tc pq true boxes none = (⟨(e.world.step cfg true c none).1, root'⟩, (e.world.step cfg true c none).2) := by
  obtain ⟨t, e1, ht⟩ := h.cleaned hfin hd
  obtain ⟨root', calls, e2, ht', l, c1, c2⟩ := ht.collide hfin hov boxes
  obtain ⟨c, ec, hr⟩ := reports_extend (ov := fun a b => BoxesMeet (boxes a) (boxes b)) (T := (World.cleaned e.world).tree)
    (calls := calls.map fun c => (c.1.id, c.2.id)) (by
      intro p hp
      obtain ⟨c, hc, rfl⟩ := List.mem_map.1 hp
      exact c1 c hc) (by
      intro a ha b hb hne hm
      obtain ⟨c, hc, ⟨rfl, rfl⟩ | ⟨rfl, rfl⟩⟩ := c2 a ha b hb hne hm
      · exact Or.inl (List.mem_map.2 ⟨c, hc, rfl⟩)
      · exact Or.inr (List.mem_map.2 ⟨c, hc, rfl⟩)) fun _ _ hm => hm.symm
  refine ⟨c, root', hr, ht', l, ?_⟩
  unfold Engine.step
  rw [e1]
  simp only [Option.isNone_none, Bool.and_self, if_true, e2]
  rw [step_congr h.reach.inv hd (c := fun _ => calls.map fun c => (c.1.id, c.2.id)) (c' := c) ec.symm]

/-- A step that ends before it looks for contacts. -/
theorem EngineInv.step_short {cfg : Cfg} {tc : RTree.Cfg K C} (hfin : tc.FiniteAreas) {pq : PQ (Cand K C Nat)} {e : Engine K}
    (h : EngineInv cfg tc pq e) {p : Bool} (boxes : Nat → BoundingBox K) {f : Option Stage} (hp : (p && f.isNone) = false) (hd : ∀ b, DeadBody e.world b → Destructible cfg e.world b)
    (c : List Nat → List (Nat × Nat)) :
    ∃ root', TreeInv tc pq root' (World.cleaned e.world).tree ∧
      e.step cfg tc pq p boxes f = (⟨(e.world.step cfg p c f).1, root'⟩, (e.world.step cfg p c f).2) ∧ (e.world.step cfg p c f).1 = World.cleaned e.world := by
  obtain ⟨t, e1, ht⟩ := h.cleaned hfin hd
  have key : ∀ c, e.world.step cfg p c f = (World.cleaned e.world, if f = some .preStep then .throw else if p = false then .ok () else .throw) := by
    intro c
    rw [step_cases h.reach.inv hd]
    cases p with
    | false => simp only [if_true]; split_ifs <;> rfl
    | true =>
      cases f with
      | none => simp at hp
      | some s => cases s <;> simp
  refine ⟨t, ht, ?_, by rw [key]⟩
  unfold Engine.step
  rw [e1]
  simp only [hp]
  rw [key c, key fun _ => []]
  simp

theorem quiet_tree {cfg : Cfg} {w : World} (h : Inv w) (o : Op) (hq : o.quiet = true) (ha : o.Allowed w) : (w.apply cfg o).1.tree = w.tree := by
  cases o with
  | makeBody s => rfl
  | makeConstraint b0 b1 d r =>
    cases r with
    | true =>
      show (w.makeConstraint b0 b1 d true).1.tree = w.tree
      unfold World.makeConstraint
      by_cases e : (w.body b0).isNone ∨ (w.body b1).isNone
      · rw [if_pos e]
      · rw [if_neg e]; rfl
    | false =>
      show (w.makeConstraint b0 b1 d false).1.tree = w.tree
      rw [makeConstraint_eq h.toInv0 d ha.1 ha.2]
      rfl
  | makeForce => rfl
  | addCollider b v => simp [Op.quiet] at hq
  | removeCollider k => simp [Op.quiet] at hq
  | killBody b =>
    show (w.killBody b).1.tree = w.tree
    unfold World.killBody
    split <;> rfl
  | killJoint b =>
    show (w.killJoint b).1.tree = w.tree
    unfold World.killJoint
    split <;> rfl
  | killContact b =>
    show (w.killContact b).1.tree = w.tree
    unfold World.killContact
    split <;> rfl
  | killForce b =>
    show (w.killForce b).1.tree = w.tree
    unfold World.killForce
    split <;> rfl
  | step p c f => simp [Op.quiet] at hq
  | clear => simp [Op.quiet] at hq
  | setContactFactory => rfl

/-- Every allowed operation that destroys safely keeps the invariant, and is defined. -/
theorem EngineInv.apply {cfg : Cfg} {tc : RTree.Cfg K C} (hfin : tc.FiniteAreas) (hov : tc.ovl = BoundingBox.overlaps) {pq : PQ (Cand K C Nat)} {e : Engine K}
    (h : EngineInv cfg tc pq e) (o : EngineOp K) (ha : o.Allowed e.world) (hd : o.DestroysSafely cfg e.world) :
    EngineInv cfg tc pq (e.apply cfg tc pq o).1 ∧ (e.apply cfg tc pq o).2 ≠ .ub := by
  have i := h.reach.inv
  cases o with
  | quiet o hq =>
    have hd' : o.DestroysSafely cfg e.world := by cases o <;> first | trivial | simp [Op.quiet] at hq
    refine ⟨⟨.op h.reach o ha hd', ?_⟩, (inv_apply i o ha hd').2⟩
    show TreeInv tc pq e.root (e.world.apply cfg o).1.tree
    rw [quiet_tree i o hq ha]
    exact h.tree
  | addCollider b box =>
    obtain ⟨r, hr⟩ := Option.isSome_iff_exists.1 ((i.bodies_iff b).1 ha)
    show EngineInv cfg tc pq (e.addCollider tc pq b box).1 ∧ (e.addCollider tc pq b box).2 ≠ .ub
    have R : Reachable cfg (e.world.addCollider b box.isSome).1 := .op h.reach (.addCollider b box.isSome) ha trivial
    cases box with
    | none =>
      have e1 : (e.world.addCollider b false).2 = .throw := by simp [World.addCollider, hr]
      have e2 : (e.world.addCollider b false).1.tree = e.world.tree := by simp [World.addCollider, hr, setBody]
      unfold Engine.addCollider
      simp only [Option.isSome_none, e1]
      exact ⟨⟨R, by rw [e2]; exact h.tree⟩, by simp⟩
    | some box =>
      have e1 : (e.world.addCollider b true).2 = .ok () := by simp [World.addCollider, hr, setBody, i.broken]
      have e2 : (e.world.addCollider b true).1.tree = e.world.tree ++ [e.world.next] := by simp [World.addCollider, hr, setBody, i.broken]
      have fresh : e.world.next ∉ e.world.tree := by
        intro hk
        obtain ⟨r, hr, hkr⟩ := i.tree_owned _ hk
        exact absurd ((i.fresh_body _ r hr).2 _ hkr) (lt_irrefl _)
      obtain ⟨t, e3, ht⟩ := h.tree.insert hfin fresh box
      unfold Engine.addCollider
      simp only [Option.isSome_some, e1, e3]
      exact ⟨⟨R, by rw [e2]; exact ht⟩, by simp⟩
  | removeCollider k =>
    obtain ⟨r, hr, -⟩ := i.tree_owned k ha
    obtain ⟨t, e3, ht⟩ := h.tree.erase hfin ha
    have e2 : (e.world.removeCollider k).1.tree = e.world.tree.filter (· ≠ k) := by rw [removeCollider_eq i.toInv0.weak ha hr]; rfl
    show EngineInv cfg tc pq (e.removeCollider tc k).1 ∧ (e.removeCollider tc k).2 ≠ .ub
    unfold Engine.removeCollider
    simp only [e3]
    exact ⟨⟨.op h.reach (.removeCollider k) ha trivial, by rw [e2]; exact ht⟩, (i.removeCollider ha).2⟩
  | step p boxes f =>
    show EngineInv cfg tc pq (e.step cfg tc pq p boxes f).1 ∧ (e.step cfg tc pq p boxes f).2 ≠ .ub
    by_cases hp : (p && f.isNone) = true
    · obtain ⟨rfl, hf⟩ : p = true ∧ f.isNone = true := by simpa using hp
      obtain rfl : f = none := by simpa using hf
      obtain ⟨c, root', hr, ht, -, e1⟩ := h.step_full hfin hov boxes hd
      have hal : Op.Allowed e.world (.step true c none) := ⟨_, hr, ha⟩
      rw [e1]
      refine ⟨⟨.op h.reach (.step true c none) hal hd, ?_⟩, (inv_apply i (.step true c none) hal hd).2⟩
      refine ht.congr fun k => ?_
      have := (C39_dead_gone h.reach hal hd).2.2.2.2 k
      rw [cleaned_tree i.toInv0]
      exact this
    · obtain ⟨c, root', hr, -⟩ := h.step_full hfin hov boxes hd
      have hal : Op.Allowed e.world (.step p c f) := ⟨_, hr, ha⟩
      obtain ⟨root', ht, e1, e2⟩ := h.step_short hfin boxes (p := p) (f := f) (Bool.eq_false_iff.2 hp) hd c
      rw [e1]
      exact ⟨⟨.op h.reach (.step p c f) hal hd, by rw [e2]; exact ht⟩, (inv_apply i (.step p c f) hal hd).2⟩
  | clear =>
    show EngineInv cfg tc pq (e.clear cfg tc).1 ∧ (e.clear cfg tc).2 ≠ .ub
    obtain ⟨t, e1, -⟩ := h.tree.eraseAll hfin (collidersOf_nodup i.toInv0 i.bodies_nodup) (collidersOf_tree hd)
    obtain ⟨-, a2, -, -, -, -, a7⟩ := (i.clear (cfg := cfg)).1 hd
    unfold Engine.clear
    simp only [e1]
    exact ⟨⟨.op h.reach .clear trivial hd, by rw [a7]; exact TreeInv.empty tc pq⟩, by rw [a2]; simp⟩

theorem EngineReachable.inv {cfg : Cfg} {tc : RTree.Cfg K C} (hfin : tc.FiniteAreas) (hov : tc.ovl = BoundingBox.overlaps) {pq : PQ (Cand K C Nat)} {e : Engine K}
    (h : EngineReachable cfg tc pq e) : EngineInv cfg tc pq e := by
  induction h with
  | init => exact ⟨.init, TreeInv.empty tc pq⟩
  | op h o ha hd ih => exact (ih.apply hfin hov o ha hd).1

end Simu.World
