import Verif.Lemmas.WorldClean
/-
The invariant of a world is kept by every operation other than a step.
-/
namespace Simu.World
open World

theorem inv_init : Inv init where
  bodies_iff := by simp [init]
  bodies_nodup := by simp [init]
  joints_iff := by simp [init]
  joints_nodup := by simp [init]
  contacts_iff := by simp [init]
  contacts_nodup := by simp [init]
  fresh_body := by simp [init]
  fresh_joint := by simp [init]
  fresh_contact := by simp [init]
  joint_ends := by simp [init]
  joint_listed := by simp [init]
  contact_ends := by simp [init]
  contact_listed := by simp [init]
  contact_key := by simp [init]
  keys := by simp [init]
  colliders := by simp [init]
  tree_nodup := by simp [init]
  tree_owned := by simp [init]
  broken := rfl
  hits := by simp [init]

theorem Inv0.inv {w : World} (h : Inv0 w) (hh : ∀ n C, w.contact n = some C → C.hit = false) : Inv w := { h with hits := hh }

/-- Changing bodies without changing what they list. -/
theorem Inv0.mapBody {w : World} (h : Inv0 w) (f : Nat → BodyRec → BodyRec) (hf : ∀ b r, (f b r).colliders = r.colliders ∧ (f b r).joints = r.joints ∧
    (f b r).contacts = r.contacts) : Inv0 { w with body := fun b => (w.body b).map (f b) } where
  bodies_iff b := by simp [h.bodies_iff]
  bodies_nodup := h.bodies_nodup
  joints_iff := h.joints_iff
  joints_nodup := h.joints_nodup
  contacts_iff := h.contacts_iff
  contacts_nodup := h.contacts_nodup
  fresh_body b r hr := by
    obtain ⟨r', hr', rfl⟩ := Option.map_eq_some_iff.1 hr
    rw [(hf b r').1]
    exact h.fresh_body b r' hr'
  fresh_joint := h.fresh_joint
  fresh_contact := h.fresh_contact
  joint_ends n J hJ := by
    obtain ⟨⟨r0, a1, a2⟩, r1, a3, a4⟩ := h.joint_ends n J hJ
    refine ⟨⟨_, Option.map_eq_some_iff.2 ⟨r0, a1, rfl⟩, ?_⟩, ⟨_, Option.map_eq_some_iff.2 ⟨r1, a3, rfl⟩, ?_⟩⟩
    · rw [(hf _ r0).2.1]; exact a2
    · rw [(hf _ r1).2.1]; exact a4
  joint_listed b r hr n hn := by
    obtain ⟨r', hr', rfl⟩ := Option.map_eq_some_iff.1 hr
    rw [(hf b r').2.1] at hn
    exact h.joint_listed b r' hr' n hn
  contact_ends n J hJ := by
    obtain ⟨hne, ⟨r0, a1, a2⟩, r1, a3, a4⟩ := h.contact_ends n J hJ
    refine ⟨hne, ⟨_, Option.map_eq_some_iff.2 ⟨r0, a1, rfl⟩, ?_⟩, ⟨_, Option.map_eq_some_iff.2 ⟨r1, a3, rfl⟩, ?_⟩⟩
    · rw [(hf _ r0).2.2]; exact a2
    · rw [(hf _ r1).2.2]; exact a4
  contact_listed b r hr n hn := by
    obtain ⟨r', hr', rfl⟩ := Option.map_eq_some_iff.1 hr
    rw [(hf b r').2.2] at hn
    exact h.contact_listed b r' hr' n hn
  contact_key := h.contact_key
  keys := h.keys
  colliders b r hr := by
    obtain ⟨r', hr', rfl⟩ := Option.map_eq_some_iff.1 hr
    rw [(hf b r').1]
    exact h.colliders b r' hr'
  tree_nodup := h.tree_nodup
  tree_owned k hk := by
    obtain ⟨r, a1, a2⟩ := h.tree_owned k hk
    refine ⟨_, Option.map_eq_some_iff.2 ⟨r, a1, rfl⟩, ?_⟩
    rw [(hf _ r).1]
    exact a2
  broken := h.broken

/-- Killing contacts, or changing their flags. -/
theorem Inv0.mapContact {w : World} (h : Inv0 w) (f : Nat → ContactRec → ContactRec) (hf : ∀ n C, (f n C).key = C.key ∧ (f n C).b0 = C.b0 ∧ (f n C).b1 = C.b1 ∧
    (C.killed = true → (f n C).killed = true)) : Inv0 { w with contact := fun n => (w.contact n).map (f n) } where
  bodies_iff := h.bodies_iff
  bodies_nodup := h.bodies_nodup
  joints_iff := h.joints_iff
  joints_nodup := h.joints_nodup
  contacts_iff n := by simp [h.contacts_iff]
  contacts_nodup := h.contacts_nodup
  fresh_body := h.fresh_body
  fresh_joint := h.fresh_joint
  fresh_contact n C hC := by
    obtain ⟨C', hC', rfl⟩ := Option.map_eq_some_iff.1 hC
    exact h.fresh_contact n C' hC'
  joint_ends := h.joint_ends
  joint_listed := h.joint_listed
  contact_ends n C hC := by
    obtain ⟨C', hC', rfl⟩ := Option.map_eq_some_iff.1 hC
    rw [(hf n C').2.1, (hf n C').2.2.1]
    exact h.contact_ends n C' hC'
  contact_listed b r hr n hn := by
    obtain ⟨C, hC, hb⟩ := h.contact_listed b r hr n hn
    refine ⟨_, Option.map_eq_some_iff.2 ⟨C, hC, rfl⟩, ?_⟩
    rw [(hf n C).2.1, (hf n C).2.2.1]
    exact hb
  contact_key n C hC := by
    obtain ⟨C', hC', rfl⟩ := Option.map_eq_some_iff.1 hC
    obtain ⟨a1, a2, a3, a4, a5⟩ := h.contact_key n C' hC'
    rw [(hf n C').1, (hf n C').2.1, (hf n C').2.2.1]
    refine ⟨a1, a2, a3, a4, fun hk => a5 ?_⟩
    by_contra hc
    rw [(hf n C').2.2.2 (by simpa using hc)] at hk
    exact absurd hk (by simp)
  keys m n C D hC hD hs := by
    obtain ⟨C', hC', rfl⟩ := Option.map_eq_some_iff.1 hC
    obtain ⟨D', hD', rfl⟩ := Option.map_eq_some_iff.1 hD
    rw [(hf m C').1, (hf n D').1] at hs
    exact h.keys m n C' D' hC' hD' hs
  colliders := h.colliders
  tree_nodup := h.tree_nodup
  tree_owned := h.tree_owned
  broken := h.broken

theorem update_eq_map {α : Type} (f : Nat → Option α) (b : Nat) (r : α) (g : α → α) (h : f b = some r) :
    Function.update f b (some (g r)) = fun x => (f x).map fun r => if x = b then g r else r := by
  funext x
  by_cases hx : x = b
  · subst hx; simp [h]
  · rw [Function.update_of_ne hx]; simp [hx]

theorem Inv.killBody {w : World} (h : Inv w) (b : Nat) : Inv (w.killBody b).1 := by
  unfold World.killBody
  cases hb : w.body b with
  | none => exact h
  | some r =>
    show Inv (w.setBody b _)
    refine ((h.toInv0.mapBody (fun x r => if x = b then { r with killed := true } else r) (fun x r => by split_ifs <;> simp)).congr (w' := w.setBody b { r with killed := true }) rfl ?_ rfl rfl rfl rfl rfl rfl rfl le_rfl).inv h.hits
    exact update_eq_map w.body b r (fun r => { r with killed := true }) hb

theorem Inv.killContact {w : World} (h : Inv w) (n : Nat) : Inv (w.killContact n).1 := by
  unfold World.killContact
  cases hn : w.contact n with
  | none => exact h
  | some C =>
    have e := update_eq_map w.contact n C (fun C => { C with killed := true }) hn
    show Inv (w.setContact n _)
    refine ((h.toInv0.mapContact (fun x r => if x = n then { r with killed := true } else r) (fun x r => by split_ifs <;> simp)).congr (w' := w.setContact n { C with killed := true }) rfl rfl rfl rfl rfl ?_ rfl rfl rfl le_rfl).inv ?_
    · exact e
    · intro m D hD
      simp only [setContact, e] at hD
      obtain ⟨D', hD', rfl⟩ := Option.map_eq_some_iff.1 hD
      have := h.hits m D' hD'
      split_ifs <;> simp [this]

theorem Inv.killJoint {w : World} (h : Inv w) (n : Nat) : Inv (w.killJoint n).1 := by
  unfold World.killJoint
  cases hn : w.joint n with
  | none => exact h
  | some J =>
    have key : ∀ m J', Function.update w.joint n (some { J with killed := true }) m = some J' → ∃ J'', w.joint m = some J'' ∧ J''.b0 = J'.b0 ∧ J''.b1 = J'.b1 := by
      intro m J' hJ'
      by_cases hm : m = n
      · subst hm
        rw [Function.update_self, Option.some.injEq] at hJ'
        subst hJ'
        exact ⟨J, hn, rfl, rfl⟩
      · rw [Function.update_of_ne hm] at hJ'
        exact ⟨J', hJ', rfl, rfl⟩
    exact {
      bodies_iff := h.bodies_iff
      bodies_nodup := h.bodies_nodup
      joints_iff := fun m => by
        rw [show m ∈ w.joints ↔ _ from h.joints_iff m]
        by_cases hm : m = n
        · subst hm; simp [hn]
        · simp [Function.update_of_ne hm]
      joints_nodup := h.joints_nodup
      contacts_iff := h.contacts_iff
      contacts_nodup := h.contacts_nodup
      fresh_body := h.fresh_body
      fresh_joint := fun m J' hJ' => by
        obtain ⟨J'', a, _⟩ := key m J' hJ'
        exact h.fresh_joint m J'' a
      fresh_contact := h.fresh_contact
      joint_ends := fun m J' hJ' => by
        obtain ⟨J'', a, a1, a2⟩ := key m J' hJ'
        have := h.joint_ends m J'' a
        rw [a1, a2] at this
        exact this
      joint_listed := fun b r hr m hm => by
        obtain ⟨J', hJ', hb⟩ := h.joint_listed b r hr m hm
        by_cases hmn : m = n
        · subst hmn
          rw [hn, Option.some.injEq] at hJ'
          subst hJ'
          exact ⟨_, Function.update_self .., hb⟩
        · exact ⟨J', by simp only [Function.update_of_ne hmn]; exact hJ', hb⟩
      contact_ends := h.contact_ends
      contact_listed := h.contact_listed
      contact_key := h.contact_key
      keys := h.keys
      colliders := h.colliders
      tree_nodup := h.tree_nodup
      tree_owned := h.tree_owned
      broken := h.broken
      hits := h.hits }

theorem Inv.killForce {w : World} (h : Inv w) (n : Nat) : Inv (w.killForce n).1 := by
  unfold World.killForce
  split_ifs
  · exact { h.toInv0.congr rfl rfl rfl rfl rfl rfl rfl rfl rfl le_rfl with hits := h.hits }
  · exact h

theorem Inv.makeForce {w : World} (h : Inv w) : Inv w.makeForce :=
  (h.toInv0.congr (w' := w.makeForce) rfl rfl rfl rfl rfl rfl rfl rfl rfl (Nat.le_succ _)).inv h.hits

theorem Inv0.next_body {w : World} (h : Inv0 w) : w.body w.next = none := by
  by_contra hc
  obtain ⟨r, hr⟩ := Option.ne_none_iff_exists'.1 hc
  exact absurd (h.fresh_body _ r hr).1 (lt_irrefl _)

theorem Inv0.next_joint {w : World} (h : Inv0 w) : w.joint w.next = none := by
  by_contra hc
  obtain ⟨r, hr⟩ := Option.ne_none_iff_exists'.1 hc
  exact absurd (h.fresh_joint _ r hr) (lt_irrefl _)

theorem Inv0.next_contact {w : World} (h : Inv0 w) : w.contact w.next = none := by
  by_contra hc
  obtain ⟨r, hr⟩ := Option.ne_none_iff_exists'.1 hc
  exact absurd (h.fresh_contact _ r hr) (lt_irrefl _)

theorem Inv.makeBody {w : World} (h : Inv w) (s : Bool) : Inv (w.makeBody s) := by
  have hb := h.next_body
  have hnn : ∀ b r, w.body b = some r → b ≠ w.next := fun b r hr e => by rw [e, hb] at hr; exact absurd hr (by simp)
  have key : ∀ b r, (w.makeBody s).body b = some r → (b = w.next ∧ r = ⟨s, false, [], [], []⟩) ∨ w.body b = some r := by
    intro b r hr
    simp only [World.makeBody] at hr
    by_cases hbn : b = w.next
    · subst hbn
      rw [Function.update_self, Option.some.injEq] at hr
      exact Or.inl ⟨rfl, hr.symm⟩
    · rw [Function.update_of_ne hbn] at hr
      exact Or.inr hr
  have key' : ∀ b r, w.body b = some r → (w.makeBody s).body b = some r := by
    intro b r hr
    simp only [World.makeBody]
    rw [Function.update_of_ne (hnn b r hr)]
    exact hr
  exact {
    bodies_iff := fun b => by
      show b ∈ w.bodies ++ [w.next] ↔ _
      rw [List.mem_append, h.bodies_iff, List.mem_singleton]
      simp only [World.makeBody]
      by_cases hbn : b = w.next
      · subst hbn; simp
      · rw [Function.update_of_ne hbn]; simp [hbn]
    bodies_nodup := by
      show (w.bodies ++ [w.next]).Nodup
      rw [List.nodup_append]
      refine ⟨h.bodies_nodup, by simp, ?_⟩
      intro a ha c hc
      rw [List.mem_singleton] at hc
      subst hc
      obtain ⟨r, hr⟩ := Option.isSome_iff_exists.1 ((h.bodies_iff a).1 ha)
      exact hnn a r hr
    joints_iff := h.joints_iff
    joints_nodup := h.joints_nodup
    contacts_iff := h.contacts_iff
    contacts_nodup := h.contacts_nodup
    fresh_body := fun b r hr => by
      rcases key b r hr with ⟨rfl, rfl⟩ | hr
      · exact ⟨Nat.lt_succ_self _, by simp⟩
      · obtain ⟨a, c⟩ := h.fresh_body b r hr
        exact ⟨Nat.lt_succ_of_lt a, fun k hk => Nat.lt_succ_of_lt (c k hk)⟩
    fresh_joint := fun n J hJ => Nat.lt_succ_of_lt (h.fresh_joint n J hJ)
    fresh_contact := fun n J hJ => Nat.lt_succ_of_lt (h.fresh_contact n J hJ)
    joint_ends := fun n J hJ => by
      obtain ⟨⟨r0, a1, a2⟩, r1, a3, a4⟩ := h.joint_ends n J hJ
      exact ⟨⟨r0, key' _ _ a1, a2⟩, ⟨r1, key' _ _ a3, a4⟩⟩
    joint_listed := fun b r hr n hn => by
      rcases key b r hr with ⟨rfl, rfl⟩ | hr
      · simp at hn
      · exact h.joint_listed b r hr n hn
    contact_ends := fun n J hJ => by
      obtain ⟨hne, ⟨r0, a1, a2⟩, r1, a3, a4⟩ := h.contact_ends n J hJ
      exact ⟨hne, ⟨r0, key' _ _ a1, a2⟩, ⟨r1, key' _ _ a3, a4⟩⟩
    contact_listed := fun b r hr n hn => by
      rcases key b r hr with ⟨rfl, rfl⟩ | hr
      · simp at hn
      · exact h.contact_listed b r hr n hn
    contact_key := fun n C hC => by
      obtain ⟨a1, a2, a3, a4, a5⟩ := h.contact_key n C hC
      exact ⟨a1, a2, Nat.lt_succ_of_lt a3, Nat.lt_succ_of_lt a4, a5⟩
    keys := h.keys
    colliders := fun b r hr => by
      rcases key b r hr with ⟨rfl, rfl⟩ | hr
      · simp
      · exact h.colliders b r hr
    tree_nodup := h.tree_nodup
    tree_owned := fun k hk => by
      obtain ⟨r, a1, a2⟩ := h.tree_owned k hk
      exact ⟨r, key' _ _ a1, a2⟩
    broken := h.broken
    hits := h.hits }

theorem Inv.addCollider {w : World} (h : Inv w) (b : Nat) (v : Bool) : Inv (w.addCollider b v).1 ∧ (b ∈ w.bodies → (w.addCollider b v).2 = if v then .ok () else .throw) := by
  unfold World.addCollider
  cases hb : w.body b with
  | none =>
    refine ⟨h, fun hm => ?_⟩
    rw [h.bodies_iff, hb] at hm
    simp at hm
  | some r =>
    simp only [show (w.setBody b { r with colliders := r.colliders ++ [w.next] }).broken = w.broken from rfl]
    have hnk : ∀ x r', w.body x = some r' → w.next ∉ r'.colliders := fun x r' hr' hk => absurd ((h.fresh_body x r' hr').2 _ hk) (lt_irrefl _)
    have hot : ∀ k ∈ w.tree, k ≠ w.next := by
      rintro k hk rfl
      obtain ⟨r', a1, a2⟩ := h.tree_owned _ hk
      exact hnk _ _ a1 a2
    -- the world with the collider, and its tree being `t`
    have gen : ∀ t : List Nat, t = w.tree ∨ t = w.tree ++ [w.next] →
        Inv { w.setBody b { r with colliders := r.colliders ++ [w.next] } with next := w.next + 1, owner := Function.update w.owner w.next b, tree := t } := by
      intro t ht
      have key : ∀ x r', Function.update w.body b (some { r with colliders := r.colliders ++ [w.next] }) x = some r' →
          ∃ r'', w.body x = some r'' ∧ r' = { r'' with colliders := if x = b then r''.colliders ++ [w.next] else r''.colliders } := by
        intro x r' hr'
        by_cases hx : x = b
        · subst hx
          rw [Function.update_self, Option.some.injEq] at hr'
          exact ⟨r, hb, by rw [if_pos rfl]; exact hr'.symm⟩
        · rw [Function.update_of_ne hx] at hr'
          exact ⟨r', hr', by rw [if_neg hx]⟩
      have key' : ∀ x r'', w.body x = some r'' → Function.update w.body b (some { r with colliders := r.colliders ++ [w.next] }) x =
          some { r'' with colliders := if x = b then r''.colliders ++ [w.next] else r''.colliders } := by
        intro x r'' hr'
        by_cases hx : x = b
        · subst hx
          rw [hb, Option.some.injEq] at hr'
          rw [Function.update_self, if_pos rfl, hr']
        · rw [Function.update_of_ne hx, if_neg hx, hr']
      have own : ∀ k, k ≠ w.next → Function.update w.owner w.next b k = w.owner k := fun k hk => Function.update_of_ne hk ..
      exact {
        bodies_iff := fun x => by
          show x ∈ w.bodies ↔ (Function.update w.body b _ x).isSome
          rw [h.bodies_iff]
          by_cases hx : x = b
          · subst hx; simp [hb]
          · rw [Function.update_of_ne hx]
        bodies_nodup := h.bodies_nodup
        joints_iff := h.joints_iff
        joints_nodup := h.joints_nodup
        contacts_iff := h.contacts_iff
        contacts_nodup := h.contacts_nodup
        fresh_body := fun x r' hr' => by
          obtain ⟨r'', a, rfl⟩ := key x r' hr'
          obtain ⟨a1, a2⟩ := h.fresh_body x r'' a
          refine ⟨Nat.lt_succ_of_lt a1, fun k hk => ?_⟩
          simp only at hk
          split_ifs at hk
          · rw [List.mem_append, List.mem_singleton] at hk
            rcases hk with hk | rfl
            · exact Nat.lt_succ_of_lt (a2 k hk)
            · exact Nat.lt_succ_self _
          · exact Nat.lt_succ_of_lt (a2 k hk)
        fresh_joint := fun n J hJ => Nat.lt_succ_of_lt (h.fresh_joint n J hJ)
        fresh_contact := fun n J hJ => Nat.lt_succ_of_lt (h.fresh_contact n J hJ)
        joint_ends := fun n J hJ => by
          obtain ⟨⟨r0, a1, a2⟩, r1, a3, a4⟩ := h.joint_ends n J hJ
          exact ⟨⟨_, key' _ _ a1, a2⟩, ⟨_, key' _ _ a3, a4⟩⟩
        joint_listed := fun x r' hr' n hn => by
          obtain ⟨r'', a, rfl⟩ := key x r' hr'
          exact h.joint_listed x r'' a n hn
        contact_ends := fun n J hJ => by
          obtain ⟨hne, ⟨r0, a1, a2⟩, r1, a3, a4⟩ := h.contact_ends n J hJ
          exact ⟨hne, ⟨_, key' _ _ a1, a2⟩, ⟨_, key' _ _ a3, a4⟩⟩
        contact_listed := fun x r' hr' n hn => by
          obtain ⟨r'', a, rfl⟩ := key x r' hr'
          exact h.contact_listed x r'' a n hn
        contact_key := fun n C hC => by
          obtain ⟨a1, a2, a3, a4, a5⟩ := h.contact_key n C hC
          have hsub : ∀ k ∈ w.tree, k ∈ t := fun k hk => by rcases ht with rfl | rfl <;> simp [hk]
          refine ⟨?_, ?_, Nat.lt_succ_of_lt a3, Nat.lt_succ_of_lt a4, fun hk => ⟨hsub _ (a5 hk).1, hsub _ (a5 hk).2⟩⟩
          · show Function.update w.owner w.next b C.key.1 = _
            rw [own _ (ne_of_lt a3)]; exact a1
          · show Function.update w.owner w.next b C.key.2 = _
            rw [own _ (ne_of_lt a4)]; exact a2
        keys := h.keys
        colliders := fun x r' hr' => by
          obtain ⟨r'', a, rfl⟩ := key x r' hr'
          obtain ⟨a1, a2⟩ := h.colliders x r'' a
          have hn := hnk x r'' a
          have a3 : ∀ k ∈ r''.colliders, Function.update w.owner w.next b k = x := fun k hk => by
            rw [own k (fun e => hn (e ▸ hk))]; exact a2 k hk
          simp only
          split_ifs with hx
          · refine ⟨?_, fun k hk => ?_⟩
            · rw [List.nodup_append]
              refine ⟨a1, by simp, ?_⟩
              rintro k hk c hc rfl
              rw [List.mem_singleton] at hc
              exact hn (hc ▸ hk)
            · rw [List.mem_append, List.mem_singleton] at hk
              rcases hk with hk | rfl
              · exact a3 k hk
              · rw [Function.update_self]; exact hx.symm
          · exact ⟨a1, a3⟩
        tree_nodup := by
          rcases ht with rfl | rfl
          · exact h.tree_nodup
          · show (w.tree ++ [w.next]).Nodup
            rw [List.nodup_append]
            refine ⟨h.tree_nodup, by simp, ?_⟩
            rintro k hk c hc
            rw [List.mem_singleton] at hc
            subst hc
            exact hot k hk
        tree_owned := fun k hk => by
          show ∃ r', Function.update w.body b _ (Function.update w.owner w.next b k) = some r' ∧ _
          have old : k ∈ w.tree → ∃ r', Function.update w.body b (some { r with colliders := r.colliders ++ [w.next] }) (Function.update w.owner w.next b k) = some r' ∧ k ∈ r'.colliders := by
            intro hk
            obtain ⟨r', a1, a2⟩ := h.tree_owned k hk
            rw [own k (hot k hk)]
            refine ⟨_, key' _ _ a1, ?_⟩
            simp only
            split_ifs
            · simp [a2]
            · exact a2
          rcases ht with rfl | rfl
          · exact old hk
          · rw [show ({ w.setBody b { r with colliders := r.colliders ++ [w.next] } with next := w.next + 1, owner := Function.update w.owner w.next b, tree := w.tree ++ [w.next] } : World).tree = w.tree ++ [w.next] from rfl, List.mem_append, List.mem_singleton] at hk
            rcases hk with hk | rfl
            · exact old hk
            · rw [Function.update_self, Function.update_self]
              exact ⟨_, rfl, by simp⟩
        broken := h.broken
        hits := h.hits }
    cases v with
    | false => exact ⟨gen w.tree (Or.inl rfl), fun _ => rfl⟩
    | true =>
      rw [if_neg (by simp), if_neg (by simp [h.broken])]
      exact ⟨gen (w.tree ++ [w.next]) (Or.inr rfl), fun _ => rfl⟩

theorem Inv.removeCollider {w : World} (h : Inv w) {k : Nat} (hk : k ∈ w.tree) :
    Inv (w.removeCollider k).1 ∧ (w.removeCollider k).2 ≠ .ub := by
  obtain ⟨r, hr, hkr⟩ := h.tree_owned k hk
  rw [removeCollider_eq h.toInv0.weak hk hr]
  refine ⟨?_, by split_ifs <;> simp⟩
  have hct : (dropCollider w k r).contact = fun n => (w.contact n).map (mark k) := by
    funext n
    simp only [dropCollider]
    by_cases hn : n ∈ r.contacts
    · rw [if_pos hn]
    · rw [if_neg hn]
      cases hC : w.contact n with
      | none => rfl
      | some C =>
        obtain ⟨a1, a2, -, -, -⟩ := h.contact_key n C hC
        obtain ⟨-, ⟨r0, b1, b2⟩, r1, b3, b4⟩ := h.contact_ends n C hC
        have hne : ¬(C.key.1 = k ∨ C.key.2 = k) := by
          rintro (e | e)
          · apply hn
            rw [← a1, e, hr, Option.some.injEq] at b1
            subst b1
            exact List.count_pos_iff.1 (by omega)
          · apply hn
            rw [← a2, e, hr, Option.some.injEq] at b3
            subst b3
            exact List.count_pos_iff.1 (by omega)
        rw [Option.map_some, mark, if_neg hne]
  have h1 := h.toInv0.mapContact (fun _ C => mark k C) (fun n C => by unfold mark; split_ifs <;> simp)
  have hb := update_eq_map w.body (w.owner k) r (fun r => { r with colliders := r.colliders.filter (· ≠ k) }) hr
  have key : ∀ b r', (dropCollider w k r).body b = some r' → ∃ r'', w.body b = some r'' ∧
      r' = { r'' with colliders := if b = w.owner k then r''.colliders.filter (· ≠ k) else r''.colliders } := by
    intro b r' hr'
    simp only [dropCollider, hb] at hr'
    obtain ⟨r'', a, rfl⟩ := Option.map_eq_some_iff.1 hr'
    refine ⟨r'', a, ?_⟩
    split_ifs <;> rfl
  have key' : ∀ b r'', w.body b = some r'' → (dropCollider w k r).body b =
      some { r'' with colliders := if b = w.owner k then r''.colliders.filter (· ≠ k) else r''.colliders } := by
    intro b r'' hr''
    simp only [dropCollider, hb, hr'', Option.map_some]
    split_ifs <;> rfl
  have wk := h.toInv0.weak.dropCollider hr
  exact {
    bodies_iff := wk.bodies_iff
    bodies_nodup := h.bodies_nodup
    joints_iff := h.joints_iff
    joints_nodup := h.joints_nodup
    contacts_iff := fun n => by rw [hct]; exact h1.contacts_iff n
    contacts_nodup := h.contacts_nodup
    fresh_body := fun b r' hr' => by
      obtain ⟨r'', a, rfl⟩ := key b r' hr'
      obtain ⟨a1, a2⟩ := h.fresh_body b r'' a
      refine ⟨a1, fun x hx => a2 x ?_⟩
      simp only at hx
      split_ifs at hx
      · exact List.mem_of_mem_filter hx
      · exact hx
    fresh_joint := h.fresh_joint
    fresh_contact := fun n C hC => by rw [hct] at hC; exact h1.fresh_contact n C hC
    joint_ends := fun n J hJ => by
      obtain ⟨⟨r0, a1, a2⟩, r1, a3, a4⟩ := h.joint_ends n J hJ
      exact ⟨⟨_, key' _ _ a1, a2⟩, ⟨_, key' _ _ a3, a4⟩⟩
    joint_listed := fun x r' hr' n hn => by
      obtain ⟨r'', a, rfl⟩ := key x r' hr'
      exact h.joint_listed x r'' a n hn
    contact_ends := fun n J hJ => by
      rw [hct] at hJ
      obtain ⟨hne, ⟨r0, a1, a2⟩, r1, a3, a4⟩ := h1.contact_ends n J hJ
      exact ⟨hne, ⟨_, key' _ _ a1, a2⟩, ⟨_, key' _ _ a3, a4⟩⟩
    contact_listed := fun x r' hr' n hn => by
      obtain ⟨r'', a, rfl⟩ := key x r' hr'
      rw [hct]
      exact h1.contact_listed x r'' a n hn
    contact_key := fun n C hC => by
      rw [hct] at hC
      obtain ⟨C', hC', rfl⟩ := Option.map_eq_some_iff.1 hC
      obtain ⟨a1, a2, a3, a4, a5⟩ := h1.contact_key n (mark k C') hC
      refine ⟨a1, a2, a3, a4, fun hk => ?_⟩
      obtain ⟨t1, t2⟩ := a5 hk
      have hne : ¬(C'.key.1 = k ∨ C'.key.2 = k) := by
        intro e
        rw [mark, if_pos e] at hk
        simp at hk
      have e : mark k C' = C' := by rw [mark, if_neg hne]
      rw [e] at t1 t2 ⊢
      push Not at hne
      simp only [dropCollider, List.mem_filter]
      exact ⟨⟨t1, by simpa using hne.1⟩, ⟨t2, by simpa using hne.2⟩⟩
    keys := fun m n C D hC hD hs => by
      rw [hct] at hC hD
      exact h1.keys m n C D hC hD hs
    colliders := wk.colliders
    tree_nodup := h.tree_nodup.filter _
    tree_owned := wk.tree_owned
    broken := h.broken
    hits := fun n C hC => by
      rw [hct] at hC
      obtain ⟨C', hC', rfl⟩ := Option.map_eq_some_iff.1 hC
      have := h.hits n C' hC'
      unfold mark
      split_ifs <;> simp [this] }

/-- The world with a new constraint. -/
def addJoint (w : World) (b0 b1 : Nat) (d : Bool) : World :=
  { w with
    next := w.next + 1
    joints := w.joints ++ [w.next]
    joint := Function.update w.joint w.next (some ⟨b0, b1, d, false⟩)
    body := fun b => (w.body b).map fun r => if b = b0 ∨ b = b1 then { r with joints := r.joints ++ [w.next] } else r
    log := w.log ++ [.constructed (.joint w.next)] }

theorem makeConstraint_eq {w : World} (h : Inv0 w) {b0 b1 : Nat} (d : Bool) (h0 : b0 ∈ w.bodies) (h1 : b1 ∈ w.bodies) :
    w.makeConstraint b0 b1 d false = (addJoint w b0 b1 d, .ok ()) := by
  obtain ⟨r0, h0⟩ := Option.isSome_iff_exists.1 ((h.bodies_iff b0).1 h0)
  obtain ⟨r1, h1⟩ := Option.isSome_iff_exists.1 ((h.bodies_iff b1).1 h1)
  unfold makeConstraint
  rw [if_neg (by simp [h0, h1])]
  simp only [Bool.false_eq_true, if_false]
  set w' : World := { w with next := w.next + 1, joints := w.joints ++ [w.next],
                             joint := Function.update w.joint w.next (some ⟨b0, b1, d, false⟩), log := w.log ++ [.constructed (.joint w.next)] } with hw'
  have e1 : w'.listJoint w.next b0 = .ok (w'.setBody b0 { r0 with joints := r0.joints ++ [w.next] }) := by
    simp only [listJoint, show w'.body b0 = some r0 from h0]
  rw [e1, Outcome.bind_ok]
  by_cases he : b0 = b1
  · subst he
    rw [if_pos rfl]
    simp only [Prod.mk.injEq, and_true]
    ext1
    all_goals try rfl
    have := update_eq_map w.body b0 r0 (fun r => { r with joints := r.joints ++ [w.next] }) h0
    simp only [setBody, addJoint, hw', or_self]
    exact this
  · rw [if_neg he]
    have e2 : (w'.setBody b0 { r0 with joints := r0.joints ++ [w.next] }).listJoint w.next b1 =
        .ok ((w'.setBody b0 { r0 with joints := r0.joints ++ [w.next] }).setBody b1 { r1 with joints := r1.joints ++ [w.next] }) := by
      simp only [listJoint, setBody, hw', Function.update_of_ne (Ne.symm he), h1]
    rw [e2]
    simp only [Prod.mk.injEq, and_true]
    ext1
    all_goals try rfl
    funext b
    simp only [setBody, addJoint, hw']
    by_cases hb1 : b = b1
    · subst hb1; rw [Function.update_self, h1]; simp
    · rw [Function.update_of_ne hb1]
      by_cases hb0 : b = b0
      · subst hb0; rw [Function.update_self, h0]; simp
      · rw [Function.update_of_ne hb0]; simp [hb0, hb1]

theorem Inv.addJoint {w : World} (h : Inv w) {b0 b1 : Nat} (d : Bool) (h0 : b0 ∈ w.bodies) (h1 : b1 ∈ w.bodies) : Inv (addJoint w b0 b1 d) := by
  obtain ⟨r0, h0⟩ := Option.isSome_iff_exists.1 ((h.bodies_iff b0).1 h0)
  obtain ⟨r1, h1⟩ := Option.isSome_iff_exists.1 ((h.bodies_iff b1).1 h1)
  have hj := h.next_joint
  have hnew : ∀ b r, w.body b = some r → w.next ∉ r.joints := by
    intro b r hr hn
    obtain ⟨J, hJ, _⟩ := h.joint_listed b r hr _ hn
    rw [hj] at hJ
    exact absurd hJ (by simp)
  have key : ∀ b r', (World.addJoint w b0 b1 d).body b = some r' → ∃ r, w.body b = some r ∧
      r' = { r with joints := if b = b0 ∨ b = b1 then r.joints ++ [w.next] else r.joints } := by
    intro b r' hr'
    obtain ⟨r, a, rfl⟩ := Option.map_eq_some_iff.1 hr'
    refine ⟨r, a, ?_⟩
    split_ifs <;> rfl
  have key' : ∀ b r, w.body b = some r → (World.addJoint w b0 b1 d).body b =
      some { r with joints := if b = b0 ∨ b = b1 then r.joints ++ [w.next] else r.joints } := by
    intro b r hr
    simp only [World.addJoint, hr, Option.map_some]
    split_ifs <;> rfl
  have hjn : ∀ n J, w.joint n = some J → n ≠ w.next := fun n J hJ e => by rw [e, hj] at hJ; exact absurd hJ (by simp)
  have old : ∀ b n, n ≠ w.next → ListsJoint w b n → ListsJoint (World.addJoint w b0 b1 d) b n := by
    rintro b n hn ⟨r, a1, a2⟩
    refine ⟨_, key' b r a1, ?_⟩
    simp only
    split_ifs
    · rw [List.count_append, a2, List.count_singleton, if_neg (by simpa using Ne.symm hn)]
    · exact a2
  have new : ∀ b r, w.body b = some r → (b = b0 ∨ b = b1) → ListsJoint (World.addJoint w b0 b1 d) b w.next := by
    intro b r hr hb
    refine ⟨_, key' b r hr, ?_⟩
    simp only
    rw [if_pos hb, List.count_append, List.count_eq_zero.2 (hnew b r hr), List.count_singleton, if_pos (by simp)]
  have jkey : ∀ n J, (World.addJoint w b0 b1 d).joint n = some J → (n = w.next ∧ J = ⟨b0, b1, d, false⟩) ∨ w.joint n = some J := by
    intro n J hJ
    simp only [World.addJoint] at hJ
    by_cases hn : n = w.next
    · subst hn
      rw [Function.update_self, Option.some.injEq] at hJ
      exact Or.inl ⟨rfl, hJ.symm⟩
    · rw [Function.update_of_ne hn] at hJ
      exact Or.inr hJ
  exact {
    bodies_iff := fun b => by
      show b ∈ w.bodies ↔ _
      rw [h.bodies_iff]
      simp [World.addJoint]
    bodies_nodup := h.bodies_nodup
    joints_iff := fun n => by
      show n ∈ w.joints ++ [w.next] ↔ (Function.update w.joint w.next _ n).isSome
      rw [List.mem_append, h.joints_iff, List.mem_singleton]
      by_cases hn : n = w.next
      · subst hn; simp
      · rw [Function.update_of_ne hn]; simp [hn]
    joints_nodup := by
      show (w.joints ++ [w.next]).Nodup
      rw [List.nodup_append]
      refine ⟨h.joints_nodup, by simp, ?_⟩
      intro a ha c hc
      rw [List.mem_singleton] at hc
      subst hc
      obtain ⟨r, hr⟩ := Option.isSome_iff_exists.1 ((h.joints_iff a).1 ha)
      exact hjn a r hr
    contacts_iff := h.contacts_iff
    contacts_nodup := h.contacts_nodup
    fresh_body := fun b r' hr' => by
      obtain ⟨r, a, rfl⟩ := key b r' hr'
      obtain ⟨a1, a2⟩ := h.fresh_body b r a
      exact ⟨Nat.lt_succ_of_lt a1, fun k hk => Nat.lt_succ_of_lt (a2 k hk)⟩
    fresh_joint := fun n J hJ => by
      rcases jkey n J hJ with ⟨rfl, rfl⟩ | hJ
      · exact Nat.lt_succ_self _
      · exact Nat.lt_succ_of_lt (h.fresh_joint n J hJ)
    fresh_contact := fun n J hJ => Nat.lt_succ_of_lt (h.fresh_contact n J hJ)
    joint_ends := fun n J hJ => by
      rcases jkey n J hJ with ⟨rfl, rfl⟩ | hJ
      · exact ⟨new b0 r0 h0 (Or.inl rfl), new b1 r1 h1 (Or.inr rfl)⟩
      · obtain ⟨a, c⟩ := h.joint_ends n J hJ
        exact ⟨old _ _ (hjn n J hJ) a, old _ _ (hjn n J hJ) c⟩
    joint_listed := fun b r' hr' n hn => by
      obtain ⟨r, a, rfl⟩ := key b r' hr'
      have oldc : n ∈ r.joints → ∃ J, (World.addJoint w b0 b1 d).joint n = some J ∧ (J.b0 = b ∨ J.b1 = b) := by
        intro hn
        obtain ⟨J, hJ, hb⟩ := h.joint_listed b r a n hn
        refine ⟨J, ?_, hb⟩
        simp only [World.addJoint]
        rw [Function.update_of_ne (hjn n J hJ)]
        exact hJ
      simp only at hn
      split_ifs at hn with hb
      · rw [List.mem_append, List.mem_singleton] at hn
        rcases hn with hn | rfl
        · exact oldc hn
        · exact ⟨_, Function.update_self .., hb.imp Eq.symm Eq.symm⟩
      · exact oldc hn
    contact_ends := fun n J hJ => by
      obtain ⟨hne, ⟨r0, a1, a2⟩, r1, a3, a4⟩ := h.contact_ends n J hJ
      exact ⟨hne, ⟨_, key' _ _ a1, a2⟩, ⟨_, key' _ _ a3, a4⟩⟩
    contact_listed := fun x r' hr' n hn => by
      obtain ⟨r'', a, rfl⟩ := key x r' hr'
      exact h.contact_listed x r'' a n hn
    contact_key := fun n C hC => by
      obtain ⟨a1, a2, a3, a4, a5⟩ := h.contact_key n C hC
      exact ⟨a1, a2, Nat.lt_succ_of_lt a3, Nat.lt_succ_of_lt a4, a5⟩
    keys := h.keys
    colliders := fun b r' hr' => by
      obtain ⟨r, a, rfl⟩ := key b r' hr'
      exact h.colliders b r a
    tree_nodup := h.tree_nodup
    tree_owned := fun k hk => by
      obtain ⟨r, a1, a2⟩ := h.tree_owned k hk
      exact ⟨_, key' _ _ a1, a2⟩
    broken := h.broken
    hits := h.hits }

theorem Inv.makeConstraint {w : World} (h : Inv w) {b0 b1 : Nat} (d f : Bool) (h0 : b0 ∈ w.bodies) (h1 : b1 ∈ w.bodies) :
    Inv (w.makeConstraint b0 b1 d f).1 ∧ (w.makeConstraint b0 b1 d f).2 = if f then .throw else .ok () := by
  cases f with
  | false => rw [makeConstraint_eq h.toInv0 d h0 h1]; exact ⟨h.addJoint d h0 h1, rfl⟩
  | true =>
    have s0 := (h.bodies_iff b0).1 h0
    have s1 := (h.bodies_iff b1).1 h1
    unfold World.makeConstraint
    rw [if_neg (by rintro (e | e) <;> simp_all)]
    exact ⟨h, rfl⟩

theorem Inv.setContactFactory {w : World} (h : Inv w) (hc : w.contacts = []) : Inv w.setContactFactory := by
  have hn : w.contact = fun _ => none := by
    funext n
    by_contra hne
    obtain ⟨C, hC⟩ := Option.ne_none_iff_exists'.1 hne
    have := (h.contacts_iff n).2 (by simp [hC])
    simp [hc] at this
  refine (h.toInv0.congr (w' := w.setContactFactory) rfl rfl rfl rfl hc.symm ?_ rfl rfl rfl le_rfl).inv ?_
  · simp [World.setContactFactory, hn]
  · simp [World.setContactFactory]

theorem Inv.clear {cfg : Cfg} {w : World} (h : Inv w) :
    ((∀ b ∈ w.bodies, Destructible cfg w b) → Inv (w.clear cfg).1 ∧ (w.clear cfg).2 = .ok () ∧ (w.clear cfg).1.bodies = [] ∧ (w.clear cfg).1.joints = [] ∧
      (w.clear cfg).1.contacts = [] ∧ (w.clear cfg).1.forces = [] ∧ (w.clear cfg).1.tree = []) ∧
    ((∃ b ∈ w.bodies, ¬Destructible cfg w b) → (w.clear cfg).2 = .ub) := by
  constructor
  · intro hd
    obtain ⟨ct, e, -, -⟩ := destroyBodies_ok cfg w.bodies h.toInv0.weak h.bodies_nodup (fun _ hb => hb) hd
    unfold World.clear
    rw [e]
    simp only [h.broken, Bool.false_eq_true, if_false]
    have hb : ∀ b, (if b ∈ w.bodies then none else w.body b) = none := by
      intro b
      split_ifs with hb
      · rfl
      · rw [h.bodies_iff] at hb
        simpa using hb
    have hbs : w.bodies.filter (fun b => decide (b ∉ w.bodies)) = [] := by
      rw [List.filter_eq_nil_iff]
      intro b hb
      simp [hb]
    refine ⟨?_, trivial, hbs, trivial, trivial, trivial, trivial⟩
    simp only [hb, hbs]
    exact {
      bodies_iff := by simp
      bodies_nodup := by simp
      joints_iff := by simp
      joints_nodup := by simp
      contacts_iff := by simp
      contacts_nodup := by simp
      fresh_body := by simp
      fresh_joint := by simp
      fresh_contact := by simp
      joint_ends := by simp
      joint_listed := by simp
      contact_ends := by simp
      contact_listed := by simp
      contact_key := by simp
      keys := by simp
      colliders := by simp
      tree_nodup := by simp
      tree_owned := by simp
      broken := rfl
      hits := by simp }
  · intro hd
    unfold World.clear
    rw [destroyBodies_ub cfg w.bodies h.toInv0.weak h.bodies_nodup (fun _ hb => hb) hd]

end Simu.World
