import Verif.Spec.Pool
import Verif.Lemmas.Memory
import Mathlib.Data.List.Perm.Basic
/-
Lemmas for C100.
-/
namespace Simu.Memory

theorem liveAt_perm {l m : List Live} (h : l.Perm m) (x : Nat) : liveAt l x = liveAt m x := h.countP_eq _

theorem SysOk.perm {bs : List Block} {l m : List Live} (h : SysOk ⟨bs, l⟩) (hp : l.Perm m) : SysOk ⟨bs, m⟩ :=
  ⟨h.blocks, h.apart, fun x hx => h.live x (hp.mem_iff.2 hx), fun x => by have := h.tile x; simp only at this ⊢; rw [← liveAt_perm hp]; exact this⟩

theorem Occupied.perm {bs : List Block} {l m : List Live} (h : Occupied ⟨bs, l⟩) (hp : l.Perm m) : Occupied ⟨bs, m⟩ :=
  fun b hb => by obtain ⟨x, hx, hx'⟩ := h b hb; exact ⟨x, hp.mem_iff.1 hx, hx'⟩

theorem tryBlocks_shapes {n size align : Nat} : ∀ (bs : List Block) r, tryBlocks n size align bs = some r → ∀ b ∈ r.2, ∃ c ∈ bs, c.data = b.data ∧ c.sz = b.sz := by
  intro bs
  induction bs with
  | nil => intro r hr; simp [tryBlocks] at hr
  | cons c bs ih =>
    intro r hr b hb
    rw [tryBlocks] at hr
    cases hc : c.allocate n size align with
    | some q =>
      rw [hc] at hr
      simp only [Option.some.injEq] at hr
      subst hr
      rcases List.mem_cons.1 hb with rfl | hb
      · refine ⟨c, List.mem_cons_self, ?_⟩
        unfold Block.allocate at hc
        split at hc
        · simp at hc
        · obtain ⟨q', _, hq⟩ := Option.map_eq_some_iff.1 hc
          rw [← hq]; exact ⟨rfl, rfl⟩
      · exact ⟨b, List.mem_cons_of_mem _ hb, rfl, rfl⟩
    | none =>
      rw [hc] at hr
      obtain ⟨q, hq, hq'⟩ := Option.map_eq_some_iff.1 hr
      subst hq'
      rcases List.mem_cons.1 hb with rfl | hb
      · exact ⟨b, List.mem_cons_self, rfl, rfl⟩
      · obtain ⟨d, hd, hd'⟩ := ih q hq b hb
        exact ⟨d, List.mem_cons_of_mem _ hd, hd'⟩

theorem allocate_shapes {blockSize n size align base : Nat} (bs : List Block) (hw : n * size + align ≤ wordSize) (ha : 0 < align) :
    ∀ b ∈ (allocate blockSize bs n size align base).2, (∃ c ∈ bs, c.data = b.data ∧ c.sz = b.sz) ∨ (b.data = base ∧ b.sz = max blockSize (n * size + align - 1)) := by
  intro b hb
  have hmod : (byteCount n size + align - 1) % wordSize = n * size + align - 1 := by
    rw [byteCount_eq hw ha]; exact Nat.mod_eq_of_lt (by omega)
  unfold allocate at hb
  split at hb
  · exact .inl ⟨b, hb, rfl, rfl⟩
  · cases ht : tryBlocks n size align bs with
    | some r =>
      rw [ht] at hb
      exact .inl (tryBlocks_shapes bs r ht b hb)
    | none =>
      rw [ht] at hb
      simp only [hmod] at hb
      generalize hS : max blockSize (n * size + align - 1) = S at *
      cases hc : (Block.mk' base S).allocate n size align with
      | none =>
        rw [hc] at hb
        rcases List.mem_append.1 hb with hb | hb
        · exact .inl ⟨b, hb, rfl, rfl⟩
        · simp at hb; subst hb; exact .inr ⟨rfl, rfl⟩
      | some q =>
        rw [hc] at hb
        rcases List.mem_append.1 hb with hb | hb
        · exact .inl ⟨b, hb, rfl, rfl⟩
        · simp at hb; subst hb
          unfold Block.allocate at hc
          split at hc
          · simp at hc
          · obtain ⟨q', _, hq⟩ := Option.map_eq_some_iff.1 hc
            rw [← hq]; exact .inr ⟨rfl, rfl⟩

theorem deallocate_shapes {p n size : Nat} : ∀ (bs : List Block), ∀ b ∈ deallocate bs p n size, ∃ c ∈ bs, c.data = b.data ∧ c.sz = b.sz := by
  intro bs
  induction bs with
  | nil => intro b hb; simp [deallocate] at hb
  | cons c bs ih =>
    intro b hb
    rw [deallocate] at hb
    have hs : (c.deallocate p n size).2.data = c.data ∧ (c.deallocate p n size).2.sz = c.sz := by
      unfold Block.deallocate; split <;> exact ⟨rfl, rfl⟩
    revert hb hs
    generalize c.deallocate p n size = y
    intro hb hs
    obtain ⟨t, c'⟩ := y
    cases t with
    | true =>
      simp only at hb
      split at hb
      · exact ⟨b, List.mem_cons_of_mem _ hb, rfl, rfl⟩
      · rcases List.mem_cons.1 hb with rfl | hb
        · exact ⟨c, List.mem_cons_self, hs.1.symm, hs.2.symm⟩
        · exact ⟨b, List.mem_cons_of_mem _ hb, rfl, rfl⟩
    | false =>
      rcases List.mem_cons.1 hb with rfl | hb
      · exact ⟨b, List.mem_cons_self, rfl, rfl⟩
      · obtain ⟨d, hd, hd'⟩ := ih b hb
        exact ⟨d, List.mem_cons_of_mem _ hd, hd'⟩

namespace Pools

/-- The allocations of a shared list of blocks: those of pointers and those that were lost. -/
def lives (lost : Nat → List Live) (ptrs : List Ptr) (h : Nat) : List Live :=
  ((ptrs.filter fun p => p.heap = h).map fun p => ⟨p.addr, p.type.size, p.type.align⟩) ++ lost h

structure Inv (lost : Nat → List Live) (s : Pools) : Prop where
  sys : ∀ h bs, s.heap h = some bs → SysOk ⟨bs, lives lost s.ptrs h⟩ ∧ Occupied ⟨bs, lives lost s.ptrs h⟩
  ptr : ∀ p ∈ s.ptrs, s.heap p.heap ≠ none
  alloc : ∀ h ∈ s.allocs, s.heap h ≠ none
  needed : s.Needed
  fresh : ∀ h, s.made ≤ h → s.heap h = none ∧ lost h = []
  apart : ∀ h k bs cs, h ≠ k → s.heap h = some bs → s.heap k = some cs → ∀ b ∈ bs, ∀ c ∈ cs, DisjointRange b.data b.sz c.data c.sz
  owned : s.Owned
  once : s.OnceEach

theorem mem_lives {lost : Nat → List Live} {ptrs : List Ptr} {p : Ptr} (h : p ∈ ptrs) : (⟨p.addr, p.type.size, p.type.align⟩ : Live) ∈ lives lost ptrs p.heap :=
  List.mem_append_left _ (List.mem_map.2 ⟨p, List.mem_filter.2 ⟨h, by simp⟩, rfl⟩)

/-- Live allocations of one heap do not overlap. -/
theorem SysOk.disjoint {s : Sys} (h : SysOk s) : s.live.Pairwise fun a b => DisjointRange a.ptr a.bytes b.ptr b.bytes := by
  have key : ∀ x, liveAt s.live x ≤ 1 := fun x => by
    have := h.tile x; have := ownedAt_le_one h.apart x; omega
  have hpos : ∀ l ∈ s.live, 0 < l.bytes := fun l hl => (h.live l hl).1
  generalize s.live = ls at key hpos
  induction ls with
  | nil => exact List.Pairwise.nil
  | cons l ls ih =>
    refine List.pairwise_cons.2 ⟨fun m hm => ?_, ih ?_ fun a ha => hpos a (by simp [ha])⟩
    · by_contra hcon
      unfold DisjointRange at hcon
      have h1 := key (max l.ptr m.ptr)
      rw [liveAt_cons] at h1
      have hl := hpos l (by simp)
      have hm' := hpos m (by simp [hm])
      have h2 := liveAt_pos (x := max l.ptr m.ptr) hm (by omega) (by omega)
      have h3 : ind l.ptr (l.ptr + l.bytes) (max l.ptr m.ptr) = 1 := by
        unfold ind; rw [if_pos (by omega)]
      omega
    · intro x; have := key x; rw [liveAt_cons] at this; omega

theorem Inv.pos {lost : Nat → List Live} {s : Pools} (hi : Inv lost s) {p : Ptr} (hp : p ∈ s.ptrs) :
    0 < p.type.size ∧ p.type.align ∣ p.addr ∧ ∃ bs, s.heap p.heap = some bs ∧ ∃ b ∈ bs, b.data ≤ p.addr ∧ p.addr + p.type.size ≤ b.data + b.sz := by
  obtain ⟨bs, hb⟩ := Option.ne_none_iff_exists'.1 (hi.ptr p hp)
  obtain ⟨h1, _, h3, h4⟩ := (hi.sys _ bs hb).1.live _ (mem_lives hp)
  exact ⟨h1, h3, bs, hb, h4⟩

theorem Inv.disjoint {lost : Nat → List Live} {s : Pools} (hi : Inv lost s) : s.ptrs.Pairwise fun p q => DisjointRange p.addr p.type.size q.addr q.type.size := by
  rw [List.pairwise_iff_getElem]
  intro i j hi' hj' hij
  have hp := List.getElem_mem hi'
  have hq := List.getElem_mem hj'
  by_cases hh : s.ptrs[i].heap = s.ptrs[j].heap
  · obtain ⟨_, _, bs, hb, _⟩ := hi.pos hp
    have hd := SysOk.disjoint (hi.sys _ bs hb).1
    have hd' := (List.pairwise_append.1 hd).1
    rw [List.pairwise_map, List.pairwise_filter, List.pairwise_iff_getElem] at hd'
    exact hd' i j hi' hj' hij (by simp) (by simp [hh])
  · obtain ⟨_, _, bs, hb, b, hbm, hb1, hb2⟩ := hi.pos hp
    obtain ⟨_, _, cs, hc, c, hcm, hc1, hc2⟩ := hi.pos hq
    have := hi.apart _ _ bs cs hh hb hc b hbm c hcm
    unfold DisjointRange at this ⊢
    omega

/-- Pointers with the same address are the same. -/
theorem Inv.addr_inj {lost : Nat → List Live} {s : Pools} (hi : Inv lost s) {p q : Ptr} (hp : p ∈ s.ptrs) (hq : q ∈ s.ptrs) (h : p.addr = q.addr) : p = q := by
  by_contra hne
  obtain ⟨i, hi', rfl⟩ := List.getElem_of_mem hp
  obtain ⟨j, hj', rfl⟩ := List.getElem_of_mem hq
  have hd := List.pairwise_iff_getElem.1 hi.disjoint
  have h1 := (hi.pos hp).1
  have h2 := (hi.pos hq).1
  rcases lt_trichotomy i j with hlt | rfl | hlt
  · have := hd i j hi' hj' hlt
    unfold DisjointRange at this
    omega
  · exact hne rfl
  · have := hd j i hj' hi' hlt
    unfold DisjointRange at this
    omega

theorem Inv.sound {lost : Nat → List Live} {s : Pools} (hi : Inv lost s) : s.Apart ∧ s.Backed := by
  refine ⟨⟨fun o ho => ?_, ?_⟩, fun p hp => (hi.pos hp).2.2⟩
  · obtain ⟨p, hp, rfl⟩ := List.mem_map.1 (hi.owned.mem_iff.1 ho)
    exact (hi.pos hp).2.1
  · refine (hi.owned.pairwise_iff fun {a b} h => ?_).2 ?_
    · unfold DisjointRange at h ⊢; omega
    · rw [List.pairwise_map]
      exact hi.disjoint

theorem inv_init : Inv (fun _ => []) init :=
  ⟨fun _ _ h => by simp [init] at h, fun _ h => by simp [init] at h, fun _ h => by simp [init] at h, fun _ _ h => by simp [init] at h, fun _ _ => ⟨rfl, rfl⟩,
    fun _ _ _ _ _ h => by simp [init] at h, List.Perm.refl _, List.Perm.refl _⟩

/-- What is left to show before a release. -/
theorem inv_release {lost : Nat → List Live} {s : Pools}
    (sys : ∀ h bs, s.heap h = some bs → SysOk ⟨bs, lives lost s.ptrs h⟩ ∧ Occupied ⟨bs, lives lost s.ptrs h⟩)
    (ptr : ∀ p ∈ s.ptrs, s.heap p.heap ≠ none) (alloc : ∀ h ∈ s.allocs, s.heap h ≠ none) (fresh : ∀ h, s.made ≤ h → s.heap h = none ∧ lost h = [])
    (apart : ∀ h k bs cs, h ≠ k → s.heap h = some bs → s.heap k = some cs → ∀ b ∈ bs, ∀ c ∈ cs, DisjointRange b.data b.sz c.data c.sz)
    (owned : s.Owned) (once : s.OnceEach) : Inv lost s.release := by
  have hsub : ∀ h bs, s.release.heap h = some bs → s.heap h = some bs ∧ (h ∈ s.allocs ∨ ∃ p ∈ s.ptrs, p.heap = h) := by
    intro h bs hb
    simp only [release] at hb
    split at hb
    · rename_i hc
      refine ⟨hb, ?_⟩
      simpa [List.any_eq_true] using hc
    · simp at hb
  have hkeep : ∀ h, (h ∈ s.allocs ∨ ∃ p ∈ s.ptrs, p.heap = h) → s.release.heap h = s.heap h := by
    intro h hc
    simp only [release]
    rw [if_pos]
    simpa [List.any_eq_true] using hc
  refine ⟨fun h bs hb => sys h bs (hsub h bs hb).1, fun p hp => ?_, fun h hh => ?_, fun h bs hb => (hsub h bs hb).2, fun h hh => ⟨?_, (fresh h hh).2⟩,
    fun h k bs cs hne hb hc => apart h k bs cs hne (hsub h bs hb).1 (hsub k cs hc).1, owned, once⟩
  · rw [hkeep _ (.inr ⟨p, hp, rfl⟩)]; exact ptr p hp
  · rw [hkeep _ (.inl hh)]; exact alloc h hh
  · cases hb : s.release.heap h with
    | none => rfl
    | some bs => rw [← (hsub h bs hb).1]; exact (fresh h hh).1

theorem Inv.not_fresh {lost : Nat → List Live} {s : Pools} (hi : Inv lost s) {h : Nat} (hh : s.heap h ≠ none) : h < s.made := by
  by_contra hc
  exact hh (hi.fresh h (by omega)).1

theorem inv_newAlloc {lost : Nat → List Live} {s : Pools} (hi : Inv lost s) : Inv lost s.newAlloc := by
  have hup : ∀ h bs, s.newAlloc.heap h = some bs → (h = s.made ∧ bs = []) ∨ (h ≠ s.made ∧ s.heap h = some bs) := by
    intro h bs hb
    simp only [newAlloc] at hb
    by_cases hh : h = s.made
    · subst hh; rw [Function.update_self] at hb; simp at hb; exact .inl ⟨rfl, hb⟩
    · rw [Function.update_of_ne hh] at hb; exact .inr ⟨hh, hb⟩
  have hkeep : ∀ h, s.heap h ≠ none → s.newAlloc.heap h ≠ none := by
    intro h hh
    have := hi.not_fresh hh
    simp only [newAlloc]
    rwa [Function.update_of_ne (by omega)]
  refine ⟨fun h bs hb => ?_, fun p hp => hkeep _ (hi.ptr p hp), fun h hh => ?_, fun h bs hb => ?_, fun h hh => ?_, fun h k bs cs hne hb hc b hbm c hcm => ?_, hi.owned, hi.once⟩
  · rcases hup h bs hb with ⟨rfl, rfl⟩ | ⟨_, hb⟩
    · have : lives lost s.newAlloc.ptrs s.made = [] := by
        unfold lives
        rw [(hi.fresh _ (le_refl _)).2, List.append_nil, List.map_eq_nil_iff, List.filter_eq_nil_iff]
        intro p hp
        have := hi.not_fresh (hi.ptr p hp)
        simp; omega
      rw [this]
      exact reachable_ok (blockSize := 0) .init
    · exact hi.sys h bs hb
  · rcases List.mem_cons.1 hh with rfl | hh
    · simp [newAlloc]
    · exact hkeep _ (hi.alloc h hh)
  · rcases hup h bs hb with ⟨rfl, _⟩ | ⟨_, hb⟩
    · exact .inl List.mem_cons_self
    · rcases hi.needed h bs hb with h1 | h1
      · exact .inl (List.mem_cons_of_mem _ h1)
      · exact .inr h1
  · simp only [newAlloc] at hh ⊢
    rw [Function.update_of_ne (by omega)]
    exact hi.fresh h (by omega)
  · rcases hup h bs hb with ⟨_, rfl⟩ | ⟨_, hb⟩
    · simp at hbm
    · rcases hup k cs hc with ⟨_, rfl⟩ | ⟨_, hc⟩
      · simp at hcm
      · exact hi.apart h k bs cs hne hb hc b hbm c hcm

/-- After a change of one heap. -/
theorem heap_update {lost lost' : Nat → List Live} {s : Pools} (hi : Inv lost s) {a : Nat} {bs' : List Block} (ha : s.heap a ≠ none) (ptrs : List Ptr)
    (hsys : SysOk ⟨bs', lives lost' ptrs a⟩ ∧ Occupied ⟨bs', lives lost' ptrs a⟩)
    (hother : ∀ h, h ≠ a → (lives lost s.ptrs h).Perm (lives lost' ptrs h)) (hlost : ∀ h, h ≠ a → lost' h = lost h)
    (hshape : ∀ h bs, h ≠ a → s.heap h = some bs → ∀ b ∈ bs', ∀ c ∈ bs, DisjointRange b.data b.sz c.data c.sz) :
    (∀ h bs, (Function.update s.heap a (some bs')) h = some bs → SysOk ⟨bs, lives lost' ptrs h⟩ ∧ Occupied ⟨bs, lives lost' ptrs h⟩) ∧
    (∀ h, s.heap h ≠ none → (Function.update s.heap a (some bs')) h ≠ none) ∧
    (∀ h, (Function.update s.heap a (some bs')) h ≠ none → s.heap h ≠ none) ∧
    (∀ h, s.made ≤ h → (Function.update s.heap a (some bs')) h = none ∧ lost' h = []) ∧
    (∀ h k bs cs, h ≠ k → (Function.update s.heap a (some bs')) h = some bs → (Function.update s.heap a (some bs')) k = some cs → ∀ b ∈ bs, ∀ c ∈ cs, DisjointRange b.data b.sz c.data c.sz) := by
  have hm := hi.not_fresh ha
  refine ⟨fun h bs hb => ?_, fun h hh => ?_, fun h hh => ?_, fun h hh => ?_, fun h k bs cs hne hb hc b hbm c hcm => ?_⟩
  · by_cases hh : h = a
    · subst hh; rw [Function.update_self] at hb; simp at hb; subst hb; exact hsys
    · rw [Function.update_of_ne hh] at hb
      exact ⟨(hi.sys h bs hb).1.perm (hother h hh), (hi.sys h bs hb).2.perm (hother h hh)⟩
  · by_cases hh' : h = a
    · subst hh'; simp
    · rwa [Function.update_of_ne hh']
  · by_cases hh' : h = a
    · subst hh'; exact ha
    · rwa [Function.update_of_ne hh'] at hh
  · rw [Function.update_of_ne (by omega), hlost h (by omega)]
    exact hi.fresh h hh
  · by_cases hh : h = a
    · subst hh
      rw [Function.update_self] at hb; simp at hb; subst hb
      rw [Function.update_of_ne (Ne.symm hne)] at hc
      exact hshape k cs (Ne.symm hne) hc b hbm c hcm
    · rw [Function.update_of_ne hh] at hb
      by_cases hk : k = a
      · subst hk
        rw [Function.update_self] at hc; simp at hc; subst hc
        have := hshape h bs hh hb c hcm b hbm
        unfold DisjointRange at this ⊢; omega
      · rw [Function.update_of_ne hk] at hc
        exact hi.apart h k bs cs hne hb hc b hbm c hcm

theorem inv_make {blockSize : Nat} {lost : Nat → List Live} {s : Pools} (hi : Inv lost s) {a : Nat} (ha : a ∈ s.allocs) (t : ObjType) (base : Nat) (throws : Bool)
    (hl : 0 < t.size ∧ 0 < t.align ∧ t.size + t.align ≤ wordSize ∧ ∀ h bs, s.heap h = some bs → ∀ b ∈ bs, DisjointRange base (max blockSize (t.size + t.align - 1)) b.data b.sz) :
    ∃ s' lost', s.make blockSize a t base throws = .ok s' ∧ Inv lost' s' ∧ (throws = false → lost' = lost) := by
  obtain ⟨bs, hb⟩ := Option.ne_none_iff_exists'.1 (hi.alloc a ha)
  have hlegal : (⟨bs, lives lost s.ptrs a⟩ : Sys).legal blockSize (.alloc 1 t.size t.align base) :=
    ⟨hl.1, hl.2.1, by rw [one_mul]; exact hl.2.2.1, fun b hbm => by rw [one_mul]; exact hl.2.2.2 a bs hb b hbm⟩
  obtain ⟨p, bs', hal, _, _⟩ := allocate_spec (hi.sys a bs hb).1 Nat.one_pos hlegal
  have hok := call_ok (hi.sys a bs hb) hlegal
  have hcall : (⟨bs, lives lost s.ptrs a⟩ : Sys).call blockSize (.alloc 1 t.size t.align base) = ⟨bs', ⟨p, 1 * t.size, t.align⟩ :: lives lost s.ptrs a⟩ := by
    simp only at hal
    simp [Sys.call, hal]
  rw [hcall, one_mul] at hok
  have hshape : ∀ h cs, h ≠ a → s.heap h = some cs → ∀ b ∈ bs', ∀ c ∈ cs, DisjointRange b.data b.sz c.data c.sz := by
    intro h cs hne hc b hbm c hcm
    have hsh := allocate_shapes (blockSize := blockSize) (base := base) (n := 1) (size := t.size) bs (by rw [one_mul]; exact hl.2.2.1) hl.2.1
    simp only at hal
    rw [hal] at hsh
    rcases hsh b hbm with ⟨d, hd, hd1, hd2⟩ | ⟨hd1, hd2⟩
    · have := hi.apart a h bs cs (Ne.symm hne) hb hc d hd c hcm
      rwa [hd1, hd2] at this
    · rw [hd1, hd2, one_mul]
      exact hl.2.2.2 h cs hc c hcm
  simp only at hal
  simp only [make, hb, hal]
  cases throws with
  | true =>
    have hu := heap_update (lost' := Function.update lost a (⟨p, t.size, t.align⟩ :: lost a)) (bs' := bs') hi (hi.alloc a ha) s.ptrs
      (by
        have hp : (⟨p, t.size, t.align⟩ :: lives lost s.ptrs a).Perm (lives (Function.update lost a (⟨p, t.size, t.align⟩ :: lost a)) s.ptrs a) := by
          unfold lives
          rw [Function.update_self]
          exact List.perm_middle.symm
        exact ⟨hok.1.perm hp, hok.2.perm hp⟩)
      (fun h hh => by unfold lives; rw [Function.update_of_ne hh]) (fun h hh => by rw [Function.update_of_ne hh]) hshape
    refine ⟨_, _, rfl, ⟨hu.1, fun q hq => hu.2.1 _ (hi.ptr q hq), fun h hh => hu.2.1 _ (hi.alloc h hh), fun h cs hc => ?_, hu.2.2.2.1, hu.2.2.2.2, hi.owned, hi.once⟩, by simp⟩
    obtain ⟨ds, hd⟩ := Option.ne_none_iff_exists'.1 (hu.2.2.1 h (by simp only at hc; rw [hc]; simp))
    exact hi.needed h ds hd
  | false =>
    have hu := heap_update (lost' := lost) (bs' := bs') hi (hi.alloc a ha) (⟨p, a, t, s.born⟩ :: s.ptrs)
      (by
        have : lives lost (⟨p, a, t, s.born⟩ :: s.ptrs) a = ⟨p, t.size, t.align⟩ :: lives lost s.ptrs a := by
          unfold lives; simp
        rw [this]; exact hok)
      (fun h hh => by
        have : lives lost (⟨p, a, t, s.born⟩ :: s.ptrs) h = lives lost s.ptrs h := by
          unfold lives; rw [List.filter_cons_of_neg (by simpa using Ne.symm hh)]
        rw [this]) (fun _ _ => rfl) hshape
    refine ⟨_, lost, rfl, ⟨hu.1, fun q hq => ?_, fun h hh => hu.2.1 _ (hi.alloc h hh), fun h cs hc => ?_, hu.2.2.2.1, hu.2.2.2.2, ?_, ?_⟩, fun _ => rfl⟩
    · rcases List.mem_cons.1 hq with rfl | hq
      · simp
      · exact hu.2.1 _ (hi.ptr q hq)
    · obtain ⟨ds, hd⟩ := Option.ne_none_iff_exists'.1 (hu.2.2.1 h (by simp only at hc; simp [hc]))
      rcases hi.needed h ds hd with h1 | ⟨q, hq, h1⟩
      · exact .inl h1
      · exact .inr ⟨q, List.mem_cons_of_mem _ hq, h1⟩
    · exact hi.owned.cons _
    · show (s.born :: (s.objects.map (·.id)) ++ s.destroyed).Perm (List.range (s.born + 1))
      rw [List.range_succ, List.cons_append]
      exact (hi.once.cons _).trans (List.perm_append_singleton _ _).symm

theorem inv_reset {lost : Nat → List Live} {s : Pools} (hi : Inv lost s) {i : Nat} {p : Ptr} (hp : s.ptrs[i]? = some p) :
    ∃ s', (s.delete p).bind (fun s => .ok { s with ptrs := s.ptrs.eraseIdx i }.release) = .ok s' ∧ Inv lost s' ∧ s'.destroyed = p.obj :: s.destroyed := by
  have hmem := List.mem_of_getElem? hp
  have hperm : s.ptrs.Perm (p :: s.ptrs.eraseIdx i) := by
    obtain ⟨hlt, rfl⟩ := List.getElem?_eq_some_iff.1 hp
    exact (List.getElem_cons_eraseIdx_perm hlt).symm
  obtain ⟨hpos, _, bs, hb, _⟩ := hi.pos hmem
  have hfind : s.objects.find? (fun o => o.addr == p.addr) = some ⟨p.obj, p.addr, p.type⟩ := by
    cases hf : s.objects.find? (fun o => o.addr == p.addr) with
    | none =>
      have := List.find?_eq_none.1 hf ⟨p.obj, p.addr, p.type⟩ (hi.owned.mem_iff.2 (List.mem_map.2 ⟨p, hmem, rfl⟩))
      simp at this
    | some o =>
      have h1 := List.find?_some hf
      simp at h1
      obtain ⟨q, hq, rfl⟩ := List.mem_map.1 (hi.owned.mem_iff.1 (List.mem_of_find?_eq_some hf))
      have := hi.addr_inj hq hmem h1
      subst this; rfl
  simp only [delete, hfind, if_true, hb, Outcome.bind_ok]
  refine ⟨_, rfl, ?_, rfl⟩
  have hlive : ∀ h, (lives lost s.ptrs h).Perm (lives lost (p :: s.ptrs.eraseIdx i) h) := by
    intro h
    exact ((hperm.filter _).map _).append_right _
  have hcons : lives lost (p :: s.ptrs.eraseIdx i) p.heap = ⟨p.addr, p.type.size, p.type.align⟩ :: lives lost (s.ptrs.eraseIdx i) p.heap := by
    unfold lives; simp
  have hok := call_ok (blockSize := 0) (c := .free 0 1 p.type.size) (s := ⟨bs, lives lost (p :: s.ptrs.eraseIdx i) p.heap⟩)
    ⟨(hi.sys _ bs hb).1.perm (hlive _), (hi.sys _ bs hb).2.perm (hlive _)⟩ (by rw [hcons]; exact ⟨_, rfl, (one_mul _).symm⟩)
  rw [hcons] at hok
  have hcall : (⟨bs, ⟨p.addr, p.type.size, p.type.align⟩ :: lives lost (s.ptrs.eraseIdx i) p.heap⟩ : Sys).call 0 (.free 0 1 p.type.size)
      = ⟨deallocate bs p.addr 1 p.type.size, lives lost (s.ptrs.eraseIdx i) p.heap⟩ := by simp [Sys.call]
  rw [hcall] at hok
  have hu := heap_update (lost' := lost) hi (hi.ptr p hmem) (s.ptrs.eraseIdx i) hok
    (fun h hh => by
      refine (hlive h).trans ?_
      unfold lives; rw [List.filter_cons_of_neg (by simpa using Ne.symm hh)])
    (fun _ _ => rfl)
    (fun h cs hne hc b hbm c hcm => by
      obtain ⟨d, hd, hd1, hd2⟩ := deallocate_shapes bs b hbm
      have := hi.apart p.heap h bs cs (Ne.symm hne) hb hc d hd c hcm
      rwa [hd1, hd2] at this)
  have hobj : s.objects.Perm (⟨p.obj, p.addr, p.type⟩ :: s.objects.erase ⟨p.obj, p.addr, p.type⟩) :=
    List.perm_cons_erase (hi.owned.mem_iff.2 (List.mem_map.2 ⟨p, hmem, rfl⟩))
  apply inv_release
  · exact hu.1
  · exact fun q hq => hu.2.1 _ (hi.ptr q (List.mem_of_mem_eraseIdx hq))
  · exact fun h hh => hu.2.1 _ (hi.alloc h hh)
  · exact hu.2.2.2.1
  · exact hu.2.2.2.2
  · show (s.objects.erase ⟨p.obj, p.addr, p.type⟩).Perm ((s.ptrs.eraseIdx i).map _)
    exact List.Perm.cons_inv (a := (⟨p.obj, p.addr, p.type⟩ : Object)) (hobj.symm.trans (hi.owned.trans (hperm.map _)))
  · show ((s.objects.erase ⟨p.obj, p.addr, p.type⟩).map (·.id) ++ p.obj :: s.destroyed).Perm (List.range s.born)
    refine List.perm_middle.trans (List.Perm.trans ?_ hi.once)
    exact ((hobj.map (·.id)).append_right s.destroyed).symm

/-- Every legal operation keeps the invariant. -/
theorem inv_step {blockSize : Nat} {lost : Nat → List Live} {s : Pools} (hi : Inv lost s) (o : Op) (hl : s.Legal blockSize o) :
    ∃ s' lost', s.step blockSize o = .ok s' ∧ Inv lost' s' ∧ (NoThrow o → lost' = lost) := by
  cases o with
  | newAlloc => exact ⟨_, lost, rfl, inv_newAlloc hi, fun _ => rfl⟩
  | copyAlloc i =>
    simp only [step]
    cases h : s.allocs[i]? with
    | none => exact ⟨_, lost, rfl, hi, fun _ => rfl⟩
    | some a =>
      refine ⟨_, lost, rfl, ⟨hi.sys, hi.ptr, fun k hk => ?_, fun k bs hb => ?_, hi.fresh, hi.apart, hi.owned, hi.once⟩, fun _ => rfl⟩
      · rcases List.mem_cons.1 hk with rfl | hk
        · exact hi.alloc _ (List.mem_of_getElem? h)
        · exact hi.alloc k hk
      · rcases hi.needed k bs hb with h1 | h1
        · exact .inl (List.mem_cons_of_mem _ h1)
        · exact .inr h1
  | assignAlloc i j =>
    simp only [step]
    cases h : s.allocs[j]? with
    | none => exact ⟨_, lost, rfl, hi, fun _ => rfl⟩
    | some a =>
      refine ⟨_, lost, rfl, inv_release hi.sys hi.ptr (fun k hk => ?_) hi.fresh hi.apart hi.owned hi.once, fun _ => rfl⟩
      rcases List.mem_or_eq_of_mem_set hk with hk | rfl
      · exact hi.alloc k hk
      · exact hi.alloc _ (List.mem_of_getElem? h)
  | endAlloc i =>
    exact ⟨_, lost, rfl, inv_release hi.sys hi.ptr (fun k hk => hi.alloc k (List.mem_of_mem_eraseIdx hk)) hi.fresh hi.apart hi.owned hi.once, fun _ => rfl⟩
  | make i t base throws =>
    simp only [step]
    cases h : s.allocs[i]? with
    | none => exact ⟨_, lost, rfl, hi, fun _ => rfl⟩
    | some a => exact inv_make hi (List.mem_of_getElem? h) t base throws hl
  | toBase i offset =>
    simp only [step]
    cases h : s.ptrs[i]? with
    | none => exact ⟨_, lost, rfl, hi, fun _ => rfl⟩
    | some p =>
      have h0 : offset = 0 := hl
      subst h0
      refine ⟨_, lost, rfl, ?_, fun _ => rfl⟩
      have : s.ptrs.set i { p with addr := p.addr + 0 } = s.ptrs := by
        obtain ⟨hlt, rfl⟩ := List.getElem?_eq_some_iff.1 h
        exact List.set_getElem_self hlt
      rw [this]; exact hi
  | reset i =>
    simp only [step]
    cases h : s.ptrs[i]? with
    | none => exact ⟨_, lost, rfl, hi, fun _ => rfl⟩
    | some p =>
      obtain ⟨s', h1, h2, _⟩ := inv_reset hi h
      exact ⟨s', lost, h1, h2, fun _ => rfl⟩

/-- Every legal history keeps the invariant. -/
theorem inv_run {blockSize : Nat} (ops : List Op) {lost : Nat → List Live} {s : Pools} (hi : Inv lost s) (hl : LegalRun blockSize ops s) :
    ∃ s' lost', run blockSize ops s = .ok s' ∧ Inv lost' s' ∧ ((∀ o ∈ ops, NoThrow o) → lost' = lost) := by
  induction ops generalizing s lost with
  | nil => exact ⟨s, lost, rfl, hi, fun _ => rfl⟩
  | cons o ops ih =>
    obtain ⟨s1, l1, h1, h2, h3⟩ := inv_step hi o hl.1
    obtain ⟨s2, l2, h4, h5, h6⟩ := ih h2 (hl.2 s1 h1)
    refine ⟨s2, l2, by rw [run, h1, Outcome.bind_ok, h4], h5, fun hn => ?_⟩
    rw [h6 fun o ho => hn o (List.mem_cons_of_mem _ ho), h3 (hn o List.mem_cons_self)]

end Pools
end Simu.Memory
