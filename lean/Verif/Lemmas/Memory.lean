import Verif.Spec.Memory
import Mathlib.Tactic.Linarith
import Mathlib.Tactic.SplitIfs
import Mathlib.Data.List.Basic

namespace Simu.Memory

/-- free ranges of a list containing `x` -/
def cnt (l : List FreeBlock) (x : Nat) : Nat :=
  l.countP fun f => decide (f.start ≤ x ∧ x < f.stop)

/-- indicator of `[a,b)` -/
def ind (a b x : Nat) : Nat := if a ≤ x ∧ x < b then 1 else 0

@[simp] theorem cnt_nil (x) : cnt [] x = 0 := rfl

theorem cnt_cons (f : FreeBlock) (l x) : cnt (f :: l) x = ind f.start f.stop x + cnt l x := by
  unfold cnt ind
  rw [List.countP_cons]
  by_cases h : f.start ≤ x ∧ x < f.stop <;> simp [h] <;> omega

theorem cnt_append (l m x) : cnt (l ++ m) x = cnt l x + cnt m x := by
  simp [cnt, List.countP_append]

theorem ind_split {a b c : Nat} (h : a ≤ b) (h' : b ≤ c) (x) :
    ind a c x = ind a b x + ind b c x := by
  unfold ind; split_ifs <;> omega

theorem cnt_pos_of_mem {l : List FreeBlock} {f x} (h : f ∈ l) (h1 : f.start ≤ x) (h2 : x < f.stop) :
    0 < cnt l x := by
  unfold cnt
  exact List.countP_pos_iff.2 ⟨f, h, by simp [h1, h2]⟩

theorem mem_of_cnt_pos {l : List FreeBlock} {x} (h : 0 < cnt l x) :
    ∃ f ∈ l, f.start ≤ x ∧ x < f.stop := by
  unfold cnt at h
  obtain ⟨f, hf, hx⟩ := List.countP_pos_iff.1 h
  exact ⟨f, hf, by simpa using hx⟩

/-- A well formed (non-empty ranges, sorted, with a gap between ranges) free list in `[lo,hi)`. -/
def FreeOk (hi : Nat) : Nat → List FreeBlock → Prop
  | _, [] => True
  | lo, f :: l => lo ≤ f.start ∧ f.start < f.stop ∧ f.stop ≤ hi ∧ FreeOk hi (f.stop + 1) l

theorem FreeOk.mono {hi lo lo' l} (h : FreeOk hi lo l) (hle : lo' ≤ lo) : FreeOk hi lo' l := by
  cases l with
  | nil => trivial
  | cons f l => exact ⟨le_trans hle h.1, h.2⟩

theorem FreeOk.mem {hi} : ∀ {l lo}, FreeOk hi lo l → ∀ f ∈ l,
    lo ≤ f.start ∧ f.start < f.stop ∧ f.stop ≤ hi := by
  intro l
  induction l with
  | nil => intro _ _ f hf; simp at hf
  | cons g l ih =>
    intro lo h f hf
    rcases List.mem_cons.1 hf with rfl | hf
    · exact ⟨h.1, h.2.1, h.2.2.1⟩
    · have := ih h.2.2.2 f hf
      have h1 := h.1; have h2 := h.2.1
      omega

theorem FreeOk.pairwise {hi} : ∀ {l lo}, FreeOk hi lo l →
    l.Pairwise fun f g => f.stop < g.start := by
  intro l
  induction l with
  | nil => intro _ _; exact List.Pairwise.nil
  | cons g l ih =>
    intro lo h
    refine List.pairwise_cons.2 ⟨fun f hf => ?_, ih h.2.2.2⟩
    have := (h.2.2.2.mem) f hf
    omega

theorem alignUp_le {a p : Nat} (ha : 0 < a) : p ≤ alignUp a p ∧ alignUp a p ≤ p + a - 1 := by
  unfold alignUp
  constructor
  · have h1 := Nat.div_add_mod (p + a - 1) a
    have h2 := Nat.mod_lt (p + a - 1) ha
    have h3 : a * ((p + a - 1) / a) = (p + a - 1) / a * a := Nat.mul_comm _ _
    omega
  · exact Nat.div_mul_le_self _ _

theorem dvd_alignUp (a p : Nat) : a ∣ alignUp a p := Dvd.intro_left _ rfl

theorem allocLoop_spec {align m hi : Nat} (ha : 0 < align) (hm : 0 < m) :
    ∀ (l : List FreeBlock) lo, FreeOk hi lo l → ∀ p l', allocLoop align m l = some (p, l') →
      FreeOk hi lo l' ∧ align ∣ p ∧ lo ≤ p ∧ p + m ≤ hi ∧
      ∀ x, cnt l' x + ind p (p + m) x = cnt l x := by
  intro l
  induction l with
  | nil => intro lo _ p l' h; simp [allocLoop] at h
  | cons it rest ih =>
    intro lo hok p l' h
    obtain ⟨h1, h2, h3, h4⟩ := hok
    have hal := alignUp_le (p := it.start) ha
    have hdvd := dvd_alignUp align it.start
    rw [allocLoop] at h
    dsimp only at h
    generalize hA : alignUp align it.start = a at *
    by_cases hfit : a + m ≤ it.stop
    · rw [if_pos hfit] at h
      simp only [Option.some.injEq, Prod.mk.injEq] at h
      obtain ⟨rfl, rfl⟩ := h
      refine ⟨?_, hdvd, by omega, by omega, ?_⟩
      · by_cases c1 : a + m = it.stop <;> by_cases c2 : a = it.start
        · rw [if_neg (by simpa using c2), if_neg (by simpa using c1)]
          exact h4.mono (by omega)
        · rw [if_pos c2, if_neg (by simpa using c1)]
          exact ⟨h1, by dsimp only; omega, by dsimp only; omega, h4.mono (by dsimp only; omega)⟩
        · rw [if_neg (by simpa using c2), if_pos c1]
          exact ⟨by dsimp only; omega, by dsimp only; omega, by dsimp only; omega, h4⟩
        · rw [if_pos c2, if_pos c1]
          exact ⟨h1, by dsimp only; omega, by dsimp only; omega, by dsimp only; omega,
            by dsimp only; omega, by dsimp only; omega, h4⟩
      · intro x
        by_cases c1 : a + m = it.stop <;> by_cases c2 : a = it.start
        · rw [if_neg (by simpa using c2), if_neg (by simpa using c1), cnt_cons, c1, c2]
          omega
        · rw [if_pos c2, if_neg (by simpa using c1)]
          simp only [cnt_cons, c1]
          have := ind_split (a := it.start) (b := a) (c := it.stop) (by omega) (by omega) x
          omega
        · rw [if_neg (by simpa using c2), if_pos c1]
          simp only [cnt_cons]
          have := ind_split (a := a) (b := a + m) (c := it.stop) (by omega) (by omega) x
          rw [← c2]
          omega
        · rw [if_pos c2, if_pos c1]
          simp only [cnt_cons]
          have := ind_split (a := it.start) (b := a) (c := it.stop) (by omega) (by omega) x
          have := ind_split (a := a) (b := a + m) (c := it.stop) (by omega) (by omega) x
          omega
    · rw [if_neg hfit] at h
      cases hr : allocLoop align m rest with
      | none => rw [hr] at h; simp at h
      | some r =>
        rw [hr] at h
        simp only [Option.map_some, Option.some.injEq, Prod.mk.injEq] at h
        obtain ⟨rfl, rfl⟩ := h
        obtain ⟨g1, g2, g3, g4, g5⟩ := ih _ h4 r.1 r.2 hr
        refine ⟨⟨h1, h2, h3, g1⟩, g2, by omega, g4, ?_⟩
        intro x
        have := g5 x
        simp only [cnt_cons]
        omega

/-! ### deallocation -/

theorem mergeFree_cons (s e pv pre post) :
    mergeFree s e (pv :: pre) post = pre.reverse ++ mergeFree s e [pv] post := by
  cases post with
  | nil => simp only [mergeFree]; split_ifs <;> simp
  | cons nx post => simp only [mergeFree]; split_ifs <;> simp

theorem findNext_cons (s e) : ∀ l pv pre,
    findNext s e (pv :: pre) l = pre.reverse ++ findNext s e [pv] l := by
  intro l
  induction l with
  | nil => intro pv pre; exact mergeFree_cons ..
  | cons it rest ih =>
    intro pv pre
    simp only [findNext]
    split_ifs with h
    · exact mergeFree_cons ..
    · rw [ih it (pv :: pre), ih it [pv]]; simp

/-- ranges of the list do not meet `[s,e)` -/
def Apart (s e : Nat) (l : List FreeBlock) : Prop := ∀ f ∈ l, f.stop ≤ s ∨ e ≤ f.start

theorem findNext_one {s e hi : Nat} (hse : s < e) (he : e ≤ hi) :
    ∀ l pv lo, FreeOk hi lo (pv :: l) → pv.stop ≤ s → Apart s e l →
      FreeOk hi lo (findNext s e [pv] l) ∧
      ∀ x, cnt (findNext s e [pv] l) x = cnt (pv :: l) x + ind s e x := by
  intro l
  induction l with
  | nil =>
    intro pv lo ⟨h1, h2, h3, h4⟩ hpv _
    simp only [findNext, mergeFree]
    split_ifs with c
    · refine ⟨⟨h1, by dsimp only; omega, by dsimp only; omega, trivial⟩, fun x => ?_⟩
      simp only [List.reverse_nil, List.nil_append, cnt_cons, cnt_nil]
      have := ind_split (a := pv.start) (b := s) (c := e) (by omega) (by omega) x
      subst c; omega
    · refine ⟨⟨h1, by omega, by omega, by dsimp only; omega, hse, he, trivial⟩, fun x => ?_⟩
      simp [cnt_cons]
  | cons it rest ih =>
    intro pv lo ⟨h1, h2, h3, h4, h5, h6, h7⟩ hpv hap
    have hit := hap it (by simp)
    have hap' : Apart s e rest := fun f hf => hap f (by simp [hf])
    simp only [findNext]
    split_ifs with c
    · simp only [mergeFree]
      split_ifs with c1 c2 c3
      · obtain ⟨c1, c2⟩ := c1
        refine ⟨⟨h1, by dsimp only; omega, by dsimp only; omega, h7⟩, fun x => ?_⟩
        simp only [List.reverse_nil, List.nil_append, cnt_cons]
        have := ind_split (a := pv.start) (b := s) (c := it.stop) (by omega) (by omega) x
        have := ind_split (a := s) (b := e) (c := it.stop) (by omega) (by omega) x
        subst c2; subst c1; omega
      · refine ⟨⟨h1, h2, h3, by dsimp only; omega, by dsimp only; omega, h6, h7⟩, fun x => ?_⟩
        simp only [List.reverse_cons, List.reverse_nil, List.nil_append, cnt_cons, cnt_append,
          cnt_nil]
        have := ind_split (a := s) (b := e) (c := it.stop) (by omega) (by omega) x
        subst c2; omega
      · refine ⟨⟨h1, by dsimp only; omega, by dsimp only; omega, ?_⟩, fun x => ?_⟩
        · exact ⟨by dsimp only; omega, h5, h6, h7⟩
        · simp only [List.reverse_nil, List.nil_append, cnt_cons]
          have := ind_split (a := pv.start) (b := s) (c := e) (by omega) (by omega) x
          subst c3; omega
      · refine ⟨⟨h1, h2, h3, by dsimp only; omega, hse, he, by dsimp only; omega, h5, h6, h7⟩,
          fun x => ?_⟩
        simp only [List.reverse_cons, List.reverse_nil, List.nil_append, cnt_cons, cnt_append,
          cnt_nil]
        omega
    · rw [findNext_cons]
      obtain ⟨g1, g2⟩ := ih it (pv.stop + 1) ⟨h4, h5, h6, h7⟩ (by omega) hap'
      refine ⟨⟨h1, h2, h3, g1⟩, fun x => ?_⟩
      have := g2 x
      simp only [List.reverse_cons, List.reverse_nil, List.nil_append, cnt_cons, cnt_append,
          cnt_nil] at this ⊢
      omega

theorem findNext_spec {s e lo hi : Nat} (hlo : lo ≤ s) (hse : s < e) (he : e ≤ hi)
    {l} (hok : FreeOk hi lo l) (hap : Apart s e l) :
    FreeOk hi lo (findNext s e [] l) ∧
      ∀ x, cnt (findNext s e [] l) x = cnt l x + ind s e x := by
  cases l with
  | nil =>
    refine ⟨⟨hlo, hse, he, trivial⟩, fun x => ?_⟩
    simp [findNext, mergeFree, cnt_cons]
  | cons it rest =>
    have hit := hap it (by simp)
    have hap' : Apart s e rest := fun f hf => hap f (by simp [hf])
    obtain ⟨h4, h5, h6, h7⟩ := hok
    simp only [findNext]
    split_ifs with c
    · simp only [mergeFree]
      split_ifs with c2
      · refine ⟨⟨hlo, by dsimp only; omega, h6, h7⟩, fun x => ?_⟩
        simp only [cnt_cons]
        have := ind_split (a := s) (b := e) (c := it.stop) (by omega) (by omega) x
        subst c2; omega
      · refine ⟨⟨hlo, hse, he, by dsimp only; omega, h5, h6, h7⟩, fun x => ?_⟩
        simp only [cnt_cons]; omega
    · exact findNext_one hse he rest it lo ⟨h4, h5, h6, h7⟩ (by omega) hap'

/-! ### whole allocator -/

/-- Block level well-formedness. -/
structure BlockOk (b : Block) : Prop where
  pos : 0 < b.sz
  free : FreeOk (b.data + b.sz) b.data b.free

structure SysOk (s : Sys) : Prop where
  blocks : ∀ b ∈ s.blocks, BlockOk b
  apart : s.blocks.Pairwise fun a b => DisjointRange a.data a.sz b.data b.sz
  live : ∀ l ∈ s.live, 0 < l.bytes ∧ l.bytes < wordSize ∧ l.align ∣ l.ptr ∧
    ∃ b ∈ s.blocks, b.data ≤ l.ptr ∧ l.ptr + l.bytes ≤ b.data + b.sz
  tile : ∀ x, freeAt s.blocks x + liveAt s.live x = ownedAt s.blocks x

theorem freeAt_nil (x) : freeAt [] x = 0 := rfl
theorem freeAt_cons (b bs x) : freeAt (b :: bs) x = cnt b.free x + freeAt bs x := by
  simp [freeAt, cnt]
theorem freeAt_append (as bs x) : freeAt (as ++ bs) x = freeAt as x + freeAt bs x := by
  simp [freeAt]
theorem ownedAt_cons (b bs x) :
    ownedAt (b :: bs) x = ind b.data (b.data + b.sz) x + ownedAt bs x := by
  unfold ownedAt ind
  rw [List.countP_cons]
  by_cases h : b.data ≤ x ∧ x < b.data + b.sz <;> simp [h] <;> omega
theorem ownedAt_append (as bs x) : ownedAt (as ++ bs) x = ownedAt as x + ownedAt bs x := by
  simp [ownedAt]
theorem freeAt_zero {bs : List Block} {x} (h : ∀ b ∈ bs, cnt b.free x = 0) : freeAt bs x = 0 := by
  induction bs with
  | nil => rfl
  | cons b bs ih =>
    rw [freeAt_cons, h b (by simp), ih fun c hc => h c (by simp [hc])]
theorem liveAt_cons (l ls x) : liveAt (l :: ls) x = ind l.ptr (l.ptr + l.bytes) x + liveAt ls x := by
  unfold liveAt ind
  rw [List.countP_cons]
  by_cases h : l.ptr ≤ x ∧ x < l.ptr + l.bytes <;> simp [h] <;> omega

theorem liveAt_eraseIdx : ∀ (ls : List Live) i l, ls[i]? = some l → ∀ x,
    liveAt ls x = ind l.ptr (l.ptr + l.bytes) x + liveAt (ls.eraseIdx i) x := by
  intro ls
  induction ls with
  | nil => intro i l h; simp at h
  | cons a ls ih =>
    intro i l h x
    cases i with
    | zero => simp at h; subst h; simp [liveAt_cons]
    | succ i =>
      simp only [List.getElem?_cons_succ] at h
      have := ih i l h x
      simp only [List.eraseIdx_cons_succ, liveAt_cons]
      omega

theorem ind_le_one (a b x) : ind a b x ≤ 1 := by unfold ind; split_ifs <;> omega

theorem ownedAt_zero {bs : List Block} {x} (h : ∀ b ∈ bs, ¬ (b.data ≤ x ∧ x < b.data + b.sz)) :
    ownedAt bs x = 0 := by
  unfold ownedAt
  rw [List.countP_eq_zero]
  intro b hb
  simpa using h b hb

theorem ownedAt_le_one {bs : List Block}
    (h : bs.Pairwise fun a b => DisjointRange a.data a.sz b.data b.sz) (x) : ownedAt bs x ≤ 1 := by
  induction bs with
  | nil => simp [ownedAt]
  | cons b bs ih =>
    rw [List.pairwise_cons] at h
    rw [ownedAt_cons]
    by_cases c : b.data ≤ x ∧ x < b.data + b.sz
    · have : ownedAt bs x = 0 := ownedAt_zero (fun b' hb' => by
        have := h.1 b' hb'; unfold DisjointRange at this; omega)
      have := ind_le_one b.data (b.data + b.sz) x
      omega
    · have := ih h.2
      simp [ind, c, this]

theorem byteCount_eq {n size align} (h : n * size + align ≤ wordSize) (ha : 0 < align) :
    byteCount n size = n * size := by
  unfold byteCount; exact Nat.mod_eq_of_lt (by omega)

/-- Same ranges, possibly different free lists. -/
def SameShape (as bs : List Block) : Prop :=
  as.map (fun b => (b.data, b.sz)) = bs.map (fun b => (b.data, b.sz))

theorem SameShape.owned {as bs} (h : SameShape as bs) (x) : ownedAt as x = ownedAt bs x := by
  unfold SameShape at h
  have : ∀ cs : List Block, ownedAt cs x =
      (cs.map (fun b => (b.data, b.sz))).countP fun p => decide (p.1 ≤ x ∧ x < p.1 + p.2) := by
    intro cs; simp [ownedAt, List.countP_map]; rfl
  rw [this, this, h]

theorem SameShape.apart {as bs} (h : SameShape as bs)
    (hp : as.Pairwise fun a b => DisjointRange a.data a.sz b.data b.sz) :
    bs.Pairwise fun a b => DisjointRange a.data a.sz b.data b.sz := by
  unfold SameShape at h
  have key : ∀ cs : List Block, (cs.Pairwise fun a b => DisjointRange a.data a.sz b.data b.sz) ↔
      (cs.map (fun b => (b.data, b.sz))).Pairwise fun p q => DisjointRange p.1 p.2 q.1 q.2 := by
    intro cs; rw [List.pairwise_map]
  rw [key] at hp ⊢
  rwa [← h]

theorem SameShape.mem {as bs} (h : SameShape as bs) {b} (hb : b ∈ as) :
    ∃ b' ∈ bs, b'.data = b.data ∧ b'.sz = b.sz := by
  unfold SameShape at h
  have : (b.data, b.sz) ∈ bs.map (fun b => (b.data, b.sz)) := by
    rw [← h]; exact List.mem_map.2 ⟨b, hb, rfl⟩
  obtain ⟨b', hb', heq⟩ := List.mem_map.1 this
  simp only [Prod.mk.injEq] at heq
  exact ⟨b', hb', heq⟩

theorem Block.allocate_spec {b : Block} {n size align p b'} (hb : BlockOk b) (hn : 0 < n)
    (hs : 0 < size) (ha : 0 < align) (hw : n * size + align ≤ wordSize)
    (h : b.allocate n size align = some (p, b')) :
    BlockOk b' ∧ b'.data = b.data ∧ b'.sz = b.sz ∧ align ∣ p ∧ b.data ≤ p ∧
      p + n * size ≤ b.data + b.sz ∧
      ∀ x, cnt b'.free x + ind p (p + n * size) x = cnt b.free x := by
  unfold Block.allocate at h
  rw [if_neg (by omega), byteCount_eq hw ha] at h
  cases hr : allocLoop align (n * size) b.free with
  | none => rw [hr] at h; simp at h
  | some r =>
    rw [hr] at h
    simp only [Option.map_some, Option.some.injEq, Prod.mk.injEq] at h
    obtain ⟨rfl, rfl⟩ := h
    obtain ⟨g1, g2, g3, g4, g5⟩ :=
      allocLoop_spec ha (Nat.mul_pos hn hs) b.free b.data hb.free r.1 r.2 hr
    exact ⟨⟨hb.pos, g1⟩, rfl, rfl, g2, g3, g4, g5⟩

theorem tryBlocks_spec {n size align} (hn : 0 < n)
    (hs : 0 < size) (ha : 0 < align) (hw : n * size + align ≤ wordSize) :
    ∀ bs p bs', (∀ b ∈ bs, BlockOk b) → tryBlocks n size align bs = some (p, bs') →
      (∀ b ∈ bs', BlockOk b) ∧ SameShape bs bs' ∧ align ∣ p ∧
      (∃ b ∈ bs', b.data ≤ p ∧ p + n * size ≤ b.data + b.sz) ∧
      ∀ x, freeAt bs' x + ind p (p + n * size) x = freeAt bs x := by
  intro bs
  induction bs with
  | nil => intro p bs' _ h; simp [tryBlocks] at h
  | cons b rest ih =>
    intro p bs' hok h
    rw [tryBlocks] at h
    cases hb : b.allocate n size align with
    | some r =>
      rw [hb] at h
      simp only [Option.some.injEq, Prod.mk.injEq] at h
      obtain ⟨rfl, rfl⟩ := h
      obtain ⟨g1, g2, g3, g4, g5, g6, g7⟩ :=
        Block.allocate_spec (p := r.1) (b' := r.2) (hok b (by simp)) hn hs ha hw hb
      refine ⟨?_, ?_, g4, ⟨r.2, by simp, by omega, by omega⟩, ?_⟩
      · intro c hc
        rcases List.mem_cons.1 hc with rfl | hc
        · exact g1
        · exact hok c (by simp [hc])
      · simp [SameShape, g2, g3]
      · intro x; have := g7 x; simp only [freeAt_cons]; omega
    | none =>
      rw [hb] at h
      simp only at h
      cases hr : tryBlocks n size align rest with
      | none => rw [hr] at h; simp at h
      | some r =>
        rw [hr] at h
        simp only [Option.map_some, Option.some.injEq, Prod.mk.injEq] at h
        obtain ⟨rfl, rfl⟩ := h
        obtain ⟨g1, g2, g3, ⟨c, hc, hc'⟩, g5⟩ := ih r.1 r.2 (fun c hc => hok c (by simp [hc])) hr
        refine ⟨?_, ?_, g3, ⟨c, by simp [hc], hc'⟩, ?_⟩
        · intro d hd
          rcases List.mem_cons.1 hd with rfl | hd
          · exact hok _ (by simp)
          · exact g1 d hd
        · unfold SameShape at g2 ⊢; simp [g2]
        · intro x; have := g5 x; simp only [freeAt_cons]; omega

theorem fresh_allocate {base sz n size align} (hn : 0 < n) (ha : 0 < align)
    (hw : n * size + align ≤ wordSize) (hsz : n * size + align - 1 ≤ sz) :
    ∃ r, (Block.mk' base sz).allocate n size align = some r := by
  unfold Block.allocate Block.mk'
  rw [if_neg (by omega), byteCount_eq hw ha]
  have := alignUp_le (p := base) ha
  simp only [allocLoop]
  rw [if_pos (by omega)]
  exact ⟨_, rfl⟩

theorem mk'_ok {base sz} (h : 0 < sz) : BlockOk (Block.mk' base sz) :=
  ⟨h, ⟨le_refl _, by simp only; omega, le_refl _, trivial⟩⟩

/-- Everything about `allocate` on a well formed allocator. -/
theorem allocate_spec {blockSize n size align base} {s : Sys} (hs : SysOk s)
    (hn : 0 < n) (hl : s.legal blockSize (.alloc n size align base)) :
    ∃ p bs, allocate blockSize s.blocks n size align base = (some p, bs) ∧
      SysOk ⟨bs, ⟨p, n * size, align⟩ :: s.live⟩ ∧
      ∀ b ∈ bs, (∃ c ∈ s.blocks, c.data = b.data ∧ c.sz = b.sz) ∨
        (b.data ≤ p ∧ p + n * size ≤ b.data + b.sz) := by
  obtain ⟨hsz, ha, hw, hfresh⟩ := hl
  have hmul : 0 < n * size := Nat.mul_pos hn hsz
  unfold allocate
  rw [if_neg (by omega)]
  cases ht : tryBlocks n size align s.blocks with
  | some r =>
    obtain ⟨g1, g2, g3, ⟨c, hc, hc1, hc2⟩, g5⟩ :=
      tryBlocks_spec hn hsz ha hw s.blocks r.1 r.2 hs.blocks ht
    refine ⟨r.1, r.2, rfl, ⟨g1, g2.apart hs.apart, ?_, ?_⟩, fun b hb =>
      Or.inl (SameShape.mem (Eq.symm g2) hb)⟩
    · intro l hl
      rcases List.mem_cons.1 hl with rfl | hl
      · exact ⟨hmul, by dsimp only; omega, g3, c, hc, hc1, hc2⟩
      · obtain ⟨k1, k2, k3, b, hb, hb'⟩ := hs.live l hl
        obtain ⟨b', hb1, hb2, hb3⟩ := g2.mem hb
        exact ⟨k1, k2, k3, b', hb1, by omega, by omega⟩
    · intro x
      have := g5 x; have := hs.tile x; have := g2.owned x
      simp only [liveAt_cons]
      omega
  | none =>
    have hmod : (byteCount n size + align - 1) % wordSize = n * size + align - 1 := by
      rw [byteCount_eq hw ha]; exact Nat.mod_eq_of_lt (by omega)
    simp only [hmod]
    generalize hS : max blockSize (n * size + align - 1) = S at *
    have hS' : n * size + align - 1 ≤ S := by omega
    obtain ⟨r, hr⟩ := fresh_allocate (base := base) hn ha hw hS'
    have hSpos : 0 < S := by omega
    obtain ⟨g1, g2, g3, g4, g5, g6, g7⟩ :=
      Block.allocate_spec (p := r.1) (b' := r.2) (mk'_ok hSpos) hn hsz ha hw hr
    rw [hr]
    have d1 : (Block.mk' base S).data = base := rfl
    have d2 : (Block.mk' base S).sz = S := rfl
    rw [d1] at g2 g5 g6; rw [d2] at g3 g6
    refine ⟨r.1, _, rfl, ⟨?_, ?_, ?_, ?_⟩, fun b hb => ?_⟩
    rotate_left 4
    · rcases List.mem_append.1 hb with hb | hb
      · exact Or.inl ⟨b, hb, rfl, rfl⟩
      · simp only [List.mem_singleton] at hb; subst hb; exact Or.inr ⟨by omega, by omega⟩
    · intro b hb
      rcases List.mem_append.1 hb with hb | hb
      · exact hs.blocks b hb
      · simp only [List.mem_singleton] at hb; subst hb; exact g1
    · rw [List.pairwise_append]
      refine ⟨hs.apart, by simp, ?_⟩
      intro b hb c hc
      simp only [List.mem_singleton] at hc; subst hc
      have := hfresh b hb
      unfold DisjointRange at this ⊢
      omega
    · intro l hl
      rcases List.mem_cons.1 hl with rfl | hl
      · exact ⟨hmul, by dsimp only; omega, g4, r.2, by simp, by dsimp only; omega,
          by dsimp only; omega⟩
      · obtain ⟨k1, k2, k3, b, hb, hb'⟩ := hs.live l hl
        exact ⟨k1, k2, k3, b, by simp [hb], hb'⟩
    · intro x
      have h1 := g7 x; have h2 := hs.tile x
      have h3 : cnt (Block.mk' base S).free x = ind base (base + S) x := by
        simp [Block.mk', cnt_cons]
      simp only [liveAt_cons, freeAt_append, ownedAt_append, freeAt_cons, ownedAt_cons, freeAt_nil,
        g2, g3]
      have h4 : ownedAt [] x = 0 := rfl
      omega

theorem isEmpty_cnt {b : Block} (hb : BlockOk b) (h : b.isEmpty = true) (x) :
    cnt b.free x = ind b.data (b.data + b.sz) x := by
  unfold Block.isEmpty at h
  split at h
  · rename_i f heq
    have h1 := hb.free
    rw [heq] at h1 ⊢
    obtain ⟨a1, a2, a3, _⟩ := h1
    simp only [FreeBlock.size, beq_iff_eq] at h
    simp only [cnt_cons, cnt_nil]
    have e1 : f.start = b.data := by omega
    have e2 : f.stop = b.data + b.sz := by omega
    rw [e1, e2]; omega
  · simp at h

theorem isEmpty_of_full {b : Block} (hb : BlockOk b)
    (h : ∀ x, b.data ≤ x → x < b.data + b.sz → 0 < cnt b.free x) : b.isEmpty = true := by
  have hp := hb.pos
  have hf := hb.free
  unfold Block.isEmpty
  cases hl : b.free with
  | nil => have := h b.data (le_refl _) (by omega); rw [hl] at this; simp at this
  | cons f l =>
    rw [hl] at hf
    obtain ⟨a1, a2, a3, a4⟩ := hf
    have hs : f.start = b.data := by
      obtain ⟨g, hg, hg1, hg2⟩ := mem_of_cnt_pos (h b.data (le_refl _) (by omega))
      rw [hl] at hg
      rcases List.mem_cons.1 hg with rfl | hg
      · omega
      · have := a4.mem g hg; omega
    have he : f.stop = b.data + b.sz := by
      by_contra hne
      obtain ⟨g, hg, hg1, hg2⟩ := mem_of_cnt_pos (h f.stop (by omega) (by omega))
      rw [hl] at hg
      rcases List.mem_cons.1 hg with rfl | hg
      · omega
      · have := a4.mem g hg; omega
    cases l with
    | nil => simp only [FreeBlock.size, beq_iff_eq]; omega
    | cons g l =>
      obtain ⟨c1, c2, c3, c4⟩ := a4
      omega

/-- effect of `deallocate` on the list of blocks -/
theorem deallocate_spec {p n size : Nat} (hm : 0 < n * size) (hw : n * size < wordSize) :
    ∀ bs : List Block, (∀ b ∈ bs, BlockOk b) →
      (bs.Pairwise fun a b => DisjointRange a.data a.sz b.data b.sz) →
      (∃ b ∈ bs, b.data ≤ p ∧ p + n * size ≤ b.data + b.sz) →
      (∀ x, p ≤ x → x < p + n * size → freeAt bs x = 0) →
      (∀ b ∈ deallocate bs p n size, BlockOk b) ∧
      (∀ b ∈ deallocate bs p n size, ∃ c ∈ bs, c.data = b.data ∧ c.sz = b.sz) ∧
      ((deallocate bs p n size).Pairwise fun a b => DisjointRange a.data a.sz b.data b.sz) ∧
      (∀ x, freeAt (deallocate bs p n size) x + ownedAt bs x =
        freeAt bs x + ind p (p + n * size) x + ownedAt (deallocate bs p n size) x) ∧
      (∀ b ∈ bs, (∃ c ∈ deallocate bs p n size, c.data = b.data ∧ c.sz = b.sz) ∨
        ∀ x, b.data ≤ x → x < b.data + b.sz → freeAt bs x + ind p (p + n * size) x = 1) ∧
      ((∀ b ∈ bs, b.isEmpty = false) → ∀ b ∈ deallocate bs p n size, b.isEmpty = false) := by
  intro bs
  have hbc : byteCount n size = n * size := Nat.mod_eq_of_lt hw
  induction bs with
  | nil => intro _ _ ⟨b, hb, _⟩; simp at hb
  | cons b rest ih =>
    intro hok hap hin hfree
    rw [List.pairwise_cons] at hap
    have hbok := hok b (by simp)
    by_cases hc : p < b.data ∨ b.data + b.sz ≤ p
    · -- not in this block
      have hd : deallocate (b :: rest) p n size = b :: deallocate rest p n size := by
        rw [deallocate]; simp [Block.deallocate, hc]
      have hin' : ∃ b ∈ rest, b.data ≤ p ∧ p + n * size ≤ b.data + b.sz := by
        obtain ⟨c, hc1, hc2⟩ := hin
        rcases List.mem_cons.1 hc1 with rfl | hc1
        · omega
        · exact ⟨c, hc1, hc2⟩
      have hfree' : ∀ x, p ≤ x → x < p + n * size → freeAt rest x = 0 := by
        intro x h1 h2; have := hfree x h1 h2; rw [freeAt_cons] at this; omega
      obtain ⟨g1, g2, g3, g4, g5, g6⟩ :=
        ih (fun c hc => hok c (by simp [hc])) hap.2 hin' hfree'
      rw [hd]
      refine ⟨?_, ?_, ?_, ?_, ?_, ?_⟩
      · intro c hc
        rcases List.mem_cons.1 hc with rfl | hc
        · exact hbok
        · exact g1 c hc
      · intro c hc
        rcases List.mem_cons.1 hc with rfl | hc
        · exact ⟨c, by simp, rfl, rfl⟩
        · obtain ⟨d, hd, hd'⟩ := g2 c hc
          exact ⟨d, by simp [hd], hd'⟩
      · rw [List.pairwise_cons]
        refine ⟨?_, g3⟩
        intro c hc
        obtain ⟨d, hd, hd1, hd2⟩ := g2 c hc
        have := hap.1 d hd
        rwa [hd1, hd2] at this
      · intro x; have := g4 x; simp only [freeAt_cons, ownedAt_cons]; omega
      · intro c hc
        rcases List.mem_cons.1 hc with rfl | hc
        · exact Or.inl ⟨c, by simp, rfl, rfl⟩
        · rcases g5 c hc with ⟨d, hd, hd'⟩ | hx
          · exact Or.inl ⟨d, by simp [hd], hd'⟩
          · refine Or.inr fun x h1 h2 => ?_
            have h3 := hx x h1 h2
            have h4 := hap.1 c hc
            unfold DisjointRange at h4
            have h5 : cnt b.free x = 0 := by
              by_contra h6
              obtain ⟨f, hf, hf1, hf2⟩ := mem_of_cnt_pos (Nat.pos_of_ne_zero h6)
              have := hbok.free.mem f hf
              omega
            rw [freeAt_cons]; omega
      · intro he c hc
        rcases List.mem_cons.1 hc with rfl | hc
        · exact he c (by simp)
        · exact g6 (fun d hd => he d (by simp [hd])) c hc
    · -- in this block
      have hin' : p + n * size ≤ b.data + b.sz := by
        obtain ⟨c, hc1, hc2, hc3⟩ := hin
        rcases List.mem_cons.1 hc1 with rfl | hc1
        · omega
        · have := hap.1 c hc1; unfold DisjointRange at this; omega
      have hapart : Apart p (p + n * size) b.free := by
        intro f hf
        by_contra hcon
        have hf' := hbok.free.mem f hf
        have := hfree (max p f.start) (by omega) (by omega)
        rw [freeAt_cons] at this
        have := cnt_pos_of_mem (x := max p f.start) hf (by omega) (by omega)
        omega
      obtain ⟨k1, k2⟩ := findNext_spec (s := p) (e := p + n * size) (by omega) (by omega) hin'
        hbok.free hapart
      set b' : Block := { b with free := findNext p (p + n * size) [] b.free } with hb'
      have hb'ok : BlockOk b' := ⟨hbok.pos, k1⟩
      have hd : deallocate (b :: rest) p n size = if b'.isEmpty then rest else b' :: rest := by
        rw [deallocate]; simp [Block.deallocate, hc, hbc, hb']
      have hcnt : ∀ x, cnt b'.free x = cnt b.free x + ind p (p + n * size) x := k2
      have hrest0 : ∀ x, b.data ≤ x → x < b.data + b.sz → freeAt rest x = 0 := by
        intro x h1 h2
        refine freeAt_zero fun c hc1 => ?_
        unfold cnt
        rw [List.countP_eq_zero]
        intro f hf
        have h3 := (hok c (by simp [hc1])).free.mem f hf
        have h4 := hap.1 c hc1
        unfold DisjointRange at h4
        simp only [decide_eq_true_eq]
        omega
      rw [hd]
      by_cases he : b'.isEmpty = true
      · rw [if_pos he]
        have hfull := isEmpty_cnt hb'ok he
        refine ⟨fun c hc => hok c (by simp [hc]), fun c hc => ⟨c, by simp [hc], rfl, rfl⟩, hap.2,
          ?_, ?_, fun h c hc => h c (by simp [hc])⟩
        · intro x
          have h1 := hfull x; have h2 := hcnt x
          have h3 : b'.data = b.data := rfl
          have h4 : b'.sz = b.sz := rfl
          rw [h3, h4] at h1
          simp only [freeAt_cons, ownedAt_cons]; omega
        · intro c hc
          rcases List.mem_cons.1 hc with rfl | hc
          · refine Or.inr fun x h1 h2 => ?_
            have h3 := hfull x; have h4 := hcnt x; have h5 := hrest0 x h1 h2
            rw [freeAt_cons, h5, Nat.add_zero, ← h4, h3]
            simp [ind, hb', h1, h2]
          · exact Or.inl ⟨c, hc, rfl, rfl⟩
      · rw [if_neg he]
        refine ⟨?_, ?_, ?_, ?_, ?_, ?_⟩
        · intro c hc
          rcases List.mem_cons.1 hc with rfl | hc
          · exact hb'ok
          · exact hok c (by simp [hc])
        · intro c hc
          rcases List.mem_cons.1 hc with rfl | hc
          · exact ⟨b, by simp, rfl, rfl⟩
          · exact ⟨c, by simp [hc], rfl, rfl⟩
        · rw [List.pairwise_cons]; exact ⟨hap.1, hap.2⟩
        · intro x
          have h2 := hcnt x
          have h3 : b'.data = b.data := rfl
          have h4 : b'.sz = b.sz := rfl
          simp only [freeAt_cons, ownedAt_cons, h3, h4]; omega
        · intro c hc
          rcases List.mem_cons.1 hc with rfl | hc
          · exact Or.inl ⟨b', by simp, rfl, rfl⟩
          · exact Or.inl ⟨c, by simp [hc], rfl, rfl⟩
        · intro h c hc
          rcases List.mem_cons.1 hc with rfl | hc
          · simpa using he
          · exact h c (by simp [hc])

/-! ### histories -/

/-- every owned block is in use -/
def Occupied (s : Sys) : Prop :=
  ∀ b ∈ s.blocks, ∃ l ∈ s.live, b.data ≤ l.ptr ∧ l.ptr + l.bytes ≤ b.data + b.sz

theorem liveAt_pos {ls : List Live} {l x} (h : l ∈ ls) (h1 : l.ptr ≤ x) (h2 : x < l.ptr + l.bytes) :
    0 < liveAt ls x := List.countP_pos_iff.2 ⟨l, h, by simp [h1, h2]⟩

theorem mem_of_liveAt_pos {ls : List Live} {x} (h : 0 < liveAt ls x) :
    ∃ l ∈ ls, l.ptr ≤ x ∧ x < l.ptr + l.bytes := by
  obtain ⟨l, hl, hx⟩ := List.countP_pos_iff.1 h
  exact ⟨l, hl, by simpa using hx⟩

theorem freeAt_ge {bs : List Block} {b x} (h : b ∈ bs) : cnt b.free x ≤ freeAt bs x := by
  induction bs with
  | nil => simp at h
  | cons c bs ih =>
    rw [freeAt_cons]
    rcases List.mem_cons.1 h with rfl | h
    · omega
    · have := ih h; omega

theorem ownedAt_pos {bs : List Block} {b x} (h : b ∈ bs) (h1 : b.data ≤ x)
    (h2 : x < b.data + b.sz) : 0 < ownedAt bs x :=
  List.countP_pos_iff.2 ⟨b, h, by simp [h1, h2]⟩

theorem mem_of_ownedAt_pos {bs : List Block} {x} (h : 0 < ownedAt bs x) :
    ∃ b ∈ bs, b.data ≤ x ∧ x < b.data + b.sz := by
  obtain ⟨l, hl, hx⟩ := List.countP_pos_iff.1 h
  exact ⟨l, hl, by simpa using hx⟩

theorem block_unique {bs : List Block}
    (h : bs.Pairwise fun a b => DisjointRange a.data a.sz b.data b.sz) {a b : Block} {x}
    (ha : a ∈ bs) (hb : b ∈ bs) (h1 : a.data ≤ x) (h2 : x < a.data + a.sz) (h3 : b.data ≤ x)
    (h4 : x < b.data + b.sz) : a = b := by
  induction bs with
  | nil => simp at ha
  | cons c bs ih =>
    rw [List.pairwise_cons] at h
    rcases List.mem_cons.1 ha with ha' | ha' <;> rcases List.mem_cons.1 hb with hb' | hb'
    · rw [ha', hb']
    · have := h.1 b hb'; subst ha'; unfold DisjointRange at this; omega
    · have := h.1 a ha'; subst hb'; unfold DisjointRange at this; omega
    · exact ih h.2 ha' hb'

theorem SysOk.nonempty_iff {s : Sys} (h : SysOk s) {b} (hb : b ∈ s.blocks) :
    b.isEmpty = false ↔ ∃ l ∈ s.live, b.data ≤ l.ptr ∧ l.ptr + l.bytes ≤ b.data + b.sz := by
  constructor
  · intro he
    have : ¬ ∀ x, b.data ≤ x → x < b.data + b.sz → 0 < cnt b.free x := fun hx => by
      rw [isEmpty_of_full (h.blocks b hb) hx] at he; simp at he
    simp only [not_forall] at this
    obtain ⟨x, h1, h2, h3⟩ := this
    have hcx : freeAt s.blocks x = 0 := by
      refine freeAt_zero fun c hc => ?_
      by_contra h6
      obtain ⟨f, hf, hf1, hf2⟩ := mem_of_cnt_pos (Nat.pos_of_ne_zero h6)
      have := (h.blocks c hc).free.mem f hf
      have := block_unique h.apart hb hc h1 h2 (by omega) (by omega)
      subst this; omega
    have ht := h.tile x
    have ho := ownedAt_pos hb h1 h2
    obtain ⟨l, hl, hl1, hl2⟩ := mem_of_liveAt_pos (ls := s.live) (x := x) (by omega)
    obtain ⟨_, _, _, c, hc, hc1, hc2⟩ := h.live l hl
    have := block_unique h.apart hb hc h1 h2 (by omega) (by omega)
    subst this
    exact ⟨l, hl, hc1, hc2⟩
  · rintro ⟨l, hl, h1, h2⟩
    by_contra he
    simp only [Bool.not_eq_false] at he
    have hp := (h.live l hl).1
    have k1 := isEmpty_cnt (h.blocks b hb) he l.ptr
    have k2 := freeAt_ge (x := l.ptr) hb
    have k3 := liveAt_pos (x := l.ptr) hl (le_refl _) (by omega)
    have k4 := h.tile l.ptr
    have k5 := ownedAt_le_one h.apart l.ptr
    have : ind b.data (b.data + b.sz) l.ptr = 1 := by unfold ind; rw [if_pos (by omega)]
    omega

theorem call_ok {blockSize} {s : Sys} {c : Call} (h : SysOk s ∧ Occupied s)
    (hl : s.legal blockSize c) : SysOk (s.call blockSize c) ∧ Occupied (s.call blockSize c) := by
  obtain ⟨hs, hocc⟩ := h
  cases c with
  | alloc n size align base =>
    by_cases hn : n = 0
    · subst hn
      have : s.call blockSize (.alloc 0 size align base) = s := by
        simp [Sys.call, allocate]
      rw [this]; exact ⟨hs, hocc⟩
    · obtain ⟨p, bs, h1, h2, h3⟩ := allocate_spec hs (Nat.pos_of_ne_zero hn) hl
      have : s.call blockSize (.alloc n size align base) = ⟨bs, ⟨p, n * size, align⟩ :: s.live⟩ := by
        simp [Sys.call, h1]
      rw [this]
      refine ⟨h2, fun b hb => ?_⟩
      rcases h3 b hb with ⟨c, hc, hc1, hc2⟩ | hp
      · obtain ⟨l, hl1, hl2⟩ := hocc c hc
        exact ⟨l, by simp [hl1], by omega, by omega⟩
      · exact ⟨_, List.mem_cons_self, hp⟩
  | free idx n size =>
    obtain ⟨l, hidx, hbytes⟩ := hl
    have hmem : l ∈ s.live := List.mem_of_getElem? hidx
    obtain ⟨k1, k2, k3, b, hb, hb1, hb2⟩ := hs.live l hmem
    have hcall : s.call blockSize (.free idx n size) =
        ⟨deallocate s.blocks l.ptr n size, s.live.eraseIdx idx⟩ := by
      simp [Sys.call, hidx]
    have herase := liveAt_eraseIdx s.live idx l hidx
    rw [hbytes] at k1 k2 hb2
    have hfree0 : ∀ x, l.ptr ≤ x → x < l.ptr + n * size → freeAt s.blocks x = 0 := by
      intro x h1 h2
      have := liveAt_pos (x := x) hmem h1 (by omega)
      have := hs.tile x
      have := ownedAt_le_one hs.apart x
      omega
    obtain ⟨g1, g2, g3, g4, g5, g6⟩ :=
      deallocate_spec k1 k2 s.blocks hs.blocks hs.apart ⟨b, hb, hb1, hb2⟩ hfree0
    have hok : SysOk (s.call blockSize (.free idx n size)) := by
      rw [hcall]
      refine ⟨g1, g3, ?_, ?_⟩
      · intro l' hl'
        have hl'm : l' ∈ s.live := List.mem_of_mem_eraseIdx hl'
        obtain ⟨m1, m2, m3, c, hc, hc1, hc2⟩ := hs.live l' hl'm
        refine ⟨m1, m2, m3, ?_⟩
        rcases g5 c hc with ⟨d, hd, hd1, hd2⟩ | hx
        · exact ⟨d, hd, by omega, by omega⟩
        · exfalso
          have e1 := hx l'.ptr (by omega) (by omega)
          have e2 : 0 < liveAt (s.live.eraseIdx idx) l'.ptr :=
            liveAt_pos (x := l'.ptr) hl' (le_refl _) (by omega)
          have e3 := herase l'.ptr
          have e4 := hs.tile l'.ptr
          have e5 := ownedAt_le_one hs.apart l'.ptr
          rw [hbytes] at e3
          omega
      · intro x
        have e1 := g4 x; have e2 := hs.tile x; have e3 := herase x
        rw [hbytes] at e3
        dsimp only
        have e5 := ownedAt_le_one hs.apart x
        omega
    refine ⟨hok, fun c hc => ?_⟩
    have hne : ∀ b ∈ s.blocks, b.isEmpty = false := fun b hb => (hs.nonempty_iff hb).2 (hocc b hb)
    have hc' := hc
    rw [hcall] at hc'
    exact (hok.nonempty_iff hc).1 (g6 hne c hc')

theorem reachable_ok {blockSize} {s : Sys} (h : Reachable blockSize s) : SysOk s ∧ Occupied s := by
  induction h with
  | init =>
    exact ⟨⟨by simp [Sys.init], by simp [Sys.init], by simp [Sys.init],
      by intro x; simp [Sys.init, freeAt, liveAt, ownedAt]⟩, by simp [Occupied, Sys.init]⟩
  | call _ hl ih => exact call_ok ih hl

end Simu.Memory
