import Verif.Lemmas.Pool
/-
C100: objects made in the pools of the library.
-/
namespace Simu.Memory.Pools

/-- A class of 24 bytes, and one of 8. -/
def big : ObjType := ⟨0, 24, 8⟩
def small : ObjType := ⟨1, 8, 8⟩

/-- Two allocators that share their blocks and another one; objects in both; a constructor that throws; the allocators end before the pointers; a pointer is converted to a base class and reset; memory is used again. -/
def story : List Op :=
  [.newAlloc, .copyAlloc 0, .newAlloc, .make 0 big 1000 false, .make 2 small 2000 false, .make 1 big 3000 true, .make 1 small 3000 false, .assignAlloc 0 1, .endAlloc 2,
    .toBase 1 0, .reset 2, .endAlloc 0, .make 0 big 3000 false, .endAlloc 0, .reset 1]

/-- Where the story ends. -/
def storyEnd : Outcome Pools := run 64 story init

theorem legalRun_cons {blockSize : Nat} {o : Op} {ops : List Op} {s s1 : Pools} (h1 : s.Legal blockSize o) (h2 : s.step blockSize o = .ok s1) (h3 : LegalRun blockSize ops s1) :
    LegalRun blockSize (o :: ops) s :=
  ⟨h1, fun s' h => by rw [h2] at h; cases h; exact h3⟩

/-- Decides whether the memory given by the system is not in use, for the heaps made so far. -/
def freshB (blockSize : Nat) (s : Pools) : Op → Bool
  | .make _ t base _ => decide (0 < t.size ∧ 0 < t.align ∧ t.size + t.align ≤ wordSize) &&
      (List.range s.made).all fun h => (s.heap h).all fun bs => bs.all fun b => decide (DisjointRange base (max blockSize (t.size + t.align - 1)) b.data b.sz)
  | .toBase _ offset => offset == 0
  | _ => true

/-- Decides whether a history is legal. -/
def legalB (blockSize : Nat) : List Op → Pools → Bool
  | [], _ => true
  | o :: ops, s => freshB blockSize s o && match s.step blockSize o with
    | .ok s' => legalB blockSize ops s'
    | _ => true

theorem legalRun_of_legalB {blockSize : Nat} (ops : List Op) {lost : Nat → List Live} {s : Pools} (hi : Inv lost s) (h : legalB blockSize ops s = true) : LegalRun blockSize ops s := by
  induction ops generalizing s lost with
  | nil => trivial
  | cons o ops ih =>
    simp only [legalB, Bool.and_eq_true] at h
    have hl : s.Legal blockSize o := by
      have h1 := h.1
      cases o with
      | make i t base throws =>
        simp only [freshB, Bool.and_eq_true, decide_eq_true_eq, List.all_eq_true, List.mem_range] at h1
        refine ⟨h1.1.1, h1.1.2.1, h1.1.2.2, fun k bs hb b hbm => ?_⟩
        have := h1.2 k (hi.not_fresh (by rw [hb]; simp))
        rw [hb] at this
        simp only [Option.all_some, List.all_eq_true, decide_eq_true_eq] at this
        exact this b hbm
      | toBase i offset => exact eq_of_beq h1
      | newAlloc => trivial
      | copyAlloc i => trivial
      | assignAlloc i j => trivial
      | endAlloc i => trivial
      | reset i => trivial
    obtain ⟨s1, l1, h2, h3, _⟩ := inv_step hi o hl
    refine legalRun_cons hl h2 (ih h3 ?_)
    rw [h2] at h
    exact h.2

theorem story_legal : LegalRun 64 story init := legalRun_of_legalB story inv_init (by decide +kernel)

/-- **C100** (partial). In every history of allocators that are made, copied, assigned and ended, and of objects made with them, nothing undefined happens, also if constructors throw and if pointers outlive the allocators:
every object that was constructed exists or was destroyed, once; those that exist are the ones of the pointers, one each, at the addresses they hold; they are aligned and have their memory for
themselves; and this memory exists as long as the pointers do, and no longer than pointers and allocators. Missing: pointers converted to base classes that do not begin where the object begins
(`C100_base_disagreement`). -/
theorem C100_histories_partial {blockSize : Nat} (ops : List Op) (hl : LegalRun blockSize ops init) :
    ∃ s, run blockSize ops init = .ok s ∧ s.OnceEach ∧ s.Owned ∧ s.Apart ∧ s.Backed ∧ s.Needed := by
  obtain ⟨s, _, h1, h2, _⟩ := inv_run ops inv_init hl
  exact ⟨s, h1, h2.once, h2.owned, h2.sound.1, h2.sound.2, h2.needed⟩

/-- `story` is legal. In the end two pointers are left, no allocator, and one list of blocks, which still has the memory of the object whose constructor threw (bytes 2008 to 2031). -/
example : LegalRun 64 story init ∧ (storyEnd.bind fun s => .ok (s.allocs, s.ptrs, s.destroyed, s.heap 0, s.heap 1)) =
    .ok ([], [⟨2040, 0, big, 3⟩, ⟨2000, 0, small, 1⟩], [2, 0], some [⟨2000, 64, [⟨2032, 2040⟩]⟩], none) := ⟨story_legal, by rfl⟩

/-- **C100** (end of a pointer). Whatever happened before, a pointer that is reset, assigned another one or that ends destroys the object it was made for, and no other. -/
theorem C100_reset {blockSize : Nat} (ops : List Op) (hl : LegalRun blockSize ops init) {s : Pools} (hs : run blockSize ops init = .ok s) {i : Nat} {p : Ptr} (hp : s.ptrs[i]? = some p) :
    ∃ s', s.step blockSize (.reset i) = .ok s' ∧ s'.destroyed = p.obj :: s.destroyed ∧ s'.ptrs = s.ptrs.eraseIdx i ∧ s.objects.Perm (⟨p.obj, p.addr, p.type⟩ :: s'.objects) := by
  obtain ⟨s0, lost, h1, h2, _⟩ := inv_run ops inv_init hl
  rw [h1] at hs; cases hs
  obtain ⟨s', h3, h4, h5⟩ := inv_reset h2 hp
  have h6 : s'.ptrs = s.ptrs.eraseIdx i := by
    simp only [delete] at h3
    split at h3
    · simp at h3
    · split at h3
      · split at h3
        · simp at h3
        · simp only [Outcome.bind_ok, Outcome.ok.injEq] at h3
          rw [← h3]; rfl
      · simp at h3
  refine ⟨s', by simp only [step, hp]; exact h3, h5, h6, ?_⟩
  obtain ⟨hlt, rfl⟩ := List.getElem?_eq_some_iff.1 hp
  have ho := h4.owned
  unfold Owned at ho
  rw [h6] at ho
  refine h2.owned.trans (List.Perm.trans ?_ (ho.cons _).symm)
  exact ((List.getElem_cons_eraseIdx_perm hlt).symm.map (fun p : Ptr => (⟨p.obj, p.addr, p.type⟩ : Object)))

/-- After `story` the two pointers can be reset. -/
example : (storyEnd.bind fun s => (s.step 64 (.reset 0)).bind fun s => .ok (s.ptrs, s.destroyed)) = .ok ([⟨2000, 0, small, 1⟩], [3, 2, 0]) := by decide +kernel

/-- **C100** (everything is given back). Once all pointers and all allocators are gone, no memory is left, whatever constructors threw. -/
theorem C100_all_gone {blockSize : Nat} (ops : List Op) (hl : LegalRun blockSize ops init) {s : Pools} (hs : run blockSize ops init = .ok s) (ha : s.allocs = []) (hp : s.ptrs = []) :
    (∀ h, s.heap h = none) ∧ s.objects = [] ∧ s.destroyed.Perm (List.range s.born) := by
  obtain ⟨s0, lost, h1, h2, _⟩ := inv_run ops inv_init hl
  rw [h1] at hs; cases hs
  have ho : s.objects = [] := by
    have := h2.owned
    unfold Owned at this
    rw [hp] at this
    exact List.Perm.eq_nil this
  refine ⟨fun h => ?_, ho, ?_⟩
  · cases hb : s.heap h with
    | none => rfl
    | some bs =>
      rcases h2.needed h bs hb with h3 | ⟨p, h3, _⟩
      · rw [ha] at h3; simp at h3
      · rw [hp] at h3; simp at h3
  · have := h2.once
    unfold OnceEach at this
    rwa [ho] at this

/-- `story` continued until everything is gone. -/
example : LegalRun 64 (story ++ [.reset 1, .reset 0]) init ∧ ((run 64 (story ++ [.reset 1, .reset 0]) init).bind fun s => .ok (s.allocs, s.ptrs, s.heap 0, s.heap 1, s.destroyed)) = .ok ([], [], none, none, [3, 1, 2, 0]) :=
  ⟨legalRun_of_legalB _ inv_init (by decide +kernel), by rfl⟩

/-- **C100** (memory is used again, partial). If no constructor throws, an allocator without objects owns no memory. Missing: the same if constructors throw (`C100_throw_disagreement`). -/
theorem C100_no_leak_partial {blockSize : Nat} (ops : List Op) (hl : LegalRun blockSize ops init) (hn : ∀ o ∈ ops, NoThrow o) {s : Pools} (hs : run blockSize ops init = .ok s)
    {h : Nat} {bs : List Block} (hb : s.heap h = some bs) (hp : ∀ p ∈ s.ptrs, p.heap ≠ h) : bs = [] := by
  obtain ⟨s0, lost, h1, h2, h3⟩ := inv_run ops inv_init hl
  rw [h1] at hs; cases hs
  rw [h3 hn] at h2
  have hlive : lives (fun _ => []) s.ptrs h = [] := by
    unfold lives
    rw [List.append_nil, List.map_eq_nil_iff, List.filter_eq_nil_iff]
    intro p hpm; simpa using hp p hpm
  have hocc := (h2.sys h bs hb).2
  rw [hlive] at hocc
  cases bs with
  | nil => rfl
  | cons b l =>
    obtain ⟨x, hx, _⟩ := hocc b List.mem_cons_self
    simp at hx

/-- An allocator that lives on after its objects, none of which threw. -/
example : LegalRun 64 [.newAlloc, .make 0 big 1000 false, .make 0 small 2000 false, .reset 1, .reset 0] init ∧
    ((run 64 [.newAlloc, .make 0 big 1000 false, .make 0 small 2000 false, .reset 1, .reset 0] init).bind fun s => .ok (s.allocs, s.ptrs, s.heap 0)) = .ok ([0], [], some []) :=
  ⟨legalRun_of_legalB _ inv_init (by decide +kernel), by decide +kernel⟩

/-- `n` times, a constructor of a class of the size of a block throws; the system gives the blocks one after the other. -/
def failures (B n : Nat) : List Op := .newAlloc :: (List.range n).map fun k => .make 0 ⟨0, B, 1⟩ (B * k) true

theorem tryBlocks_full {n size align : Nat} (bs : List Block) (h : ∀ b ∈ bs, b.free = []) : tryBlocks n size align bs = none := by
  induction bs with
  | nil => rfl
  | cons b l ih =>
    have h1 : b.allocate n size align = none := by
      unfold Block.allocate
      rw [h b List.mem_cons_self]
      split <;> rfl
    rw [tryBlocks, h1]
    simp [ih fun c hc => h c (List.mem_cons_of_mem _ hc)]

theorem run_append {blockSize : Nat} (l m : List Op) (s : Pools) : run blockSize (l ++ m) s = (run blockSize l s).bind (run blockSize m) := by
  induction l generalizing s with
  | nil => rfl
  | cons o l ih =>
    rw [List.cons_append, run, run]
    cases s.step blockSize o with
    | ok s => simp [ih]
    | throw => rfl
    | ub => rfl

theorem run_failures {B : Nat} (hB : 0 < B) (hw : B + 1 ≤ wordSize) (n : Nat) :
    ∃ s, run B (failures B n) init = .ok s ∧ s.allocs = [0] ∧ s.ptrs = [] ∧ s.objects = [] ∧ s.made = 1 ∧ (∀ h, h ≠ 0 → s.heap h = none) ∧
      s.heap 0 = some ((List.range n).map fun k => ⟨B * k, B, []⟩) ∧ LegalRun B (failures B n) init := by
  induction n with
  | zero => exact ⟨_, rfl, rfl, rfl, rfl, rfl, fun h hh => by simp [newAlloc, init, hh], rfl, ⟨trivial, fun _ _ => trivial⟩⟩
  | succ n ih =>
    obtain ⟨s, h1, h2, h3, h4, h5, h6, h7, h8⟩ := ih
    have hf : failures B (n + 1) = failures B n ++ [.make 0 ⟨0, B, 1⟩ (B * n) true] := by
      simp [failures, List.range_succ]
    have hal : allocate B ((List.range n).map fun k => (⟨B * k, B, []⟩ : Block)) 1 B 1 (B * n) = (some (B * n), ((List.range (n + 1)).map fun k => (⟨B * k, B, []⟩ : Block))) := by
      have hbc : byteCount 1 B = B := by unfold byteCount; rw [one_mul, Nat.mod_eq_of_lt (by omega)]
      have hm : (B + 1 - 1) % wordSize = B := by rw [Nat.add_sub_cancel, Nat.mod_eq_of_lt (by omega)]
      unfold allocate
      rw [if_neg (by omega), tryBlocks_full _ (by intro b hb; obtain ⟨k, _, rfl⟩ := List.mem_map.1 hb; rfl)]
      simp only [hbc, hm, max_self]
      simp [hbc, Block.mk', Block.allocate, allocLoop, alignUp, List.range_succ]
    have hstep : s.step B (.make 0 ⟨0, B, 1⟩ (B * n) true) = .ok { s with heap := Function.update s.heap 0 (some ((List.range (n + 1)).map fun k => ⟨B * k, B, []⟩)) } := by
      simp only [step, h2, List.getElem?_cons_zero, make, h7, hal, if_true]
    refine ⟨{ s with heap := Function.update s.heap 0 (some ((List.range (n + 1)).map fun k => ⟨B * k, B, []⟩)) }, by rw [hf, run_append, h1, Outcome.bind_ok, run, hstep]; rfl, h2, h3, h4, h5, fun h hh => ?_, ?_, ?_⟩
    · simp [hh, h6 h hh]
    · simp
    · rw [hf]
      have happ : ∀ (l m : List Op) (t : Pools), LegalRun B l t → (∀ t', run B l t = .ok t' → LegalRun B m t') → LegalRun B (l ++ m) t := by
        intro l m
        induction l with
        | nil => intro t _ h; exact h t rfl
        | cons o l ih =>
          intro t hl h
          refine ⟨hl.1, fun t1 ht1 => ih t1 (hl.2 t1 ht1) fun t' ht' => h t' ?_⟩
          rw [run, ht1, Outcome.bind_ok, ht']
      refine happ _ _ _ h8 fun t ht => ?_
      rw [h1] at ht; cases ht
      refine ⟨⟨hB, Nat.one_pos, hw, fun h bs hb b hbm => ?_⟩, fun _ _ => trivial⟩
      by_cases hh : h = 0
      · subst hh
        rw [h7] at hb; cases hb
        obtain ⟨k, hk, rfl⟩ := List.mem_map.1 hbm
        have hk' := List.mem_range.1 hk
        refine .inr ?_
        show B * k + B ≤ B * n
        rw [← Nat.mul_succ]
        exact Nat.mul_le_mul_left _ hk'
      · rw [h6 h hh] at hb; simp at hb

/-- **C100** (disagreement). The memory of objects whose constructors throw is lost as long as the allocator lives: after `n` failures there is no object and no pointer, and the allocator owns `n` blocks without a free byte. -/
theorem C100_throw_disagreement {B : Nat} (hB : 0 < B) (hw : B + 1 ≤ wordSize) (n : Nat) :
    LegalRun B (failures B n) init ∧ ∃ s bs, run B (failures B n) init = .ok s ∧ s.objects = [] ∧ s.ptrs = [] ∧ s.heap 0 = some bs ∧ bs.length = n ∧ ∀ b ∈ bs, b.free = [] := by
  obtain ⟨s, h1, _, h3, h4, _, _, h7, h8⟩ := run_failures hB hw n
  refine ⟨h8, s, _, h1, h4, h3, h7, by simp, fun b hb => ?_⟩
  obtain ⟨k, _, rfl⟩ := List.mem_map.1 hb
  rfl

/-- The block size of the library (Memory.hpp:170). -/
example : 0 < 32 * 1024 ∧ 32 * 1024 + 1 ≤ wordSize := by decide

/-- **C100** (disagreement). A pointer converted to a base class that begins 8 bytes after the object gives the deleter an address where no object of its class is: destroying it is undefined behaviour. -/
theorem C100_base_disagreement : run 64 [.newAlloc, .make 0 big 1000 false, .toBase 0 8] init ≠ .ub ∧ run 64 [.newAlloc, .make 0 big 1000 false, .toBase 0 8, .reset 0] init = .ub := by
  constructor
  · intro h
    have : (match run 64 [.newAlloc, .make 0 big 1000 false, .toBase 0 8] init with | .ok _ => true | _ => false) = true := by decide +kernel
    rw [h] at this; simp at this
  · rfl

end Simu.Memory.Pools
