import Verif.Lemmas.Memory
/-
C01, C02, C03: the free list allocator (include/Simu/utility/Memory.hpp).
-/
namespace Simu.Memory

/-! A concrete, non-trivial history used as witness: three allocations of different types, then
the middle one is freed (leaving a hole), then a small object is put in the hole. -/

def demoCalls : List Call :=
  [.alloc 3 4 4 1002, .alloc 2 8 8 5000, .alloc 1 16 8 5000, .free 1 2 8, .alloc 5 1 1 5000]

def demo : Sys := demoCalls.foldl (Sys.call 64) Sys.init

theorem demo_reachable : Reachable 64 demo := by
  have h0 : Reachable 64 Sys.init := .init
  have h1 := Reachable.call (c := .alloc 3 4 4 1002) h0
    ⟨by decide, by decide, by decide, by decide⟩
  have h2 := Reachable.call (c := .alloc 2 8 8 5000) h1
    ⟨by decide, by decide, by decide, by decide⟩
  have h3 := Reachable.call (c := .alloc 1 16 8 5000) h2
    ⟨by decide, by decide, by decide, by decide⟩
  have h4 := Reachable.call (c := .free 1 2 8) h3 ⟨⟨1016, 16, 8⟩, by decide, by decide⟩
  exact Reachable.call (c := .alloc 5 1 1 5000) h4
    ⟨by decide, by decide, by decide, by decide⟩

/-- the history is not trivial: live data, padding hole reused, a hole in the middle -/
example : demo = ⟨[⟨1002, 64, [⟨1002, 1004⟩, ⟨1021, 1032⟩, ⟨1048, 1066⟩]⟩],
    [⟨1016, 5, 1⟩, ⟨1032, 16, 8⟩, ⟨1004, 12, 4⟩]⟩ := by decide

/-- **C01.** For every history, live allocations are pairwise disjoint, aligned, and inside one
owned block. -/
theorem C01_live_allocations_sound {blockSize : Nat} {s : Sys} (h : Reachable blockSize s) :
    (s.live.Pairwise fun a b => DisjointRange a.ptr a.bytes b.ptr b.bytes) ∧
    (∀ l ∈ s.live, l.align ∣ l.ptr) ∧
    (∀ l ∈ s.live, 0 < l.bytes ∧
      ∃ b ∈ s.blocks, b.data ≤ l.ptr ∧ l.ptr + l.bytes ≤ b.data + b.sz) := by
  obtain ⟨hs, _⟩ := reachable_ok h
  refine ⟨?_, fun l hl => (hs.live l hl).2.2.1, fun l hl =>
    ⟨(hs.live l hl).1, (hs.live l hl).2.2.2⟩⟩
  have key : ∀ x, liveAt s.live x ≤ 1 := fun x => by
    have := hs.tile x; have := ownedAt_le_one hs.apart x; omega
  have hpos : ∀ l ∈ s.live, 0 < l.bytes := fun l hl => (hs.live l hl).1
  generalize s.live = ls at key hpos
  induction ls with
  | nil => exact List.Pairwise.nil
  | cons l ls ih =>
    refine List.pairwise_cons.2 ⟨fun m hm => ?_, ih ?_ fun a ha => hpos a (by simp [ha])⟩
    · by_contra hcon
      unfold DisjointRange at hcon
      have h1 := key (max l.ptr m.ptr)
      rw [liveAt_cons] at h1
      have hl := hpos l (by simp)
      have hm' := hpos m (by simp [hm])
      have h2 := liveAt_pos (x := max l.ptr m.ptr) hm (by omega) (by omega)
      have h3 : ind l.ptr (l.ptr + l.bytes) (max l.ptr m.ptr) = 1 := by
        unfold ind; rw [if_pos (by omega)]
      omega
    · intro x; have := key x; rw [liveAt_cons] at this; omega

example : ∃ s, Reachable 64 s ∧ s.live.length = 3 ∧ (s.blocks.map (·.free.length)) = [3] :=
  ⟨demo, demo_reachable, by decide, by decide⟩

/-- **C02.** For every history each owned byte is in exactly one live allocation or free range (and
no other byte is), blocks never overlap, free ranges are non-empty, sorted and separated by at
least one used byte, and an allocator without live allocations owns no block. -/
theorem C02_bytes_conserved {blockSize : Nat} {s : Sys} (h : Reachable blockSize s) :
    (∀ x, freeAt s.blocks x + liveAt s.live x = ownedAt s.blocks x) ∧
    (∀ x, ownedAt s.blocks x ≤ 1) ∧
    (∀ b ∈ s.blocks, (b.free.Pairwise fun f g => f.stop < g.start) ∧
      ∀ f ∈ b.free, b.data ≤ f.start ∧ f.start < f.stop ∧ f.stop ≤ b.data + b.sz) ∧
    (s.live = [] → s.blocks = []) := by
  obtain ⟨hs, hocc⟩ := reachable_ok h
  refine ⟨hs.tile, ownedAt_le_one hs.apart, fun b hb =>
    ⟨(hs.blocks b hb).free.pairwise, (hs.blocks b hb).free.mem⟩, fun hl => ?_⟩
  cases hb : s.blocks with
  | nil => rfl
  | cons b bs =>
    obtain ⟨l, hl', _⟩ := hocc b (by rw [hb]; simp)
    rw [hl] at hl'; simp at hl'

/-- freeing everything in the demo (in an order exercising every merge case) releases the block -/
example : (([.free 1 1 16, .free 0 5 1, .free 0 3 4] : List Call).foldl (Sys.call 64) demo).blocks
    = [] := by decide

/-- **C03.** In every reachable state an allocation of `n > 0` elements whose size does not overflow
succeeds (never null), and `n = 0` returns null without touching the allocator. -/
theorem C03_allocate_succeeds {blockSize : Nat} {s : Sys} (h : Reachable blockSize s)
    (n size align base : Nat) (hl : s.legal blockSize (.alloc n size align base)) :
    (0 < n → ∃ p, (allocate blockSize s.blocks n size align base).1 = some p) ∧
    (n = 0 → allocate blockSize s.blocks n size align base = (none, s.blocks)) ∧
    (allocate blockSize s.blocks n size align base).2.length ≤ s.blocks.length + 1 := by
  refine ⟨fun hn => ?_, fun hn => by simp [allocate, hn], ?_⟩
  · obtain ⟨p, bs, h1, _⟩ := allocate_spec (reachable_ok h).1 hn hl
    exact ⟨p, by rw [h1]⟩
  · by_cases hn : n = 0
    · simp [allocate, hn]
    · unfold allocate
      rw [if_neg hn]
      have hlen : ∀ bs : List Block, ∀ r, tryBlocks n size align bs = some r →
          r.2.length = bs.length := by
        intro bs
        induction bs with
        | nil => intro r hr; simp [tryBlocks] at hr
        | cons b bs ih =>
          intro r hr
          rw [tryBlocks] at hr
          cases hb : b.allocate n size align with
          | some q => rw [hb] at hr; simp at hr; subst hr; simp
          | none =>
            rw [hb] at hr
            cases ht : tryBlocks n size align bs with
            | none => rw [ht] at hr; simp at hr
            | some q => rw [ht] at hr; simp at hr; subst hr; simp [ih q ht]
      cases ht : tryBlocks n size align s.blocks with
      | some r => have := hlen _ r ht; simp; omega
      | none =>
        dsimp only
        split <;> simp

example : demo.legal 64 (.alloc 100 8 8 5000) :=
  ⟨by decide, by decide, by decide, by decide⟩

/-- a request that needs a second block gets it -/
example : (allocate 64 demo.blocks 100 8 8 5001).1 = some 5008 := by decide

/-- **Disagreement for C01 without the overflow precondition.** `n * sizeof(T)` is not checked for
overflow (Memory.hpp:230, 333): a request for 2^61 eight byte objects returns a non-null pointer to
a 64 byte block, and the following small allocation is given the very same address. -/
theorem C01_size_overflow_disagreement :
    let s := (([.alloc (2 ^ 61) 8 8 4096, .alloc 1 8 8 5000] : List Call)).foldl (Sys.call 64) Sys.init
    s.live = [⟨4096, 8, 8⟩, ⟨4096, 2 ^ 64, 8⟩] ∧
    ¬ (s.live.Pairwise fun a b => DisjointRange a.ptr a.bytes b.ptr b.bytes) := by
  decide

end Simu.Memory
