import Verif.Model.Algo
import Mathlib.Data.List.Perm.Basic

namespace Simu.Algo

theorem afterSwap_perm {α : Type*} (rest : List α) : (afterSwap rest).Perm rest := by
  unfold afterSwap
  cases h : rest.getLast? with
  | none => simp [List.getLast?_eq_none_iff] at h; simp [h]
  | some z =>
    have h1 : rest.dropLast ++ [z] = rest := List.dropLast_append_getLast? z h
    calc (z :: rest.dropLast).Perm (rest.dropLast ++ [z]) := (List.perm_append_singleton _ _).symm
      _ = rest := h1

theorem booleanSortLoop_spec {α : Type*} (p : α → Bool) (left mid right calls : List α)
    (hl : ∀ a ∈ left, p a = true) (hr : ∀ a ∈ right, p a = false) :
    ((booleanSortLoop p left mid right calls).1 ++ (booleanSortLoop p left mid right calls).2.1).Perm
      (left ++ mid ++ right) ∧
    (∀ a ∈ (booleanSortLoop p left mid right calls).1, p a = true) ∧
    (∀ a ∈ (booleanSortLoop p left mid right calls).2.1, p a = false) ∧
    (booleanSortLoop p left mid right calls).2.2.Perm (mid ++ calls) := by
  fun_induction booleanSortLoop p left mid right calls with
  | case1 left right calls => simpa using ⟨hl, hr⟩
  | case2 left a rest right calls hp ih =>
    obtain ⟨h1, h2, h3, h4⟩ := ih (by
      intro b hb
      rcases List.mem_append.1 hb with hb | hb
      · exact hl b hb
      · simp at hb; subst hb; exact hp) hr
    refine ⟨?_, h2, h3, ?_⟩
    · simpa using h1
    · refine h4.trans ?_
      simp [List.perm_middle]
  | case3 left a rest right calls hp ih =>
    obtain ⟨h1, h2, h3, h4⟩ := ih hl (by
      intro b hb
      rcases List.mem_cons.1 hb with rfl | hb
      · simpa using hp
      · exact hr b hb)
    refine ⟨?_, h2, h3, ?_⟩
    · refine h1.trans ?_
      have := afterSwap_perm rest
      have h5 : (left ++ afterSwap rest ++ a :: right).Perm (left ++ rest ++ a :: right) :=
        ((List.Perm.refl left).append this).append_right _
      refine h5.trans ?_
      simp only [List.append_assoc, List.cons_append]
      exact (List.Perm.refl left).append List.perm_middle
    · refine h4.trans ?_
      have := (afterSwap_perm rest).append_right (a :: calls)
      refine this.trans ?_
      simp [List.perm_middle]

end Simu.Algo
