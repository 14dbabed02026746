import Verif.Model.State
/-
`pySorted` sorts.
-/

namespace VgmX

theorem insertStable_perm {α : Type} (lt : α → α → Bool) (a : α) (l : List α) :
    (insertStable lt a l).Perm (a :: l) := by
  induction l with
  | nil => exact List.Perm.refl _
  | cons b l ih =>
    unfold insertStable
    split
    · exact (ih.cons b).trans (List.Perm.swap a b l)
    · exact List.Perm.refl _

theorem pySorted_perm {α : Type} (lt : α → α → Bool) (l : List α) :
    (pySorted lt l).Perm l := by
  induction l with
  | nil => exact List.Perm.refl _
  | cons a l ih => exact (insertStable_perm lt a _).trans (ih.cons a)

theorem insertStable_sorted {α : Type} (lt : α → α → Bool)
    (hle : ∀ a b c, lt b a = false → lt c b = false → lt c a = false)
    (hasy : ∀ a b, lt a b = true → lt b a = false)
    (a : α) (l : List α) (h : l.Pairwise (fun x y => lt y x = false)) :
    (insertStable lt a l).Pairwise (fun x y => lt y x = false) := by
  induction l with
  | nil => simp [insertStable]
  | cons b l ih =>
    rw [List.pairwise_cons] at h
    unfold insertStable
    split
    · rename_i hlt
      rw [List.pairwise_cons]
      refine ⟨?_, ih h.2⟩
      intro x hx
      rcases List.mem_cons.mp ((insertStable_perm lt a l).mem_iff.mp hx) with rfl | hx
      · exact hasy _ _ hlt
      · exact h.1 x hx
    · rename_i hlt
      have hba : lt b a = false := by simpa using hlt
      rw [List.pairwise_cons]
      refine ⟨?_, by rw [List.pairwise_cons]; exact h⟩
      intro x hx
      rcases List.mem_cons.mp hx with rfl | hx
      · exact hba
      · exact hle a b x hba (h.1 x hx)

theorem pySorted_sorted {α : Type} (lt : α → α → Bool)
    (hle : ∀ a b c, lt b a = false → lt c b = false → lt c a = false)
    (hasy : ∀ a b, lt a b = true → lt b a = false) (l : List α) :
    (pySorted lt l).Pairwise (fun x y => lt y x = false) := by
  induction l with
  | nil => simp [pySorted]
  | cons a l ih => exact insertStable_sorted lt hle hasy a _ ih

theorem pySorted_nat_sorted (l : List Nat) :
    (pySorted (fun a b => decide (a < b)) l).Pairwise (· ≤ ·) := by
  have := pySorted_sorted (fun a b : Nat => decide (a < b))
    (by intro a b c; simp; omega) (by intro a b; simp; omega) l
  exact this.imp (fun h => by simpa using h)

end VgmX
