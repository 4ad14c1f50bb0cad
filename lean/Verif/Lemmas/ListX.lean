import Mathlib.Data.List.Basic
import Verif.Go.Basic

/-! Generic list lemmas. -/

namespace Go

variable {α : Type}

theorem findIdx?_some_split {p : α → Bool} {l : List α} {i : Nat} (h : l.findIdx? p = some i) :
    ∃ l1 x l2, l = l1 ++ x :: l2 ∧ l1.length = i ∧ p x = true ∧ ∀ y ∈ l1, p y = false := by
  induction l generalizing i with
  | nil => simp at h
  | cons a l ih =>
    rw [List.findIdx?_cons] at h
    by_cases ha : p a = true
    · simp [ha] at h; subst h; exact ⟨[], a, l, by simp [ha]⟩
    · simp [ha] at h
      obtain ⟨j, hj, rfl⟩ := h
      obtain ⟨l1, x, l2, rfl, rfl, hx, hall⟩ := ih hj
      refine ⟨a :: l1, x, l2, by simp, by simp, hx, ?_⟩
      intro y hy
      rcases List.mem_cons.1 hy with rfl | hy
      · simpa using ha
      · exact hall y hy

theorem findIdx?_none_all {p : α → Bool} {l : List α} (h : l.findIdx? p = none) :
    ∀ y ∈ l, p y = false := by
  simpa using h

theorem set_append_cons (l1 : List α) (x y : α) (l2 : List α) :
    (l1 ++ x :: l2).set l1.length y = l1 ++ y :: l2 := by
  simp

theorem shiftRight_append (l1 : List α) (x : α) (l2 : List α) (z : α) :
    shiftRight (l1 ++ x :: l2 ++ [z]) l1.length = l1 ++ x :: x :: l2 := by
  unfold shiftRight
  have e : l1 ++ x :: l2 ++ [z] = l1 ++ (x :: (l2 ++ [z])) := by simp
  have h1 : (l1 ++ x :: (l2 ++ [z])).length - (l1.length + 1) = l2.length + 1 := by simp; omega
  rw [e, h1, List.take_length_add_append, List.drop_left]
  simp

end Go
