import Mathlib.Algebra.BigOperators.Group.List.Basic
import Verif.Go.IEEE
import Verif.Go.Basic

/-! General facts about float comparisons, sums and printing. -/

namespace Finmod
open Go

theorem fl_le_trans {x y z : Fl} (h1 : Fl.le x y = true) (h2 : Fl.le y z = true) :
    Fl.le x z = true := by
  rw [Fl.le_iff] at *
  exact ⟨h1.1, h2.2.1, h1.2.2.trans h2.2.2⟩

theorem fl_lt_of_le_of_lt {x y z : Fl} (h1 : Fl.le x y = true) (h2 : Fl.lt y z = true) :
    Fl.lt x z = true := by
  rw [Fl.le_iff] at h1; rw [Fl.lt_iff] at *
  exact ⟨h1.1, h2.2.1, lt_of_le_of_lt h1.2.2 h2.2.2⟩

theorem fl_lt_of_lt_of_le {x y z : Fl} (h1 : Fl.lt x y = true) (h2 : Fl.le y z = true) :
    Fl.lt x z = true := by
  rw [Fl.le_iff] at h2; rw [Fl.lt_iff] at *
  exact ⟨h1.1, h2.2.1, lt_of_lt_of_le h1.2.2 h2.2.2⟩

theorem fl_le_of_lt {x y : Fl} (h : Fl.lt x y = true) : Fl.le x y = true := by
  rw [Fl.lt_iff] at h; exact Fl.le_iff.2 ⟨h.1, h.2.1, h.2.2.le⟩

theorem fl_le_refl {x : Fl} (h : x ≠ .nan) : Fl.le x x = true := Fl.le_iff.2 ⟨h, h, le_refl _⟩

/-- Finite floats add up exactly in exact arithmetic. -/
theorem exact_foldl_add {l : List Fl} (hf : ∀ x ∈ l, x.isFinite = true) {acc : Fl} {q : ℚ}
    (ha : acc.Is q) :
    (l.foldl FloatSem.exact.add acc).Is (q + (l.map Fl.toRat).sum) := by
  induction l generalizing acc q with
  | nil => simpa using ha
  | cons x l ih =>
    have hx := Fl.isFinite_is (hf x (by simp))
    have := ih (fun y hy => hf y (by simp [hy])) (FloatSem.exact_add ha hx)
    simpa [add_assoc] using this

end Finmod
