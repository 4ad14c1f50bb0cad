import Verif.Model.Tick

/-!
# The calendar
-/

namespace Finmod.Spec
open Go

/-- Gregorian leap years. -/
def leap (y : Nat) : Prop := 4 ∣ y ∧ (¬ 100 ∣ y ∨ 400 ∣ y)

instance (y) : Decidable (leap y) := by unfold leap; infer_instance

/-- Length of a month. -/
def monthLength (y m : Nat) : Nat :=
  if m = 2 then (if leap y then 29 else 28)
  else if m = 4 ∨ m = 6 ∨ m = 9 ∨ m = 11 then 30
  else 31

/-- Length of a year. -/
def yearLength (y : Nat) : Nat := if leap y then 366 else 365

/-- A calendar date. -/
def RealDate (y m d : Nat) : Prop := 1 ≤ m ∧ m ≤ 12 ∧ 1 ≤ d ∧ d ≤ monthLength y m

instance (y m d) : Decidable (RealDate y m d) := by unfold RealDate; infer_instance

/-- Days from 0000-01-01 to the date: whole years, whole months, days. -/
def dayCount (y m d : Nat) : Nat :=
  ((List.range y).map yearLength).sum + ((List.range (m - 1)).map fun j => monthLength y (j + 1)).sum + (d - 1)

/-- Seconds from 1970-01-01 to midnight of the date. -/
def midnight (y m d : Nat) : Int := ((dayCount y m d : Int) - dayCount 1970 1 1) * 86400

/-- The day after. -/
def nextDay (y m d : Nat) : Nat × Nat × Nat :=
  if d < monthLength y m then (y, m, d + 1)
  else if m < 12 then (y, m + 1, 1)
  else (y + 1, 1, 1)

/-- The digit `k`. -/
def dig (k : Nat) : Char := Char.ofNat (48 + k % 10)

/-- YYYY-MM-DD. -/
def dateText (y m d : Nat) : List Char :=
  [dig (y / 1000), dig (y / 100), dig (y / 10), dig y, '-', dig (m / 10), dig m, '-', dig (d / 10), dig d]

end Finmod.Spec
