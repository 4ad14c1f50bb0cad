import Mathlib.Algebra.BigOperators.Group.List.Basic
import Verif.Lemmas.Averages

/-!
# Specification of the moving averages over rational numbers
-/

namespace Finmod.Spec
open Go

/-- The closes of the candles are finite, with these values. -/
def Closes (cs : List Candle) (xs : List ℚ) : Prop := List.Forall₂ (fun c x => c.close.Is x) cs xs

/-- The mean of a list. -/
def mean (xs : List ℚ) : ℚ := xs.sum / xs.length

/-- The means of all windows of `n` consecutive values. -/
def maQ (xs : List ℚ) (n : Nat) : List ℚ :=
  (List.range (xs.length - n + 1)).map fun k => mean ((xs.drop k).take n)

/-- The exponential average: seeded with the mean of the first `n` values, then one value per
value from position `n + 1` on, with weight `2 / (n + 1)`. -/
def emaQ (xs : List ℚ) (n : Nat) : List ℚ :=
  match xs.drop n with
  | [] => []
  | _ :: rest =>
    scan (fun prev x => x * (2 / ((n : ℚ) + 1)) + prev * (1 - 2 / ((n : ℚ) + 1))) (mean (xs.take n)) rest

/-- The smoothed average: seeded with the mean of the first `n` values. -/
def smmaQ (xs : List ℚ) (n : Nat) : List ℚ :=
  scan (fun prev x => (prev * ((n : ℚ) - 1) + x) / n) (mean (xs.take n)) (xs.drop n)

end Finmod.Spec
