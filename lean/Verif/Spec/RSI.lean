import Verif.Model.Candle

/-!
# What the RSI properties talk about
-/

namespace Finmod.Spec
open Go

/-- Consecutive pairs of a list of closes. -/
def moves (xs : List Fl) : List (Fl × Fl) := xs.zip xs.tail

/-- The sizes of the rises, in order. -/
def rises (S : FloatSem) (xs : List Fl) : List Fl :=
  ((moves xs).filter fun m => Fl.lt m.1 m.2).map fun m => S.sub m.2 m.1

/-- The sizes of the falls, in order. -/
def falls (S : FloatSem) (xs : List Fl) : List Fl :=
  ((moves xs).filter fun m => Fl.lt m.2 m.1).map fun m => S.sub m.1 m.2

/-- Float sum from the left. -/
def fsum (S : FloatSem) (xs : List Fl) : Fl := xs.foldl S.add (.fin 0)

/-- The total of the rises of a list of numbers. -/
def riseQ (xs : List ℚ) : ℚ := ((xs.zip xs.tail).map fun m => max (m.2 - m.1) 0).sum

/-- The total of the falls of a list of numbers. -/
def fallQ (xs : List ℚ) : ℚ := ((xs.zip xs.tail).map fun m => max (m.1 - m.2) 0).sum

/-- The closes of the window of `n + 1` candles that starts at candle `k`. -/
def window (cs : List Candle) (k n : Nat) : List Fl := ((cs.drop k).take (n + 1)).map Candle.close

end Finmod.Spec
