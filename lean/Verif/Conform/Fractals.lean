import Verif.Model.Fractals
import Verif.Model.RSI

/-!
# The model against the project's own tests (williams_fractals_test.go)

These are tests of the model, evaluated by the kernel, not proofs of any property.
-/

namespace Finmod.Conform
open Go

/-- A candle with time, high and low as parsed. -/
def thl (t : Int) (h l : ℚ) : Candle := ⟨t, .fin 0, ieee.rnd h, ieee.rnd l, .fin 0, .fin 0⟩

-- TestExample: two fractals
example : (williamFractals [thl 0 (352685/10) 35267, thl 1 (352695/10) 35266, thl 2 (352705/10) 35263,
    thl 3 35267 35263, thl 4 35268 35265, thl 5 35266 35263, thl 6 (352665/10) 35264]).length = 2 := by
  decide +kernel

/-- The first five candles of test_dataset/BINANCE_ETHUSD_60.csv. -/
def eth5 : List Candle := [thl 1614920400 (147881/100) (146156/100), thl 1614924000 1485 (146918/100),
  thl 1614927600 (148636/100) (146804/100), thl 1614931200 (148038/100) (144166/100),
  thl 1614934800 (147266/100) (145264/100)]

-- TestWilliamsFractal: none for the first four candles, one for the first five
example : williamFractals (eth5.take 4) = [] ∧ (williamFractals eth5).length = 1 := by decide +kernel

end Finmod.Conform
