import Verif.Model.CandleFile

/-!
# The file model against the repository's data

The first lines of market/test_dataset/candles_1_min load, and printing the loaded candles gives the
same bytes again.
-/

namespace Finmod
open Go

def firstLines : List Char :=
  "{1619827200 2772.42 2772.64 2769.4 2769.4 486.53484}\n{1619827260 2769.4 2769.4 2761.72 2767.26 753.84006}\n{1619827320 2767.26 2774.89 2767.26 2774.84 638.09674}\n".toList

def firstCandles : List Candle :=
  [⟨1619827200, ieee.const (277242 / 100), ieee.const (277264 / 100), ieee.const (27694 / 10), ieee.const (27694 / 10), ieee.const (48653484 / 100000)⟩,
   ⟨1619827260, ieee.const (27694 / 10), ieee.const (27694 / 10), ieee.const (276172 / 100), ieee.const (276726 / 100), ieee.const (75384006 / 100000)⟩,
   ⟨1619827320, ieee.const (276726 / 100), ieee.const (277489 / 100), ieee.const (276726 / 100), ieee.const (277484 / 100), ieee.const (63809674 / 100000)⟩]

example : loadCandles ieee (some firstLines) = .ok firstCandles := by decide +kernel
example : candleText (shortest ieee) 6 firstCandles = firstLines := by decide +kernel

/-! Printed and parsed numbers known from package strconv's documentation and tests. -/

example : fmtFloat (shortest ieee) 21 (.fin 100) = "100".toList := by decide +kernel
example : fmtFloat (shortest ieee) 6 (.fin 1000000) = "1e+06".toList := by decide +kernel
example : fmtFloat (shortest ieee) 6 (ieee.rnd (1 / 3)) = "0.3333333333333333".toList := by decide +kernel
example : fmtFloat (shortest ieee) 6 (.fin (pow2 (-1074))) = "5e-324".toList := by decide +kernel
example : fmtFloat (shortest ieee) 6 (.fin (9007199254740991 * pow2 971)) = "1.7976931348623157e+308".toList := by decide +kernel
example : parseFloat ieee "1e23".toList = some (ieee.rnd (10 ^ 23)) := by decide +kernel
example : parseFloat ieee "1.7976931348623159e308".toList = none := by decide +kernel
example : parseFloat ieee "0x1p-2".toList = some (.fin (1 / 4)) := by decide +kernel
example : parseFloat ieee "1_23.50_0_0e+1_2".toList = some (.fin 123500000000000) := by decide +kernel
example : ∀ s ∈ ["-_123.5e+12", "+_123.5e+12", "_123.5e+12", "1__23.5e+12", "123_.5e+12", "123._5e+12", "123.5_e+12",
    "123.5e_+12", "123.5e+_12", "123.5e+1__2", "123.5e+12_", "0x1_", "0x1", "0x.1e0", "1e", "e1", "1e+", "", "+", "nanx", "-nan"],
    parseFloat ieee s.toList = none := by decide +kernel
example : parseFloat ieee "0x_1_2.3_4_5p+1_2".toList = some (.fin 74565) := by decide +kernel
example : parseFloat ieee "-infinity".toList = some (.inf true) := by decide +kernel
example : parseFloat ieee "1x".toList = none := by decide +kernel
example : parseFloat ieee ".e-1".toList = none := by decide +kernel
example : parseFloat ieee "5e-325".toList = some (.fin 0) := by decide +kernel
example : parseFloat ieee "-2e-324".toList = some .negZero := by decide +kernel
example : parseFloat ieee "3e-324".toList = some (.fin (pow2 (-1074))) := by decide +kernel

end Finmod
