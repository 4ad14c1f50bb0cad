import Verif.Model.Averages

/-!
# The model against the project's own tests (indicators/ewv_test.go, indicators/ma_test.go)

These are tests of the model, evaluated by the kernel, not proofs of any property.
-/

namespace Finmod.Conform
open Go

/-- A candle with high and low rounded to binary64 like the parsed text. -/
def hl (h l : ℚ) : Candle := ⟨0, .fin 0, ieee.rnd h, ieee.rnd l, .fin 0, .fin 0⟩

/-- indicators/test_dataset/candles_1_h: high and low columns. -/
def oneHour : List Candle := [
  hl (138941/50) (274341/100),
  hl (2797) (68793/25),
  hl (2840) (279143/100),
  hl (71206/25) (56431/20),
  hl (142251/50) (28317/10),
  hl (2870) (141853/50),
  hl (71694/25) (70993/25),
  hl (2865) (142197/50),
  hl (143393/50) (141463/50),
  hl (284347/100) (70131/25),
  hl (284487/100) (141169/50),
  hl (143047/50) (284407/100),
  hl (288083/100) (285527/100),
  hl (287797/100) (2854),
  hl (143899/50) (142509/50),
  hl (2867) (141943/50),
  hl (2900) (286607/100),
  hl (293877/100) (57957/20),
  hl (294369/100) (291601/100),
  hl (294023/100) (289801/100),
  hl (73857/25) (73089/25),
  hl (294871/100) (291167/100),
  hl (2946) (290833/100),
  hl (59067/20) (146607/50)]

-- indicators/ewv_test.go:15-17: exactly 28.882156906724013
example : exponentialWeightedVolatility ieee oneHour (ieee.rnd (1/2)) =
    ieee.rnd (28882156906724013 / 1000000000000000) := by decide +kernel

/-- A candle with a close. -/
def cl (c : ℚ) : Candle := ⟨0, .fin 0, .fin 0, .fin 0, ieee.rnd c, .fin 0⟩

/-- The values of a successful call, as rationals. -/
def vals : Res (List Fl) → List ℚ
  | .ok l => l.map Fl.toRat
  | _ => []

/-- expected - got < 0.4 for every value, and the same number of values. -/
def close04 (expected got : List ℚ) : Bool :=
  expected.length = got.length ∧ (expected.zip got).all (fun p => p.1 - p.2 < 4/10)

-- indicators/ma_test.go: TestExponentialMovingAverage. The number of values agrees; the first value
-- is 34452.05 (mean of the first 20 closes) where the test wants at least 34483.25, so by this model
-- that test of the project fails.
example : close04 [689673/20, 3448897/100, 862364/25, 862433/25, 137997/4]
    (vals (exponentialMovingAverage ieee (some [cl (344401/10), cl (172013/5), cl (343651/10), cl (171928/5), cl (171848/5), cl (172013/5), cl (344241/10), cl (171988/5), cl (344251/10), cl (172193/5), cl (172348/5), cl (172348/5), cl (172398/5), cl (172398/5), cl (172343/5), cl (172473/5), cl (172673/5), cl (172663/5), cl (172633/5), cl (172673/5), cl (172643/5), cl (172698/5), cl (172738/5), cl (172618/5), cl (172588/5)]) 20)) = false := by
  decide +kernel

-- indicators/ma_test.go: TestSmoothedMovingAverage
example : close04 [70881/2, 141775/4, 3543903/100, 7085103/200, 17709379/500, 35412379/1000, 35407689/1000, 7081069/200, 4425709/125, 4425917/125, 4425771/125]
    (vals (smoothedMovingAverage ieee (some [cl (35425), cl (35456), cl (35447), cl (35434), cl (35412), cl (35412), cl (35406), cl (35403), cl (35403), cl (35406), cl (35409), cl (35405)]) 2)) = true := by
  decide +kernel

end Finmod.Conform
