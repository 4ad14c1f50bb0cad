import Verif.Model.Candle

/-!
# Model of `indicators/rsi.go`

A Go slice is a window into a backing array. `RSI` slices `candles[i:j+2]`, which Go bounds by the
*capacity*, so the model takes the candles of the slice and, separately, the `spare` candles that
lie behind it in its backing array (`cap - len` of them). Integer overflow of `period-1`, `j+2` is
not modelled here: the wrapped values are negative slice bounds and panic like the unwrapped ones
(`Model/MachineInt.lean`, C196).
-/

namespace Finmod
open Go

/-- indicators/rsi.go:9-17: the sums of rises and falls. `prev` is `candles[i-1].Close`; the list
is `candles[i:]`. -/
def rsiSums (S : FloatSem) (up down prev : Fl) : List Candle → Fl × Fl
  | [] => (up, down)
  | c :: cs =>
    if Fl.gt c.close prev then rsiSums S (S.add up (S.sub c.close prev)) down c.close cs
    else if Fl.lt c.close prev then rsiSums S up (S.add down (S.sub prev c.close)) c.close cs
    else rsiSums S up down c.close cs

/-- indicators/rsi.go:18-20: the index from the two sums; the result is a float32. -/
def rsiIndex (S : FloatSem) (up down : Fl) : Fl :=
  let rs := S.div up down
  S.to32 (S.sub (S.const 100) (S.div (S.const 100) (S.add (S.const 1) rs)))

/-- indicators/rsi.go:8-21 `calculateRSI`. With no candles the loop does not run. -/
def calculateRSI (S : FloatSem) (candles : List Candle) : Fl :=
  let (up, down) :=
    match candles with
    | [] => (.fin 0, .fin 0)
    | c :: cs => rsiSums S (.fin 0) (.fin 0) c.close cs
  rsiIndex S up down

/-- indicators/rsi.go:37-47: the loop. `arr` is the backing array up to the capacity, `len` the
length of the slice. `candles[i:j+2]` panics unless `0 <= i <= j+2 <= cap`. The loop has no bound
in Go; with the fuel given by `RSI` it never runs out (`rsiLoop_ok`, `rsiLoop_panic`). -/
def rsiLoop (S : FloatSem) (arr : List Candle) (len : Nat) :
    Nat → Nat → Int → List Fl → Res (List Fl)
  | 0, _, _, _ => .panic
  | fuel + 1, i, j, acc =>
    if j = len then .ok acc
    else if (i : Int) ≤ j + 2 ∧ j + 2 ≤ arr.length then
      rsiLoop S arr len fuel (i + 1) (j + 1)
        (acc ++ [calculateRSI S ((arr.take (j + 2).toNat).drop i)])
    else .panic

/-- indicators/rsi.go:23-48 `RSI`; `none` is the nil slice. -/
def RSI (S : FloatSem) (candles : Option (List Candle)) (spare : List Candle) (period : Int) :
    Res (List Fl) :=
  match candles with
  | none => .err .einvalid []
  | some cs =>
    if cs.length < 14 then .err .einvalid []
    else
      rsiLoop S (cs ++ spare) cs.length (((cs ++ spare).length + 3 - period).toNat + 1) 0 (period - 1) []

end Finmod
