import Verif.Go.IEEE
import Verif.Go.Basic

/-!
# Model of `market/candle.go`

`time.Unix(t, 0).Minute()` depends on the process's time zone: it is the parameter
`minute : Int → Int`, so every theorem holds in every zone.
-/

namespace Finmod
open Go

/-- market/candle.go:13-20 `Candle`. -/
structure Candle where
  time : Int
  opn : Fl
  high : Fl
  low : Fl
  close : Fl
  volume : Fl
deriving DecidableEq, Repr

/-- market/candle.go:158 `strconv.ParseFloat(fmt.Sprintf("%.5f", x), 64)`: the decimal with five
places nearest to `x` (ties to even), read back as a float. `none` is ParseFloat's range error.
NaN and infinities print and parse back as themselves; a negative number that prints as
"-0.00000" comes back as negative zero. -/
def fixed5 (S : FloatSem) : Fl → Option Fl
  | .fin q =>
    let n := roundInt (q * 100000)
    if n = 0 then some (Fl.zero (decide (q < 0)))
    else
      match S.rnd (n / 100000) with
      | .inf _ => none
      | x => some x
  | x => some x

/-- market/candle.go:146, 153-155: running maximum, from -1e308. -/
def highLoop (acc : Fl) : List Candle → Fl
  | [] => acc
  | v :: vs => highLoop (if Fl.gt v.high acc then v.high else acc) vs

/-- market/candle.go:147, 150-152: running minimum, from 1e308. -/
def lowLoop (acc : Fl) : List Candle → Fl
  | [] => acc
  | v :: vs => lowLoop (if Fl.lt v.low acc then v.low else acc) vs

/-- market/candle.go:148, 156: running volume, from 0. -/
def volumeLoop (S : FloatSem) (acc : Fl) : List Candle → Fl
  | [] => acc
  | v :: vs => volumeLoop S (S.add acc v.volume) vs

/-- The constants of market/candle.go:146-147. -/
def minHigh (S : FloatSem) : Fl := S.const (-10 ^ 308)
def maxLow (S : FloatSem) : Fl := S.const (10 ^ 308)

/-- market/candle.go:134-166 `compressCandle`; `stop` is the parameter `end`. The three
accumulators of the loop are modelled by three loops over the same slice. -/
def compressCandle (S : FloatSem) (candles : List Candle) (start stop : Nat) : Res Candle :=
  match candles[start]?, candles[stop - 1]? with
  | some first, some last =>
    if start ≤ stop ∧ stop ≤ candles.length then
      let group := (candles.drop start).take (stop - start)
      match fixed5 S (volumeLoop S (.fin 0) group) with
      | some vol =>
        .ok { time := first.time, opn := first.opn, high := highLoop (minHigh S) group,
              low := lowLoop (maxLow S) group, close := last.close, volume := vol }
      | none => .err .external { time := 0, opn := .fin 0, high := .fin 0, low := .fin 0, close := .fin 0, volume := .fin 0 }
    else .panic
  | _, _ => .panic

/-- market/candle.go:107-113. -/
def modMinutes (minuteInterval : Int) : Int :=
  let m := if minuteInterval > 60 then imod minuteInterval 60 else minuteInterval
  if m = 0 then 60 else m

/-- market/candle.go:122, the test on one candle. -/
def isAligned (minute : Int → Int) (minuteInterval : Int) (c : Candle) : Bool :=
  imod (minute c.time) (modMinutes minuteInterval) == 0 || minute c.time == 0

/-- market/candle.go:103-130 `findFirstIndex`. -/
def findFirstIndex (minute : Int → Int) (candles : List Candle) (minuteInterval : Int) : Res Nat :=
  match candles.findIdx? (isAligned minute minuteInterval) with
  | some i => .ok i
  | none => .err .einvalid 0

/-- market/candle.go:64, the boundary test: `none` is the division by zero panic. -/
def isBoundary (S : FloatSem) (minuteInterval pivot : Int) (c : Candle) : Option Bool :=
  let m := S.toInt (Fl.abs (S.ofInt (idiv (wrap64 (c.time - pivot)) 60)))
  if minuteInterval = 0 then none else some (imod m minuteInterval == 0)

/-- market/candle.go:63-72: the loop over `candles[firstCandleIndex+1:]`. `idx` is the index of
the next candle in `candles`, `start` the start of the current group. Returns the candles
appended so far and the last `start`. -/
def resampleLoop (S : FloatSem) (candles : List Candle) (minuteInterval pivot : Int) :
    List Candle → Nat → Nat → List Candle → Res (List Candle × Nat)
  | [], _, start, acc => .ok (acc, start)
  | v :: vs, idx, start, acc =>
    match isBoundary S minuteInterval pivot v with
    | none => .panic
    | some true =>
      match compressCandle S candles start idx with
      | .ok c => resampleLoop S candles minuteInterval pivot vs (idx + 1) idx (acc ++ [c])
      | .err e _ => .err e ([], 0)
      | .panic => .panic
    | some false => resampleLoop S candles minuteInterval pivot vs (idx + 1) start acc

/-- market/candle.go:36-83 `ModifyInterval`. -/
def modifyInterval (S : FloatSem) (minute : Int → Int) (candles : List Candle)
    (minuteInterval : Int) : Res (List Candle) :=
  if candles.length = 1 then .ok candles
  else
    match candles with
    | c0 :: c1 :: _ =>
      let delta := idiv (wrap64 (c1.time - c0.time)) 60
      if delta ≠ 1 ∧ minuteInterval = 1 then .err .econflict []
      else if delta = 0 then .panic
      else if imod minuteInterval delta ≠ 0 then .err .econflict []
      else
        match findFirstIndex minute candles minuteInterval with
        | .ok first =>
          match candles[first]? with
          | some p =>
            match resampleLoop S candles minuteInterval p.time (candles.drop (first + 1))
                (first + 1) first [] with
            | .ok (acc, start) =>
              match compressCandle S candles start candles.length with
              | .ok c => .ok (acc ++ [c])
              | .err e _ => .err e []
              | .panic => .panic
            | .err e _ => .err e []
            | .panic => .panic
          | none => .panic
        | .err e _ => .err e []
        | .panic => .panic
    | _ => .panic

/-- `math.MaxFloat64`. -/
def maxFloat64 : ℚ := 2 ^ 1024 - 2 ^ 971

/-- market/candle.go:89-97: neighbours, in order; `none` at the first candle. -/
def minDiffLoop (S : FloatSem) : List Candle → Fl → Fl
  | a :: b :: rest, acc =>
    let d := Fl.abs (S.ofInt (wrap64 (b.time - a.time)))
    minDiffLoop S (b :: rest) (if Fl.lt d acc then d else acc)
  | _, acc => acc

/-- market/candle.go:87-99 `GetMinInterval`. -/
def getMinInterval (S : FloatSem) (candles : List Candle) : Int :=
  idiv (S.toInt (minDiffLoop S candles (S.const maxFloat64))) 60

end Finmod
