import Verif.Model.Candle

/-!
# Model of `indicators/ma.go` and `indicators/ewv.go`

A `[]market.Candle` argument is an `Option (List Candle)`: `none` is the nil slice.
-/

namespace Finmod
open Go

/-- indicators/ma.go:38-44 `average`. -/
def average (S : FloatSem) (candles : List Candle) : Fl :=
  S.div (candles.foldl (fun result c => S.add result c.close) (S.const 0)) (S.ofInt candles.length)

/-- indicators/ma.go:24-33: the loop of `MovingAverage`. `candles[i:j+1]` panics when `j+1` is
past the end (the model of this slice has no spare capacity). The first argument is fuel; running
out of it counts as a panic and is shown never to happen. -/
def maLoop (S : FloatSem) (candles : List Candle) : Nat → Nat → Nat → Res (List Fl)
  | 0, _, _ => .panic
  | fuel + 1, i, j =>
    if j = candles.length then .ok []
    else if j + 1 > candles.length then .panic
    else
      match maLoop S candles fuel (i + 1) (j + 1) with
      | .ok rest => .ok (average S ((candles.take (j + 1)).drop i) :: rest)
      | r => r

/-- indicators/ma.go:8-36 `MovingAverage`. -/
def movingAverage (S : FloatSem) (candles : Option (List Candle)) (period : Int) : Res (List Fl) :=
  match candles with
  | none => .err .einvalid []
  | some cs =>
    if (cs.length : Int) < period then .err .einvalid []
    else if period ≤ 0 then .err .einvalid []
    else maLoop S cs (cs.length + 1) 0 (period.toNat - 1)

/-- indicators/ma.go:58: `2 / (float64(period) + 1)`. -/
def emaWeight (S : FloatSem) (period : Int) : Fl :=
  S.div (S.const 2) (S.add (S.ofInt period) (S.const 1))

/-- indicators/ma.go:68: one step of the recurrence. -/
def emaNext (S : FloatSem) (p : Fl) (prev : Fl) (close : Fl) : Fl :=
  S.add (S.mul close p) (S.mul prev (S.sub (S.const 1) p))

/-- indicators/ma.go:60-72: one iteration, `ci` is the candle with its index. -/
def emaStep (S : FloatSem) (candles : List Candle) (period : Int) (p : Fl) (emaArray : List Fl)
    (ci : Candle × Nat) : List Fl :=
  if (ci.2 : Int) < period then emaArray
  else
    match emaArray.getLast? with
    | none => emaArray ++ [average S (candles.take period.toNat)]
    | some last => emaArray ++ [emaNext S p last ci.1.close]

/-- indicators/ma.go:46-75 `ExponentialMovingAverage`. -/
def exponentialMovingAverage (S : FloatSem) (candles : Option (List Candle)) (period : Int) :
    Res (List Fl) :=
  match candles with
  | none => .err .einvalid []
  | some cs =>
    if (cs.length : Int) < period then .err .einvalid []
    else if period ≤ 0 then .err .einvalid []
    else .ok (cs.zipIdx.foldl (emaStep S cs period (emaWeight S period)) [])

/-- indicators/ma.go:118-131 `closingSum`; `none` is its error. -/
def closingSum (S : FloatSem) (candles : List Candle) (period : Int) : Option Fl :=
  if (candles.length : Int) < period then none
  else some ((candles.drop (candles.length - period.toNat)).foldl
    (fun sum c => S.add sum c.close) (.fin 0))

/-- indicators/ma.go:104: the second value. -/
def smmaSecond (S : FloatSem) (period : Int) (first close : Fl) : Fl :=
  S.div (S.add (S.mul first (S.sub (S.ofInt period) (S.const 1))) close) (S.ofInt period)

/-- indicators/ma.go:108-110: every later value. -/
def smmaNext (S : FloatSem) (period : Int) (prevSMMA close : Fl) : Fl :=
  S.div (S.add (S.sub (S.mul prevSMMA (S.ofInt period)) prevSMMA) close) (S.ofInt period)

/-- indicators/ma.go:90-113: one iteration; `none` is the wrapped error of `closingSum`. -/
def smmaStep (S : FloatSem) (candles : List Candle) (period : Int) (smmaArray : Option (List Fl))
    (ci : Candle × Nat) : Option (List Fl) :=
  match smmaArray with
  | none => none
  | some arr =>
    if (ci.2 : Int) < period - 1 then some arr
    else
      match closingSum S (candles.take (ci.2 + 1)) period with
      | none => none
      | some sum =>
        match arr with
        | [] => some [S.div sum (S.ofInt period)]
        | [smma1] => some [smma1, smmaSecond S period smma1 ci.1.close]
        | _ =>
          match arr.getLast? with
          | none => some arr
          | some prevSMMA => some (arr ++ [smmaNext S period prevSMMA ci.1.close])

/-- indicators/ma.go:77-116 `SmoothedMovingAverage`. -/
def smoothedMovingAverage (S : FloatSem) (candles : Option (List Candle)) (period : Int) :
    Res (List Fl) :=
  match candles with
  | none => .err .einvalid []
  | some cs =>
    if (cs.length : Int) < period then .err .einvalid []
    else if period ≤ 0 then .err .einvalid []
    else
      match cs.zipIdx.foldl (smmaStep S cs period) (some []) with
      | some arr => .ok arr
      | none => .err .einvalid []

/-- indicators/ewv.go:11-14: one iteration. -/
def ewvStep (S : FloatSem) (beta : Fl) (v : Fl) (candle : Candle) : Fl :=
  S.add (S.mul beta v) (S.mul (S.sub (S.const 1) beta) (S.sub candle.high candle.low))

/-- indicators/ewv.go:7-17 `ExponentialWeightedVolatility`. -/
def exponentialWeightedVolatility (S : FloatSem) (candles : List Candle) (beta : Fl) : Fl :=
  candles.foldl (ewvStep S beta) (.fin 0)

end Finmod
