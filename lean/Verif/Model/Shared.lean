import Verif.Model.Averages
import Verif.Model.RSI
import Verif.Model.Fractals
import Verif.Model.CandleFile

/-!
# The functions of candles, read by read

In the other model files a function of candles gets them as a list, all at once. Here it reads them from memory one
after the other, in the order of the code, while other goroutines may run: each read can find another memory. A
function is a program of reads; that it writes to no candle is a fact of the code (no function below assigns through
`candles`). A read takes a whole candle; where the code reads a field twice, the program reads twice. The header of the
slice (nil or not, length, capacity) is the function's own copy. Memory allocated by the function itself (its
result) is not shared before it returns, and is not in this memory.
-/

namespace Finmod.Shared
open Go

/-- A program that reads elements of a slice, by index from the slice's start, and then gives a result. -/
inductive Prog (α R : Type) where
  | done (r : R)
  | read (i : Nat) (k : α → Prog α R)

/-- One program and then another. -/
def Prog.bind {α R Q : Type} (p : Prog α R) (f : R → Prog α Q) : Prog α Q :=
  match p with
  | .done r => f r
  | .read i k => .read i fun a => (k a).bind f

/-- The result, when the `t`-th read of the run finds the memory `mem t`: whatever other goroutines do in between. -/
def Prog.exec {α R : Type} (mem : Nat → Nat → α) (p : Prog α R) (t : Nat) : R :=
  match p with
  | .done r => r
  | .read i k => (k (mem t i)).exec mem (t + 1)

/-- indicators/ma.go:40-42 and 126-128: `n` candles from index `i` on, their closes added to `acc`. -/
def sumP (S : FloatSem) (acc : Fl) (i : Nat) : Nat → Prog Candle Fl
  | 0 => .done acc
  | n + 1 => .read i fun c => sumP S (S.add acc c.close) (i + 1) n

/-- indicators/ma.go:38-44 `average` of `n` candles from index `i` on. -/
def averageP (S : FloatSem) (i n : Nat) : Prog Candle Fl :=
  (sumP S (S.const 0) i n).bind fun s => .done (S.div s (S.ofInt n))

/-- indicators/ma.go:24-33, see `maLoop`. -/
def maLoopP (S : FloatSem) (len : Nat) : Nat → Nat → Nat → Prog Candle (Res (List Fl))
  | 0, _, _ => .done .panic
  | fuel + 1, i, j =>
    if j = len then .done (.ok [])
    else if j + 1 > len then .done .panic
    else
      (averageP S i (j + 1 - i)).bind fun a => (maLoopP S len fuel (i + 1) (j + 1)).bind fun r =>
        .done (match r with | .ok rest => .ok (a :: rest) | r => r)

/-- indicators/ma.go:8-36 `MovingAverage`; `candles` is the length, `none` for a nil slice. -/
def movingAverageP (S : FloatSem) (candles : Option Nat) (period : Int) : Prog Candle (Res (List Fl)) :=
  match candles with
  | none => .done (.err .einvalid [])
  | some len =>
    if (len : Int) < period then .done (.err .einvalid [])
    else if period ≤ 0 then .done (.err .einvalid [])
    else maLoopP S len (len + 1) 0 (period.toNat - 1)

/-- indicators/ma.go:60-72: the iterations from index `i` on, `n` of them. -/
def emaLoopP (S : FloatSem) (period : Int) (p : Fl) : Nat → Nat → List Fl → Prog Candle (List Fl)
  | 0, _, arr => .done arr
  | n + 1, i, arr =>
    if (i : Int) < period then emaLoopP S period p n (i + 1) arr
    else
      match arr.getLast? with
      | none => (averageP S 0 period.toNat).bind fun a => emaLoopP S period p n (i + 1) (arr ++ [a])
      | some last => .read i fun c => emaLoopP S period p n (i + 1) (arr ++ [emaNext S p last c.close])

/-- indicators/ma.go:46-75 `ExponentialMovingAverage`. -/
def exponentialMovingAverageP (S : FloatSem) (candles : Option Nat) (period : Int) : Prog Candle (Res (List Fl)) :=
  match candles with
  | none => .done (.err .einvalid [])
  | some len =>
    if (len : Int) < period then .done (.err .einvalid [])
    else if period ≤ 0 then .done (.err .einvalid [])
    else (emaLoopP S period (emaWeight S period) len 0 []).bind fun arr => .done (.ok arr)

/-- indicators/ma.go:118-131 `closingSum(candles[:len], period)`; `none` is its error. -/
def closingSumP (S : FloatSem) (len : Nat) (period : Int) : Prog Candle (Option Fl) :=
  if (len : Int) < period then .done none
  else (sumP S (.fin 0) (len - period.toNat) (min period.toNat len)).bind fun s => .done (some s)

/-- indicators/ma.go:90-113, see `smmaStep`: the iterations from index `i` on, `n` of them. -/
def smmaLoopP (S : FloatSem) (period : Int) : Nat → Nat → List Fl → Prog Candle (Option (List Fl))
  | 0, _, arr => .done (some arr)
  | n + 1, i, arr =>
    if (i : Int) < period - 1 then smmaLoopP S period n (i + 1) arr
    else
      (closingSumP S (i + 1) period).bind fun r => match r with
        | none => .done none
        | some sum =>
          match arr with
          | [] => smmaLoopP S period n (i + 1) [S.div sum (S.ofInt period)]
          | [smma1] => .read i fun c => smmaLoopP S period n (i + 1) [smma1, smmaSecond S period smma1 c.close]
          | _ =>
            match arr.getLast? with
            | none => smmaLoopP S period n (i + 1) arr
            | some prev => .read i fun c => smmaLoopP S period n (i + 1) (arr ++ [smmaNext S period prev c.close])

/-- indicators/ma.go:77-116 `SmoothedMovingAverage`. -/
def smoothedMovingAverageP (S : FloatSem) (candles : Option Nat) (period : Int) : Prog Candle (Res (List Fl)) :=
  match candles with
  | none => .done (.err .einvalid [])
  | some len =>
    if (len : Int) < period then .done (.err .einvalid [])
    else if period ≤ 0 then .done (.err .einvalid [])
    else (smmaLoopP S period len 0 []).bind fun r => .done (match r with | some arr => .ok arr | none => .err .einvalid [])

/-- indicators/ewv.go:11-14: `n` candles from index `i` on. -/
def ewvLoopP (S : FloatSem) (beta v : Fl) (i : Nat) : Nat → Prog Candle Fl
  | 0 => .done v
  | n + 1 => .read i fun c => ewvLoopP S beta (ewvStep S beta v c) (i + 1) n

/-- indicators/ewv.go:7-17 `ExponentialWeightedVolatility`. -/
def volatilityP (S : FloatSem) (len : Nat) (beta : Fl) : Prog Candle Fl := ewvLoopP S beta (.fin 0) 0 len

/-- indicators/rsi.go:11-17: `n` iterations, the first for the candle with index `i`. Lines 12 to 15 read both candles
each time. -/
def rsiSumsP (S : FloatSem) (up down : Fl) (i : Nat) : Nat → Prog Candle (Fl × Fl)
  | 0 => .done (up, down)
  | n + 1 =>
    .read i fun c => .read (i - 1) fun b =>
      if Fl.gt c.close b.close then
        .read i fun c => .read (i - 1) fun b => rsiSumsP S (S.add up (S.sub c.close b.close)) down (i + 1) n
      else
        .read i fun c => .read (i - 1) fun b =>
          if Fl.lt c.close b.close then
            .read (i - 1) fun b => .read i fun c => rsiSumsP S up (S.add down (S.sub b.close c.close)) (i + 1) n
          else rsiSumsP S up down (i + 1) n

/-- indicators/rsi.go:8-21 `calculateRSI` of `n` candles from index `i` on. -/
def calculateRSIP (S : FloatSem) (i n : Nat) : Prog Candle Fl :=
  (rsiSumsP S (.fin 0) (.fin 0) (i + 1) (n - 1)).bind fun s => .done (rsiIndex S s.1 s.2)

/-- indicators/rsi.go:37-47, see `rsiLoop`; `cap` is the capacity of the slice. -/
def rsiLoopP (S : FloatSem) (cap len : Nat) : Nat → Nat → Int → List Fl → Prog Candle (Res (List Fl))
  | 0, _, _, _ => .done .panic
  | fuel + 1, i, j, acc =>
    if j = len then .done (.ok acc)
    else if (i : Int) ≤ j + 2 ∧ j + 2 ≤ cap then
      (calculateRSIP S i ((j + 2).toNat - i)).bind fun x => rsiLoopP S cap len fuel (i + 1) (j + 1) (acc ++ [x])
    else .done .panic

/-- indicators/rsi.go:23-48 `RSI`; `candles` is length and capacity. -/
def rsiP (S : FloatSem) (candles : Option (Nat × Nat)) (period : Int) : Prog Candle (Res (List Fl)) :=
  match candles with
  | none => .done (.err .einvalid [])
  | some (len, cap) =>
    if len < 14 then .done (.err .einvalid [])
    else rsiLoopP S cap len ((cap + 3 - period).toNat + 1) 0 (period - 1) []

/-- indicators/williams_fractals.go:80-88: `n` candles on the left, from index `i` on; `true` if one rules the fractal
out. -/
def leftP (t : FractalType) (third : Candle) (i : Nat) : Nat → Prog Candle Bool
  | 0 => .done false
  | n + 1 => .read i fun c => if leftFails t third c then .done true else leftP t third (i + 1) n

/-- indicators/williams_fractals.go:92-116, see `rightScan`; `n` candles from index `i` on. Lines 101 and 109 read
again. -/
def rightP (t : FractalType) (third : Candle) (count i : Nat) : Nat → Prog Candle Bool
  | 0 => .done true
  | n + 1 =>
    if count = 2 then .done true
    else
      .read i fun c =>
        match t with
        | .up =>
          if Fl.gt c.high third.high then .done false
          else .read i fun c => rightP t third (if Fl.lt c.high third.high then count + 1 else count) (i + 1) n
        | .down =>
          if Fl.lt c.low third.low then .done false
          else .read i fun c => rightP t third (if Fl.gt c.low third.low then count + 1 else count) (i + 1) n

/-- indicators/williams_fractals.go:64-117 `findFractal`, see there. -/
def findFractalP (len start : Nat) (t : FractalType) : Prog Candle (Option WilliamFractal) :=
  .read (start + 2) fun third =>
    (leftP t third start 2).bind fun l =>
      if l then .done none
      else
        (rightP t third 0 (start + 3) (len - (start + 3))).bind fun r =>
          .done (if r then some ⟨third.time, match t with | .up => third.high | .down => third.low, t⟩ else none)

/-- indicators/williams_fractals.go:45-62 `findFractals`. -/
def findFractalsP (len start : Nat) : Prog Candle (List WilliamFractal) :=
  (findFractalP len start .up).bind fun u => (findFractalP len start .down).bind fun d =>
    .done (sortByTime (u.toList ++ d.toList))

/-- indicators/williams_fractals.go:37-41: `n` iterations from `i` on. -/
def fractalLoopP (len : Nat) (i : Nat) : Nat → Prog Candle (List WilliamFractal)
  | 0 => .done []
  | n + 1 => (findFractalsP len i).bind fun f => (fractalLoopP len (i + 1) n).bind fun r => .done (f ++ r)

/-- indicators/williams_fractals.go:30-43 `WilliamFractals`. -/
def williamFractalsP (len : Nat) : Prog Candle (List WilliamFractal) :=
  if len < 5 then .done [] else fractalLoopP len 0 (len - 4)

/-- market/candle.go:89-97: `n` iterations, the first for `k`. -/
def minDiffP (S : FloatSem) (acc : Fl) (k : Nat) : Nat → Prog Candle Fl
  | 0 => .done acc
  | n + 1 =>
    .read k fun b => .read (k - 1) fun a =>
      let d := Fl.abs (S.ofInt (wrap64 (b.time - a.time)))
      minDiffP S (if Fl.lt d acc then d else acc) (k + 1) n

/-- market/candle.go:87-99 `GetMinInterval`. -/
def getMinIntervalP (S : FloatSem) (len : Nat) : Prog Candle Int :=
  (minDiffP S (S.const maxFloat64) 1 (len - 1)).bind fun d => .done (idiv (S.toInt d) 60)

/-- market/candle.go:149-157: `n` candles from index `i` on, with the three accumulators of the loop. -/
def groupP (S : FloatSem) (high low vol : Fl) (i : Nat) : Nat → Prog Candle (Fl × Fl × Fl)
  | 0 => .done (high, low, vol)
  | n + 1 => .read i fun v =>
      groupP S (if Fl.gt v.high high then v.high else high) (if Fl.lt v.low low then v.low else low)
        (S.add vol v.volume) (i + 1) n

/-- market/candle.go:134-166 `compressCandle`, see there. -/
def compressP (S : FloatSem) (len start stop : Nat) : Prog Candle (Res Candle) :=
  if start < len ∧ stop - 1 < len then
    .read start fun a => .read start fun b => .read (stop - 1) fun c =>
      if start ≤ stop ∧ stop ≤ len then
        (groupP S (minHigh S) (maxLow S) (.fin 0) start (stop - start)).bind fun g =>
          .done (match fixed5 S g.2.2 with
            | some vol => .ok { time := a.time, opn := b.opn, high := g.1, low := g.2.1, close := c.close, volume := vol }
            | none => .err .external
                { time := 0, opn := .fin 0, high := .fin 0, low := .fin 0, close := .fin 0, volume := .fin 0 })
      else .done .panic
  else .done .panic

/-- market/candle.go:116-127, see `findFirstIndex`: `n` candles from index `i` on. -/
def firstP (minute : Int → Int) (minuteInterval : Int) (i : Nat) : Nat → Prog Candle (Option Nat)
  | 0 => .done none
  | n + 1 => .read i fun c =>
      if isAligned minute minuteInterval c then .done (some i) else firstP minute minuteInterval (i + 1) n

/-- market/candle.go:63-72, see `resampleLoop`: `n` candles from index `idx` on. -/
def resampleP (S : FloatSem) (len : Nat) (minuteInterval pivot : Int) :
    Nat → Nat → Nat → List Candle → Prog Candle (Res (List Candle × Nat))
  | 0, _, start, acc => .done (.ok (acc, start))
  | n + 1, idx, start, acc =>
    .read idx fun v =>
      match isBoundary S minuteInterval pivot v with
      | none => .done .panic
      | some true =>
        (compressP S len start idx).bind fun r => match r with
          | .ok c => resampleP S len minuteInterval pivot n (idx + 1) idx (acc ++ [c])
          | .err e _ => .done (.err e ([], 0))
          | .panic => .done .panic
      | some false => resampleP S len minuteInterval pivot n (idx + 1) start acc

/-- market/candle.go:36-83 `ModifyInterval`. The one candle of a slice of one is returned unread: the result is the
slice itself, `none` here. -/
def modifyIntervalP (S : FloatSem) (minute : Int → Int) (len : Nat) (minuteInterval : Int) :
    Prog Candle (Option (Res (List Candle))) :=
  if len = 1 then .done none
  else if len = 0 then .done (some .panic)
  else
    .read 1 fun c1 => .read 0 fun c0 =>
      let delta := idiv (wrap64 (c1.time - c0.time)) 60
      if delta ≠ 1 ∧ minuteInterval = 1 then .done (some (.err .econflict []))
      else if delta = 0 then .done (some .panic)
      else if imod minuteInterval delta ≠ 0 then .done (some (.err .econflict []))
      else
        (firstP minute minuteInterval 0 len).bind fun f => match f with
          | none => .done (some (.err .einvalid []))
          | some first =>
            .read first fun p =>
              (resampleP S len minuteInterval p.time (len - (first + 1)) (first + 1) first []).bind fun r => match r with
                | .ok (acc, start) => (compressP S len start len).bind fun r => .done (some (match r with
                    | .ok c => .ok (acc ++ [c])
                    | .err e _ => .err e []
                    | .panic => .panic))
                | .err e _ => .done (some (.err e []))
                | .panic => .done (some .panic)

/-- market/candle_load.go:24-26: what is written of `n` candles from index `i` on, see `writeLoop`. -/
def writeP (pick : ℚ → Nat × ℤ) (eprec : ℤ) (accept : Nat → Nat) (i : Nat) : Nat → Prog Candle (List Char)
  | 0 => .done []
  | n + 1 => .read i fun c => (writeP pick eprec accept (i + 1) n).bind fun r =>
      .done ((candleLine pick eprec c ++ ['\n']).take (accept i) ++ r)

end Finmod.Shared
