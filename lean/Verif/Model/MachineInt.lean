import Verif.Model.Averages
import Verif.Model.RSI

/-!
# The integers of the indicators as machine integers

The other model files compute indices and periods with unbounded integers. Here every operation on an `int` of
`indicators/ma.go` and `indicators/rsi.go` wraps, for an `int` of `w` bits (64 or 32, depending on the platform).
`range` over a slice and `len` give values that need no wrapping.
-/

namespace Finmod
open Go

/-- The result of an operation on `int` of `w` bits, in two's complement. -/
def wrapInt (w : Nat) (x : Int) : Int := Int.bmod x (2 ^ w)

/-- The slice expression `s[a:b]` of a slice with backing array `arr` up to its capacity. -/
def sliceInt {α : Type} (arr : List α) (a b : Int) : Option (List α) :=
  if 0 ≤ a ∧ a ≤ b ∧ b ≤ arr.length then some ((arr.take b.toNat).drop a.toNat) else none

/-- indicators/rsi.go:37-46: the loop, see `rsiLoop`. Lines 42, 44 and 45 add. -/
def rsiLoopW (w : Nat) (S : FloatSem) (arr : List Candle) (len : Nat) :
    Nat → Int → Int → List Fl → Res (List Fl)
  | 0, _, _, _ => .panic
  | fuel + 1, i, j, acc =>
    if j = len then .ok acc
    else
      match sliceInt arr i (wrapInt w (j + 2)) with
      | some s => rsiLoopW w S arr len fuel (wrapInt w (i + 1)) (wrapInt w (j + 1)) (acc ++ [calculateRSI S s])
      | none => .panic

/-- indicators/rsi.go:23-48 `RSI`; line 35 subtracts. -/
def RSIW (w : Nat) (S : FloatSem) (candles : Option (List Candle)) (spare : List Candle) (period : Int) :
    Res (List Fl) :=
  match candles with
  | none => .err .einvalid []
  | some cs =>
    if cs.length < 14 then .err .einvalid []
    else
      rsiLoopW w S (cs ++ spare) cs.length (((cs ++ spare).length + 3 - period).toNat + 1) 0
        (wrapInt w (period - 1)) []

/-- indicators/ma.go:24-33: the loop of `MovingAverage`, see `maLoop`. Lines 29, 31 and 32 add. -/
def maLoopW (w : Nat) (S : FloatSem) (candles : List Candle) : Nat → Int → Int → Res (List Fl)
  | 0, _, _ => .panic
  | fuel + 1, i, j =>
    if j = candles.length then .ok []
    else
      match sliceInt candles i (wrapInt w (j + 1)) with
      | some s =>
        match maLoopW w S candles fuel (wrapInt w (i + 1)) (wrapInt w (j + 1)) with
        | .ok rest => .ok (average S s :: rest)
        | r => r
      | none => .panic

/-- indicators/ma.go:8-36 `MovingAverage`; line 22 subtracts. -/
def movingAverageW (w : Nat) (S : FloatSem) (candles : Option (List Candle)) (period : Int) : Res (List Fl) :=
  match candles with
  | none => .err .einvalid []
  | some cs =>
    if (cs.length : Int) < period then .err .einvalid []
    else if period ≤ 0 then .err .einvalid []
    else maLoopW w S cs (cs.length + 1) 0 (wrapInt w (period - 1))

/-- indicators/ma.go:118-131 `closingSum`; line 126 subtracts. The outer `none` is a panic, the inner one the error. -/
def closingSumW (w : Nat) (S : FloatSem) (candles : List Candle) (period : Int) : Option (Option Fl) :=
  if (candles.length : Int) < period then some none
  else
    match sliceInt candles (wrapInt w (candles.length - period)) candles.length with
    | some s => some (some (s.foldl (fun sum c => S.add sum c.close) (.fin 0)))
    | none => none

/-- indicators/ma.go:90-113: one iteration, see `smmaStep`. Line 91 subtracts, line 95 adds. -/
def smmaStepW (w : Nat) (S : FloatSem) (candles : List Candle) (period : Int) (smmaArray : Res (List Fl))
    (ci : Candle × Nat) : Res (List Fl) :=
  match smmaArray with
  | .ok arr =>
    if (ci.2 : Int) < wrapInt w (period - 1) then .ok arr
    else
      match sliceInt candles 0 (wrapInt w (ci.2 + 1)) with
      | none => .panic
      | some s =>
        match closingSumW w S s period with
        | none => .panic
        | some none => .err .einvalid []
        | some (some sum) =>
          match arr with
          | [] => .ok [S.div sum (S.ofInt period)]
          | [smma1] => .ok [smma1, smmaSecond S period smma1 ci.1.close]
          | _ =>
            match arr.getLast? with
            | none => .ok arr
            | some prevSMMA => .ok (arr ++ [smmaNext S period prevSMMA ci.1.close])
  | r => r

/-- indicators/ma.go:77-116 `SmoothedMovingAverage`. -/
def smoothedMovingAverageW (w : Nat) (S : FloatSem) (candles : Option (List Candle)) (period : Int) :
    Res (List Fl) :=
  match candles with
  | none => .err .einvalid []
  | some cs =>
    if (cs.length : Int) < period then .err .einvalid []
    else if period ≤ 0 then .err .einvalid []
    else cs.zipIdx.foldl (smmaStepW w S cs period) (.ok [])

end Finmod
