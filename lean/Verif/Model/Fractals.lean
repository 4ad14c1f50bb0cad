import Verif.Model.Candle
import Verif.Go.Sort

/-!
# Model of `indicators/williams_fractals.go`
-/

namespace Finmod
open Go

/-- indicators/williams_fractals.go:11-18 `FractalType`: the two declared values. -/
inductive FractalType where
  | up | down
deriving DecidableEq, Repr

/-- indicators/williams_fractals.go:20-24 `WilliamFractal`. -/
structure WilliamFractal where
  time : Int
  price : Fl
  ftype : FractalType
deriving DecidableEq, Repr

/-- indicators/williams_fractals.go:80-88: one candle on the left; `true` when it rules the fractal
out. -/
def leftFails (t : FractalType) (third c : Candle) : Bool :=
  match t with
  | .up => Fl.ge c.high third.high
  | .down => Fl.le c.low third.low

/-- indicators/williams_fractals.go:90-116: the loop over the candles on the right; `true` when the
fractal is accepted, at the end of the data or at the first candle seen with a count of 2. -/
def rightScan (t : FractalType) (third : Candle) (count : Nat) : List Candle → Bool
  | [] => true
  | c :: cs =>
    if count = 2 then true
    else
      match t with
      | .up =>
        if Fl.gt c.high third.high then false
        else if Fl.lt c.high third.high then rightScan t third (count + 1) cs
        else rightScan t third count cs
      | .down =>
        if Fl.lt c.low third.low then false
        else if Fl.gt c.low third.low then rightScan t third (count + 1) cs
        else rightScan t third count cs

/-- indicators/williams_fractals.go:64-117 `findFractal`: `some` when the error is nil. The only
caller passes `start <= len-5`, so the three indexed candles exist; `none` otherwise stands for the
index panic, which cannot happen from `WilliamFractals`. -/
def findFractal (candles : List Candle) (start : Nat) (t : FractalType) : Option WilliamFractal :=
  match candles.drop start with
  | c0 :: c1 :: third :: rest =>
    let price := match t with
      | .up => third.high
      | .down => third.low
    if leftFails t third c0 || leftFails t third c1 then none
    else if rightScan t third 0 rest then some ⟨third.time, price, t⟩
    else none
  | _ => none

/-- indicators/williams_fractals.go:57-59: `sort.SliceStable` by time, which never panics (`C182_elements`). -/
def sortByTime (l : List WilliamFractal) : List WilliamFractal :=
  (Go.Sort.sliceStable (fun a b => decide (a.time < b.time)) l).getD l

/-- indicators/williams_fractals.go:45-62 `findFractals`. -/
def findFractals (candles : List Candle) (start : Nat) : List WilliamFractal :=
  sortByTime ((findFractal candles start .up).toList ++ (findFractal candles start .down).toList)

/-- indicators/williams_fractals.go:30-43 `WilliamFractals`. -/
def williamFractals (candles : List Candle) : List WilliamFractal :=
  if candles.length < 5 then []
  else (List.range (candles.length - 4)).flatMap (findFractals candles)

end Finmod
