import Verif.Go.Fused
import Verif.Model.Averages
import Verif.Model.OrderBook
import Verif.Model.Position

/-!
# The code as compiled with fused multiply-add

The places of `indicators/ma.go`, `indicators/ewv.go`, `market/trade.go`, `market/position.go` and
`market/orderbook.go` where a product feeds an addition or subtraction, with the compiler's choice as a parameter. A
choice may differ from one execution of a line to the next (`f` is asked with the index of the
candle, row or trade): a theorem for all `f` covers every compiler. The other functions have no
such place. In `Position.add` both products are divided before they are added.
-/

namespace Finmod
open Go FloatSem

/-- indicators/ma.go:68. -/
def emaNextF (S : FloatSem) (p : Fl) (k : Fuse) (prev close : Fl) : Fl :=
  S.dot k close p prev (S.sub (S.const 1) p)

/-- indicators/ma.go:60-72, see `emaStep`. -/
def emaStepF (S : FloatSem) (f : Nat → Fuse) (candles : List Candle) (period : Int) (p : Fl) (emaArray : List Fl)
    (ci : Candle × Nat) : List Fl :=
  if (ci.2 : Int) < period then emaArray
  else
    match emaArray.getLast? with
    | none => emaArray ++ [average S (candles.take period.toNat)]
    | some last => emaArray ++ [emaNextF S p (f ci.2) last ci.1.close]

/-- indicators/ma.go:46-75 `ExponentialMovingAverage`. -/
def exponentialMovingAverageF (S : FloatSem) (f : Nat → Fuse) (candles : Option (List Candle)) (period : Int) :
    Res (List Fl) :=
  match candles with
  | none => .err .einvalid []
  | some cs =>
    if (cs.length : Int) < period then .err .einvalid []
    else if period ≤ 0 then .err .einvalid []
    else .ok (cs.zipIdx.foldl (emaStepF S f cs period (emaWeight S period)) [])

/-- indicators/ma.go:104. -/
def smmaSecondF (S : FloatSem) (period : Int) (k : Bool) (first close : Fl) : Fl :=
  S.div (S.mulAdd k first (S.sub (S.ofInt period) (S.const 1)) close) (S.ofInt period)

/-- indicators/ma.go:108-110; the product of line 109 may be fused into line 110. -/
def smmaNextF (S : FloatSem) (period : Int) (k : Bool) (prevSMMA close : Fl) : Fl :=
  S.div (S.add (S.mulSub k prevSMMA (S.ofInt period) prevSMMA) close) (S.ofInt period)

/-- indicators/ma.go:90-113, see `smmaStep`. -/
def smmaStepF (S : FloatSem) (f : Nat → Bool) (candles : List Candle) (period : Int) (smmaArray : Option (List Fl))
    (ci : Candle × Nat) : Option (List Fl) :=
  match smmaArray with
  | none => none
  | some arr =>
    if (ci.2 : Int) < period - 1 then some arr
    else
      match closingSum S (candles.take (ci.2 + 1)) period with
      | none => none
      | some sum =>
        match arr with
        | [] => some [S.div sum (S.ofInt period)]
        | [smma1] => some [smma1, smmaSecondF S period (f ci.2) smma1 ci.1.close]
        | _ =>
          match arr.getLast? with
          | none => some arr
          | some prevSMMA => some (arr ++ [smmaNextF S period (f ci.2) prevSMMA ci.1.close])

/-- indicators/ma.go:77-116 `SmoothedMovingAverage`. -/
def smoothedMovingAverageF (S : FloatSem) (f : Nat → Bool) (candles : Option (List Candle)) (period : Int) :
    Res (List Fl) :=
  match candles with
  | none => .err .einvalid []
  | some cs =>
    if (cs.length : Int) < period then .err .einvalid []
    else if period ≤ 0 then .err .einvalid []
    else
      match cs.zipIdx.foldl (smmaStepF S f cs period) (some []) with
      | some arr => .ok arr
      | none => .err .einvalid []

/-- indicators/ewv.go:12-13. -/
def ewvStepF (S : FloatSem) (beta : Fl) (k : Fuse) (v : Fl) (candle : Candle) : Fl :=
  S.dot k beta v (S.sub (S.const 1) beta) (S.sub candle.high candle.low)

/-- indicators/ewv.go:7-17 `ExponentialWeightedVolatility`. -/
def exponentialWeightedVolatilityF (S : FloatSem) (f : Nat → Fuse) (candles : List Candle) (beta : Fl) : Fl :=
  candles.zipIdx.foldl (fun v ci => ewvStepF S beta (f ci.2) v ci.1) (.fin 0)

/-- market/trade.go:26-49 `NewTrade`. -/
def newTradeF (S : FloatSem) (k : Bool) (id : String) (executionTime : Int) (actionType orderType : String)
    (pair : Pair) (price quantity cost : Fl) : Trade :=
  let fee := if actionType = buyAction then S.subMul k cost price quantity
    else S.mulSub k price quantity cost
  { id := id, executionTime := executionTime, action := actionType, orderType := orderType,
    pair := pair, price := price, quantity := quantity, fee := fee, cost := cost, executionID := "" }

/-- market/position.go:158-186 `substract`; `err` carries the unchanged position. -/
def posSubstractF (S : FloatSem) (k : Bool) (p : Position) (trade : Trade) : Res Position :=
  let totalQuantity := S.sub p.quantity trade.quantity
  if Fl.lt totalQuantity (.fin 0) && Fl.lt totalQuantity (S.const (-1 / 10000)) then
    .err .einvalid p
  else if Fl.le totalQuantity (.fin 0) then
    .ok { p with
      closePrice := trade.price
      profit :=
        if p.type = longPosition then S.mul (S.sub trade.price p.openPrice) p.quantity
        else S.mul (S.sub p.openPrice trade.price) p.quantity
      opened := false
      closeTime := trade.executionTime
      trades := p.trades ++ [trade.id] }
  else
    .ok { p with
      openPrice := S.div (S.mul (S.subMul k p.openPrice trade.price
        (S.div trade.quantity p.quantity)) p.quantity) totalQuantity
      quantity := totalQuantity
      trades := p.trades ++ [trade.id] }

/-- See `posSubstract'`. -/
def posSubstractF' (S : FloatSem) (k : Bool) (p : Position) (trade : Trade) : Position :=
  match posSubstractF S k p trade with
  | .ok p' => p'
  | .err _ p' => p'
  | .panic => p

/-- market/position.go:125-143 `Modify`; the result carries the position after the call. -/
def modifyF (S : FloatSem) (k : Bool) (p : Position) (trade : Trade) : Res Position :=
  if p.pair ≠ trade.pair then .err .einvalid p
  else if p.type = longPosition ∧ trade.action = buyAction then .ok (posAdd S p trade)
  else if p.type = longPosition ∧ trade.action = sellAction then .ok (posSubstractF' S k p trade)
  else if p.type = shortPosition ∧ trade.action = buyAction then .ok (posSubstractF' S k p trade)
  else if p.type = shortPosition ∧ trade.action = sellAction then .ok (posAdd S p trade)
  else .ok p

/-- The position after a `Modify` call, whatever it returned. -/
def modifiedF (S : FloatSem) (k : Bool) (p : Position) (trade : Trade) : Position :=
  match modifyF S k p trade with
  | .ok p' => p'
  | .err _ p' => p'
  | .panic => p

/-- The position after a history of `Modify` calls, each with the compiler's choice. -/
def modifiedAllF (S : FloatSem) (p : Position) (history : List (Bool × Trade)) : Position :=
  history.foldl (fun p kt => modifiedF S kt.1 p kt.2) p

/-- market/orderbook.go:311-320, see `overlapFill`. -/
def overlapFillF (S : FloatSem) (f : Nat → Bool) (target : Fl) : List Row → Nat → Fl → Fl → Fl
  | [], _, _, res => res
  | r :: rs, i, vol, res =>
    if Fl.gt (S.add vol r.volume) target then S.addMul (f i) res (S.sub target vol) r.price
    else overlapFillF S f target rs (i + 1) (S.add vol r.volume) (S.addMul (f i) res r.price r.volume)

/-- market/orderbook.go:321-323, see `overlapCost`. -/
def overlapCostF (S : FloatSem) (f : Nat → Bool) : List Row → Nat → Fl → Fl
  | [], _, res => res
  | r :: rs, i, res => overlapCostF S f rs (i + 1) (S.addMul (f i) res r.price r.volume)

/-- market/orderbook.go:288-326 `overlapCalculation`; `fA` and `fB` are the choices in the two
loops. -/
def overlapCalculationF (S : FloatSem) (fA fB : Nat → Bool) (obA obB : Book) : Res Fl :=
  match obA.asks, obB.bids with
  | ask0 :: _, bid0 :: _ =>
    let (accA, idxA) := overlapScan S (fun r => Fl.gt r.price bid0.price) obA.asks 0 (.fin 0)
    let (_, idxB) := overlapScan S (fun r => Fl.lt r.price ask0.price) obB.bids 0 (.fin 0)
    let resB := overlapFillF S fB accA (obB.bids.take idxB).reverse 0 (.fin 0) (.fin 0)
    let resA := overlapCostF S fA (obA.asks.take idxA) 0 (.fin 0)
    .ok (Fl.abs (S.sub resA resB))
  | _, _ => .panic

/-- market/orderbook.go:328-341 `CalculateOverlap`. -/
def calculateOverlapF (S : FloatSem) (fA fB : Nat → Bool) (obA obB : Book) : Res Fl :=
  match obA.asks, obB.bids with
  | aAsk :: _, bBid :: _ =>
    if Fl.lt aAsk.price bBid.price then overlapCalculationF S fA fB obA obB
    else
      match obA.bids, obB.asks with
      | aBid :: _, bAsk :: _ =>
        if Fl.gt aBid.price bAsk.price then overlapCalculationF S fA fB obB obA
        else .err .enotfound (S.const (-1))
      | _, _ => .panic
  | _, _ => .panic

end Finmod
