import Verif.Go.IEEE
import Verif.Go.Basic

/-!
# Model of `market/asset.go`, `market/pair.go` (types), `market/trade.go`, `market/position.go`

Strings are Lean strings. `time.Time` values are opaque and copied only: they are modelled by an
integer. `xid.New().String()` is a parameter.
-/

namespace Finmod
open Go

/-- market/asset.go:10-14 `Asset`. -/
structure Asset where
  name : String
  symbol : String
  altSymbol : String
deriving DecidableEq, Repr

/-- market/pair.go:8-11 `Pair`. -/
structure Pair where
  base : Asset
  quote : Asset
deriving DecidableEq, Repr

/-- market/trade.go:12-23 `Trade`. -/
structure Trade where
  id : String
  executionTime : Int
  action : String
  orderType : String
  pair : Pair
  price : Fl
  quantity : Fl
  fee : Fl
  cost : Fl
  executionID : String
deriving DecidableEq, Repr

/-- market/order.go:14-19 `BuyAction`, `SellAction`. -/
def buyAction : String := "buy"
def sellAction : String := "sell"

/-- market/trade.go:26-49 `NewTrade`. -/
def newTrade (S : FloatSem) (id : String) (executionTime : Int) (actionType orderType : String)
    (pair : Pair) (price quantity cost : Fl) : Trade :=
  let fee := if actionType = buyAction then S.sub cost (S.mul price quantity)
    else S.sub (S.mul price quantity) cost
  { id := id, executionTime := executionTime, action := actionType, orderType := orderType,
    pair := pair, price := price, quantity := quantity, fee := fee, cost := cost, executionID := "" }

/-- market/position.go:23-26 `PositionCloseOrder`. -/
structure PositionCloseOrder where
  price : Fl
  orderID : String
deriving DecidableEq, Repr

/-- market/position.go:33-49 `Position`. -/
structure Position where
  id : String
  type : String
  pair : Pair
  opened : Bool
  takeProfit : PositionCloseOrder
  stopLoss : PositionCloseOrder
  openPrice : Fl
  closePrice : Fl
  quantity : Fl
  profit : Fl
  openTime : Int
  closeTime : Int
  trades : List String
  executionID : String
  data : String
deriving DecidableEq, Repr

/-- market/position.go:15-20 `LongPosition`, `ShortPosition`. -/
def longPosition : String := "long"
def shortPosition : String := "short"

/-- market/position.go:52-73 `NewPosition`; `id` is the fresh xid, `zeroTime` the zero
`time.Time` of the fields left unset. -/
def newPosition (id : String) (zeroTime : Int) (trade : Trade) : Position :=
  let positionType :=
    if trade.action = buyAction then longPosition
    else if trade.action = sellAction then shortPosition
    else ""
  { id := id, type := positionType, pair := trade.pair, opened := true,
    takeProfit := ⟨.fin 0, ""⟩, stopLoss := ⟨.fin 0, ""⟩,
    openPrice := trade.price, closePrice := .fin 0, quantity := trade.quantity, profit := .fin 0,
    openTime := trade.executionTime, closeTime := zeroTime, trades := [trade.id],
    executionID := "", data := "" }

/-- market/position.go:116-122 `UnrealizedProfit`. -/
def unrealizedProfit (S : FloatSem) (p : Position) (currentPrice : Fl) : Fl :=
  if p.type = longPosition then S.mul (S.sub currentPrice p.openPrice) p.quantity
  else S.mul (S.sub p.openPrice currentPrice) p.quantity

/-- market/position.go:146-155 `add` (its error is always nil). -/
def posAdd (S : FloatSem) (p : Position) (trade : Trade) : Position :=
  let totalQuantity := S.add p.quantity trade.quantity
  { p with
    openPrice := S.add (S.div (S.mul p.openPrice p.quantity) totalQuantity)
      (S.div (S.mul trade.price trade.quantity) totalQuantity)
    quantity := totalQuantity
    trades := p.trades ++ [trade.id] }

/-- market/position.go:158-186 `substract`; `err` carries the unchanged position. -/
def posSubstract (S : FloatSem) (p : Position) (trade : Trade) : Res Position :=
  let totalQuantity := S.sub p.quantity trade.quantity
  if Fl.lt totalQuantity (.fin 0) && Fl.lt totalQuantity (S.const (-1 / 10000)) then
    .err .einvalid p
  else if Fl.le totalQuantity (.fin 0) then
    .ok { p with
      closePrice := trade.price
      profit :=
        if p.type = longPosition then S.mul (S.sub trade.price p.openPrice) p.quantity
        else S.mul (S.sub p.openPrice trade.price) p.quantity
      opened := false
      closeTime := trade.executionTime
      trades := p.trades ++ [trade.id] }
  else
    .ok { p with
      openPrice := S.div (S.mul (S.sub p.openPrice
        (S.mul trade.price (S.div trade.quantity p.quantity))) p.quantity) totalQuantity
      quantity := totalQuantity
      trades := p.trades ++ [trade.id] }

/-- What `Modify` keeps of `substract`: its error is dropped (market/position.go:135, 137). -/
def posSubstract' (S : FloatSem) (p : Position) (trade : Trade) : Position :=
  match posSubstract S p trade with
  | .ok p' => p'
  | .err _ p' => p'
  | .panic => p

/-- market/position.go:125-143 `Modify`; the result carries the position after the call. -/
def modify (S : FloatSem) (p : Position) (trade : Trade) : Res Position :=
  if p.pair ≠ trade.pair then .err .einvalid p
  else if p.type = longPosition ∧ trade.action = buyAction then .ok (posAdd S p trade)
  else if p.type = longPosition ∧ trade.action = sellAction then .ok (posSubstract' S p trade)
  else if p.type = shortPosition ∧ trade.action = buyAction then .ok (posSubstract' S p trade)
  else if p.type = shortPosition ∧ trade.action = sellAction then .ok (posAdd S p trade)
  else .ok p

/-- The position after a `Modify` call, whatever it returned. -/
def modified (S : FloatSem) (p : Position) (trade : Trade) : Position :=
  match modify S p trade with
  | .ok p' => p'
  | .err _ p' => p'
  | .panic => p

/-- The position after a history of `Modify` calls. -/
def modifiedAll (S : FloatSem) (p : Position) (history : List Trade) : Position :=
  history.foldl (modified S) p

end Finmod
