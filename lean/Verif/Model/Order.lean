import Verif.Model.Position

/-!
# Model of `market/order.go` and `market/order_request.go`
-/

namespace Finmod
open Go

/-- market/order.go:25-37 order types. -/
def marketOrder : String := "market"
def closePositionOrder : String := "close_position"
def limitOrder : String := "limit"
def takeProfitOrder : String := "take_profit"
def stopLossOrder : String := "stop_loss"

/-- market/order.go:42-51 order statuses. -/
def fulfilledOrder : String := "fulfilled"
def partialyFilledOrder : String := "partial_fill"
def unfilledOrder : String := "unfilled"
def canceledOrder : String := "canceled"

/-- market/order.go:54-72 `Order` (a nil `Pair` pointer is `none`). -/
structure Order where
  id : String
  action : String
  type : String
  pair : Option Pair
  price : Fl
  volume : Fl
  executedVolume : Fl
  fee : Fl
  cost : Fl
  status : String
  openTime : Int
  closeTime : Int
  trades : List String
  takeProfit : Fl
  stopLoss : Fl
  positionID : String
  executionID : String
deriving DecidableEq, Repr

/-- market/order.go:121-126 `IsOpen`. -/
def Order.isOpen (o : Order) : Bool :=
  if o.status = fulfilledOrder ∨ o.status = canceledOrder then false else true

/-- market/order_request.go:10-19 `OrderRequest`. -/
structure OrderRequest where
  action : String
  type : String
  pair : Pair
  price : Fl
  takeProfit : Fl
  stopLoss : Fl
  quantity : Fl
  total : Fl
deriving DecidableEq, Repr

/-- market/order_request.go:22-51 `NewOrderRequest`; a nil pointer is `none`. -/
def newOrderRequest (pair : Pair) (action orderType : String) (quantity price total : Fl) :
    Res (Option OrderRequest) :=
  if pair.base.symbol = "" then .err .einvalid none
  else if action = "" ∨ orderType = "" then .err .einvalid none
  else if orderType = limitOrder ∧ Fl.eq price (.fin 0) = true then .err .einvalid none
  else if Fl.eq quantity (.fin 0) = true ∧ Fl.eq total (.fin 0) = true then .err .einvalid none
  else .ok (some { action := action, type := orderType, pair := pair, price := price,
                   takeProfit := .fin 0, stopLoss := .fin 0, quantity := quantity, total := total })

/-- market/order_request.go:66-94 `CalculateFields`. The first component is the receiver after
the call: the code only assigns to its local copy. -/
def calculateFields (S : FloatSem) (o : OrderRequest) (currentPrice : Fl) :
    OrderRequest × Res (Option OrderRequest) :=
  if Fl.eq o.total (.fin 0) && Fl.eq o.quantity (.fin 0) then (o, .err .einvalid none)
  else if Fl.ne o.total (.fin 0) && Fl.ne o.quantity (.fin 0) then (o, .err .einvalid none)
  else
    let copy := o
    let copy :=
      if o.type = marketOrder then
        if Fl.ne o.quantity (.fin 0) then { copy with total := S.mul o.quantity currentPrice }
        else { copy with quantity := S.div o.total currentPrice }
      else
        if Fl.ne o.quantity (.fin 0) then { copy with total := S.mul o.quantity o.price }
        else { copy with quantity := S.div o.total o.price }
    (o, .ok (some copy))

end Finmod
