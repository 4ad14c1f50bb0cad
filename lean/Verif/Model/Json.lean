import Verif.Go.Json
import Verif.Model.OrderBook
import Verif.Model.Order
import Verif.Model.Strings
import Verif.Model.Actions

/-!
# The structs of `/repo` as JSON

What `json.Marshal` and `json.Unmarshal` do with the exported structs, given by the `json` tags of
their declarations. `OrderRequest` has no tags: its names are the Go names. `Actions`,
`AddAnnotationsAction` and `Tick` (no tags; maps) are in `Model/JsonActions.lean`, `WilliamFractal` (no
tags) is in `Model/JsonFractal.lean`.

Simplifications: texts are lists of characters, so strings are valid UTF-8 (bytes: `Go/JsonBytes.lean`); a time is the integer the
rest of the model uses, and how times are written and read is a parameter.
-/

namespace Finmod.Json
open Go Finmod

/-- What the encoding depends on: the float format with its shortest decimals, the zero time, how
times are written and read (and whether a time keeps its value when something else than a string is
read into it), for each slice field whether an empty list is nil, and what the backing array of a slice
holds behind its length. -/
structure Env where
  S : FloatSem
  pick : ℚ → Nat × ℤ
  zeroTime : Int
  write : Int → Option (List Char)
  read : List Char → Option Int
  keptTime : Bool
  isNil : String → Bool
  stale : ∀ α : Type, String → List α → List α

/-- `float64`. -/
def Env.float (E : Env) : Codec Fl := Codec.float E.S E.pick

/-- `time.Time`. -/
def Env.time (E : Env) : Codec Int := Codec.time E.zeroTime E.keptTime E.write E.read

/-- market/orderbook_types.go:6-10 `OrderBookRow`: its fields. -/
def Env.rowFields (E : Env) : List (JField Row) := [
  Codec.field E.float "price" (·.price) (fun r v => { r with price := v }),
  Codec.field E.float "volume" (·.volume) (fun r v => { r with volume := v }),
  Codec.field E.float "accum_volume" (·.accum) (fun r v => { r with accum := v })]

/-- `Row` as JSON. -/
def Env.row (E : Env) : Codec Row :=
  Codec.struct ⟨.fin 0, .fin 0, .fin 0⟩ E.rowFields

/-- market/orderbook_types.go:16-20 `OrderBookUpdate`: its fields. -/
def Env.updateFields (E : Env) : List (JField Update) := [
  Codec.field E.float "price" (·.price) (fun r v => { r with price := v }),
  Codec.field E.float "volume" (·.volume) (fun r v => { r with volume := v }),
  Codec.field Codec.str "side" (·.side) (fun r v => { r with side := v })]

/-- `Update` as JSON. -/
def Env.update (E : Env) : Codec Update :=
  Codec.struct ⟨.fin 0, .fin 0, ""⟩ E.updateFields

/-- market/orderbook.go:12-17 `OrderBook`: its fields. -/
def Env.bookFields (E : Env) : List (JField Book) := [
  Codec.field Codec.int "time" (·.time) (fun r v => { r with time := v }),
  Codec.field (Codec.slice (E.isNil "asks") (E.stale _ "asks") E.row) "asks" (·.asks) (fun r v => { r with asks := v }),
  Codec.field (Codec.slice (E.isNil "bids") (E.stale _ "bids") E.row) "bids" (·.bids) (fun r v => { r with bids := v }),
  Codec.field Codec.int "max_depth" (·.maxDepth) (fun r v => { r with maxDepth := v })]

/-- `Book` as JSON. -/
def Env.book (E : Env) : Codec Book :=
  Codec.struct ⟨0, [], [], 0⟩ E.bookFields

/-- market/candle.go:13-20 `Candle`: its fields. -/
def Env.candleFields (E : Env) : List (JField Candle) := [
  Codec.field Codec.int "time" (·.time) (fun r v => { r with time := v }),
  Codec.field E.float "open" (·.opn) (fun r v => { r with opn := v }),
  Codec.field E.float "high" (·.high) (fun r v => { r with high := v }),
  Codec.field E.float "low" (·.low) (fun r v => { r with low := v }),
  Codec.field E.float "close" (·.close) (fun r v => { r with close := v }),
  Codec.field E.float "volume" (·.volume) (fun r v => { r with volume := v })]

/-- `Candle` as JSON. -/
def Env.candle (E : Env) : Codec Candle :=
  Codec.struct ⟨0, .fin 0, .fin 0, .fin 0, .fin 0, .fin 0⟩ E.candleFields

/-- market/asset.go:10-14 `Asset`: its fields. -/
def Env.assetFields (_ : Env) : List (JField Asset) := [
  Codec.field Codec.str "name" (·.name) (fun r v => { r with name := v }),
  Codec.field Codec.str "symbol" (·.symbol) (fun r v => { r with symbol := v }),
  Codec.field Codec.str "alt_symbol" (·.altSymbol) (fun r v => { r with altSymbol := v })]

/-- `Asset` as JSON. -/
def Env.asset (E : Env) : Codec Asset :=
  Codec.struct ⟨"", "", ""⟩ E.assetFields

/-- market/pair.go:8-11 `Pair`: its fields. -/
def Env.pairFields (E : Env) : List (JField Pair) := [
  Codec.field E.asset "base" (·.base) (fun r v => { r with base := v }),
  Codec.field E.asset "quote" (·.quote) (fun r v => { r with quote := v })]

/-- `Pair` as JSON. -/
def Env.pair (E : Env) : Codec Pair :=
  Codec.struct ⟨E.asset.zero, E.asset.zero⟩ E.pairFields

/-- market/ticker.go:6-13 `Ticker`: its fields. -/
def Env.tickerFields (E : Env) : List (JField Ticker) := [
  Codec.field Codec.int "time" (·.time) (fun r v => { r with time := v }),
  Codec.field E.float "ask" (·.ask) (fun r v => { r with ask := v }),
  Codec.field E.float "bid" (·.bid) (fun r v => { r with bid := v }),
  Codec.field E.float "last" (·.last) (fun r v => { r with last := v }),
  Codec.field E.float "volume" (·.volume) (fun r v => { r with volume := v }),
  Codec.field E.float "vwap" (·.vwap) (fun r v => { r with vwap := v })]

/-- `Ticker` as JSON. -/
def Env.ticker (E : Env) : Codec Ticker :=
  Codec.struct ⟨0, .fin 0, .fin 0, .fin 0, .fin 0, .fin 0⟩ E.tickerFields

/-- market/balances.go:6-11 `BalanceSnapshot`: its fields. -/
def Env.balanceSnapshotFields (E : Env) : List (JField BalanceSnapshot) := [
  Codec.field E.float "balance" (·.balance) (fun r v => { r with balance := v }),
  Codec.field E.float "equity" (·.equity) (fun r v => { r with equity := v }),
  Codec.field E.float "margin" (·.margin) (fun r v => { r with margin := v }),
  Codec.field E.float "free_margin" (·.freeMargin) (fun r v => { r with freeMargin := v })]

/-- `BalanceSnapshot` as JSON. -/
def Env.balanceSnapshot (E : Env) : Codec BalanceSnapshot :=
  Codec.struct ⟨.fin 0, .fin 0, .fin 0, .fin 0⟩ E.balanceSnapshotFields

/-- market/balances.go:28-31 `Balance`: its fields. -/
def Env.balanceFields (E : Env) : List (JField Balance) := [
  Codec.field E.asset.ptr "asset" (·.asset) (fun r v => { r with asset := v }),
  Codec.field E.float "amount" (·.amount) (fun r v => { r with amount := v })]

/-- `Balance` as JSON. -/
def Env.balance (E : Env) : Codec Balance :=
  Codec.struct ⟨none, .fin 0⟩ E.balanceFields

/-- market/balances.go:18-21 `AssetsSnapshot`: its fields. -/
def Env.assetsSnapshotFields (E : Env) : List (JField AssetsSnapshot) := [
  Codec.field E.float "time" (·.time) (fun r v => { r with time := v }),
  Codec.field (Codec.slice (E.isNil "assets") (E.stale _ "assets") E.balance) "assets" (·.assets) (fun r v => { r with assets := v })]

/-- `AssetsSnapshot` as JSON. -/
def Env.assetsSnapshot (E : Env) : Codec AssetsSnapshot :=
  Codec.struct ⟨.fin 0, []⟩ E.assetsSnapshotFields

/-- market/trade.go:12-23 `Trade`: its fields. -/
def Env.tradeFields (E : Env) : List (JField Trade) := [
  Codec.field Codec.str "id" (·.id) (fun r v => { r with id := v }),
  Codec.field E.time "execution_time" (·.executionTime) (fun r v => { r with executionTime := v }),
  Codec.field Codec.str "action" (·.action) (fun r v => { r with action := v }),
  Codec.field Codec.str "order_type" (·.orderType) (fun r v => { r with orderType := v }),
  Codec.field E.pair "pair" (·.pair) (fun r v => { r with pair := v }),
  Codec.field E.float "price" (·.price) (fun r v => { r with price := v }),
  Codec.field E.float "quantity" (·.quantity) (fun r v => { r with quantity := v }),
  Codec.field E.float "fee" (·.fee) (fun r v => { r with fee := v }),
  Codec.field E.float "cost" (·.cost) (fun r v => { r with cost := v }),
  Codec.field Codec.str "execution_id" (·.executionID) (fun r v => { r with executionID := v })]

/-- `Trade` as JSON. -/
def Env.trade (E : Env) : Codec Trade :=
  Codec.struct ⟨"", E.zeroTime, "", "", E.pair.zero, .fin 0, .fin 0, .fin 0, .fin 0, ""⟩ E.tradeFields

/-- market/position.go:23-26 `PositionCloseOrder`: its fields. -/
def Env.positionCloseOrderFields (E : Env) : List (JField PositionCloseOrder) := [
  Codec.field E.float "price" (·.price) (fun r v => { r with price := v }),
  Codec.field Codec.str "order_id" (·.orderID) (fun r v => { r with orderID := v })]

/-- `PositionCloseOrder` as JSON. -/
def Env.positionCloseOrder (E : Env) : Codec PositionCloseOrder :=
  Codec.struct ⟨.fin 0, ""⟩ E.positionCloseOrderFields

/-- market/position.go:33-49 `Position`: its fields. -/
def Env.positionFields (E : Env) : List (JField Position) := [
  Codec.field Codec.str "id" (·.id) (fun r v => { r with id := v }),
  Codec.field Codec.str "type" (·.type) (fun r v => { r with type := v }),
  Codec.field E.pair "pair" (·.pair) (fun r v => { r with pair := v }),
  Codec.field Codec.bool "open" (·.opened) (fun r v => { r with opened := v }),
  Codec.field E.positionCloseOrder "take_profit" (·.takeProfit) (fun r v => { r with takeProfit := v }),
  Codec.field E.positionCloseOrder "stop_loss" (·.stopLoss) (fun r v => { r with stopLoss := v }),
  Codec.field E.float "open_price" (·.openPrice) (fun r v => { r with openPrice := v }),
  Codec.field E.float "close_price" (·.closePrice) (fun r v => { r with closePrice := v }),
  Codec.field E.float "quantity" (·.quantity) (fun r v => { r with quantity := v }),
  Codec.field E.float "profit" (·.profit) (fun r v => { r with profit := v }),
  Codec.field E.time "open_time" (·.openTime) (fun r v => { r with openTime := v }),
  Codec.field E.time "close_time" (·.closeTime) (fun r v => { r with closeTime := v }),
  Codec.field (Codec.slice (E.isNil "trades") (E.stale _ "trades") Codec.str) "trades" (·.trades) (fun r v => { r with trades := v }),
  Codec.field Codec.str "execution_id" (·.executionID) (fun r v => { r with executionID := v }),
  Codec.field Codec.str "data" (·.data) (fun r v => { r with data := v })]

/-- `Position` as JSON. -/
def Env.position (E : Env) : Codec Position :=
  Codec.struct ⟨"", "", E.pair.zero, false, E.positionCloseOrder.zero, E.positionCloseOrder.zero, .fin 0, .fin 0, .fin 0, .fin 0, E.zeroTime, E.zeroTime, [], "", ""⟩ E.positionFields

/-- market/order.go:53-71 `Order`: its fields. -/
def Env.orderFields (E : Env) : List (JField Order) := [
  Codec.field Codec.str "id" (·.id) (fun r v => { r with id := v }),
  Codec.field Codec.str "action" (·.action) (fun r v => { r with action := v }),
  Codec.field Codec.str "type" (·.type) (fun r v => { r with type := v }),
  Codec.field E.pair.ptr "pair" (·.pair) (fun r v => { r with pair := v }),
  Codec.field E.float "price" (·.price) (fun r v => { r with price := v }),
  Codec.field E.float "volume" (·.volume) (fun r v => { r with volume := v }),
  Codec.field E.float "executed_volume" (·.executedVolume) (fun r v => { r with executedVolume := v }),
  Codec.field E.float "fee" (·.fee) (fun r v => { r with fee := v }),
  Codec.field E.float "cost" (·.cost) (fun r v => { r with cost := v }),
  Codec.field Codec.str "status" (·.status) (fun r v => { r with status := v }),
  Codec.field E.time "open_time" (·.openTime) (fun r v => { r with openTime := v }),
  Codec.field E.time "close_time" (·.closeTime) (fun r v => { r with closeTime := v }),
  Codec.field (Codec.slice (E.isNil "trades") (E.stale _ "trades") Codec.str) "trades" (·.trades) (fun r v => { r with trades := v }),
  Codec.field E.float "take_profit" (·.takeProfit) (fun r v => { r with takeProfit := v }),
  Codec.field E.float "stop_loss" (·.stopLoss) (fun r v => { r with stopLoss := v }),
  Codec.field Codec.str "position_id" (·.positionID) (fun r v => { r with positionID := v }),
  Codec.field Codec.str "execution_id" (·.executionID) (fun r v => { r with executionID := v })]

/-- `Order` as JSON. -/
def Env.order (E : Env) : Codec Order :=
  Codec.struct ⟨"", "", "", none, .fin 0, .fin 0, .fin 0, .fin 0, .fin 0, "", E.zeroTime, E.zeroTime, [], .fin 0, .fin 0, "", ""⟩ E.orderFields

/-- market/order_request.go:10-19 `OrderRequest` (no tags: the Go names): its fields. -/
def Env.orderRequestFields (E : Env) : List (JField OrderRequest) := [
  Codec.field Codec.str "Action" (·.action) (fun r v => { r with action := v }),
  Codec.field Codec.str "Type" (·.type) (fun r v => { r with type := v }),
  Codec.field E.pair "Pair" (·.pair) (fun r v => { r with pair := v }),
  Codec.field E.float "Price" (·.price) (fun r v => { r with price := v }),
  Codec.field E.float "TakeProfit" (·.takeProfit) (fun r v => { r with takeProfit := v }),
  Codec.field E.float "StopLoss" (·.stopLoss) (fun r v => { r with stopLoss := v }),
  Codec.field E.float "Quantity" (·.quantity) (fun r v => { r with quantity := v }),
  Codec.field E.float "Total" (·.total) (fun r v => { r with total := v })]

/-- `OrderRequest` as JSON. -/
def Env.orderRequest (E : Env) : Codec OrderRequest :=
  Codec.struct ⟨"", "", E.pair.zero, .fin 0, .fin 0, .fin 0, .fin 0, .fin 0⟩ E.orderRequestFields

/-- strategy/order_actions.go:8-18 `CreateOrderAction`: its fields. -/
def Env.createOrderActionFields (E : Env) : List (JField CreateOrderAction) := [
  Codec.field Codec.str "id" (·.id) (fun r v => { r with id := v }),
  Codec.field Codec.str "symbol" (·.symbol) (fun r v => { r with symbol := v }),
  Codec.field Codec.str "action_type" (·.actionType) (fun r v => { r with actionType := v }),
  Codec.field Codec.str "order_type" (·.orderType) (fun r v => { r with orderType := v }),
  Codec.field E.float "price" (·.price) (fun r v => { r with price := v }),
  Codec.field E.float "volume" (·.volume) (fun r v => { r with volume := v }),
  Codec.field E.float "stop_loss" (·.stopLoss) (fun r v => { r with stopLoss := v }),
  Codec.field E.float "take_profit" (·.takeProfit) (fun r v => { r with takeProfit := v }),
  Codec.field E.float "slippage" (·.slippage) (fun r v => { r with slippage := v })]

/-- `CreateOrderAction` as JSON. -/
def Env.createOrderAction (E : Env) : Codec CreateOrderAction :=
  Codec.struct ⟨"", "", "", "", .fin 0, .fin 0, .fin 0, .fin 0, .fin 0⟩ E.createOrderActionFields

/-- strategy/order_actions.go:24-32 `UpdateOrderAction`: its fields. -/
def Env.updateOrderActionFields (E : Env) : List (JField UpdateOrderAction) := [
  Codec.field Codec.str "id" (·.id) (fun r v => { r with id := v }),
  Codec.field Codec.str "order_id" (·.orderID) (fun r v => { r with orderID := v }),
  Codec.field E.float "price" (·.price) (fun r v => { r with price := v }),
  Codec.field E.float "volume" (·.volume) (fun r v => { r with volume := v }),
  Codec.field E.float "stop_loss" (·.stopLoss) (fun r v => { r with stopLoss := v }),
  Codec.field E.float "take_profit" (·.takeProfit) (fun r v => { r with takeProfit := v }),
  Codec.field E.float "slippage" (·.slippage) (fun r v => { r with slippage := v })]

/-- `UpdateOrderAction` as JSON. -/
def Env.updateOrderAction (E : Env) : Codec UpdateOrderAction :=
  Codec.struct ⟨"", "", .fin 0, .fin 0, .fin 0, .fin 0, .fin 0⟩ E.updateOrderActionFields

/-- strategy/order_actions.go:38-41 `CancelOrderAction`: its fields. -/
def Env.cancelOrderActionFields (_ : Env) : List (JField CancelOrderAction) := [
  Codec.field Codec.str "id" (·.id) (fun r v => { r with id := v }),
  Codec.field Codec.str "order_id" (·.orderID) (fun r v => { r with orderID := v })]

/-- `CancelOrderAction` as JSON. -/
def Env.cancelOrderAction (E : Env) : Codec CancelOrderAction :=
  Codec.struct ⟨"", ""⟩ E.cancelOrderActionFields

/-- strategy/position_actions.go:8-17 `UpdatePositionAction`: its fields. -/
def Env.updatePositionActionFields (E : Env) : List (JField UpdatePositionAction) := [
  Codec.field Codec.str "id" (·.id) (fun r v => { r with id := v }),
  Codec.field Codec.str "position_id" (·.positionID) (fun r v => { r with positionID := v }),
  Codec.field Codec.str "action_type" (·.actionType) (fun r v => { r with actionType := v }),
  Codec.field Codec.str "order_type" (·.orderType) (fun r v => { r with orderType := v }),
  Codec.field E.float "volume" (·.volume) (fun r v => { r with volume := v }),
  Codec.field E.float "stop_loss" (·.stopLoss) (fun r v => { r with stopLoss := v }),
  Codec.field E.float "take_profit" (·.takeProfit) (fun r v => { r with takeProfit := v }),
  Codec.field E.float "slippage" (·.slippage) (fun r v => { r with slippage := v })]

/-- `UpdatePositionAction` as JSON. -/
def Env.updatePositionAction (E : Env) : Codec UpdatePositionAction :=
  Codec.struct ⟨"", "", "", "", .fin 0, .fin 0, .fin 0, .fin 0⟩ E.updatePositionActionFields

/-- strategy/position_actions.go:23-26 `ClosePositionAction`: its fields. -/
def Env.closePositionActionFields (_ : Env) : List (JField ClosePositionAction) := [
  Codec.field Codec.str "id" (·.id) (fun r v => { r with id := v }),
  Codec.field Codec.str "position_id" (·.positionID) (fun r v => { r with positionID := v })]

/-- `ClosePositionAction` as JSON. -/
def Env.closePositionAction (E : Env) : Codec ClosePositionAction :=
  Codec.struct ⟨"", ""⟩ E.closePositionActionFields

/-- strategy/annotation.go:23-31 `Annotation`: its fields. -/
def Env.annotationFields (E : Env) : List (JField Annotation) := [
  Codec.field Codec.str "id" (·.id) (fun r v => { r with id := v }),
  Codec.field Codec.int "time" (·.time) (fun r v => { r with time := v }),
  Codec.field Codec.int "creation_time" (·.creationTime) (fun r v => { r with creationTime := v }),
  Codec.field E.float "price" (·.price) (fun r v => { r with price := v }),
  Codec.field Codec.str "execution_id" (·.executionID) (fun r v => { r with executionID := v }),
  Codec.field Codec.str "label" (·.label) (fun r v => { r with label := v }),
  Codec.field Codec.str "tooltip" (·.tooltip) (fun r v => { r with tooltip := v })]

/-- `Annotation` as JSON. -/
def Env.annotation (E : Env) : Codec Annotation :=
  Codec.struct ⟨"", 0, 0, .fin 0, "", "", ""⟩ E.annotationFields

end Finmod.Json
