import Verif.Model.Order
import Verif.Model.Actions
import Verif.Model.OrderBook
import Verif.Model.Candle
import Verif.Model.Fractals

/-!
# Model of the `String` methods

Text is a list of bytes. How `fmt` writes numbers and times is a parameter, any total functions:
`fmt.Sprintf` itself never panics. Receivers are non-nil pointers.
-/

namespace Finmod
open Go

/-- Bytes of a string. -/
def bytes (s : String) : List UInt8 := s.toUTF8.data.toList

/-- What `fmt` writes for numbers (`%.kf`, with k = 6 for `%f`, and `%v`), integers, times and
booleans. -/
structure Fmt where
  f : Nat → Fl → String
  v : Fl → String
  d : Int → String
  time : Int → String
  unixTime : Int → String
  bool : Bool → String

/-- Texts separated by single spaces. -/
def spaced : List String → String
  | [] => ""
  | [s] => s
  | s :: ss => s ++ " " ++ spaced ss

/-- `%v` of a slice, given the texts of its elements. -/
def bracketed (l : List String) : String := "[" ++ spaced l ++ "]"

/-- market/asset.go:16-18 `Asset.String`. -/
def Asset.string (a : Asset) : String := a.name ++ ": " ++ a.symbol ++ "\n"

/-- market/pair.go:19-21 `Pair.String`. -/
def Pair.string (p : Pair) : String := p.base.symbol ++ "/" ++ p.quote.symbol ++ "\n"

/-- `%s` of an `Asset` or `Pair` value: their String methods have pointer receivers, so `fmt`
writes the fields. -/
def Asset.fields (a : Asset) : String := "{" ++ a.name ++ " " ++ a.symbol ++ " " ++ a.altSymbol ++ "}"
def Pair.fields (p : Pair) : String := "{" ++ p.base.fields ++ " " ++ p.quote.fields ++ "}"

/-- market/candle.go:22-32 `Candle.String`. -/
def Candle.string (F : Fmt) (c : Candle) : Res (List UInt8) :=
  .ok (bytes ("Time: " ++ F.unixTime c.time ++ " | Open: " ++ F.f 4 c.opn ++ " | High: " ++ F.f 4 c.high
    ++ " | Low: " ++ F.f 4 c.low ++ " | Close: " ++ F.f 4 c.close ++ " | Volume: " ++ F.f 4 c.volume ++ "\n"))

/-- market/ticker.go:6-13 `Ticker`. -/
structure Ticker where
  time : Int
  ask : Fl
  bid : Fl
  last : Fl
  volume : Fl
  vwap : Fl

/-- market/ticker.go:15-17 `Ticker.String`. -/
def Ticker.string (F : Fmt) (t : Ticker) : Res (List UInt8) :=
  .ok (bytes ("Time: " ++ F.d t.time ++ ", Ask: " ++ F.f 6 t.ask ++ ", Bid: " ++ F.f 6 t.bid ++ ", Last: "
    ++ F.f 6 t.last ++ ", Volume: " ++ F.f 6 t.volume ++ ", VWAP: " ++ F.f 6 t.vwap ++ "\n"))

/-- market/trade.go:75-87 `Trade.String`. -/
def Trade.string (F : Fmt) (t : Trade) : Res (List UInt8) :=
  .ok (bytes ("ID: " ++ t.id ++ " Execution Time: " ++ F.time t.executionTime ++ " Action: " ++ t.action
    ++ " Type: " ++ t.orderType ++ " Pair: " ++ t.pair.fields ++ " Price: $" ++ F.f 2 t.price
    ++ " Quantity: " ++ F.f 4 t.quantity ++ " Fee: $" ++ F.f 2 t.fee ++ " Cost: $" ++ F.f 2 t.cost ++ "\n"))

/-- market/balances.go:6-11 `BalanceSnapshot`. -/
structure BalanceSnapshot where
  balance : Fl
  equity : Fl
  margin : Fl
  freeMargin : Fl

/-- market/balances.go:13-15 `BalanceSnapshot.String`. -/
def BalanceSnapshot.string (F : Fmt) (b : BalanceSnapshot) : Res (List UInt8) :=
  .ok (bytes ("Balance: " ++ F.f 6 b.balance ++ ", Equity: " ++ F.f 6 b.equity ++ ", Margin: " ++ F.f 6 b.margin
    ++ ", Free Margin: " ++ F.f 6 b.freeMargin ++ "\n"))

/-- market/balances.go:28-31 `Balance`. -/
structure Balance where
  asset : Option Asset
  amount : Fl

/-- market/balances.go:18-21 `AssetsSnapshot`. -/
structure AssetsSnapshot where
  time : Fl
  assets : List Balance

/-- `%v` of a `Balance` inside a slice: its String method has a pointer receiver, so `fmt` writes the
fields; the field `*Asset` has a String method, which `fmt` calls, writing `<nil>` for a nil pointer
(it recovers from the panic of the method). -/
def Balance.fields (F : Fmt) (b : Balance) : String :=
  "{" ++ (match b.asset with | none => "<nil>" | some a => a.string) ++ " " ++ F.v b.amount ++ "}"

/-- market/balances.go:23-25 `AssetsSnapshot.String`. -/
def AssetsSnapshot.string (F : Fmt) (a : AssetsSnapshot) : Res (List UInt8) :=
  .ok (bytes ("Time: " ++ F.f 6 a.time ++ ", Assets: " ++ bracketed (a.assets.map (Balance.fields F)) ++ "\n"))

/-- market/balances.go:33-35 `Balance.String`: `b.Asset.String()` reads through the pointer. -/
def Balance.string (F : Fmt) (b : Balance) : Res (List UInt8) :=
  match b.asset with
  | none => .panic
  | some a => .ok (bytes ("Asset: " ++ a.string ++ ", Amount: " ++ F.f 6 b.amount ++ "\n"))

/-- market/order.go:97-119 `Order.String`. -/
def Order.string (F : Fmt) (o : Order) : Res (List UInt8) :=
  let pairStr := match o.pair with
    | none => ""
    | some p => p.string
  .ok (bytes ("ID: " ++ o.id ++ " | Action: " ++ o.action ++ " | Type: " ++ o.type ++ " | Pair: " ++ pairStr
    ++ " | Price: " ++ F.f 4 o.price ++ " | Volume: " ++ F.f 4 o.volume ++ " | ExecVolume: "
    ++ F.f 4 o.executedVolume ++ " | Fee: $" ++ F.f 4 o.fee ++ " | Cost: $" ++ F.f 4 o.cost ++ " | Status: "
    ++ o.status ++ " | OT: " ++ F.time o.openTime ++ " | CT: " ++ F.time o.closeTime ++ "\n"))

/-- market/order_request.go:53-64 `OrderRequest.String`. -/
def OrderRequest.string (F : Fmt) (o : OrderRequest) : Res (List UInt8) :=
  .ok (bytes ("Action: " ++ o.action ++ " | Type: " ++ o.type ++ " | Pair: " ++ o.pair.string
    ++ " | Quantity: " ++ F.f 4 o.quantity ++ " | Price: $" ++ F.f 4 o.price ++ " | Total: $" ++ F.f 4 o.total
    ++ "\n"))

/-- market/position.go:28-30 `PositionCloseOrder.String`. -/
def PositionCloseOrder.string (F : Fmt) (p : PositionCloseOrder) : Res (List UInt8) :=
  .ok (bytes ("Price: " ++ F.f 6 p.price ++ ", OrderID: " ++ p.orderID ++ "\n"))

/-- market/position.go:99-113 `Position.String`: `p.ID[0:8]` panics on an ID of fewer than 8
bytes. -/
def Position.string (F : Fmt) (p : Position) : Res (List UInt8) :=
  if (bytes p.id).length < 8 then .panic
  else .ok (bytes "ID: " ++ (bytes p.id).take 8 ++ bytes (" Type: " ++ p.type ++ " Pair: " ++ p.pair.string
    ++ " Open: " ++ F.bool p.opened ++ " OpenPrice: " ++ F.f 2 p.openPrice ++ " ClosePrice: "
    ++ F.f 2 p.closePrice ++ " Quantity: " ++ F.f 4 p.quantity ++ " Profit: " ++ F.f 2 p.profit
    ++ " OpenTime: " ++ F.time p.openTime ++ " CloseTime: " ++ F.time p.closeTime ++ " # Trades: "
    ++ F.d p.trades.length ++ "\n"))

/-- market/orderbook_types.go:12-14 `OrderBookRow.String`. -/
def Row.string (F : Fmt) (r : Row) : Res (List UInt8) :=
  .ok (bytes ("Price: " ++ F.f 3 r.price ++ ", Volume: " ++ F.f 3 r.volume ++ ", AccumVolume: " ++ F.f 3 r.accum
    ++ "\n"))

/-- `%v` of an `OrderBookRow` value: its String method has a pointer receiver, so `fmt` writes the
fields. -/
def Row.fields (F : Fmt) (r : Row) : String := "{" ++ F.v r.price ++ " " ++ F.v r.volume ++ " " ++ F.v r.accum ++ "}"

/-- market/orderbook.go:75-77 `OrderBook.String`. -/
def Book.string (F : Fmt) (b : Book) : Res (List UInt8) :=
  .ok (bytes ("Time: " ++ F.d b.time ++ ", Asks: " ++ bracketed (b.asks.map (Row.fields F)) ++ ", Bids: "
    ++ bracketed (b.bids.map (Row.fields F)) ++ "\n"))

/-- market/orderbook.go:79-89 `(*OrderBook).Print`: what a line is. `fmt.Println` writes a row like `%v`
does, and a line feed. -/
def PrintLine.text (F : Fmt) : PrintLine → String
  | .title => "======= OrderBook =======\n"
  | .separator => "-------------------------\n"
  | .row r => r.fields F ++ "\n"

/-- market/orderbook.go:79-89 `(*OrderBook).Print`: what is written to standard output. -/
def Book.printed (F : Fmt) (b : Book) : String := (b.print.map (PrintLine.text F)).foldl (· ++ ·) ""

/-- strategy/annotation.go:33-43 `Annotation.String`. -/
def Annotation.text (F : Fmt) (a : Annotation) : String :=
  "ID: " ++ a.id ++ ", Time: " ++ F.d a.time ++ ", Creation Time: " ++ F.d a.creationTime ++ ", Price: "
    ++ F.f 6 a.price ++ ", ExecutionID: " ++ a.executionID ++ ", Label: " ++ a.label ++ ", Tooltip: "
    ++ a.tooltip ++ "\n"

/-- strategy/annotation.go:14-20 `AddAnnotationsAction.String`. -/
def annotationsString (F : Fmt) (l : List Annotation) : Res (List UInt8) :=
  .ok (bytes (l.foldl (fun str v => str ++ (v.text F ++ "\n")) "Annotations:\n"))

/-- indicators/williams_fractals.go:26-28 `WilliamFractal.String`. -/
def WilliamFractal.string (F : Fmt) (w : WilliamFractal) : Res (List UInt8) :=
  .ok (bytes (F.d w.time ++ " " ++ F.f 6 w.price ++ " " ++ (match w.ftype with | .up => "up" | .down => "down")
    ++ "\n"))

end Finmod
