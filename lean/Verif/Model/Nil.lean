import Verif.Model.Records
import Verif.Model.Strings
import Verif.Model.Asset
import Verif.Model.CandleFile
import Verif.Model.Tick

/-!
# The functions that take pointers, for nil pointers too

In the other model files receivers and pointer arguments are not nil. Here a pointer is an `Option`, and
reading or writing through nil panics. Go lets a method be called on a nil pointer: the panic comes at the
first field read.
-/

namespace Finmod
open Go

/-- A pointer; `none` is nil. -/
abbrev Ptr (α : Type) := Option α

/-- The first read through a pointer. -/
def Ptr.load {α β : Type} (p : Ptr α) (k : α → Res β) : Res β :=
  match p with
  | none => .panic
  | some a => k a

/-- The assignment `*p = *q` of the `Update` methods. -/
def Ptr.store {α : Type} (p q : Ptr α) : Res (Ptr α) :=
  match p, q with
  | some _, some a => .ok (some a)
  | _, _ => .panic

/-- market/trade.go:62-73, market/order.go:84-95, market/position.go:86-97, strategy/annotation.go:56-67 `Update`:
the type is tested before anything is read. -/
def tradeUpdateN (t : Ptr Trade) (i : AnyVal) : Res (Ptr Trade) :=
  match i.asTrade with | none => .err .einvalid t | some q => t.store q
def orderUpdateN (o : Ptr Order) (i : AnyVal) : Res (Ptr Order) :=
  match i.asOrder with | none => .err .einvalid o | some q => o.store q
def positionUpdateN (p : Ptr Position) (i : AnyVal) : Res (Ptr Position) :=
  match i.asPosition with | none => .err .einvalid p | some q => p.store q
def annotationUpdateN (a : Ptr Annotation) (i : AnyVal) : Res (Ptr Annotation) :=
  match i.asAnnotation with | none => .err .einvalid a | some q => a.store q

/-- market/trade.go:52-54, market/order.go:74-76, market/position.go:76-78, strategy/annotation.go:46-48 `GetSchema`:
nothing is read. -/
def tradeSchemaN (_ : Ptr Trade) : Res Schema := .ok ⟨"trades", "id"⟩
def orderSchemaN (_ : Ptr Order) : Res Schema := .ok ⟨"orders", "id"⟩
def positionSchemaN (_ : Ptr Position) : Res Schema := .ok ⟨"positions", "id"⟩
def annotationSchemaN (_ : Ptr Annotation) : Res Schema := .ok ⟨"annotations", "id"⟩

/-- market/trade.go:57-59, market/order.go:79-81, market/position.go:81-83, strategy/annotation.go:51-53 `GetID`. -/
def tradeIDN (t : Ptr Trade) : Res String := t.load fun t => .ok t.getID
def orderIDN (o : Ptr Order) : Res String := o.load fun o => .ok o.getID
def positionIDN (p : Ptr Position) : Res String := p.load fun p => .ok p.getID
def annotationIDN (a : Ptr Annotation) : Res String := a.load fun a => .ok a.getID

/-- The `String` methods (see `Model/Strings.lean` for the lines): each reads a field. -/
def assetStringN (a : Ptr Asset) : Res (List UInt8) := a.load fun a => .ok (bytes a.string)
def pairStringN (p : Ptr Pair) : Res (List UInt8) := p.load fun p => .ok (bytes p.string)
def candleStringN (F : Fmt) (c : Ptr Candle) : Res (List UInt8) := c.load (·.string F)
def tickerStringN (F : Fmt) (t : Ptr Ticker) : Res (List UInt8) := t.load (·.string F)
def tradeStringN (F : Fmt) (t : Ptr Trade) : Res (List UInt8) := t.load (·.string F)
def orderStringN (F : Fmt) (o : Ptr Order) : Res (List UInt8) := o.load (·.string F)
def orderRequestStringN (F : Fmt) (o : Ptr OrderRequest) : Res (List UInt8) := o.load (·.string F)
def positionStringN (F : Fmt) (p : Ptr Position) : Res (List UInt8) := p.load (·.string F)
def closeOrderStringN (F : Fmt) (p : Ptr PositionCloseOrder) : Res (List UInt8) := p.load (·.string F)
def balanceSnapshotStringN (F : Fmt) (b : Ptr BalanceSnapshot) : Res (List UInt8) := b.load (·.string F)
def assetsSnapshotStringN (F : Fmt) (a : Ptr AssetsSnapshot) : Res (List UInt8) := a.load (·.string F)
def balanceStringN (F : Fmt) (b : Ptr Balance) : Res (List UInt8) := b.load (·.string F)
def rowStringN (F : Fmt) (r : Ptr Row) : Res (List UInt8) := r.load (·.string F)
def bookStringN (F : Fmt) (b : Ptr Book) : Res (List UInt8) := b.load (·.string F)
def annotationStringN (F : Fmt) (a : Ptr Annotation) : Res (List UInt8) := a.load fun a => .ok (bytes (a.text F))
def annotationsStringN (F : Fmt) (a : Ptr (List Annotation)) : Res (List UInt8) := a.load (annotationsString F)
def fractalStringN (F : Fmt) (w : Ptr WilliamFractal) : Res (List UInt8) := w.load (·.string F)

/-- market/pair.go:24-30 `Symbol`, market/order.go:121-126 `IsOpen`, market/position.go:116-122 `UnrealizedProfit`,
market/order_request.go:66-94 `CalculateFields`: a field is read first. -/
def pairSymbolN (p : Ptr Pair) (separator : String) : Res String := p.load fun p => .ok (p.symbolWith separator)
def orderIsOpenN (o : Ptr Order) : Res Bool := o.load fun o => .ok o.isOpen
def unrealizedProfitN (S : FloatSem) (p : Ptr Position) (x : Fl) : Res Fl := p.load fun p => .ok (unrealizedProfit S p x)
def calculateFieldsN (S : FloatSem) (o : Ptr OrderRequest) (x : Fl) : Res (Option OrderRequest) :=
  o.load fun o => (calculateFields S o x).2

/-- market/position.go:52-73 `NewPosition` (line 55 reads the trade) and 125-143 `Modify` (line 128 reads the
position and the trade). -/
def newPositionN (id : String) (zeroTime : Int) (trade : Ptr Trade) : Res Position :=
  trade.load fun t => .ok (newPosition id zeroTime t)
def modifyN (S : FloatSem) (p : Ptr Position) (trade : Ptr Trade) : Res Position :=
  p.load fun p => trade.load fun t => modify S p t

/-- market/orderbook.go:136-249 `ApplyUpdate`: the side is tested first; then `removeInvalid` (lines 95, 114) or the
loops of lines 183 and 236 read a side of the book. -/
def applyUpdateN (b : Ptr Book) (u : Update) : Res (Ptr Book) :=
  if u.side = "ask" ∨ u.side = "bid" then
    b.load fun b => match b.applyUpdate u with
      | .ok b' => .ok (some b')
      | .err c b' => .err c (some b')
      | .panic => .panic
  else .err .einvalid b

/-- market/orderbook.go:257-286 `GetDepth`: the price is tested first. -/
def getDepthN (b : Ptr Book) (price : Fl) : Res Fl :=
  if Fl.le price (.fin 0) then .err .einvalid (.fin 0) else b.load (·.getDepth price)

/-- market/orderbook.go:79-89 `Print`: what is written, and whether the call panics. Line 80 reads nothing. -/
def printN (F : Fmt) (b : Ptr Book) : String × Bool :=
  match b with
  | none => (PrintLine.text F .title, true)
  | some b => (b.printed F, false)

/-- market/candle_load.go:13-29 `SaveCandlesToFile`: `os.Create` has emptied the file when line 22 reads the
pointer. -/
def saveCandlesN (pick : ℚ → Nat × ℤ) (eprec : ℤ) (created : Bool) (accept : Nat → Nat) (old : Option (List Char))
    (cs : Ptr (List Candle)) : Res Unit × Option (List Char) :=
  if created then
    match cs with
    | none => (.panic, some [])
    | some cs => (.ok (), some (writeLoop pick eprec accept 0 cs))
  else (.err .external (), old)

/-- strategy/strategy.go:21-23 `GetLocalTime` and 26-37 `GetLocationTime`: the location is looked up first. -/
def localTimeN (t : Ptr Tick) : Res Time := t.load (·.getLocalTime)
def locationTimeN (zones : String → Bool) (t : Ptr Tick) (location : String) : Res Time :=
  match loadLocation zones location with
  | none => .err .external zeroTime
  | some loc => t.load fun t => match t.candle with
    | none => .panic
    | some c => .ok ((timeUnix c.time).inLoc loc)

/-- strategy/actions.go:13-70, the six `Add` methods: a field is read even when there is nothing to add. -/
def callActionsN (gen : Nat → String) (n : Nat) (a : Ptr Actions) (c : ActionCall) : Res (Nat × Actions) :=
  a.load fun a => match callActions gen n a c with
    | none => .panic
    | some r => .ok r

/-- strategy/order_actions.go:20-22, 34-36, 43-45 and strategy/position_actions.go:19-21, 28-30 `GenerateID`: a field is
written. -/
def createIDN (a : Ptr CreateOrderAction) (id : String) : Res CreateOrderAction := a.load fun a => .ok (a.generateID id)
def updateIDN (a : Ptr UpdateOrderAction) (id : String) : Res UpdateOrderAction := a.load fun a => .ok (a.generateID id)
def cancelIDN (a : Ptr CancelOrderAction) (id : String) : Res CancelOrderAction := a.load fun a => .ok (a.generateID id)
def updatePositionIDN (a : Ptr UpdatePositionAction) (id : String) : Res UpdatePositionAction :=
  a.load fun a => .ok (a.generateID id)
def closePositionIDN (a : Ptr ClosePositionAction) (id : String) : Res ClosePositionAction :=
  a.load fun a => .ok (a.generateID id)

end Finmod
