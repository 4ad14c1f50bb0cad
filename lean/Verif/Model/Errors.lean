import Verif.Model.Averages
import Verif.Model.RSI
import Verif.Model.Fractals
import Verif.Model.OrderBook
import Verif.Model.Asset
import Verif.Model.Order
import Verif.Model.Records
import Verif.Model.CandleFile
import Verif.Model.Date

/-!
# The error values of all functions that return one

The other model files keep only the code of an error. Here the error itself is modelled: operation,
code and message, and what it wraps. `Lemmas/Errors.lean` proves that without operation and message
these functions are those of the other files. Package `ez` is not in the sandbox: `ez.New(op, code,
message, nil)` makes an error of these three, `ez.Wrap(op, err)` one with another operation and the code and
message of `err`. What code and message it gives to an error of another package is left open.
-/

namespace Finmod
open Go

/-- The errors of other packages that the code wraps. -/
inductive Cause where
  /-- `os.Create` (market/candle_load.go:16-19). -/
  | create
  /-- `os.Open` (market/candle_load.go:36-40). -/
  | openFile
  /-- `strconv.ParseInt` or `ParseFloat` of the field with this index and text
  (market/candle_load.go:50-78). -/
  | field (i : Nat) (text : List Char)
  /-- `strconv.ParseFloat` of an added-up volume (market/candle.go:158-161). -/
  | volume
  /-- `time.LoadLocation` (strategy/strategy.go:29-32). -/
  | location
  /-- `time.Parse` (utils/date.go:12-15). -/
  | date
deriving DecidableEq, Repr

/-- The errors made with package `ez`. -/
inductive EzErr where
  /-- `ez.New(op, code, message, nil)`. -/
  | new (op : String) (code : ErrCode) (message : String)
  /-- `ez.Wrap(op, err)` of an error of this package. -/
  | wrap (op : String) (err : EzErr)
  /-- `ez.Wrap(op, err)` of an error of another package. -/
  | foreign (op : String) (cause : Cause)
deriving DecidableEq, Repr

namespace EzErr

/-- The field `Op`. -/
def op : EzErr → String
  | new op _ _ => op
  | wrap op _ => op
  | foreign op _ => op

/-- The field `Code`. -/
def code : EzErr → ErrCode
  | new _ c _ => c
  | wrap _ e => e.code
  | foreign _ _ => .external

/-- The field `Message`; `none` is a message not made by this code. -/
def message : EzErr → Option String
  | new _ _ m => some m
  | wrap _ e => e.message
  | foreign _ _ => none

/-- The operations of an error and of those it wraps, the outermost first. -/
def trail : EzErr → List String
  | new op _ _ => [op]
  | wrap op e => op :: e.trail
  | foreign op _ => [op]

/-- The error of another package at the bottom. -/
def cause : EzErr → Option Cause
  | new _ _ _ => none
  | wrap _ e => e.cause
  | foreign _ c => some c

end EzErr

/-- Outcome of a call, with the error itself (see `Res`). -/
inductive Out (α : Type) where
  | ok (v : α)
  | err (e : EzErr) (v : α)
  | panic
deriving DecidableEq, Repr

/-- All but the code of the error dropped. -/
def Out.plain {α : Type} : Out α → Res α
  | .ok v => .ok v
  | .err e v => .err e.code v
  | .panic => .panic

/-- The error of a function in which each code is used by one line only. -/
def _root_.Go.Res.tell {α : Type} (f : ErrCode → EzErr) : Res α → Out α
  | .ok v => .ok v
  | .err c v => .err (f c) v
  | .panic => .panic

/-- indicators/ma.go:8-36 `MovingAverage`. -/
def movingAverageE (S : FloatSem) (candles : Option (List Candle)) (period : Int) : Out (List Fl) :=
  match candles with
  | none => .err (.new "indicators.MovingAverage" .einvalid "Candle array missing") []
  | some cs =>
    if (cs.length : Int) < period then
      .err (.new "indicators.MovingAverage" .einvalid "Period argument is larger than the length of candles") []
    else if period ≤ 0 then .err (.new "indicators.MovingAverage" .einvalid "Period can't be less than 1") []
    else (maLoop S cs (cs.length + 1) 0 (period.toNat - 1)).tell fun c => .new "" c ""

/-- indicators/ma.go:46-75 `ExponentialMovingAverage`. -/
def exponentialMovingAverageE (S : FloatSem) (candles : Option (List Candle)) (period : Int) : Out (List Fl) :=
  match candles with
  | none => .err (.new "indicators.ExponentialMovingAverage" .einvalid "Candle array missing") []
  | some cs =>
    if (cs.length : Int) < period then
      .err (.new "indicators.ExponentialMovingAverage" .einvalid "Period argument is larger than the length of candles") []
    else if period ≤ 0 then .err (.new "indicators.ExponentialMovingAverage" .einvalid "Period can't be less than 1") []
    else .ok (cs.zipIdx.foldl (emaStep S cs period (emaWeight S period)) [])

/-- indicators/ma.go:118-124: the error of `closingSum`. -/
def closingSumErr : EzErr := .new "indicators.closingSum" .einvalid "Period is larger than the amount of candles"

/-- indicators/ma.go:77-116 `SmoothedMovingAverage`. -/
def smoothedMovingAverageE (S : FloatSem) (candles : Option (List Candle)) (period : Int) : Out (List Fl) :=
  match candles with
  | none => .err (.new "indicators.SmoothedMovingAverage" .einvalid "Candle array missing") []
  | some cs =>
    if (cs.length : Int) < period then
      .err (.new "indicators.SmoothedMovingAverage" .einvalid "Period is larger than the amount of candles") []
    else if period ≤ 0 then .err (.new "indicators.SmoothedMovingAverage" .einvalid "Period can't be less than 1") []
    else
      match cs.zipIdx.foldl (smmaStep S cs period) (some []) with
      | some arr => .ok arr
      | none => .err (.wrap "indicators.SmoothedMovingAverage" closingSumErr) []

/-- indicators/rsi.go:23-48 `RSI`: line 24 has the name of another function. -/
def RSIE (S : FloatSem) (candles : Option (List Candle)) (spare : List Candle) (period : Int) : Out (List Fl) :=
  match candles with
  | none => .err (.new "movingAverage" .einvalid "Candle array missing") []
  | some cs =>
    if cs.length < 14 then .err (.new "movingAverage" .einvalid "Cannot calculate RSI with less than 14 candles") []
    else
      (rsiLoop S (cs ++ spare) cs.length (((cs ++ spare).length + 3 - period).toNat + 1) 0 (period - 1) []).tell
        fun c => .new "" c ""

/-- market/candle.go:36-83 `ModifyInterval`: the error of `findFirstIndex` (line 118) is wrapped, that of
`compressCandle` (line 160) is returned as it is. Both have one error only. -/
def modifyIntervalE (S : FloatSem) (minute : Int → Int) (candles : List Candle) (minuteInterval : Int) :
    Out (List Candle) :=
  if candles.length = 1 then .ok candles
  else
    match candles with
    | c0 :: c1 :: _ =>
      let delta := idiv (wrap64 (c1.time - c0.time)) 60
      if delta ≠ 1 ∧ minuteInterval = 1 then
        .err (.new "market.ModifyInterval" .econflict "No 1 minute interval exists") []
      else if delta = 0 then .panic
      else if imod minuteInterval delta ≠ 0 then
        .err (.new "market.ModifyInterval" .econflict
          ("The retrieved candles cannot be modified to the " ++ String.ofList (fmtInt minuteInterval) ++
            " minutes timeframe, the delta between candles is " ++ String.ofList (fmtInt delta) ++ " minutes")) []
      else
        match findFirstIndex minute candles minuteInterval with
        | .ok first =>
          match candles[first]? with
          | some p =>
            match resampleLoop S candles minuteInterval p.time (candles.drop (first + 1)) (first + 1) first [] with
            | .ok (acc, start) =>
              match compressCandle S candles start candles.length with
              | .ok c => .ok (acc ++ [c])
              | .err _ _ => .err (.foreign "candle.CompressCandle" .volume) []
              | .panic => .panic
            | .err _ _ => .err (.foreign "candle.CompressCandle" .volume) []
            | .panic => .panic
          | none => .panic
        | .err _ _ => .err (.wrap "market.ModifyInterval"
            (.new "market.findFirstCandle" .einvalid "Could not find the initial candle")) []
        | .panic => .panic
    | _ => .panic

/-- market/candle_load.go:13-29 `SaveCandlesToFile`. -/
def saveCandlesE (pick : ℚ → Nat × ℤ) (eprec : ℤ) (created : Bool) (accept : Nat → Nat) (old : Option (List Char))
    (cs : List Candle) : Out Unit × Option (List Char) :=
  if created then (.ok (), some (writeLoop pick eprec accept 0 cs))
  else (.err (.foreign "market.SaveCandlesToFile" .create) (), old)

/-- What one iteration of the loop of `LoadCandlesFromFile` does with a line, see `Parsed`. -/
inductive ParsedE where
  | candle (c : Candle)
  | refused (i : Nat) (text : List Char)
  | panics
deriving DecidableEq

/-- market/candle_load.go:55-78, see `floatField`. -/
def floatFieldE (S : FloatSem) (f : List (List Char)) (i : Nat) (k : Fl → ParsedE) : ParsedE :=
  match f[i]? with
  | none => .panics
  | some s => match parseFloat S s with
    | none => .refused i s
    | some x => k x

/-- market/candle_load.go:50-53, see `timeField`. -/
def timeFieldE (f : List (List Char)) (k : Int → ParsedE) : ParsedE :=
  match f[0]? with
  | none => .panics
  | some s => match parseInt 32 s with
    | none => .refused 0 s
    | some x => k x

/-- market/candle_load.go:45-87, see `parseLine`. -/
def parseLineE (S : FloatSem) (text : List Char) : ParsedE :=
  if text.length < 2 then .panics
  else
    let f := splitSp [] (text.drop 1).dropLast
    timeFieldE f fun t =>
    floatFieldE S f 1 fun o =>
    floatFieldE S f 2 fun h =>
    floatFieldE S f 3 fun l =>
    floatFieldE S f 4 fun c =>
    floatFieldE S f 5 fun v => .candle ⟨t, o, h, l, c, v⟩

/-- market/candle_load.go:42-91, see `loadLoop`. -/
def loadLoopE (S : FloatSem) (acc : List Candle) : List (List Char) → Out (List Candle)
  | [] => .ok acc
  | l :: ls =>
    if 65535 < l.length then .ok acc
    else match parseLineE S (dropCR l) with
      | .candle c => loadLoopE S (acc ++ [c]) ls
      | .refused i text => .err (.foreign "market.loadCandlesFromFile" (.field i text)) []
      | .panics => .panic

/-- market/candle_load.go:31-94 `LoadCandlesFromFile`. -/
def loadCandlesE (S : FloatSem) (file : Option (List Char)) : Out (List Candle) :=
  match file with
  | none => .err (.foreign "market.loadCandlesFromFile" .openFile) []
  | some bytes => loadLoopE S [] (rawLines [] bytes)

/-- market/orderbook.go:136-249 `ApplyUpdate`: one error, line 245. -/
def Book.applyUpdateE (b : Book) (u : Update) : Out Book :=
  (b.applyUpdate u).tell fun c => .new "OrderBook.ApplyUpdate" c "update side must be ask or bid"

/-- market/orderbook.go:257-286 `GetDepth`: line 261 has the code EINVALID, line 285 ENOTFOUND. -/
def Book.getDepthE (b : Book) (price : Fl) : Out Fl :=
  (b.getDepth price).tell fun
    | .einvalid => .new "OrderBook.GetDepth" .einvalid "Price can't be equal or below zero"
    | c => .new "OrderBook.GetDepth" c "No depth for the selected price"

/-- market/orderbook.go:328-341 `CalculateOverlap`: one error, line 332. -/
def calculateOverlapE (S : FloatSem) (obA obB : Book) : Out Fl :=
  (calculateOverlap S obA obB).tell fun c => .new "OrderBook.CalculateOverlap" c "No overlap"

/-- market/asset.go:21-31 `NewAsset`. -/
def newAssetE (symbol name : String) : Out Asset :=
  if symbol = "" then .err (.new "market.NewAsset" .einvalid "Missing asset symbol") zeroAsset
  else if name = "" then .err (.new "market.NewAsset" .einvalid "Missing asset name") zeroAsset
  else .ok ⟨name, symbol, ""⟩

/-- market/asset_helpers.go:5-78, 80-92, 94-104 `NewCryptoAsset`, `NewForexAsset`, `NewStockAsset`: the
error of `NewAsset` is returned as it is. -/
def newListedAssetE (op : String) (table : List (String × String)) (symbol : String) : Out Asset :=
  match table.find? (fun e => e.1 = symbol) with
  | some e => newAssetE symbol e.2
  | none => .err (.new op .enotfound "No asset with matching symbol found") zeroAsset
def newCryptoAssetE (symbol : String) : Out Asset := newListedAssetE "market.NewCryptoAsset" newCryptoAssetTable symbol
def newForexAssetE (symbol : String) : Out Asset := newListedAssetE "market.NewForexAsset" newForexAssetTable symbol
def newStockAssetE (symbol : String) : Out Asset := newListedAssetE "market.NewStockAsset" newStockAssetTable symbol

/-- market/order_request.go:22-51 `NewOrderRequest`. -/
def newOrderRequestE (pair : Pair) (action orderType : String) (quantity price total : Fl) :
    Out (Option OrderRequest) :=
  if pair.base.symbol = "" then
    .err (.new "market.NewOrderRequest" .einvalid "Order must have a pair defined") none
  else if action = "" ∨ orderType = "" then
    .err (.new "market.NewOrderRequest" .einvalid "Order must have an action and a type defined") none
  else if orderType = limitOrder ∧ Fl.eq price (.fin 0) = true then
    .err (.new "market.NewOrderRequest" .einvalid "LimitOrders must have a priced defined") none
  else if Fl.eq quantity (.fin 0) = true ∧ Fl.eq total (.fin 0) = true then
    .err (.new "market.NewOrderRequest" .einvalid "Total and quantity can't be both zero") none
  else .ok (some { action := action, type := orderType, pair := pair, price := price,
                   takeProfit := .fin 0, stopLoss := .fin 0, quantity := quantity, total := total })

/-- market/order_request.go:66-94 `CalculateFields`: the result; the receiver is as in
`calculateFields`. -/
def calculateFieldsE (S : FloatSem) (o : OrderRequest) (currentPrice : Fl) : Out (Option OrderRequest) :=
  if Fl.eq o.total (.fin 0) && Fl.eq o.quantity (.fin 0) then
    .err (.new "OrderRequest.CalculateFields" .einvalid "Total and quantity can't be both zero") none
  else if Fl.ne o.total (.fin 0) && Fl.ne o.quantity (.fin 0) then
    .err (.new "OrderRequest.CalculateFields" .einvalid "Either total or quantity must be zero") none
  else (calculateFields S o currentPrice).2.tell fun c => .new "" c ""

/-- market/trade.go:62-73, market/order.go:84-95, market/position.go:86-97 and strategy/annotation.go:56-67
`Update`: one error each. -/
def Trade.updateE (t : Trade) (i : AnyVal) : Out Trade :=
  (t.update i).tell fun c => .new "Trade.Update" c "Provided interface is not of type Trade"
def Order.updateE (o : Order) (i : AnyVal) : Out Order :=
  (o.update i).tell fun c => .new "Order.Update" c "Provided interface is not of type Order"
def Position.updateE (p : Position) (i : AnyVal) : Out Position :=
  (p.update i).tell fun c => .new "Position.Update" c "Provided interface is not of type Position"
def Annotation.updateE (a : Annotation) (i : AnyVal) : Out Annotation :=
  (a.update i).tell fun c => .new "Annotation.Update" c "Provided interface is not of type Annotation"

/-- market/position.go:125-143 `Modify`: lines 135 and 137 drop the error of `substract` (line 164), whose text nobody
sees; the one error left is that of line 129. -/
def modifyE (S : FloatSem) (p : Position) (trade : Trade) : Out Position :=
  (modify S p trade).tell fun c => .new "position.Modify" c "A trade must have same pair as the position"

/-- strategy/strategy.go:26-37 `GetLocationTime`: one error, line 31. -/
def Tick.getLocationTimeE (zones : String → Bool) (t : Tick) (location : String) : Out Time :=
  (t.getLocationTime zones location).tell fun _ => .foreign "Tick.GetLocationTime" .location

/-- utils/date.go:9-18 `RawDateToRFC3339`: one error, line 14. -/
def rawDateToRFC3339E (date : List Char) : Out Time :=
  (rawDateToRFC3339 date).tell fun _ => .foreign "RawDateToRFC3339" .date

/-- indicators/williams_fractals.go:80-88: the left candles, in order; `none` is no error. -/
def leftErr (t : FractalType) (third : Candle) : List Candle → Option EzErr
  | [] => none
  | c :: cs =>
    if t = .up ∧ Fl.ge c.high third.high = true then
      some (.new "findFractal" .einvalid "[FractalUp] Third candle doesn't have two preceding lows")
    else if t = .down ∧ Fl.le c.low third.low = true then
      some (.new "findFractal" .einvalid "[FractalDown] Third candle doesn't have two preceding highs")
    else leftErr t third cs

/-- indicators/williams_fractals.go:90-116: the right candles, see `rightScan`. -/
def rightErr (t : FractalType) (third : Candle) (count : Nat) : List Candle → Option EzErr
  | [] => none
  | c :: cs =>
    if count = 2 then none
    else
      match t with
      | .up =>
        if Fl.gt c.high third.high then
          some (.new "findFractal" .einvalid "[FractalUp] No fractal, as new high found")
        else rightErr t third (if Fl.lt c.high third.high then count + 1 else count) cs
      | .down =>
        if Fl.lt c.low third.low then
          some (.new "findFractal" .einvalid "[FractalDown] No fractal, as new low found")
        else rightErr t third (if Fl.gt c.low third.low then count + 1 else count) cs

/-- indicators/williams_fractals.go:64-117 `findFractal`: the candidate is returned next to the error,
which lines 49 and 53 of the caller only compare with nil. -/
def findFractalE (candles : List Candle) (start : Nat) (t : FractalType) : Out WilliamFractal :=
  match candles.drop start with
  | c0 :: c1 :: third :: rest =>
    let found : WilliamFractal := ⟨third.time, match t with | .up => third.high | .down => third.low, t⟩
    match leftErr t third [c0, c1] with
    | some e => .err e found
    | none =>
      match rightErr t third 0 rest with
      | some e => .err e found
      | none => .ok found
  | _ => .panic

end Finmod
