import Verif.Props.Json

/-!
# C162: the JSON text of each struct

`Text` describes the text: which key goes with which field, in which order, and how the value is
written. `none` is an error of `json.Marshal`.
-/

set_option linter.unusedSimpArgs false

namespace Finmod.Json
open Go Finmod

namespace Text

/-- A number. -/
def number (E : Env) (x : Fl) : Option (List Char) := jsonFloat E.S E.pick x

/-- An integer. -/
def integer (n : Int) : Option (List Char) := some (fmtInt n)

/-- A string. -/
def string (short : Bool) (s : String) : Option (List Char) := some (emitStr short s.toList)

/-- A truth value. -/
def boolean (b : Bool) : Option (List Char) := some (if b then ['t', 'r', 'u', 'e'] else ['f', 'a', 'l', 's', 'e'])

/-- A time: a string. -/
def time (E : Env) (short : Bool) (t : Int) : Option (List Char) := (E.write t).map (emitStr short)

/-- What a pointer points at, or null. -/
def pointer : Option (Option (List Char)) → Option (List Char)
  | none => some ['n', 'u', 'l', 'l']
  | some t => t

/-- Elements in brackets separated by commas, or null. -/
def array (isNil : Bool) (l : List (Option (List Char))) : Option (List Char) :=
  if isNil ∧ l = [] then some ['n', 'u', 'l', 'l']
  else (l.mapM id).map fun ts => '[' :: (List.intercalate [','] ts ++ [']'])

/-- Members in braces separated by commas. -/
def object (ms : List (String × Option (List Char))) : Option (List Char) :=
  (ms.mapM fun (m : String × Option (List Char)) => m.2.map fun t => '"' :: (m.1.toList ++ '"' :: ':' :: t)).map fun ts =>
    '{' :: (List.intercalate [','] ts ++ ['}'])

/-- market/orderbook_types.go:6-10 `OrderBookRow`. -/
def row (E : Env) (_ : Bool) (r : Row) : Option (List Char) := object [
  ("price", number E r.price),
  ("volume", number E r.volume),
  ("accum_volume", number E r.accum)]

/-- market/orderbook_types.go:16-20 `OrderBookUpdate`. -/
def update (E : Env) (short : Bool) (r : Update) : Option (List Char) := object [
  ("price", number E r.price),
  ("volume", number E r.volume),
  ("side", string short r.side)]

/-- market/orderbook.go:12-17 `OrderBook`. -/
def book (E : Env) (short : Bool) (r : Book) : Option (List Char) := object [
  ("time", integer r.time),
  ("asks", array (E.isNil "asks") (r.asks.map (row E short))),
  ("bids", array (E.isNil "bids") (r.bids.map (row E short))),
  ("max_depth", integer r.maxDepth)]

/-- market/candle.go:13-20 `Candle`. -/
def candle (E : Env) (_ : Bool) (r : Candle) : Option (List Char) := object [
  ("time", integer r.time),
  ("open", number E r.opn),
  ("high", number E r.high),
  ("low", number E r.low),
  ("close", number E r.close),
  ("volume", number E r.volume)]

/-- market/asset.go:10-14 `Asset`. -/
def asset (_ : Env) (short : Bool) (r : Asset) : Option (List Char) := object [
  ("name", string short r.name),
  ("symbol", string short r.symbol),
  ("alt_symbol", string short r.altSymbol)]

/-- market/pair.go:8-11 `Pair`. -/
def pair (E : Env) (short : Bool) (r : Pair) : Option (List Char) := object [
  ("base", asset E short r.base),
  ("quote", asset E short r.quote)]

/-- market/ticker.go:6-13 `Ticker`. -/
def ticker (E : Env) (_ : Bool) (r : Ticker) : Option (List Char) := object [
  ("time", integer r.time),
  ("ask", number E r.ask),
  ("bid", number E r.bid),
  ("last", number E r.last),
  ("volume", number E r.volume),
  ("vwap", number E r.vwap)]

/-- market/balances.go:6-11 `BalanceSnapshot`. -/
def balanceSnapshot (E : Env) (_ : Bool) (r : BalanceSnapshot) : Option (List Char) := object [
  ("balance", number E r.balance),
  ("equity", number E r.equity),
  ("margin", number E r.margin),
  ("free_margin", number E r.freeMargin)]

/-- market/balances.go:28-31 `Balance`. -/
def balance (E : Env) (short : Bool) (r : Balance) : Option (List Char) := object [
  ("asset", pointer (r.asset.map (asset E short))),
  ("amount", number E r.amount)]

/-- market/balances.go:18-21 `AssetsSnapshot`. -/
def assetsSnapshot (E : Env) (short : Bool) (r : AssetsSnapshot) : Option (List Char) := object [
  ("time", number E r.time),
  ("assets", array (E.isNil "assets") (r.assets.map (balance E short)))]

/-- market/trade.go:12-23 `Trade`. -/
def trade (E : Env) (short : Bool) (r : Trade) : Option (List Char) := object [
  ("id", string short r.id),
  ("execution_time", time E short r.executionTime),
  ("action", string short r.action),
  ("order_type", string short r.orderType),
  ("pair", pair E short r.pair),
  ("price", number E r.price),
  ("quantity", number E r.quantity),
  ("fee", number E r.fee),
  ("cost", number E r.cost),
  ("execution_id", string short r.executionID)]

/-- market/position.go:23-26 `PositionCloseOrder`. -/
def positionCloseOrder (E : Env) (short : Bool) (r : PositionCloseOrder) : Option (List Char) := object [
  ("price", number E r.price),
  ("order_id", string short r.orderID)]

/-- market/position.go:33-49 `Position`. -/
def position (E : Env) (short : Bool) (r : Position) : Option (List Char) := object [
  ("id", string short r.id),
  ("type", string short r.type),
  ("pair", pair E short r.pair),
  ("open", boolean r.opened),
  ("take_profit", positionCloseOrder E short r.takeProfit),
  ("stop_loss", positionCloseOrder E short r.stopLoss),
  ("open_price", number E r.openPrice),
  ("close_price", number E r.closePrice),
  ("quantity", number E r.quantity),
  ("profit", number E r.profit),
  ("open_time", time E short r.openTime),
  ("close_time", time E short r.closeTime),
  ("trades", array (E.isNil "trades") (r.trades.map (string short))),
  ("execution_id", string short r.executionID),
  ("data", string short r.data)]

/-- market/order.go:53-71 `Order`. -/
def order (E : Env) (short : Bool) (r : Order) : Option (List Char) := object [
  ("id", string short r.id),
  ("action", string short r.action),
  ("type", string short r.type),
  ("pair", pointer (r.pair.map (pair E short))),
  ("price", number E r.price),
  ("volume", number E r.volume),
  ("executed_volume", number E r.executedVolume),
  ("fee", number E r.fee),
  ("cost", number E r.cost),
  ("status", string short r.status),
  ("open_time", time E short r.openTime),
  ("close_time", time E short r.closeTime),
  ("trades", array (E.isNil "trades") (r.trades.map (string short))),
  ("take_profit", number E r.takeProfit),
  ("stop_loss", number E r.stopLoss),
  ("position_id", string short r.positionID),
  ("execution_id", string short r.executionID)]

/-- market/order_request.go:10-19 `OrderRequest` (no tags: the Go names). -/
def orderRequest (E : Env) (short : Bool) (r : OrderRequest) : Option (List Char) := object [
  ("Action", string short r.action),
  ("Type", string short r.type),
  ("Pair", pair E short r.pair),
  ("Price", number E r.price),
  ("TakeProfit", number E r.takeProfit),
  ("StopLoss", number E r.stopLoss),
  ("Quantity", number E r.quantity),
  ("Total", number E r.total)]

/-- strategy/order_actions.go:8-18 `CreateOrderAction`. -/
def createOrderAction (E : Env) (short : Bool) (r : CreateOrderAction) : Option (List Char) := object [
  ("id", string short r.id),
  ("symbol", string short r.symbol),
  ("action_type", string short r.actionType),
  ("order_type", string short r.orderType),
  ("price", number E r.price),
  ("volume", number E r.volume),
  ("stop_loss", number E r.stopLoss),
  ("take_profit", number E r.takeProfit),
  ("slippage", number E r.slippage)]

/-- strategy/order_actions.go:24-32 `UpdateOrderAction`. -/
def updateOrderAction (E : Env) (short : Bool) (r : UpdateOrderAction) : Option (List Char) := object [
  ("id", string short r.id),
  ("order_id", string short r.orderID),
  ("price", number E r.price),
  ("volume", number E r.volume),
  ("stop_loss", number E r.stopLoss),
  ("take_profit", number E r.takeProfit),
  ("slippage", number E r.slippage)]

/-- strategy/order_actions.go:38-41 `CancelOrderAction`. -/
def cancelOrderAction (_ : Env) (short : Bool) (r : CancelOrderAction) : Option (List Char) := object [
  ("id", string short r.id),
  ("order_id", string short r.orderID)]

/-- strategy/position_actions.go:8-17 `UpdatePositionAction`. -/
def updatePositionAction (E : Env) (short : Bool) (r : UpdatePositionAction) : Option (List Char) := object [
  ("id", string short r.id),
  ("position_id", string short r.positionID),
  ("action_type", string short r.actionType),
  ("order_type", string short r.orderType),
  ("volume", number E r.volume),
  ("stop_loss", number E r.stopLoss),
  ("take_profit", number E r.takeProfit),
  ("slippage", number E r.slippage)]

/-- strategy/position_actions.go:23-26 `ClosePositionAction`. -/
def closePositionAction (_ : Env) (short : Bool) (r : ClosePositionAction) : Option (List Char) := object [
  ("id", string short r.id),
  ("position_id", string short r.positionID)]

/-- strategy/annotation.go:23-31 `Annotation`. -/
def annotation (E : Env) (short : Bool) (r : Annotation) : Option (List Char) := object [
  ("id", string short r.id),
  ("time", integer r.time),
  ("creation_time", integer r.creationTime),
  ("price", number E r.price),
  ("execution_id", string short r.executionID),
  ("label", string short r.label),
  ("tooltip", string short r.tooltip)]

end Text

theorem intercalate_cons {α : Type} (sep a : List α) (l : List (List α)) :
    List.intercalate sep (a :: l) = a ++ l.flatMap fun b => sep ++ b := by
  induction l generalizing a with
  | nil => simp [List.intercalate]
  | cons b l ih =>
    have := ih b
    simp only [List.intercalate, List.intersperse] at this ⊢
    cases l with
    | nil => simp
    | cons c l => simp_all [List.intersperse]

theorem emit_obj (short : Bool) (ms : List (List Char × J)) :
    (J.obj ms).emit short = '{' :: (List.intercalate [','] (ms.map fun m => emitStr short m.1 ++ ':' :: m.2.emit short) ++ ['}']) := by
  cases ms with
  | nil => simp [J.emit, List.intercalate]
  | cons m ms =>
    obtain ⟨k, v⟩ := m
    rw [List.map_cons, intercalate_cons, J.emit, emitMembers_eq]
    simp [List.flatMap_map]

theorem emitElems_eq (short : Bool) (l : List J) :
    J.emitElems short l = (l.flatMap fun v => ',' :: v.emit short) ++ [']'] := by
  induction l with
  | nil => simp [J.emitElems]
  | cons v l ih => simp [J.emitElems, ih]

theorem emit_arr (short : Bool) (l : List J) :
    (J.arr l).emit short = '[' :: (List.intercalate [','] (l.map (J.emit short)) ++ [']']) := by
  cases l with
  | nil => simp [J.emit, List.intercalate]
  | cons v l =>
    rw [List.map_cons, intercalate_cons, J.emit, emitElems_eq]
    simp [List.flatMap_map]

theorem mapM_map_option {α β γ : Type} (f : α → Option β) (g : β → γ) (l : List α) :
    (l.mapM f).map (List.map g) = l.mapM fun a => (f a).map g := by
  induction l with
  | nil => simp
  | cons a l ih =>
    rw [List.mapM_cons, List.mapM_cons, ← ih]
    cases f a <;> cases l.mapM f <;> simp

/-- A name made of characters that are written as they are. -/
def plainName (s : List Char) : Bool := s.all fun c => decide (escChar true c = [c]) && decide (escChar false c = [c])

theorem emitStr_plain {s : List Char} (h : plainName s = true) (short : Bool) : emitStr short s = '"' :: (s ++ ['"']) := by
  unfold emitStr
  congr 2
  simp only [plainName, List.all_eq_true, Bool.and_eq_true, decide_eq_true_eq] at h
  induction s with
  | nil => rfl
  | cons c s ih =>
    rw [List.flatMap_cons, ih (fun x hx => h x (by simp [hx]))]
    have := h c (by simp)
    cases short
    · rw [this.2]; rfl
    · rw [this.1]; rfl

theorem struct_text {ρ : Type} {zero : ρ} {fs : List (JField ρ)} (hn : (fs.map (·.name)).Nodup)
    (hp : ∀ f ∈ fs, plainName f.name.toList = true) (short : Bool) (r : ρ) :
    (Codec.struct zero fs).marshal short r = Text.object (fs.map fun f => (f.name, (f.enc r).map (J.emit short))) := by
  simp only [Codec.marshal, Codec.struct, visible_eq hn, Text.object, Option.map_map, Function.comp_def, emit_obj]
  have : ∀ gs : List (JField ρ), (∀ f ∈ gs, plainName f.name.toList = true) →
      ((gs.mapM fun (f : JField ρ) => (f.enc r).map fun j => (f.name.toList, j)).map
        (List.map fun m : List Char × J => emitStr short m.1 ++ ':' :: m.2.emit short)) =
      ((gs.map fun f => (f.name, (f.enc r).map (J.emit short))).mapM fun m : String × Option (List Char) =>
        m.2.map fun t => '"' :: (m.1.toList ++ '"' :: ':' :: t)) := by
    intro gs hgs
    rw [mapM_map_option]
    induction gs with
    | nil => rfl
    | cons g gs ih =>
      rw [List.mapM_cons, ih (fun f hf => hgs f (by simp [hf])), List.map_cons, List.mapM_cons]
      simp [Option.map_map, Function.comp_def, emitStr_plain (hgs g (by simp))]
  rw [← this fs hp, Option.map_map]
  rfl

theorem float_text (E : Env) (short : Bool) (x : Fl) : (E.float.enc x).map (J.emit short) = Text.number E x := by
  simp [Env.float, Codec.float, Text.number, Option.map_map, Function.comp_def, J.emit]

theorem int_text (short : Bool) (n : Int) : (Codec.int.enc n).map (J.emit short) = Text.integer n := by
  simp [Codec.int, Text.integer, J.emit]

theorem str_text (short : Bool) (s : String) : (Codec.str.enc s).map (J.emit short) = Text.string short s := by
  simp [Codec.str, Text.string, J.emit]

theorem bool_text (short : Bool) (b : Bool) : (Codec.bool.enc b).map (J.emit short) = Text.boolean b := by
  cases b <;> simp [Codec.bool, Text.boolean, J.emit]

theorem time_text (E : Env) (short : Bool) (t : Int) : (E.time.enc t).map (J.emit short) = Text.time E short t := by
  simp [Env.time, Codec.time, Text.time, Option.map_map, Function.comp_def, J.emit]

theorem ptr_text {α : Type} (c : Codec α) (short : Bool) (o : Option α) :
    (c.ptr.enc o).map (J.emit short) = Text.pointer (o.map fun v => (c.enc v).map (J.emit short)) := by
  cases o <;> simp [Codec.ptr, Text.pointer, J.emit]

theorem slice_text {α : Type} (c : Codec α) (isNil short : Bool) (stale : List α → List α) (l : List α) :
    ((Codec.slice isNil stale c).enc l).map (J.emit short) =
      Text.array isNil (l.map fun v => (c.enc v).map (J.emit short)) := by
  have e : ((l.map fun v => (c.enc v).map (J.emit short)).mapM id) = (l.mapM c.enc).map (List.map (J.emit short)) := by
    rw [mapM_map_option, List.mapM_map]; rfl
  simp only [Codec.slice, Text.array]
  by_cases h : isNil = true ∧ l = []
  · simp [h.1, h.2, J.emit]
  · have h1 : ¬ ((isNil && l.isEmpty) = true) := by simpa using h
    have h2 : ¬ (isNil = true ∧ (l.map fun v => (c.enc v).map (J.emit short)) = []) := by simpa using h
    rw [if_neg h1, if_neg h2, e, Option.map_map, Option.map_map]
    simp only [Function.comp_def, emit_arr]

theorem row_plain (E : Env) : ∀ f ∈ E.rowFields, plainName f.name.toList = true := by
  have : ∀ s ∈ (["price", "volume", "accum_volume"] : List String), plainName s.toList = true := by decide +kernel
  intro f hf
  exact this f.name (List.mem_map_of_mem (f := fun f : JField Row => f.name) hf)

/-- C162 for `Row`. -/
theorem C162_row (E : Env) (short : Bool) (r : Row) : E.row.marshal short r = Text.row E short r := by
  unfold Env.row
  rw [struct_text (nodup_of_fold (row_names E)) (row_plain E)]
  simp only [Env.rowFields, List.map_cons, List.map_nil, Codec.field, float_text, int_text, str_text, bool_text, time_text,
    ptr_text, slice_text, Text.row]

theorem row_enc_text (E : Env) (short : Bool) (r : Row) : (E.row.enc r).map (J.emit short) = Text.row E short r :=
  C162_row E short r

theorem update_plain (E : Env) : ∀ f ∈ E.updateFields, plainName f.name.toList = true := by
  have : ∀ s ∈ (["price", "volume", "side"] : List String), plainName s.toList = true := by decide +kernel
  intro f hf
  exact this f.name (List.mem_map_of_mem (f := fun f : JField Update => f.name) hf)

/-- C162 for `Update`. -/
theorem C162_update (E : Env) (short : Bool) (r : Update) : E.update.marshal short r = Text.update E short r := by
  unfold Env.update
  rw [struct_text (nodup_of_fold (update_names E)) (update_plain E)]
  simp only [Env.updateFields, List.map_cons, List.map_nil, Codec.field, float_text, int_text, str_text, bool_text, time_text,
    ptr_text, slice_text, Text.update]

theorem update_enc_text (E : Env) (short : Bool) (r : Update) : (E.update.enc r).map (J.emit short) = Text.update E short r :=
  C162_update E short r

theorem book_plain (E : Env) : ∀ f ∈ E.bookFields, plainName f.name.toList = true := by
  have : ∀ s ∈ (["time", "asks", "bids", "max_depth"] : List String), plainName s.toList = true := by decide +kernel
  intro f hf
  exact this f.name (List.mem_map_of_mem (f := fun f : JField Book => f.name) hf)

/-- C162 for `Book`. -/
theorem C162_book (E : Env) (short : Bool) (r : Book) : E.book.marshal short r = Text.book E short r := by
  unfold Env.book
  rw [struct_text (nodup_of_fold (book_names E)) (book_plain E)]
  simp only [Env.bookFields, List.map_cons, List.map_nil, Codec.field, float_text, int_text, str_text, bool_text, time_text,
    ptr_text, slice_text, row_enc_text, Text.book]

theorem book_enc_text (E : Env) (short : Bool) (r : Book) : (E.book.enc r).map (J.emit short) = Text.book E short r :=
  C162_book E short r

theorem candle_plain (E : Env) : ∀ f ∈ E.candleFields, plainName f.name.toList = true := by
  have : ∀ s ∈ (["time", "open", "high", "low", "close", "volume"] : List String), plainName s.toList = true := by decide +kernel
  intro f hf
  exact this f.name (List.mem_map_of_mem (f := fun f : JField Candle => f.name) hf)

/-- C162 for `Candle`. -/
theorem C162_candle (E : Env) (short : Bool) (r : Candle) : E.candle.marshal short r = Text.candle E short r := by
  unfold Env.candle
  rw [struct_text (nodup_of_fold (candle_names E)) (candle_plain E)]
  simp only [Env.candleFields, List.map_cons, List.map_nil, Codec.field, float_text, int_text, str_text, bool_text, time_text,
    ptr_text, slice_text, Text.candle]

theorem candle_enc_text (E : Env) (short : Bool) (r : Candle) : (E.candle.enc r).map (J.emit short) = Text.candle E short r :=
  C162_candle E short r

theorem asset_plain (E : Env) : ∀ f ∈ E.assetFields, plainName f.name.toList = true := by
  have : ∀ s ∈ (["name", "symbol", "alt_symbol"] : List String), plainName s.toList = true := by decide +kernel
  intro f hf
  exact this f.name (List.mem_map_of_mem (f := fun f : JField Asset => f.name) hf)

/-- C162 for `Asset`. -/
theorem C162_asset (E : Env) (short : Bool) (r : Asset) : E.asset.marshal short r = Text.asset E short r := by
  unfold Env.asset
  rw [struct_text (nodup_of_fold (asset_names E)) (asset_plain E)]
  simp only [Env.assetFields, List.map_cons, List.map_nil, Codec.field, float_text, int_text, str_text, bool_text, time_text,
    ptr_text, slice_text, Text.asset]

theorem asset_enc_text (E : Env) (short : Bool) (r : Asset) : (E.asset.enc r).map (J.emit short) = Text.asset E short r :=
  C162_asset E short r

theorem pair_plain (E : Env) : ∀ f ∈ E.pairFields, plainName f.name.toList = true := by
  have : ∀ s ∈ (["base", "quote"] : List String), plainName s.toList = true := by decide +kernel
  intro f hf
  exact this f.name (List.mem_map_of_mem (f := fun f : JField Pair => f.name) hf)

/-- C162 for `Pair`. -/
theorem C162_pair (E : Env) (short : Bool) (r : Pair) : E.pair.marshal short r = Text.pair E short r := by
  unfold Env.pair
  rw [struct_text (nodup_of_fold (pair_names E)) (pair_plain E)]
  simp only [Env.pairFields, List.map_cons, List.map_nil, Codec.field, float_text, int_text, str_text, bool_text, time_text,
    ptr_text, slice_text, asset_enc_text, Text.pair]

theorem pair_enc_text (E : Env) (short : Bool) (r : Pair) : (E.pair.enc r).map (J.emit short) = Text.pair E short r :=
  C162_pair E short r

theorem ticker_plain (E : Env) : ∀ f ∈ E.tickerFields, plainName f.name.toList = true := by
  have : ∀ s ∈ (["time", "ask", "bid", "last", "volume", "vwap"] : List String), plainName s.toList = true := by decide +kernel
  intro f hf
  exact this f.name (List.mem_map_of_mem (f := fun f : JField Ticker => f.name) hf)

/-- C162 for `Ticker`. -/
theorem C162_ticker (E : Env) (short : Bool) (r : Ticker) : E.ticker.marshal short r = Text.ticker E short r := by
  unfold Env.ticker
  rw [struct_text (nodup_of_fold (ticker_names E)) (ticker_plain E)]
  simp only [Env.tickerFields, List.map_cons, List.map_nil, Codec.field, float_text, int_text, str_text, bool_text, time_text,
    ptr_text, slice_text, Text.ticker]

theorem ticker_enc_text (E : Env) (short : Bool) (r : Ticker) : (E.ticker.enc r).map (J.emit short) = Text.ticker E short r :=
  C162_ticker E short r

theorem balanceSnapshot_plain (E : Env) : ∀ f ∈ E.balanceSnapshotFields, plainName f.name.toList = true := by
  have : ∀ s ∈ (["balance", "equity", "margin", "free_margin"] : List String), plainName s.toList = true := by decide +kernel
  intro f hf
  exact this f.name (List.mem_map_of_mem (f := fun f : JField BalanceSnapshot => f.name) hf)

/-- C162 for `BalanceSnapshot`. -/
theorem C162_balanceSnapshot (E : Env) (short : Bool) (r : BalanceSnapshot) : E.balanceSnapshot.marshal short r = Text.balanceSnapshot E short r := by
  unfold Env.balanceSnapshot
  rw [struct_text (nodup_of_fold (balanceSnapshot_names E)) (balanceSnapshot_plain E)]
  simp only [Env.balanceSnapshotFields, List.map_cons, List.map_nil, Codec.field, float_text, int_text, str_text, bool_text, time_text,
    ptr_text, slice_text, Text.balanceSnapshot]

theorem balanceSnapshot_enc_text (E : Env) (short : Bool) (r : BalanceSnapshot) : (E.balanceSnapshot.enc r).map (J.emit short) = Text.balanceSnapshot E short r :=
  C162_balanceSnapshot E short r

theorem balance_plain (E : Env) : ∀ f ∈ E.balanceFields, plainName f.name.toList = true := by
  have : ∀ s ∈ (["asset", "amount"] : List String), plainName s.toList = true := by decide +kernel
  intro f hf
  exact this f.name (List.mem_map_of_mem (f := fun f : JField Balance => f.name) hf)

/-- C162 for `Balance`. -/
theorem C162_balance (E : Env) (short : Bool) (r : Balance) : E.balance.marshal short r = Text.balance E short r := by
  unfold Env.balance
  rw [struct_text (nodup_of_fold (balance_names E)) (balance_plain E)]
  simp only [Env.balanceFields, List.map_cons, List.map_nil, Codec.field, float_text, int_text, str_text, bool_text, time_text,
    ptr_text, slice_text, asset_enc_text, Text.balance]

theorem balance_enc_text (E : Env) (short : Bool) (r : Balance) : (E.balance.enc r).map (J.emit short) = Text.balance E short r :=
  C162_balance E short r

theorem assetsSnapshot_plain (E : Env) : ∀ f ∈ E.assetsSnapshotFields, plainName f.name.toList = true := by
  have : ∀ s ∈ (["time", "assets"] : List String), plainName s.toList = true := by decide +kernel
  intro f hf
  exact this f.name (List.mem_map_of_mem (f := fun f : JField AssetsSnapshot => f.name) hf)

/-- C162 for `AssetsSnapshot`. -/
theorem C162_assetsSnapshot (E : Env) (short : Bool) (r : AssetsSnapshot) : E.assetsSnapshot.marshal short r = Text.assetsSnapshot E short r := by
  unfold Env.assetsSnapshot
  rw [struct_text (nodup_of_fold (assetsSnapshot_names E)) (assetsSnapshot_plain E)]
  simp only [Env.assetsSnapshotFields, List.map_cons, List.map_nil, Codec.field, float_text, int_text, str_text, bool_text, time_text,
    ptr_text, slice_text, balance_enc_text, Text.assetsSnapshot]

theorem assetsSnapshot_enc_text (E : Env) (short : Bool) (r : AssetsSnapshot) : (E.assetsSnapshot.enc r).map (J.emit short) = Text.assetsSnapshot E short r :=
  C162_assetsSnapshot E short r

theorem trade_plain (E : Env) : ∀ f ∈ E.tradeFields, plainName f.name.toList = true := by
  have : ∀ s ∈ (["id", "execution_time", "action", "order_type", "pair", "price", "quantity", "fee", "cost", "execution_id"] : List String), plainName s.toList = true := by decide +kernel
  intro f hf
  exact this f.name (List.mem_map_of_mem (f := fun f : JField Trade => f.name) hf)

/-- C162 for `Trade`. -/
theorem C162_trade (E : Env) (short : Bool) (r : Trade) : E.trade.marshal short r = Text.trade E short r := by
  unfold Env.trade
  rw [struct_text (nodup_of_fold (trade_names E)) (trade_plain E)]
  simp only [Env.tradeFields, List.map_cons, List.map_nil, Codec.field, float_text, int_text, str_text, bool_text, time_text,
    ptr_text, slice_text, pair_enc_text, Text.trade]

theorem trade_enc_text (E : Env) (short : Bool) (r : Trade) : (E.trade.enc r).map (J.emit short) = Text.trade E short r :=
  C162_trade E short r

theorem positionCloseOrder_plain (E : Env) : ∀ f ∈ E.positionCloseOrderFields, plainName f.name.toList = true := by
  have : ∀ s ∈ (["price", "order_id"] : List String), plainName s.toList = true := by decide +kernel
  intro f hf
  exact this f.name (List.mem_map_of_mem (f := fun f : JField PositionCloseOrder => f.name) hf)

/-- C162 for `PositionCloseOrder`. -/
theorem C162_positionCloseOrder (E : Env) (short : Bool) (r : PositionCloseOrder) : E.positionCloseOrder.marshal short r = Text.positionCloseOrder E short r := by
  unfold Env.positionCloseOrder
  rw [struct_text (nodup_of_fold (positionCloseOrder_names E)) (positionCloseOrder_plain E)]
  simp only [Env.positionCloseOrderFields, List.map_cons, List.map_nil, Codec.field, float_text, int_text, str_text, bool_text, time_text,
    ptr_text, slice_text, Text.positionCloseOrder]

theorem positionCloseOrder_enc_text (E : Env) (short : Bool) (r : PositionCloseOrder) : (E.positionCloseOrder.enc r).map (J.emit short) = Text.positionCloseOrder E short r :=
  C162_positionCloseOrder E short r

theorem position_plain (E : Env) : ∀ f ∈ E.positionFields, plainName f.name.toList = true := by
  have : ∀ s ∈ (["id", "type", "pair", "open", "take_profit", "stop_loss", "open_price", "close_price", "quantity", "profit", "open_time", "close_time", "trades", "execution_id", "data"] : List String), plainName s.toList = true := by decide +kernel
  intro f hf
  exact this f.name (List.mem_map_of_mem (f := fun f : JField Position => f.name) hf)

/-- C162 for `Position`. -/
theorem C162_position (E : Env) (short : Bool) (r : Position) : E.position.marshal short r = Text.position E short r := by
  unfold Env.position
  rw [struct_text (nodup_of_fold (position_names E)) (position_plain E)]
  simp only [Env.positionFields, List.map_cons, List.map_nil, Codec.field, float_text, int_text, str_text, bool_text, time_text,
    ptr_text, slice_text, pair_enc_text, positionCloseOrder_enc_text, Text.position]

theorem position_enc_text (E : Env) (short : Bool) (r : Position) : (E.position.enc r).map (J.emit short) = Text.position E short r :=
  C162_position E short r

theorem order_plain (E : Env) : ∀ f ∈ E.orderFields, plainName f.name.toList = true := by
  have : ∀ s ∈ (["id", "action", "type", "pair", "price", "volume", "executed_volume", "fee", "cost", "status", "open_time", "close_time", "trades", "take_profit", "stop_loss", "position_id", "execution_id"] : List String), plainName s.toList = true := by decide +kernel
  intro f hf
  exact this f.name (List.mem_map_of_mem (f := fun f : JField Order => f.name) hf)

/-- C162 for `Order`. -/
theorem C162_order (E : Env) (short : Bool) (r : Order) : E.order.marshal short r = Text.order E short r := by
  unfold Env.order
  rw [struct_text (nodup_of_fold (order_names E)) (order_plain E)]
  simp only [Env.orderFields, List.map_cons, List.map_nil, Codec.field, float_text, int_text, str_text, bool_text, time_text,
    ptr_text, slice_text, pair_enc_text, Text.order]

theorem order_enc_text (E : Env) (short : Bool) (r : Order) : (E.order.enc r).map (J.emit short) = Text.order E short r :=
  C162_order E short r

theorem orderRequest_plain (E : Env) : ∀ f ∈ E.orderRequestFields, plainName f.name.toList = true := by
  have : ∀ s ∈ (["Action", "Type", "Pair", "Price", "TakeProfit", "StopLoss", "Quantity", "Total"] : List String), plainName s.toList = true := by decide +kernel
  intro f hf
  exact this f.name (List.mem_map_of_mem (f := fun f : JField OrderRequest => f.name) hf)

/-- C162 for `OrderRequest`. -/
theorem C162_orderRequest (E : Env) (short : Bool) (r : OrderRequest) : E.orderRequest.marshal short r = Text.orderRequest E short r := by
  unfold Env.orderRequest
  rw [struct_text (nodup_of_fold (orderRequest_names E)) (orderRequest_plain E)]
  simp only [Env.orderRequestFields, List.map_cons, List.map_nil, Codec.field, float_text, int_text, str_text, bool_text, time_text,
    ptr_text, slice_text, pair_enc_text, Text.orderRequest]

theorem orderRequest_enc_text (E : Env) (short : Bool) (r : OrderRequest) : (E.orderRequest.enc r).map (J.emit short) = Text.orderRequest E short r :=
  C162_orderRequest E short r

theorem createOrderAction_plain (E : Env) : ∀ f ∈ E.createOrderActionFields, plainName f.name.toList = true := by
  have : ∀ s ∈ (["id", "symbol", "action_type", "order_type", "price", "volume", "stop_loss", "take_profit", "slippage"] : List String), plainName s.toList = true := by decide +kernel
  intro f hf
  exact this f.name (List.mem_map_of_mem (f := fun f : JField CreateOrderAction => f.name) hf)

/-- C162 for `CreateOrderAction`. -/
theorem C162_createOrderAction (E : Env) (short : Bool) (r : CreateOrderAction) : E.createOrderAction.marshal short r = Text.createOrderAction E short r := by
  unfold Env.createOrderAction
  rw [struct_text (nodup_of_fold (createOrderAction_names E)) (createOrderAction_plain E)]
  simp only [Env.createOrderActionFields, List.map_cons, List.map_nil, Codec.field, float_text, int_text, str_text, bool_text, time_text,
    ptr_text, slice_text, Text.createOrderAction]

theorem createOrderAction_enc_text (E : Env) (short : Bool) (r : CreateOrderAction) : (E.createOrderAction.enc r).map (J.emit short) = Text.createOrderAction E short r :=
  C162_createOrderAction E short r

theorem updateOrderAction_plain (E : Env) : ∀ f ∈ E.updateOrderActionFields, plainName f.name.toList = true := by
  have : ∀ s ∈ (["id", "order_id", "price", "volume", "stop_loss", "take_profit", "slippage"] : List String), plainName s.toList = true := by decide +kernel
  intro f hf
  exact this f.name (List.mem_map_of_mem (f := fun f : JField UpdateOrderAction => f.name) hf)

/-- C162 for `UpdateOrderAction`. -/
theorem C162_updateOrderAction (E : Env) (short : Bool) (r : UpdateOrderAction) : E.updateOrderAction.marshal short r = Text.updateOrderAction E short r := by
  unfold Env.updateOrderAction
  rw [struct_text (nodup_of_fold (updateOrderAction_names E)) (updateOrderAction_plain E)]
  simp only [Env.updateOrderActionFields, List.map_cons, List.map_nil, Codec.field, float_text, int_text, str_text, bool_text, time_text,
    ptr_text, slice_text, Text.updateOrderAction]

theorem updateOrderAction_enc_text (E : Env) (short : Bool) (r : UpdateOrderAction) : (E.updateOrderAction.enc r).map (J.emit short) = Text.updateOrderAction E short r :=
  C162_updateOrderAction E short r

theorem cancelOrderAction_plain (E : Env) : ∀ f ∈ E.cancelOrderActionFields, plainName f.name.toList = true := by
  have : ∀ s ∈ (["id", "order_id"] : List String), plainName s.toList = true := by decide +kernel
  intro f hf
  exact this f.name (List.mem_map_of_mem (f := fun f : JField CancelOrderAction => f.name) hf)

/-- C162 for `CancelOrderAction`. -/
theorem C162_cancelOrderAction (E : Env) (short : Bool) (r : CancelOrderAction) : E.cancelOrderAction.marshal short r = Text.cancelOrderAction E short r := by
  unfold Env.cancelOrderAction
  rw [struct_text (nodup_of_fold (cancelOrderAction_names E)) (cancelOrderAction_plain E)]
  simp only [Env.cancelOrderActionFields, List.map_cons, List.map_nil, Codec.field, float_text, int_text, str_text, bool_text, time_text,
    ptr_text, slice_text, Text.cancelOrderAction]

theorem cancelOrderAction_enc_text (E : Env) (short : Bool) (r : CancelOrderAction) : (E.cancelOrderAction.enc r).map (J.emit short) = Text.cancelOrderAction E short r :=
  C162_cancelOrderAction E short r

theorem updatePositionAction_plain (E : Env) : ∀ f ∈ E.updatePositionActionFields, plainName f.name.toList = true := by
  have : ∀ s ∈ (["id", "position_id", "action_type", "order_type", "volume", "stop_loss", "take_profit", "slippage"] : List String), plainName s.toList = true := by decide +kernel
  intro f hf
  exact this f.name (List.mem_map_of_mem (f := fun f : JField UpdatePositionAction => f.name) hf)

/-- C162 for `UpdatePositionAction`. -/
theorem C162_updatePositionAction (E : Env) (short : Bool) (r : UpdatePositionAction) : E.updatePositionAction.marshal short r = Text.updatePositionAction E short r := by
  unfold Env.updatePositionAction
  rw [struct_text (nodup_of_fold (updatePositionAction_names E)) (updatePositionAction_plain E)]
  simp only [Env.updatePositionActionFields, List.map_cons, List.map_nil, Codec.field, float_text, int_text, str_text, bool_text, time_text,
    ptr_text, slice_text, Text.updatePositionAction]

theorem updatePositionAction_enc_text (E : Env) (short : Bool) (r : UpdatePositionAction) : (E.updatePositionAction.enc r).map (J.emit short) = Text.updatePositionAction E short r :=
  C162_updatePositionAction E short r

theorem closePositionAction_plain (E : Env) : ∀ f ∈ E.closePositionActionFields, plainName f.name.toList = true := by
  have : ∀ s ∈ (["id", "position_id"] : List String), plainName s.toList = true := by decide +kernel
  intro f hf
  exact this f.name (List.mem_map_of_mem (f := fun f : JField ClosePositionAction => f.name) hf)

/-- C162 for `ClosePositionAction`. -/
theorem C162_closePositionAction (E : Env) (short : Bool) (r : ClosePositionAction) : E.closePositionAction.marshal short r = Text.closePositionAction E short r := by
  unfold Env.closePositionAction
  rw [struct_text (nodup_of_fold (closePositionAction_names E)) (closePositionAction_plain E)]
  simp only [Env.closePositionActionFields, List.map_cons, List.map_nil, Codec.field, float_text, int_text, str_text, bool_text, time_text,
    ptr_text, slice_text, Text.closePositionAction]

theorem closePositionAction_enc_text (E : Env) (short : Bool) (r : ClosePositionAction) : (E.closePositionAction.enc r).map (J.emit short) = Text.closePositionAction E short r :=
  C162_closePositionAction E short r

theorem annotation_plain (E : Env) : ∀ f ∈ E.annotationFields, plainName f.name.toList = true := by
  have : ∀ s ∈ (["id", "time", "creation_time", "price", "execution_id", "label", "tooltip"] : List String), plainName s.toList = true := by decide +kernel
  intro f hf
  exact this f.name (List.mem_map_of_mem (f := fun f : JField Annotation => f.name) hf)

/-- C162 for `Annotation`. -/
theorem C162_annotation (E : Env) (short : Bool) (r : Annotation) : E.annotation.marshal short r = Text.annotation E short r := by
  unfold Env.annotation
  rw [struct_text (nodup_of_fold (annotation_names E)) (annotation_plain E)]
  simp only [Env.annotationFields, List.map_cons, List.map_nil, Codec.field, float_text, int_text, str_text, bool_text, time_text,
    ptr_text, slice_text, Text.annotation]

theorem annotation_enc_text (E : Env) (short : Bool) (r : Annotation) : (E.annotation.enc r).map (J.emit short) = Text.annotation E short r :=
  C162_annotation E short r

/-- A candle as Go prints it. -/
example : exampleEnv.candle.marshal true ⟨1600000000, .fin (5 / 2), .fin 3, .fin (1 / 8388608), .negZero, .fin (10 ^ 21)⟩ =
    some "{\"time\":1600000000,\"open\":2.5,\"high\":3,\"low\":1.1920928955078125e-7,\"close\":-0,\"volume\":1e+21}".toList := by
  rw [C162_candle]; decide +kernel

/-- A balance without an asset, and one whose asset has a quote in its name. -/
example : exampleEnv.assetsSnapshot.marshal true ⟨.fin 1, [⟨none, .fin 2⟩, ⟨some ⟨"a\"<", "A", ""⟩, .fin (-1 / 2)⟩]⟩ =
    some "{\"time\":1,\"assets\":[{\"asset\":null,\"amount\":2},{\"asset\":{\"name\":\"a\\\"\\u003c\",\"symbol\":\"A\",\"alt_symbol\":\"\"},\"amount\":-0.5}]}".toList := by
  rw [C162_assetsSnapshot]; decide +kernel

end Finmod.Json
