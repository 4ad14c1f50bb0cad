import Verif.Lemmas.JsonHeal
import Verif.Props.JsonActions
import Verif.Props.JsonTime

/-!
# C187: records with strings of any bytes in JSON

A Go string is a sequence of bytes. `json.Marshal` writes a record whatever bytes its strings hold, and the text is valid
UTF-8; `json.Unmarshal` gives a record that differs from it only in its strings: each holds the characters the bytes
stood for, with U+FFFD for bytes that are not valid UTF-8.

A string of a record written here holds its bytes, each as the character with its number; a string of a record read
holds its characters, as elsewhere.
-/

set_option linter.unusedSimpArgs false
set_option linter.unusedVariables false

namespace Finmod.Json
open Go Finmod

namespace Spec

/-- A Go string of these bytes, each given as the character with its number. -/
def ofBytes (bs : List UInt8) : String := String.ofList (bs.map fun b => Char.ofNat b.toNat)

/-- A string of bytes and the characters they stand for. -/
def StrReads (s t : String) : Prop := ∃ bs, s = ofBytes bs ∧ Reads bs t.toList

/-- Times are written in ASCII. -/
def AsciiTimes (E : Env) : Prop := ∀ t s, E.write t = some s → ∀ c ∈ s, c.toNat < 0x80

/-- The value `v` has a text, which is valid UTF-8, and reading the text into any variable gives `w` and no error. -/
def ReadsAs {α : Type} (c : Codec α) (v w : α) : Prop :=
  ∀ short, ∃ bs, c.marshalB short v = some bs ∧ ValidUtf8 bs ∧ ∀ old, c.unmarshalB old bs = (w, false)

/-- `Update`: strings of bytes and the characters they stand for, all else equal. -/
def UpdateReads (a b : Update) : Prop :=
  a.price = b.price ∧ a.volume = b.volume ∧ StrReads a.side b.side

/-- `Asset`: strings of bytes and the characters they stand for, all else equal. -/
def AssetReads (a b : Asset) : Prop :=
  StrReads a.name b.name ∧ StrReads a.symbol b.symbol ∧ StrReads a.altSymbol b.altSymbol

/-- `Pair`: strings of bytes and the characters they stand for, all else equal. -/
def PairReads (a b : Pair) : Prop :=
  AssetReads a.base b.base ∧ AssetReads a.quote b.quote

/-- `Balance`: strings of bytes and the characters they stand for, all else equal. -/
def BalanceReads (a b : Balance) : Prop :=
  Option.Rel AssetReads a.asset b.asset ∧ a.amount = b.amount

/-- `AssetsSnapshot`: strings of bytes and the characters they stand for, all else equal. -/
def AssetsSnapshotReads (a b : AssetsSnapshot) : Prop :=
  a.time = b.time ∧ List.Forall₂ BalanceReads a.assets b.assets

/-- `Trade`: strings of bytes and the characters they stand for, all else equal. -/
def TradeReads (a b : Trade) : Prop :=
  StrReads a.id b.id ∧ a.executionTime = b.executionTime ∧ StrReads a.action b.action ∧
  StrReads a.orderType b.orderType ∧ PairReads a.pair b.pair ∧ a.price = b.price ∧ a.quantity = b.quantity ∧
  a.fee = b.fee ∧ a.cost = b.cost ∧ StrReads a.executionID b.executionID

/-- `PositionCloseOrder`: strings of bytes and the characters they stand for, all else equal. -/
def PositionCloseOrderReads (a b : PositionCloseOrder) : Prop :=
  a.price = b.price ∧ StrReads a.orderID b.orderID

/-- `Position`: strings of bytes and the characters they stand for, all else equal. -/
def PositionReads (a b : Position) : Prop :=
  StrReads a.id b.id ∧ StrReads a.type b.type ∧ PairReads a.pair b.pair ∧ a.opened = b.opened ∧
  PositionCloseOrderReads a.takeProfit b.takeProfit ∧ PositionCloseOrderReads a.stopLoss b.stopLoss ∧
  a.openPrice = b.openPrice ∧ a.closePrice = b.closePrice ∧ a.quantity = b.quantity ∧ a.profit = b.profit ∧
  a.openTime = b.openTime ∧ a.closeTime = b.closeTime ∧ List.Forall₂ StrReads a.trades b.trades ∧
  StrReads a.executionID b.executionID ∧ StrReads a.data b.data

/-- `Order`: strings of bytes and the characters they stand for, all else equal. -/
def OrderReads (a b : Order) : Prop :=
  StrReads a.id b.id ∧ StrReads a.action b.action ∧ StrReads a.type b.type ∧
  Option.Rel PairReads a.pair b.pair ∧ a.price = b.price ∧ a.volume = b.volume ∧
  a.executedVolume = b.executedVolume ∧ a.fee = b.fee ∧ a.cost = b.cost ∧ StrReads a.status b.status ∧
  a.openTime = b.openTime ∧ a.closeTime = b.closeTime ∧ List.Forall₂ StrReads a.trades b.trades ∧
  a.takeProfit = b.takeProfit ∧ a.stopLoss = b.stopLoss ∧ StrReads a.positionID b.positionID ∧
  StrReads a.executionID b.executionID

/-- `OrderRequest`: strings of bytes and the characters they stand for, all else equal. -/
def OrderRequestReads (a b : OrderRequest) : Prop :=
  StrReads a.action b.action ∧ StrReads a.type b.type ∧ PairReads a.pair b.pair ∧ a.price = b.price ∧
  a.takeProfit = b.takeProfit ∧ a.stopLoss = b.stopLoss ∧ a.quantity = b.quantity ∧ a.total = b.total

/-- `CreateOrderAction`: strings of bytes and the characters they stand for, all else equal. -/
def CreateOrderActionReads (a b : CreateOrderAction) : Prop :=
  StrReads a.id b.id ∧ StrReads a.symbol b.symbol ∧ StrReads a.actionType b.actionType ∧
  StrReads a.orderType b.orderType ∧ a.price = b.price ∧ a.volume = b.volume ∧ a.stopLoss = b.stopLoss ∧
  a.takeProfit = b.takeProfit ∧ a.slippage = b.slippage

/-- `UpdateOrderAction`: strings of bytes and the characters they stand for, all else equal. -/
def UpdateOrderActionReads (a b : UpdateOrderAction) : Prop :=
  StrReads a.id b.id ∧ StrReads a.orderID b.orderID ∧ a.price = b.price ∧ a.volume = b.volume ∧
  a.stopLoss = b.stopLoss ∧ a.takeProfit = b.takeProfit ∧ a.slippage = b.slippage

/-- `CancelOrderAction`: strings of bytes and the characters they stand for, all else equal. -/
def CancelOrderActionReads (a b : CancelOrderAction) : Prop :=
  StrReads a.id b.id ∧ StrReads a.orderID b.orderID

/-- `UpdatePositionAction`: strings of bytes and the characters they stand for, all else equal. -/
def UpdatePositionActionReads (a b : UpdatePositionAction) : Prop :=
  StrReads a.id b.id ∧ StrReads a.positionID b.positionID ∧ StrReads a.actionType b.actionType ∧
  StrReads a.orderType b.orderType ∧ a.volume = b.volume ∧ a.stopLoss = b.stopLoss ∧
  a.takeProfit = b.takeProfit ∧ a.slippage = b.slippage

/-- `ClosePositionAction`: strings of bytes and the characters they stand for, all else equal. -/
def ClosePositionActionReads (a b : ClosePositionAction) : Prop :=
  StrReads a.id b.id ∧ StrReads a.positionID b.positionID

/-- `Annotation`: strings of bytes and the characters they stand for, all else equal. -/
def AnnotationReads (a b : Annotation) : Prop :=
  StrReads a.id b.id ∧ a.time = b.time ∧ a.creationTime = b.creationTime ∧ a.price = b.price ∧
  StrReads a.executionID b.executionID ∧ StrReads a.label b.label ∧ StrReads a.tooltip b.tooltip

end Spec
open Spec

theorem forall₂_mem {α : Type} {P : α → Prop} {R S : α → α → Prop} {l m : List α} (h : List.Forall₂ R l m)
    (hp : ∀ v ∈ l, P v) (f : ∀ v w, P v → R v w → S v w) : List.Forall₂ S l m := by
  induction h with
  | nil => exact .nil
  | cons h _ ih => exact .cons (f _ _ (hp _ (by simp)) h) (ih fun v hv => hp v (by simp [hv]))

theorem rel_imp {α : Type} {R S : α → α → Prop} {o p : Option α} (h : Option.Rel R o p) (f : ∀ v w, R v w → S v w) :
    Option.Rel S o p := by
  cases h with
  | none => exact .none
  | some h => exact .some (f _ _ h)

theorem roundB_string {short : Bool} {s t : String} (h : StrReads s t) : RoundB short Codec.str 0 s t := by
  obtain ⟨bs, rfl, h⟩ := h
  refine roundB_str ?_
  rw [ofBytes, String.toList_ofList]
  exact reads_runes h

theorem roundB_time_ok {short : Bool} {E : Env} (hT : AsciiTimes E) {t u : Int} (h : TimeOk E t) (e : t = u) :
    RoundB short E.time 0 t u :=
  let ⟨_, h1, h2, h3⟩ := h
  roundB_time h1 h3 (asIs_iff.2 h2) (hT t _ h1) e

variable {short : Bool}

theorem roundB_update {E : Env} (hE : Good E) (hT : AsciiTimes E) {r r' : Update} (h : UpdateOk E r) (hr : UpdateReads r r') :
    RoundB short E.update 1 r r' := by
  obtain ⟨h1, h2⟩ := h
  obtain ⟨e1, e2, e3⟩ := hr
  refine roundB_struct (nodup_of_fold (update_names E)) (fun _ => by
    simp only [Env.updateFields, Codec.field, List.foldl_cons, List.foldl_nil]) ?_
  intro f hf
  simp only [Env.updateFields, List.mem_cons, List.not_mem_nil, or_false] at hf
  rcases hf with rfl | rfl | rfl
  · exact roundB_field (by omega) (by decide +kernel) (roundB_float hE.1 hE.2 h1 e1)
  · exact roundB_field (by omega) (by decide +kernel) (roundB_float hE.1 hE.2 h2 e2)
  · exact roundB_field (by omega) (by decide +kernel) (roundB_string e3)

theorem roundB_asset {E : Env} (hE : Good E) (hT : AsciiTimes E) {r r' : Asset} (hr : AssetReads r r') :
    RoundB short E.asset 1 r r' := by
  obtain ⟨e1, e2, e3⟩ := hr
  refine roundB_struct (nodup_of_fold (asset_names E)) (fun _ => by
    simp only [Env.assetFields, Codec.field, List.foldl_cons, List.foldl_nil]) ?_
  intro f hf
  simp only [Env.assetFields, List.mem_cons, List.not_mem_nil, or_false] at hf
  rcases hf with rfl | rfl | rfl
  · exact roundB_field (by omega) (by decide +kernel) (roundB_string e1)
  · exact roundB_field (by omega) (by decide +kernel) (roundB_string e2)
  · exact roundB_field (by omega) (by decide +kernel) (roundB_string e3)

theorem roundB_pair {E : Env} (hE : Good E) (hT : AsciiTimes E) {r r' : Pair} (hr : PairReads r r') :
    RoundB short E.pair 2 r r' := by
  obtain ⟨e1, e2⟩ := hr
  refine roundB_struct (nodup_of_fold (pair_names E)) (fun _ => by
    simp only [Env.pairFields, Codec.field, List.foldl_cons, List.foldl_nil]) ?_
  intro f hf
  simp only [Env.pairFields, List.mem_cons, List.not_mem_nil, or_false] at hf
  rcases hf with rfl | rfl
  · exact roundB_field (by omega) (by decide +kernel) (roundB_asset hE hT e1)
  · exact roundB_field (by omega) (by decide +kernel) (roundB_asset hE hT e2)

theorem roundB_balance {E : Env} (hE : Good E) (hT : AsciiTimes E) {r r' : Balance} (h : BalanceOk E r) (hr : BalanceReads r r') :
    RoundB short E.balance 2 r r' := by
  have h1 := h
  obtain ⟨e1, e2⟩ := hr
  refine roundB_struct (nodup_of_fold (balance_names E)) (fun _ => by
    simp only [Env.balanceFields, Codec.field, List.foldl_cons, List.foldl_nil]) ?_
  intro f hf
  simp only [Env.balanceFields, List.mem_cons, List.not_mem_nil, or_false] at hf
  rcases hf with rfl | rfl
  · exact roundB_field (by omega) (by decide +kernel) (roundB_ptr (neverNull_struct _ _) (rel_imp e1 fun _ _ h => roundB_asset hE hT h))
  · exact roundB_field (by omega) (by decide +kernel) (roundB_float hE.1 hE.2 h1 e2)

theorem roundB_assetsSnapshot {E : Env} (hE : Good E) (hT : AsciiTimes E) {r r' : AssetsSnapshot} (h : AssetsSnapshotOk E r) (hr : AssetsSnapshotReads r r') :
    RoundB short E.assetsSnapshot 4 r r' := by
  obtain ⟨h1, h2⟩ := h
  obtain ⟨e1, e2⟩ := hr
  refine roundB_struct (nodup_of_fold (assetsSnapshot_names E)) (fun _ => by
    simp only [Env.assetsSnapshotFields, Codec.field, List.foldl_cons, List.foldl_nil]) ?_
  intro f hf
  simp only [Env.assetsSnapshotFields, List.mem_cons, List.not_mem_nil, or_false] at hf
  rcases hf with rfl | rfl
  · exact roundB_field (by omega) (by decide +kernel) (roundB_float hE.1 hE.2 h1 e1)
  · exact roundB_field (by omega) (by decide +kernel) (roundB_slice _ _ (forall₂_mem e2 h2 fun _ _ p h => roundB_balance hE hT p h))

theorem roundB_trade {E : Env} (hE : Good E) (hT : AsciiTimes E) {r r' : Trade} (h : TradeOk E r) (hr : TradeReads r r') :
    RoundB short E.trade 3 r r' := by
  obtain ⟨h1, h2, h3, h4, h5⟩ := h
  obtain ⟨e1, e2, e3, e4, e5, e6, e7, e8, e9, e10⟩ := hr
  refine roundB_struct (nodup_of_fold (trade_names E)) (fun _ => by
    simp only [Env.tradeFields, Codec.field, List.foldl_cons, List.foldl_nil]) ?_
  intro f hf
  simp only [Env.tradeFields, List.mem_cons, List.not_mem_nil, or_false] at hf
  rcases hf with rfl | rfl | rfl | rfl | rfl | rfl | rfl | rfl | rfl | rfl
  · exact roundB_field (by omega) (by decide +kernel) (roundB_string e1)
  · exact roundB_field (by omega) (by decide +kernel) (roundB_time_ok hT h1 e2)
  · exact roundB_field (by omega) (by decide +kernel) (roundB_string e3)
  · exact roundB_field (by omega) (by decide +kernel) (roundB_string e4)
  · exact roundB_field (by omega) (by decide +kernel) (roundB_pair hE hT e5)
  · exact roundB_field (by omega) (by decide +kernel) (roundB_float hE.1 hE.2 h2 e6)
  · exact roundB_field (by omega) (by decide +kernel) (roundB_float hE.1 hE.2 h3 e7)
  · exact roundB_field (by omega) (by decide +kernel) (roundB_float hE.1 hE.2 h4 e8)
  · exact roundB_field (by omega) (by decide +kernel) (roundB_float hE.1 hE.2 h5 e9)
  · exact roundB_field (by omega) (by decide +kernel) (roundB_string e10)

theorem roundB_positionCloseOrder {E : Env} (hE : Good E) (hT : AsciiTimes E) {r r' : PositionCloseOrder} (h : PositionCloseOrderOk E r) (hr : PositionCloseOrderReads r r') :
    RoundB short E.positionCloseOrder 1 r r' := by
  have h1 := h
  obtain ⟨e1, e2⟩ := hr
  refine roundB_struct (nodup_of_fold (positionCloseOrder_names E)) (fun _ => by
    simp only [Env.positionCloseOrderFields, Codec.field, List.foldl_cons, List.foldl_nil]) ?_
  intro f hf
  simp only [Env.positionCloseOrderFields, List.mem_cons, List.not_mem_nil, or_false] at hf
  rcases hf with rfl | rfl
  · exact roundB_field (by omega) (by decide +kernel) (roundB_float hE.1 hE.2 h1 e1)
  · exact roundB_field (by omega) (by decide +kernel) (roundB_string e2)

theorem roundB_position {E : Env} (hE : Good E) (hT : AsciiTimes E) {r r' : Position} (h : PositionOk E r) (hr : PositionReads r r') :
    RoundB short E.position 3 r r' := by
  obtain ⟨h1, h2, h3, h4, h5, h6, h7, h8⟩ := h
  obtain ⟨e1, e2, e3, e4, e5, e6, e7, e8, e9, e10, e11, e12, e13, e14, e15⟩ := hr
  refine roundB_struct (nodup_of_fold (position_names E)) (fun _ => by
    simp only [Env.positionFields, Codec.field, List.foldl_cons, List.foldl_nil]) ?_
  intro f hf
  simp only [Env.positionFields, List.mem_cons, List.not_mem_nil, or_false] at hf
  rcases hf with rfl | rfl | rfl | rfl | rfl | rfl | rfl | rfl | rfl | rfl | rfl | rfl | rfl | rfl | rfl
  · exact roundB_field (by omega) (by decide +kernel) (roundB_string e1)
  · exact roundB_field (by omega) (by decide +kernel) (roundB_string e2)
  · exact roundB_field (by omega) (by decide +kernel) (roundB_pair hE hT e3)
  · exact roundB_field (by omega) (by decide +kernel) (roundB_bool e4)
  · exact roundB_field (by omega) (by decide +kernel) (roundB_positionCloseOrder hE hT h1 e5)
  · exact roundB_field (by omega) (by decide +kernel) (roundB_positionCloseOrder hE hT h2 e6)
  · exact roundB_field (by omega) (by decide +kernel) (roundB_float hE.1 hE.2 h3 e7)
  · exact roundB_field (by omega) (by decide +kernel) (roundB_float hE.1 hE.2 h4 e8)
  · exact roundB_field (by omega) (by decide +kernel) (roundB_float hE.1 hE.2 h5 e9)
  · exact roundB_field (by omega) (by decide +kernel) (roundB_float hE.1 hE.2 h6 e10)
  · exact roundB_field (by omega) (by decide +kernel) (roundB_time_ok hT h7 e11)
  · exact roundB_field (by omega) (by decide +kernel) (roundB_time_ok hT h8 e12)
  · exact roundB_field (by omega) (by decide +kernel) (roundB_slice _ _ (e13.imp fun _ _ h => roundB_string h))
  · exact roundB_field (by omega) (by decide +kernel) (roundB_string e14)
  · exact roundB_field (by omega) (by decide +kernel) (roundB_string e15)

theorem roundB_order {E : Env} (hE : Good E) (hT : AsciiTimes E) {r r' : Order} (h : OrderOk E r) (hr : OrderReads r r') :
    RoundB short E.order 3 r r' := by
  obtain ⟨h1, h2, h3, h4, h5, h6, h7, h8, h9⟩ := h
  obtain ⟨e1, e2, e3, e4, e5, e6, e7, e8, e9, e10, e11, e12, e13, e14, e15, e16, e17⟩ := hr
  refine roundB_struct (nodup_of_fold (order_names E)) (fun _ => by
    simp only [Env.orderFields, Codec.field, List.foldl_cons, List.foldl_nil]) ?_
  intro f hf
  simp only [Env.orderFields, List.mem_cons, List.not_mem_nil, or_false] at hf
  rcases hf with rfl | rfl | rfl | rfl | rfl | rfl | rfl | rfl | rfl | rfl | rfl | rfl | rfl | rfl | rfl | rfl | rfl
  · exact roundB_field (by omega) (by decide +kernel) (roundB_string e1)
  · exact roundB_field (by omega) (by decide +kernel) (roundB_string e2)
  · exact roundB_field (by omega) (by decide +kernel) (roundB_string e3)
  · exact roundB_field (by omega) (by decide +kernel) (roundB_ptr (neverNull_struct _ _) (rel_imp e4 fun _ _ h => roundB_pair hE hT h))
  · exact roundB_field (by omega) (by decide +kernel) (roundB_float hE.1 hE.2 h1 e5)
  · exact roundB_field (by omega) (by decide +kernel) (roundB_float hE.1 hE.2 h2 e6)
  · exact roundB_field (by omega) (by decide +kernel) (roundB_float hE.1 hE.2 h3 e7)
  · exact roundB_field (by omega) (by decide +kernel) (roundB_float hE.1 hE.2 h4 e8)
  · exact roundB_field (by omega) (by decide +kernel) (roundB_float hE.1 hE.2 h5 e9)
  · exact roundB_field (by omega) (by decide +kernel) (roundB_string e10)
  · exact roundB_field (by omega) (by decide +kernel) (roundB_time_ok hT h6 e11)
  · exact roundB_field (by omega) (by decide +kernel) (roundB_time_ok hT h7 e12)
  · exact roundB_field (by omega) (by decide +kernel) (roundB_slice _ _ (e13.imp fun _ _ h => roundB_string h))
  · exact roundB_field (by omega) (by decide +kernel) (roundB_float hE.1 hE.2 h8 e14)
  · exact roundB_field (by omega) (by decide +kernel) (roundB_float hE.1 hE.2 h9 e15)
  · exact roundB_field (by omega) (by decide +kernel) (roundB_string e16)
  · exact roundB_field (by omega) (by decide +kernel) (roundB_string e17)

theorem roundB_orderRequest {E : Env} (hE : Good E) (hT : AsciiTimes E) {r r' : OrderRequest} (h : OrderRequestOk E r) (hr : OrderRequestReads r r') :
    RoundB short E.orderRequest 3 r r' := by
  obtain ⟨h1, h2, h3, h4, h5⟩ := h
  obtain ⟨e1, e2, e3, e4, e5, e6, e7, e8⟩ := hr
  refine roundB_struct (nodup_of_fold (orderRequest_names E)) (fun _ => by
    simp only [Env.orderRequestFields, Codec.field, List.foldl_cons, List.foldl_nil]) ?_
  intro f hf
  simp only [Env.orderRequestFields, List.mem_cons, List.not_mem_nil, or_false] at hf
  rcases hf with rfl | rfl | rfl | rfl | rfl | rfl | rfl | rfl
  · exact roundB_field (by omega) (by decide +kernel) (roundB_string e1)
  · exact roundB_field (by omega) (by decide +kernel) (roundB_string e2)
  · exact roundB_field (by omega) (by decide +kernel) (roundB_pair hE hT e3)
  · exact roundB_field (by omega) (by decide +kernel) (roundB_float hE.1 hE.2 h1 e4)
  · exact roundB_field (by omega) (by decide +kernel) (roundB_float hE.1 hE.2 h2 e5)
  · exact roundB_field (by omega) (by decide +kernel) (roundB_float hE.1 hE.2 h3 e6)
  · exact roundB_field (by omega) (by decide +kernel) (roundB_float hE.1 hE.2 h4 e7)
  · exact roundB_field (by omega) (by decide +kernel) (roundB_float hE.1 hE.2 h5 e8)

theorem roundB_createOrderAction {E : Env} (hE : Good E) (hT : AsciiTimes E) {r r' : CreateOrderAction} (h : CreateOrderActionOk E r) (hr : CreateOrderActionReads r r') :
    RoundB short E.createOrderAction 1 r r' := by
  obtain ⟨h1, h2, h3, h4, h5⟩ := h
  obtain ⟨e1, e2, e3, e4, e5, e6, e7, e8, e9⟩ := hr
  refine roundB_struct (nodup_of_fold (createOrderAction_names E)) (fun _ => by
    simp only [Env.createOrderActionFields, Codec.field, List.foldl_cons, List.foldl_nil]) ?_
  intro f hf
  simp only [Env.createOrderActionFields, List.mem_cons, List.not_mem_nil, or_false] at hf
  rcases hf with rfl | rfl | rfl | rfl | rfl | rfl | rfl | rfl | rfl
  · exact roundB_field (by omega) (by decide +kernel) (roundB_string e1)
  · exact roundB_field (by omega) (by decide +kernel) (roundB_string e2)
  · exact roundB_field (by omega) (by decide +kernel) (roundB_string e3)
  · exact roundB_field (by omega) (by decide +kernel) (roundB_string e4)
  · exact roundB_field (by omega) (by decide +kernel) (roundB_float hE.1 hE.2 h1 e5)
  · exact roundB_field (by omega) (by decide +kernel) (roundB_float hE.1 hE.2 h2 e6)
  · exact roundB_field (by omega) (by decide +kernel) (roundB_float hE.1 hE.2 h3 e7)
  · exact roundB_field (by omega) (by decide +kernel) (roundB_float hE.1 hE.2 h4 e8)
  · exact roundB_field (by omega) (by decide +kernel) (roundB_float hE.1 hE.2 h5 e9)

theorem roundB_updateOrderAction {E : Env} (hE : Good E) (hT : AsciiTimes E) {r r' : UpdateOrderAction} (h : UpdateOrderActionOk E r) (hr : UpdateOrderActionReads r r') :
    RoundB short E.updateOrderAction 1 r r' := by
  obtain ⟨h1, h2, h3, h4, h5⟩ := h
  obtain ⟨e1, e2, e3, e4, e5, e6, e7⟩ := hr
  refine roundB_struct (nodup_of_fold (updateOrderAction_names E)) (fun _ => by
    simp only [Env.updateOrderActionFields, Codec.field, List.foldl_cons, List.foldl_nil]) ?_
  intro f hf
  simp only [Env.updateOrderActionFields, List.mem_cons, List.not_mem_nil, or_false] at hf
  rcases hf with rfl | rfl | rfl | rfl | rfl | rfl | rfl
  · exact roundB_field (by omega) (by decide +kernel) (roundB_string e1)
  · exact roundB_field (by omega) (by decide +kernel) (roundB_string e2)
  · exact roundB_field (by omega) (by decide +kernel) (roundB_float hE.1 hE.2 h1 e3)
  · exact roundB_field (by omega) (by decide +kernel) (roundB_float hE.1 hE.2 h2 e4)
  · exact roundB_field (by omega) (by decide +kernel) (roundB_float hE.1 hE.2 h3 e5)
  · exact roundB_field (by omega) (by decide +kernel) (roundB_float hE.1 hE.2 h4 e6)
  · exact roundB_field (by omega) (by decide +kernel) (roundB_float hE.1 hE.2 h5 e7)

theorem roundB_cancelOrderAction {E : Env} (hE : Good E) (hT : AsciiTimes E) {r r' : CancelOrderAction} (hr : CancelOrderActionReads r r') :
    RoundB short E.cancelOrderAction 1 r r' := by
  obtain ⟨e1, e2⟩ := hr
  refine roundB_struct (nodup_of_fold (cancelOrderAction_names E)) (fun _ => by
    simp only [Env.cancelOrderActionFields, Codec.field, List.foldl_cons, List.foldl_nil]) ?_
  intro f hf
  simp only [Env.cancelOrderActionFields, List.mem_cons, List.not_mem_nil, or_false] at hf
  rcases hf with rfl | rfl
  · exact roundB_field (by omega) (by decide +kernel) (roundB_string e1)
  · exact roundB_field (by omega) (by decide +kernel) (roundB_string e2)

theorem roundB_updatePositionAction {E : Env} (hE : Good E) (hT : AsciiTimes E) {r r' : UpdatePositionAction} (h : UpdatePositionActionOk E r) (hr : UpdatePositionActionReads r r') :
    RoundB short E.updatePositionAction 1 r r' := by
  obtain ⟨h1, h2, h3, h4⟩ := h
  obtain ⟨e1, e2, e3, e4, e5, e6, e7, e8⟩ := hr
  refine roundB_struct (nodup_of_fold (updatePositionAction_names E)) (fun _ => by
    simp only [Env.updatePositionActionFields, Codec.field, List.foldl_cons, List.foldl_nil]) ?_
  intro f hf
  simp only [Env.updatePositionActionFields, List.mem_cons, List.not_mem_nil, or_false] at hf
  rcases hf with rfl | rfl | rfl | rfl | rfl | rfl | rfl | rfl
  · exact roundB_field (by omega) (by decide +kernel) (roundB_string e1)
  · exact roundB_field (by omega) (by decide +kernel) (roundB_string e2)
  · exact roundB_field (by omega) (by decide +kernel) (roundB_string e3)
  · exact roundB_field (by omega) (by decide +kernel) (roundB_string e4)
  · exact roundB_field (by omega) (by decide +kernel) (roundB_float hE.1 hE.2 h1 e5)
  · exact roundB_field (by omega) (by decide +kernel) (roundB_float hE.1 hE.2 h2 e6)
  · exact roundB_field (by omega) (by decide +kernel) (roundB_float hE.1 hE.2 h3 e7)
  · exact roundB_field (by omega) (by decide +kernel) (roundB_float hE.1 hE.2 h4 e8)

theorem roundB_closePositionAction {E : Env} (hE : Good E) (hT : AsciiTimes E) {r r' : ClosePositionAction} (hr : ClosePositionActionReads r r') :
    RoundB short E.closePositionAction 1 r r' := by
  obtain ⟨e1, e2⟩ := hr
  refine roundB_struct (nodup_of_fold (closePositionAction_names E)) (fun _ => by
    simp only [Env.closePositionActionFields, Codec.field, List.foldl_cons, List.foldl_nil]) ?_
  intro f hf
  simp only [Env.closePositionActionFields, List.mem_cons, List.not_mem_nil, or_false] at hf
  rcases hf with rfl | rfl
  · exact roundB_field (by omega) (by decide +kernel) (roundB_string e1)
  · exact roundB_field (by omega) (by decide +kernel) (roundB_string e2)

theorem roundB_annotation {E : Env} (hE : Good E) (hT : AsciiTimes E) {r r' : Annotation} (h : AnnotationOk E r) (hr : AnnotationReads r r') :
    RoundB short E.annotation 1 r r' := by
  obtain ⟨h1, h2, h3⟩ := h
  obtain ⟨e1, e2, e3, e4, e5, e6, e7⟩ := hr
  refine roundB_struct (nodup_of_fold (annotation_names E)) (fun _ => by
    simp only [Env.annotationFields, Codec.field, List.foldl_cons, List.foldl_nil]) ?_
  intro f hf
  simp only [Env.annotationFields, List.mem_cons, List.not_mem_nil, or_false] at hf
  rcases hf with rfl | rfl | rfl | rfl | rfl | rfl | rfl
  · exact roundB_field (by omega) (by decide +kernel) (roundB_string e1)
  · exact roundB_field (by omega) (by decide +kernel) (roundB_int h1.1 h1.2 e2)
  · exact roundB_field (by omega) (by decide +kernel) (roundB_int h2.1 h2.2 e3)
  · exact roundB_field (by omega) (by decide +kernel) (roundB_float hE.1 hE.2 h3 e4)
  · exact roundB_field (by omega) (by decide +kernel) (roundB_string e5)
  · exact roundB_field (by omega) (by decide +kernel) (roundB_string e6)
  · exact roundB_field (by omega) (by decide +kernel) (roundB_string e7)

/-- C187 for `Update`. -/
theorem C187_update {E : Env} (hE : Good E) (hT : AsciiTimes E) {a b : Update} (h : UpdateOk E a) (hr : UpdateReads a b) :
    ReadsAs E.update a b :=
  fun _ => marshalB_round (by omega) (roundB_update hE hT h hr)

/-- C187 for `Asset`. -/
theorem C187_asset {E : Env} (hE : Good E) (hT : AsciiTimes E) {a b : Asset} (hr : AssetReads a b) :
    ReadsAs E.asset a b :=
  fun _ => marshalB_round (by omega) (roundB_asset hE hT hr)

/-- C187 for `Pair`. -/
theorem C187_pair {E : Env} (hE : Good E) (hT : AsciiTimes E) {a b : Pair} (hr : PairReads a b) :
    ReadsAs E.pair a b :=
  fun _ => marshalB_round (by omega) (roundB_pair hE hT hr)

/-- C187 for `Balance`. -/
theorem C187_balance {E : Env} (hE : Good E) (hT : AsciiTimes E) {a b : Balance} (h : BalanceOk E a) (hr : BalanceReads a b) :
    ReadsAs E.balance a b :=
  fun _ => marshalB_round (by omega) (roundB_balance hE hT h hr)

/-- C187 for `AssetsSnapshot`. -/
theorem C187_assetsSnapshot {E : Env} (hE : Good E) (hT : AsciiTimes E) {a b : AssetsSnapshot} (h : AssetsSnapshotOk E a) (hr : AssetsSnapshotReads a b) :
    ReadsAs E.assetsSnapshot a b :=
  fun _ => marshalB_round (by omega) (roundB_assetsSnapshot hE hT h hr)

/-- C187 for `Trade`. -/
theorem C187_trade {E : Env} (hE : Good E) (hT : AsciiTimes E) {a b : Trade} (h : TradeOk E a) (hr : TradeReads a b) :
    ReadsAs E.trade a b :=
  fun _ => marshalB_round (by omega) (roundB_trade hE hT h hr)

/-- C187 for `PositionCloseOrder`. -/
theorem C187_positionCloseOrder {E : Env} (hE : Good E) (hT : AsciiTimes E) {a b : PositionCloseOrder} (h : PositionCloseOrderOk E a) (hr : PositionCloseOrderReads a b) :
    ReadsAs E.positionCloseOrder a b :=
  fun _ => marshalB_round (by omega) (roundB_positionCloseOrder hE hT h hr)

/-- C187 for `Position`. -/
theorem C187_position {E : Env} (hE : Good E) (hT : AsciiTimes E) {a b : Position} (h : PositionOk E a) (hr : PositionReads a b) :
    ReadsAs E.position a b :=
  fun _ => marshalB_round (by omega) (roundB_position hE hT h hr)

/-- C187 for `Order`. -/
theorem C187_order {E : Env} (hE : Good E) (hT : AsciiTimes E) {a b : Order} (h : OrderOk E a) (hr : OrderReads a b) :
    ReadsAs E.order a b :=
  fun _ => marshalB_round (by omega) (roundB_order hE hT h hr)

/-- C187 for `OrderRequest`. -/
theorem C187_orderRequest {E : Env} (hE : Good E) (hT : AsciiTimes E) {a b : OrderRequest} (h : OrderRequestOk E a) (hr : OrderRequestReads a b) :
    ReadsAs E.orderRequest a b :=
  fun _ => marshalB_round (by omega) (roundB_orderRequest hE hT h hr)

/-- C187 for `CreateOrderAction`. -/
theorem C187_createOrderAction {E : Env} (hE : Good E) (hT : AsciiTimes E) {a b : CreateOrderAction} (h : CreateOrderActionOk E a) (hr : CreateOrderActionReads a b) :
    ReadsAs E.createOrderAction a b :=
  fun _ => marshalB_round (by omega) (roundB_createOrderAction hE hT h hr)

/-- C187 for `UpdateOrderAction`. -/
theorem C187_updateOrderAction {E : Env} (hE : Good E) (hT : AsciiTimes E) {a b : UpdateOrderAction} (h : UpdateOrderActionOk E a) (hr : UpdateOrderActionReads a b) :
    ReadsAs E.updateOrderAction a b :=
  fun _ => marshalB_round (by omega) (roundB_updateOrderAction hE hT h hr)

/-- C187 for `CancelOrderAction`. -/
theorem C187_cancelOrderAction {E : Env} (hE : Good E) (hT : AsciiTimes E) {a b : CancelOrderAction} (hr : CancelOrderActionReads a b) :
    ReadsAs E.cancelOrderAction a b :=
  fun _ => marshalB_round (by omega) (roundB_cancelOrderAction hE hT hr)

/-- C187 for `UpdatePositionAction`. -/
theorem C187_updatePositionAction {E : Env} (hE : Good E) (hT : AsciiTimes E) {a b : UpdatePositionAction} (h : UpdatePositionActionOk E a) (hr : UpdatePositionActionReads a b) :
    ReadsAs E.updatePositionAction a b :=
  fun _ => marshalB_round (by omega) (roundB_updatePositionAction hE hT h hr)

/-- C187 for `ClosePositionAction`. -/
theorem C187_closePositionAction {E : Env} (hE : Good E) (hT : AsciiTimes E) {a b : ClosePositionAction} (hr : ClosePositionActionReads a b) :
    ReadsAs E.closePositionAction a b :=
  fun _ => marshalB_round (by omega) (roundB_closePositionAction hE hT hr)

/-- C187 for `Annotation`. -/
theorem C187_annotation {E : Env} (hE : Good E) (hT : AsciiTimes E) {a b : Annotation} (h : AnnotationOk E a) (hr : AnnotationReads a b) :
    ReadsAs E.annotation a b :=
  fun _ => marshalB_round (by omega) (roundB_annotation hE hT h hr)

/-- C187: what is refused does not depend on the bytes of strings. -/
theorem C187_refused {α : Type} (c : Codec α) (short : Bool) (v : α) :
    c.marshalB short v = none ↔ c.marshal short v = none := by
  simp [Codec.marshalB, Codec.marshal]

theorem padInt_ascii (w n : Nat) : ∀ c ∈ padInt w n, c.toNat < 0x80 := by
  intro c hc
  simp only [padInt, List.mem_append, List.mem_replicate] at hc
  rcases hc with ⟨-, rfl⟩ | hc
  · decide
  · exact digit_ascii (digitC_toDigits hc)

/-- C187: times in the format of `time.Time` are written in ASCII. -/
theorem C187_times {E : Env} {zone : Int → Int} (hw : ∀ t, E.write t = writeTime (zone t) t) : AsciiTimes E := by
  intro t s h c hc
  rw [hw] at h
  simp only [writeTime] at h
  split_ifs at h
  obtain rfl := Option.some.inj h
  have hz : ∀ c ∈ fmtZone (zone t), c.toNat < 0x80 := by
    intro c hc
    unfold fmtZone at hc
    split_ifs at hc
    · obtain rfl := List.mem_singleton.1 hc; decide
    all_goals
      simp only [List.mem_cons, List.mem_append] at hc
      rcases hc with rfl | hc | rfl | hc
      · split <;> decide
      · exact padInt_ascii _ _ c hc
      · decide
      · exact padInt_ascii _ _ c hc
  have hf : ∀ n, ∀ c ∈ fmtFraction n, c.toNat < 0x80 := by
    intro n c hc
    have hsub : ∀ c ∈ ((padInt 9 n).reverse.dropWhile fun c => c == '0').reverse, c.toNat < 0x80 := by
      intro c hc
      have := (List.dropWhile_sublist _).subset (List.mem_reverse.1 hc)
      exact padInt_ascii 9 n c (List.mem_reverse.1 this)
    unfold fmtFraction at hc
    split at hc
    · simp at hc
    · rename_i h
      rcases List.mem_cons.1 hc with rfl | hc
      · decide
      · exact hsub c hc
  simp only [List.mem_append, List.mem_cons] at hc
  rcases hc with hc | rfl | hc | rfl | hc | rfl | hc | rfl | hc | rfl | hc | hc | hc
  all_goals first | exact padInt_ascii _ _ c hc | exact hf _ c hc | exact hz c hc | decide

theorem example_ascii : AsciiTimes exampleEnv := by
  intro t s h
  obtain rfl := Option.some.inj h
  exact numLit_ascii (jsonInt_numLit t)

/-- The bytes FF, A and the euro sign. -/
theorem example_bytes : StrReads (ofBytes [0xFF, 0x41, 0xE2, 0x82, 0xAC]) "\uFFFDA€" := by
  refine ⟨_, rfl, ?_⟩
  obtain ⟨l, hl, -⟩ := C186_reads [0xFF, 0x41, 0xE2, 0x82, 0xAC]
  have e : runes (raw [0xFF, 0x41, 0xE2, 0x82, 0xAC]) = "\uFFFDA€".toList := by decide +kernel
  rw [← e, reads_runes hl]; exact hl

theorem example_asset : AssetReads ⟨ofBytes [0xFF, 0x41, 0xE2, 0x82, 0xAC], ofBytes [], ofBytes [0x42]⟩ ⟨"\uFFFDA€", "", "B"⟩ := by
  refine ⟨example_bytes, ⟨[], rfl, .nil⟩, ⟨_, rfl, ?_⟩⟩
  have := C186_utf8 ['B']
  rwa [show utf8 ['B'] = [0x42] by decide +kernel] at this

example : ReadsAs exampleEnv.asset ⟨ofBytes [0xFF, 0x41, 0xE2, 0x82, 0xAC], ofBytes [], ofBytes [0x42]⟩ ⟨"\uFFFDA€", "", "B"⟩ :=
  C187_asset exampleEnv_good example_ascii example_asset

example : ReadsAs exampleEnv.order
    { sampleOrder with id := ofBytes [0xFF, 0x41, 0xE2, 0x82, 0xAC], action := "", type := "", pair := some ⟨⟨ofBytes [0xFF, 0x41, 0xE2, 0x82, 0xAC], ofBytes [], ofBytes [0x42]⟩, ⟨"", "", ""⟩⟩, status := "", trades := [ofBytes [0xFF, 0x41, 0xE2, 0x82, 0xAC]], positionID := "", executionID := "" }
    { sampleOrder with id := "\uFFFDA€", action := "", type := "", pair := some ⟨⟨"\uFFFDA€", "", "B"⟩, ⟨"", "", ""⟩⟩, status := "", trades := ["\uFFFDA€"], positionID := "", executionID := "" } := by
  have e : StrReads "" "" := ⟨[], rfl, .nil⟩
  exact C187_order exampleEnv_good example_ascii sampleOrder_ok
    ⟨example_bytes, e, e, .some ⟨example_asset, e, e, e⟩, rfl, rfl, rfl, rfl, rfl, e, rfl, rfl, .cons example_bytes .nil, rfl, rfl, e, e⟩

example : exampleEnv.asset.marshalB true ⟨ofBytes [0xFF, 0x41], "", ""⟩ =
    some (utf8 "{\"name\":\"\\ufffdA\",\"symbol\":\"\",\"alt_symbol\":\"\"}".toList) := by decide +kernel

end Finmod.Json
