import Verif.Props.Errors
import Verif.Props.BookOverlap
import Mathlib.Tactic.IntervalCases

/-!
# Which message when: C191–C193
-/

namespace Finmod.Spec
open Go

/-- A zero, of either sign. -/
def Nought (x : Fl) : Prop := x = .fin 0 ∨ x = .negZero

/-- The minutes between two candles. -/
def gap (c0 c1 : Candle) : Int := (wrap64 (c1.time - c0.time)).tdiv 60

/-- A minute of the hour at which an interval can begin: 0, or divisible by the interval beyond the hours in it. -/
def Begins (mi m : Int) : Prop :=
  m = 0 ∨ ∃ d, d = (if 60 < mi then mi.tmod 60 else mi) ∧ m.tmod (if d = 0 then 60 else d) = 0

/-- The text of a refused interval. -/
def refusal (mi gap : Int) : String :=
  "The retrieved candles cannot be modified to the " ++ toString mi ++
    " minutes timeframe, the delta between candles is " ++ toString gap ++ " minutes"

/-- The word with this index can be read: as a time if it is the first, as a number otherwise. -/
def Readable (S : FloatSem) (i : Nat) (w : List Char) : Prop :=
  if i = 0 then (parseInt 32 w).isSome else (parseFloat S w).isSome

end Finmod.Spec

namespace Finmod
open Go Spec

variable {α : Type} {S : FloatSem}

theorem eq_zero_iff' (x : Fl) : Fl.eq x (.fin 0) = true ↔ Nought x := by
  cases x with
  | nan => simp [Fl.eq, Fl.isNaN, Nought]
  | inf b => cases b <;> simp [Fl.eq, Fl.isNaN, Fl.key, Nought]
  | fin q => simp [Fl.eq, Fl.isNaN, Fl.key, Nought]
  | negZero => simp [Fl.eq, Fl.isNaN, Fl.key, Nought]

theorem toString_int (n : Int) : String.ofList (fmtInt n) = toString n := by
  apply String.toList_inj.1
  cases n with
  | ofNat n => simp [fmtInt, toString, Int.repr, Nat.repr]
  | negSucc n => simp [fmtInt, toString, Int.repr, Nat.repr]

theorem refusal_chars (m g : Int) : (refusal m g).toList =
    "The retrieved candles cannot be modified to the ".toList ++ fmtInt m ++
      " minutes timeframe, the delta between candles is ".toList ++ fmtInt g ++ " minutes".toList := by
  have e : ∀ n : Int, (toString n).toList = fmtInt n := fun n => by rw [← toString_int]; exact String.toList_ofList
  unfold refusal
  rw [String.toList_append, String.toList_append, String.toList_append, String.toList_append, e, e]

theorem refusal_ne (m g : Int) : refusal m g ≠ "No 1 minute interval exists" ∧ refusal m g ≠ "Could not find the initial candle" := by
  have first : (refusal m g).toList.head? = some 'T' := by
    have : "The retrieved candles cannot be modified to the ".toList.head? = some 'T' := by decide +kernel
    rw [refusal_chars, List.append_assoc, List.append_assoc, List.append_assoc, List.head?_append, this]
    rfl
  constructor
  · intro h; rw [h] at first; revert first; decide +kernel
  · intro h; rw [h] at first; revert first; decide +kernel

theorem told_tell {f : ErrCode → EzErr} {r : Res α} {m : String} :
    Told (r.tell f) m ↔ ∃ c v, r = .err c v ∧ (f c).message = some m := by
  constructor
  · rintro ⟨e, v, he, hm⟩
    obtain ⟨c, hc, rfl⟩ := tell_err he
    exact ⟨c, v, hc, hm⟩
  · rintro ⟨c, v, hc, hm⟩
    exact ⟨f c, v, err_tell.2 ⟨c, hc, rfl⟩, hm⟩

theorem told_err {e : EzErr} {v : α} {m : String} : Told (.err e v : Out α) m ↔ e.message = some m := by
  constructor
  · rintro ⟨e', v', h, hm⟩; cases h; exact hm
  · intro h; exact ⟨e, v, rfl, h⟩

theorem not_told_ok {v : α} {m : String} : ¬ Told (.ok v : Out α) m := by
  rintro ⟨e, w, h, -⟩; cases h

theorem not_told_panic {m : String} : ¬ Told (.panic : Out α) m := by
  rintro ⟨e, w, h, -⟩; cases h

/-- `NewOrderRequest`: the first of four complaints that applies. -/
theorem C191_newOrderRequest (pair : Pair) (action type : String) (quantity price total : Fl) :
    (Told (newOrderRequestE pair action type quantity price total) "Order must have a pair defined" ↔ pair.base.symbol = "") ∧
    (Told (newOrderRequestE pair action type quantity price total) "Order must have an action and a type defined" ↔
      pair.base.symbol ≠ "" ∧ (action = "" ∨ type = "")) ∧
    (Told (newOrderRequestE pair action type quantity price total) "LimitOrders must have a priced defined" ↔
      pair.base.symbol ≠ "" ∧ action ≠ "" ∧ type = "limit" ∧ Nought price) ∧
    (Told (newOrderRequestE pair action type quantity price total) "Total and quantity can't be both zero" ↔
      pair.base.symbol ≠ "" ∧ action ≠ "" ∧ type ≠ "" ∧ (type = "limit" → ¬ Nought price) ∧ Nought quantity ∧ Nought total) ∧
    OneOf (newOrderRequestE pair action type quantity price total) ["Order must have a pair defined",
      "Order must have an action and a type defined", "LimitOrders must have a priced defined",
      "Total and quantity can't be both zero"] := by
  unfold newOrderRequestE
  have hl : "limit" ≠ "" := by decide +kernel
  split_ifs with h1 h2 h3 h4
  all_goals try simp only [eq_zero_iff', limitOrder] at *
  · refine ⟨?_, ?_, ?_, ?_, ?_⟩ <;> simp [told_err, EzErr.message, h1, OneOf]
  · refine ⟨?_, ?_, ?_, ?_, ?_⟩
    · simp [told_err, EzErr.message, h1]
    · simp [told_err, EzErr.message, h1, h2]
    · simp only [told_err, EzErr.message]
      constructor
      · intro h; simp at h
      · rintro ⟨-, ha, hb, -⟩; rcases h2 with h2 | h2
        · exact absurd h2 ha
        · rw [hb] at h2; exact absurd h2 hl
    · simp only [told_err, EzErr.message]
      constructor
      · intro h; simp at h
      · rintro ⟨-, ha, hb, -⟩; rcases h2 with h2 | h2
        · exact absurd h2 ha
        · exact absurd h2 hb
    · simp [EzErr.message, OneOf]
  · refine ⟨?_, ?_, ?_, ?_, ?_⟩
    · simp [told_err, EzErr.message, h1]
    · simp [told_err, EzErr.message, h2]
    · simp only [told_err, EzErr.message, true_iff]
      exact ⟨h1, fun h => h2 (.inl h), h3.1, h3.2⟩
    · simp only [told_err, EzErr.message]
      constructor
      · intro h; simp at h
      · rintro ⟨-, -, -, hp, -⟩; exact absurd h3.2 (hp h3.1)
    · simp [EzErr.message, OneOf]
  · refine ⟨?_, ?_, ?_, ?_, ?_⟩
    · simp [told_err, EzErr.message, h1]
    · simp [told_err, EzErr.message, h2]
    · simp only [told_err, EzErr.message]
      constructor
      · intro h; simp at h
      · rintro ⟨-, -, a, b⟩; exact absurd ⟨a, b⟩ h3
    · simp only [told_err, EzErr.message, true_iff]
      exact ⟨h1, fun h => h2 (.inl h), fun h => h2 (.inr h), fun a b => h3 ⟨a, b⟩, h4⟩
    · simp [EzErr.message, OneOf]
  · refine ⟨?_, ?_, ?_, ?_, ?_⟩
    · simp [not_told_ok, h1]
    · simp [not_told_ok, h2]
    · simp only [not_told_ok, false_iff]; rintro ⟨-, -, a, b⟩; exact h3 ⟨a, b⟩
    · simp only [not_told_ok, false_iff]; rintro ⟨-, -, -, -, a⟩; exact h4 a
    · intro e v h; cases h

/-- `CalculateFields`: both zero, or neither. -/
theorem C191_calculateFields (o : OrderRequest) (x : Fl) :
    (Told (calculateFieldsE S o x) "Total and quantity can't be both zero" ↔ Nought o.total ∧ Nought o.quantity) ∧
    (Told (calculateFieldsE S o x) "Either total or quantity must be zero" ↔ ¬ Nought o.total ∧ ¬ Nought o.quantity) ∧
    OneOf (calculateFieldsE S o x) ["Total and quantity can't be both zero", "Either total or quantity must be zero"] := by
  unfold calculateFieldsE
  have e1 : ∀ y : Fl, Fl.eq y (.fin 0) = decide (Fl.eq y (.fin 0) = true) := fun y => by simp
  split_ifs with h1 h2
  · have h1' : Nought o.total ∧ Nought o.quantity := by simpa [eq_zero_iff'] using h1
    refine ⟨?_, ?_, ?_⟩ <;> simp [told_err, EzErr.message, h1', OneOf]
  · have h2' : ¬ Nought o.total ∧ ¬ Nought o.quantity := by
      simp only [Fl.ne, Bool.and_eq_true, Bool.not_eq_true', ← Bool.not_eq_true, eq_zero_iff'] at h2
      simpa using h2
    refine ⟨?_, ?_, ?_⟩ <;> simp [told_err, EzErr.message, h2', OneOf]
  · have hn : ∀ e v, ((calculateFields S o x).2.tell fun c => .new "" c "") ≠ .err e v := by
      intro e v h
      obtain ⟨c, hc, -⟩ := tell_err h
      exact calculateFields_not_err h1 h2 _ _ hc
    have hn' : ∀ m, ¬ Told ((calculateFields S o x).2.tell fun c => .new "" c "") m := by
      rintro m ⟨e, v, h, -⟩; exact hn e v h
    simp only [Bool.and_eq_true, eq_zero_iff'] at h1
    simp only [Fl.ne, Bool.and_eq_true, Bool.not_eq_true', ← Bool.not_eq_true, eq_zero_iff'] at h2
    refine ⟨?_, ?_, ?_⟩
    · simp only [hn', false_iff]; exact h1
    · simp only [hn', false_iff]; simpa using h2
    · intro e v h; exact absurd h (hn e v)

/-- `NewAsset` and the three lists of known assets. -/
theorem C191_assets (symbol name : String) :
    (Told (newAssetE symbol name) "Missing asset symbol" ↔ symbol = "") ∧
    (Told (newAssetE symbol name) "Missing asset name" ↔ symbol ≠ "" ∧ name = "") ∧
    OneOf (newAssetE symbol name) ["Missing asset symbol", "Missing asset name"] ∧
    (Told (newCryptoAssetE symbol) "No asset with matching symbol found" ↔ ∀ n, (symbol, n) ∉ newCryptoAssetTable) ∧
    OneOf (newCryptoAssetE symbol) ["No asset with matching symbol found"] ∧
    (Told (newForexAssetE symbol) "No asset with matching symbol found" ↔ ∀ n, (symbol, n) ∉ newForexAssetTable) ∧
    OneOf (newForexAssetE symbol) ["No asset with matching symbol found"] ∧
    (Told (newStockAssetE symbol) "No asset with matching symbol found" ↔ ∀ n, (symbol, n) ∉ newStockAssetTable) ∧
    OneOf (newStockAssetE symbol) ["No asset with matching symbol found"] := by
  have listed : ∀ {op : String} {table : List (String × String)} (_ : ∀ x ∈ table, x.1 ≠ "" ∧ x.2 ≠ ""),
      (Told (newListedAssetE op table symbol) "No asset with matching symbol found" ↔ ∀ n, (symbol, n) ∉ table) ∧
      OneOf (newListedAssetE op table symbol) ["No asset with matching symbol found"] := by
    intro op table ht
    refine ⟨⟨?_, ?_⟩, ?_⟩
    · rintro ⟨e, v, h, -⟩ n hn
      exact ((newListed_op ht).1 h).1 _ hn rfl
    · intro h
      refine ⟨_, _, (newListed_op ht).2 ⟨?_, rfl, rfl⟩, rfl⟩
      rintro ⟨a, b⟩ hx rfl; exact h b hx
    · intro e v h
      rw [((newListed_op ht).1 h).2.2]
      exact ⟨_, by simp, rfl⟩
  refine ⟨?_, ?_, ?_, (listed tables_full.1).1, (listed tables_full.1).2, (listed tables_full.2.1).1,
    (listed tables_full.2.1).2, (listed tables_full.2.2).1, (listed tables_full.2.2).2⟩
  · unfold newAssetE; split_ifs with h1 h2 <;> simp [told_err, not_told_ok, EzErr.message, h1]
  · unfold newAssetE; split_ifs with h1 h2
    · simp [told_err, EzErr.message, h1]
    · simp [told_err, EzErr.message, h1, h2]
    · simp [not_told_ok, h2]
  · unfold newAssetE; split_ifs with h1 h2
    · simp [OneOf, EzErr.message]
    · simp [OneOf, EzErr.message]
    · intro e v h; cases h

/-- Order books. -/
theorem C191_books (b c : Book) (u : Update) (price : Fl) :
    (Told (b.applyUpdateE u) "update side must be ask or bid" ↔ u.side ≠ "ask" ∧ u.side ≠ "bid") ∧
    OneOf (b.applyUpdateE u) ["update side must be ask or bid"] ∧
    (Told (b.getDepthE price) "Price can't be equal or below zero" ↔ Fl.le price (.fin 0) = true) ∧
    (Told (b.getDepthE price) "No depth for the selected price" ↔ Fl.le price (.fin 0) = false ∧
      ∃ a a' d d', b.asks.head? = some a ∧ b.asks.getLast? = some a' ∧ b.bids.head? = some d ∧ b.bids.getLast? = some d' ∧
        ¬ (Fl.le a.price price = true ∧ Fl.le price a'.price = true) ∧
        ¬ (Fl.le d'.price price = true ∧ Fl.le price d.price = true)) ∧
    OneOf (b.getDepthE price) ["Price can't be equal or below zero", "No depth for the selected price"] ∧
    (FourSides b c → (Told (calculateOverlapE S b c) "No overlap" ↔ ¬ Overlaps b c ∧ ¬ Overlaps c b)) ∧
    OneOf (calculateOverlapE S b c) ["No overlap"] := by
  refine ⟨?_, ?_, ?_, ?_, ?_, ?_, ?_⟩
  · unfold Book.applyUpdateE
    rw [told_tell]
    constructor
    · rintro ⟨c, v, h, -⟩; have := applyUpdate_err.1 h; exact ⟨this.1, this.2.1⟩
    · rintro ⟨h1, h2⟩; exact ⟨_, _, applyUpdate_err.2 ⟨h1, h2, rfl, rfl⟩, rfl⟩
  · intro e v h
    obtain ⟨c, -, rfl⟩ := tell_err h
    exact ⟨_, by simp, rfl⟩
  · unfold Book.getDepthE
    rw [told_tell]
    constructor
    · rintro ⟨c, v, h, hm⟩
      rcases getDepth_codes h with ⟨-, h'⟩ | ⟨rfl, -⟩
      · exact h'
      · simp [EzErr.message] at hm
    · intro h; exact ⟨.einvalid, .fin 0, by simp [Book.getDepth, h], rfl⟩
  · unfold Book.getDepthE
    rw [told_tell]
    constructor
    · rintro ⟨c, v, h, hm⟩
      rcases getDepth_codes h with ⟨rfl, -⟩ | ⟨rfl, h'⟩
      · simp [EzErr.message] at hm
      · refine ⟨h', ?_⟩
        unfold Book.getDepth at h
        rw [if_neg (by simp [h'])] at h
        split at h
        · rename_i a a' d d' h1 h2 h3 h4
          split_ifs at h with h5 h6
          · split at h
            · split at h <;> cases h
            · cases h
          · split at h
            · split at h <;> cases h
            · cases h
          · exact ⟨a, a', d, d', h1, h2, h3, h4, by simpa using h5, by simpa using h6⟩
        · cases h
    · rintro ⟨h0, a, a', d, d', h1, h2, h3, h4, h5, h6⟩
      refine ⟨.enotfound, .fin 0, ?_, rfl⟩
      unfold Book.getDepth
      rw [if_neg (by simp [h0]), h1, h2, h3, h4]
      simp only
      rw [if_neg (by simpa using h5), if_neg (by simpa using h6)]
  · intro e v h
    obtain ⟨c, hc, rfl⟩ := tell_err h
    rcases getDepth_codes hc with ⟨rfl, -⟩ | ⟨rfl, -⟩
    · exact ⟨_, by simp, rfl⟩
    · exact ⟨_, by simp, rfl⟩
  · intro h
    obtain ⟨c1, c2, c3⟩ := calculateOverlap_cases S b c h
    unfold calculateOverlapE
    rw [told_tell]
    constructor
    · rintro ⟨k, v, hk, -⟩
      have no1 : ¬ Overlaps b c := by
        intro ho
        obtain ⟨w, hw⟩ := overlapCalculation_ok S b c h.1 h.2.2.2
        rw [c1 ho, hw] at hk; cases hk
      refine ⟨no1, fun ho => ?_⟩
      obtain ⟨w, hw⟩ := overlapCalculation_ok S c b h.2.2.1 h.2.1
      rw [c2 no1 ho, hw] at hk; cases hk
    · rintro ⟨h1, h2⟩; exact ⟨_, _, c3 h1 h2, rfl⟩
  · intro e v h
    obtain ⟨c, -, rfl⟩ := tell_err h
    exact ⟨_, by simp, rfl⟩

/-- Records and positions. -/
theorem C191_records (t : Trade) (o : Order) (p : Position) (a : Annotation) (i : AnyVal) :
    (Told (t.updateE i) "Provided interface is not of type Trade" ↔ ∀ x, i ≠ .tradePtr x) ∧
    OneOf (t.updateE i) ["Provided interface is not of type Trade"] ∧
    (Told (o.updateE i) "Provided interface is not of type Order" ↔ ∀ x, i ≠ .orderPtr x) ∧
    OneOf (o.updateE i) ["Provided interface is not of type Order"] ∧
    (Told (p.updateE i) "Provided interface is not of type Position" ↔ ∀ x, i ≠ .positionPtr x) ∧
    OneOf (p.updateE i) ["Provided interface is not of type Position"] ∧
    (Told (a.updateE i) "Provided interface is not of type Annotation" ↔ ∀ x, i ≠ .annotationPtr x) ∧
    OneOf (a.updateE i) ["Provided interface is not of type Annotation"] ∧
    (Told (modifyE S p t) "A trade must have same pair as the position" ↔ t.pair ≠ p.pair) ∧
    OneOf (modifyE S p t) ["A trade must have same pair as the position"] := by
  refine ⟨?_, ?_, ?_, ?_, ?_, ?_, ?_, ?_, ?_, ?_⟩
  · unfold Trade.updateE; rw [told_tell]
    cases i with
    | tradePtr x => cases x <;> simp [Trade.update, AnyVal.asTrade]
    | _ => simp [Trade.update, AnyVal.asTrade, EzErr.message]
  · intro e v h; obtain ⟨c, -, rfl⟩ := tell_err h; exact ⟨_, by simp, rfl⟩
  · unfold Order.updateE; rw [told_tell]
    cases i with
    | orderPtr x => cases x <;> simp [Order.update, AnyVal.asOrder]
    | _ => simp [Order.update, AnyVal.asOrder, EzErr.message]
  · intro e v h; obtain ⟨c, -, rfl⟩ := tell_err h; exact ⟨_, by simp, rfl⟩
  · unfold Position.updateE; rw [told_tell]
    cases i with
    | positionPtr x => cases x <;> simp [Position.update, AnyVal.asPosition]
    | _ => simp [Position.update, AnyVal.asPosition, EzErr.message]
  · intro e v h; obtain ⟨c, -, rfl⟩ := tell_err h; exact ⟨_, by simp, rfl⟩
  · unfold Annotation.updateE; rw [told_tell]
    cases i with
    | annotationPtr x => cases x <;> simp [Annotation.update, AnyVal.asAnnotation]
    | _ => simp [Annotation.update, AnyVal.asAnnotation, EzErr.message]
  · intro e v h; obtain ⟨c, -, rfl⟩ := tell_err h; exact ⟨_, by simp, rfl⟩
  · unfold modifyE; rw [told_tell]
    unfold modify
    constructor
    · rintro ⟨c, v, h, -⟩
      split_ifs at h with h1
      exact fun he => h1 he.symm
    · intro h; exact ⟨_, _, if_pos (fun he => h he.symm), rfl⟩
  · intro e v h; obtain ⟨c, -, rfl⟩ := tell_err h; exact ⟨_, by simp, rfl⟩

theorem begins_iff (minute : Int → Int) (mi : Int) (c : Candle) :
    isAligned minute mi c = true ↔ Begins mi (minute c.time) := by
  unfold isAligned Begins modMinutes imod
  simp only [Bool.or_eq_true, beq_iff_eq, exists_eq_left, gt_iff_lt]
  exact or_comm

/-- `ModifyInterval`: the interval of one minute, the interval that is no multiple of the gap, and no candle to begin
with; otherwise the volumes, whose error is not of this code. -/
theorem C191_modifyInterval (minute : Int → Int) (cs : List Candle) (mi : Int) :
    (Told (modifyIntervalE S minute cs mi) "No 1 minute interval exists" ↔
      ∃ c0 c1 rest, cs = c0 :: c1 :: rest ∧ gap c0 c1 ≠ 1 ∧ mi = 1) ∧
    (∀ m, (∃ g, m = refusal mi g) → (Told (modifyIntervalE S minute cs mi) m ↔
      ∃ c0 c1 rest, cs = c0 :: c1 :: rest ∧ ¬ (gap c0 c1 ≠ 1 ∧ mi = 1) ∧ gap c0 c1 ≠ 0 ∧ mi.tmod (gap c0 c1) ≠ 0 ∧
        m = refusal mi (gap c0 c1))) ∧
    (Told (modifyIntervalE S minute cs mi) "Could not find the initial candle" ↔
      ∃ c0 c1 rest, cs = c0 :: c1 :: rest ∧ ¬ (gap c0 c1 ≠ 1 ∧ mi = 1) ∧ gap c0 c1 ≠ 0 ∧ mi.tmod (gap c0 c1) = 0 ∧
        ∀ c ∈ cs, ¬ Begins mi (minute c.time)) ∧
    (∀ e v, modifyIntervalE S minute cs mi = .err e v → e.cause = some .volume ∨ e.message = some "No 1 minute interval exists" ∨
      (∃ g, e.message = some (refusal mi g)) ∨ e.message = some "Could not find the initial candle") := by
  have sh : ∀ m g, refusal m g = "The retrieved candles cannot be modified to the " ++ String.ofList (fmtInt m) ++
      " minutes timeframe, the delta between candles is " ++ String.ofList (fmtInt g) ++ " minutes" := by
    intro m g; rw [toString_int, toString_int]; rfl
  have r1 : ∀ m g, refusal m g ≠ "No 1 minute interval exists" := fun m g => (refusal_ne m g).1
  have r2 : ∀ m g, refusal m g ≠ "Could not find the initial candle" := fun m g => (refusal_ne m g).2
  have run1 : ∀ {c0 c1 : Candle} {rest : List Candle}, gap c0 c1 ≠ 1 → mi = 1 →
      modifyIntervalE S minute (c0 :: c1 :: rest) mi =
        .err (.new "market.ModifyInterval" .econflict "No 1 minute interval exists") [] := by
    intro c0 c1 rest a b
    have : idiv (wrap64 (c1.time - c0.time)) 60 ≠ 1 := a
    simp [modifyIntervalE, this, b]
  have run2 : ∀ {c0 c1 : Candle} {rest : List Candle}, ¬ (gap c0 c1 ≠ 1 ∧ mi = 1) → gap c0 c1 ≠ 0 → mi.tmod (gap c0 c1) ≠ 0 →
      modifyIntervalE S minute (c0 :: c1 :: rest) mi =
        .err (.new "market.ModifyInterval" .econflict (refusal mi (gap c0 c1))) [] := by
    intro c0 c1 rest a b c
    have a' : ¬ (idiv (wrap64 (c1.time - c0.time)) 60 ≠ 1 ∧ mi = 1) := a
    have b' : idiv (wrap64 (c1.time - c0.time)) 60 ≠ 0 := b
    have c' : imod mi (idiv (wrap64 (c1.time - c0.time)) 60) ≠ 0 := c
    unfold modifyIntervalE
    rw [if_neg (by simp)]
    simp only
    rw [if_neg a', if_neg b', if_pos c', sh]
    rfl
  have run3 : ∀ {c0 c1 : Candle} {rest : List Candle}, ¬ (gap c0 c1 ≠ 1 ∧ mi = 1) → gap c0 c1 ≠ 0 → mi.tmod (gap c0 c1) = 0 →
      (∀ c ∈ c0 :: c1 :: rest, ¬ Begins mi (minute c.time)) →
      modifyIntervalE S minute (c0 :: c1 :: rest) mi = .err (.wrap "market.ModifyInterval"
            (.new "market.findFirstCandle" .einvalid "Could not find the initial candle")) [] := by
    intro c0 c1 rest a b c d
    have a' : ¬ (idiv (wrap64 (c1.time - c0.time)) 60 ≠ 1 ∧ mi = 1) := a
    have b' : idiv (wrap64 (c1.time - c0.time)) 60 ≠ 0 := b
    have c' : ¬ imod mi (idiv (wrap64 (c1.time - c0.time)) 60) ≠ 0 := not_not.2 c
    have hn : (c0 :: c1 :: rest).findIdx? (isAligned minute mi) = none := by
      rw [List.findIdx?_eq_none_iff]
      intro x hx
      rw [← Bool.not_eq_true, begins_iff]; exact d x hx
    unfold modifyIntervalE
    rw [if_neg (by simp)]
    simp only
    rw [if_neg a', if_neg b', if_neg c']
    simp only [findFirstIndex, hn]
  refine ⟨⟨?_, ?_⟩, ?_, ⟨?_, ?_⟩, ?_⟩
  · rintro ⟨e, v, he, hm⟩
    obtain ⟨-, c0, c1, rest, hc, h⟩ := modifyIntervalE_err he
    refine ⟨c0, c1, rest, hc, ?_⟩
    rcases h with ⟨a, b, -⟩ | ⟨-, -, ⟨-, rfl⟩ | ⟨-, ⟨-, rfl⟩ | ⟨-, rfl⟩⟩⟩
    · exact ⟨a, b⟩
    · rw [← sh] at hm; exact absurd (Option.some.inj hm) (r1 _ _)
    · simp [EzErr.message] at hm
    · simp [EzErr.message] at hm
  · rintro ⟨c0, c1, rest, rfl, a, b⟩; exact ⟨_, _, run1 a b, rfl⟩
  · rintro m ⟨g, rfl⟩
    constructor
    · rintro ⟨e, v, he, hm⟩
      obtain ⟨-, c0, c1, rest, hc, h⟩ := modifyIntervalE_err he
      refine ⟨c0, c1, rest, hc, ?_⟩
      rcases h with ⟨-, -, rfl⟩ | ⟨a, b, ⟨c, rfl⟩ | ⟨-, ⟨-, rfl⟩ | ⟨-, rfl⟩⟩⟩
      · exact absurd (Option.some.inj hm).symm (r1 _ _)
      · rw [← sh] at hm; exact ⟨a, b, c, (Option.some.inj hm).symm⟩
      · exact absurd (Option.some.inj hm).symm (r2 _ _)
      · simp [EzErr.message] at hm
    · rintro ⟨c0, c1, rest, rfl, a, b, c, h⟩
      rw [h]; exact ⟨_, _, run2 a b c, rfl⟩
  · rintro ⟨e, v, he, hm⟩
    obtain ⟨-, c0, c1, rest, hc, h⟩ := modifyIntervalE_err he
    refine ⟨c0, c1, rest, hc, ?_⟩
    rcases h with ⟨-, -, rfl⟩ | ⟨a, b, ⟨c, rfl⟩ | ⟨c, ⟨d, rfl⟩ | ⟨-, rfl⟩⟩⟩
    · simp [EzErr.message] at hm
    · rw [← sh] at hm; exact absurd (Option.some.inj hm) (r2 _ _)
    · exact ⟨a, b, c, fun x hx => by rw [← begins_iff, Bool.not_eq_true]; exact d x hx⟩
    · simp [EzErr.message] at hm
  · rintro ⟨c0, c1, rest, rfl, a, b, c, d⟩; exact ⟨_, _, run3 a b c d, rfl⟩
  · intro e v he
    obtain ⟨-, c0, c1, rest, hc, h⟩ := modifyIntervalE_err he
    rcases h with ⟨-, -, rfl⟩ | ⟨a, b, ⟨c, rfl⟩ | ⟨c, ⟨d, rfl⟩ | ⟨-, rfl⟩⟩⟩
    · exact .inr (.inl rfl)
    · rw [← sh]; exact .inr (.inr (.inl ⟨_, rfl⟩))
    · exact .inr (.inr (.inr rfl))
    · exact .inl rfl

/-- Before the first space both sides are the same. -/
theorem word_inj {a b x y : List Char} (ha : ' ' ∉ a) (hb : ' ' ∉ b) (h : a ++ ' ' :: x = b ++ ' ' :: y) : a = b ∧ x = y := by
  induction a generalizing b with
  | nil =>
    cases b with
    | nil => exact ⟨rfl, by simpa using h⟩
    | cons c b => simp only [List.nil_append, List.cons_append, List.cons.injEq] at h; exact absurd (h.1 ▸ List.mem_cons_self) hb
  | cons d a ih =>
    cases b with
    | nil => simp only [List.nil_append, List.cons_append, List.cons.injEq] at h; exact absurd (h.1 ▸ List.mem_cons_self) ha
    | cons c b =>
      simp only [List.cons_append, List.cons.injEq] at h
      obtain ⟨rfl, h⟩ := h
      obtain ⟨rfl, rfl⟩ := ih (fun q => ha (by simp [q])) (fun q => hb (by simp [q])) h
      exact ⟨rfl, rfl⟩

theorem fmtInt_noSpace (n : Int) : ' ' ∉ fmtInt n := fun h => (plain_fmtInt n _ h).1 rfl

theorem fmtInt_back {m n : Int} (h : fmtInt m = fmtInt n) : m = n := by
  have key : ∀ k : Int, k.natAbs ≤ m.natAbs + n.natAbs → parseInt (m.natAbs + n.natAbs + 1) (fmtInt k) = some k := by
    intro k hk
    have : m.natAbs + n.natAbs < 2 ^ (m.natAbs + n.natAbs) := Nat.lt_two_pow_self
    have h2 : ((k.natAbs : Nat) : Int) < 2 ^ (m.natAbs + n.natAbs) := by exact_mod_cast lt_of_le_of_lt hk this
    apply parseInt_fmtInt <;> simp only [Nat.add_sub_cancel] <;> omega
  have := key m (by omega)
  rw [h, key n (by omega)] at this
  exact (Option.some.inj this).symm

/-- **C192**: the message of a refused interval determines the interval asked for and the gap between the candles. -/
theorem C192_numbers_back {m g m' g' : Int} (h : refusal m g = refusal m' g') : m = m' ∧ g = g' := by
  have h := congrArg String.toList h
  rw [refusal_chars, refusal_chars] at h
  have q : " minutes timeframe, the delta between candles is ".toList = ' ' :: "minutes timeframe, the delta between candles is ".toList := by
    decide +kernel
  have r : " minutes".toList = ' ' :: "minutes".toList := by decide +kernel
  simp only [List.append_assoc, List.append_cancel_left_eq] at h
  rw [q, r] at h
  simp only [List.cons_append] at h
  obtain ⟨h1, h2⟩ := word_inj (fmtInt_noSpace _) (fmtInt_noSpace _) h
  rw [List.append_cancel_left_eq] at h2
  obtain ⟨h3, -⟩ := word_inj (fmtInt_noSpace _) (fmtInt_noSpace _) h2
  exact ⟨fmtInt_back h1, fmtInt_back h3⟩

/-- **C192**, of two refused calls. -/
theorem C192_same_refusal {minute minute' : Int → Int} {c0 c1 d0 d1 : Candle} {cs ds : List Candle} {mi mi' : Int} {m : String}
    (h : Told (modifyIntervalE S minute (c0 :: c1 :: cs) mi) m) (h' : Told (modifyIntervalE S minute' (d0 :: d1 :: ds) mi') m)
    (hm : ∃ a b, m = refusal a b) : mi = mi' ∧ gap c0 c1 = gap d0 d1 := by
  obtain ⟨a, b, rfl⟩ := hm
  have one : ∀ {minute : Int → Int} {c0 c1 : Candle} {cs : List Candle} {mi : Int},
      Told (modifyIntervalE S minute (c0 :: c1 :: cs) mi) (refusal a b) → refusal a b = refusal mi (gap c0 c1) := by
    intro minute c0 c1 cs mi h
    obtain ⟨e, v, he, hm⟩ := id h
    obtain ⟨-, k2, -, k4⟩ := C191_modifyInterval (S := S) minute (c0 :: c1 :: cs) mi
    have first : ∃ g, refusal a b = refusal mi g := by
      rcases k4 e v he with k | k | ⟨g, k⟩ | k
      · exfalso
        have : ∀ e : EzErr, e.cause = some .volume → e.message = none := by
          intro e; induction e with
          | new => intro h; cases h
          | wrap op e ih => exact ih
          | foreign => intro _; rfl
        rw [this e k] at hm; cases hm
      · rw [k] at hm; exact absurd (Option.some.inj hm).symm (refusal_ne a b).1
      · rw [k] at hm; exact ⟨g, (Option.some.inj hm).symm⟩
      · rw [k] at hm; exact absurd (Option.some.inj hm).symm (refusal_ne a b).2
    obtain ⟨x0, x1, xs, hx, -, -, -, hr⟩ := (k2 _ first).1 h
    simp only [List.cons.injEq] at hx
    obtain ⟨rfl, rfl, -⟩ := hx
    exact hr
  obtain ⟨rfl, e2⟩ := C192_numbers_back (one h)
  obtain ⟨rfl, e4⟩ := C192_numbers_back (one h')
  exact ⟨rfl, by rw [← e2, ← e4]⟩

theorem floatFieldE_refused {f : List (List Char)} {i j : Nat} {w : List Char} {k : Fl → ParsedE} {P : Prop} (hi : i ≠ 0)
    (hk : ∀ x, k x = .refused j w ↔ P) :
    floatFieldE S f i k = .refused j w ↔ (j = i ∧ f[i]? = some w ∧ ¬ Readable S i w) ∨
      ((∃ s, f[i]? = some s ∧ Readable S i s) ∧ P) := by
  unfold floatFieldE Readable
  simp only [hi, if_false]
  cases h : f[i]? with
  | none => simp
  | some s =>
    cases h2 : parseFloat S s with
    | none =>
      simp only [ParsedE.refused.injEq, Option.some.injEq, exists_eq_left', h2, Option.isSome_none, Bool.false_eq_true, false_and,
        or_false]
      constructor
      · rintro ⟨rfl, rfl⟩; exact ⟨rfl, rfl, by simp [h2]⟩
      · rintro ⟨rfl, rfl, -⟩; exact ⟨rfl, rfl⟩
    | some x =>
      simp only [hk, Option.some.injEq, exists_eq_left', h2, Option.isSome_some, true_and]
      constructor
      · exact .inr
      · rintro (⟨-, rfl, h3⟩ | h3)
        · rw [h2] at h3; exact absurd rfl h3
        · exact h3

theorem timeFieldE_refused {f : List (List Char)} {j : Nat} {w : List Char} {k : Int → ParsedE} {P : Prop}
    (hk : ∀ x, k x = .refused j w ↔ P) :
    timeFieldE f k = .refused j w ↔ (j = 0 ∧ f[0]? = some w ∧ ¬ Readable S 0 w) ∨
      ((∃ s, f[0]? = some s ∧ Readable S 0 s) ∧ P) := by
  unfold timeFieldE Readable
  simp only [if_true]
  cases h : f[0]? with
  | none => simp
  | some s =>
    cases h2 : parseInt 32 s with
    | none =>
      simp only [ParsedE.refused.injEq, Option.some.injEq, exists_eq_left', h2, Option.isSome_none, Bool.false_eq_true, false_and,
        or_false]
      constructor
      · rintro ⟨rfl, rfl⟩; exact ⟨rfl, rfl, by simp [h2]⟩
      · rintro ⟨rfl, rfl, -⟩; exact ⟨rfl, rfl⟩
    | some x =>
      simp only [hk, Option.some.injEq, exists_eq_left', h2, Option.isSome_some, true_and]
      constructor
      · exact .inr
      · rintro (⟨-, rfl, h3⟩ | h3)
        · rw [h2] at h3; exact absurd rfl h3
        · exact h3

theorem parseLineE_refused (text : List Char) (j : Nat) (w : List Char) : parseLineE S text = .refused j w ↔
    2 ≤ text.length ∧ j < 6 ∧ (fields text)[j]? = some w ∧ ¬ Readable S j w ∧
      ∀ i < j, ∃ s, (fields text)[i]? = some s ∧ Readable S i s := by
  unfold parseLineE
  by_cases hl : text.length < 2
  · simp [hl]
  simp only [hl, if_false, splitSp_fields]
  generalize fields text = f
  rw [timeFieldE_refused (S := S) fun t => floatFieldE_refused (by omega) fun o => floatFieldE_refused (by omega) fun h =>
    floatFieldE_refused (by omega) fun l => floatFieldE_refused (by omega) fun c => floatFieldE_refused (by omega)
    (P := False) fun v => by simp]
  constructor
  · rintro (⟨rfl, h, h'⟩ | ⟨g0, ⟨rfl, h, h'⟩ | ⟨g1, ⟨rfl, h, h'⟩ | ⟨g2, ⟨rfl, h, h'⟩ | ⟨g3, ⟨rfl, h, h'⟩ |
      ⟨g4, ⟨rfl, h, h'⟩ | ⟨-, h⟩⟩⟩⟩⟩⟩)
    all_goals first | exact h.elim | skip
    all_goals refine ⟨by omega, by omega, h, h', fun i hi => ?_⟩
    · omega
    · interval_cases i; exact g0
    · interval_cases i; exacts [g0, g1]
    · interval_cases i; exacts [g0, g1, g2]
    · interval_cases i; exacts [g0, g1, g2, g3]
    · interval_cases i; exacts [g0, g1, g2, g3, g4]
  · rintro ⟨-, hj, h, h', g⟩
    interval_cases j
    · exact .inl ⟨rfl, h, h'⟩
    · exact .inr ⟨g 0 (by omega), .inl ⟨rfl, h, h'⟩⟩
    · exact .inr ⟨g 0 (by omega), .inr ⟨g 1 (by omega), .inl ⟨rfl, h, h'⟩⟩⟩
    · exact .inr ⟨g 0 (by omega), .inr ⟨g 1 (by omega), .inr ⟨g 2 (by omega), .inl ⟨rfl, h, h'⟩⟩⟩⟩
    · exact .inr ⟨g 0 (by omega), .inr ⟨g 1 (by omega), .inr ⟨g 2 (by omega), .inr ⟨g 3 (by omega), .inl ⟨rfl, h, h'⟩⟩⟩⟩⟩
    · exact .inr ⟨g 0 (by omega), .inr ⟨g 1 (by omega), .inr ⟨g 2 (by omega), .inr ⟨g 3 (by omega), .inr ⟨g 4 (by omega),
        .inl ⟨rfl, h, h'⟩⟩⟩⟩⟩⟩

/-- **C191.** The errors without a message of their own: which error of another package they wrap. A file that cannot
be created or opened, a location that is not known, a text that is not a date. -/
theorem C191_system :
    (∀ pick eprec created accept old cs, (∃ e v, (saveCandlesE pick eprec created accept old cs).1 = .err e v) ↔ created = false) ∧
    (∀ pick eprec created accept old cs e v, (saveCandlesE pick eprec created accept old cs).1 = .err e v →
      e.message = none ∧ e.cause = some .create) ∧
    (∀ e v, loadCandlesE S none = .err e v ↔ e = .foreign "market.loadCandlesFromFile" .openFile ∧ v = []) ∧
    (∀ bytes e v, loadCandlesE S (some bytes) = .err e v → e.message = none ∧ ∃ i w, e.cause = some (.field i w)) ∧
    (∀ zones (t : Tick) l e v, t.getLocationTimeE zones l = .err e v → e.message = none ∧ e.cause = some .location) ∧
    (∀ d e v, rawDateToRFC3339E d = .err e v → e.message = none ∧ e.cause = some .date) ∧
    (∀ minute cs mi e v, modifyIntervalE S minute cs mi = .err e v → (e.message = none ↔ e.cause = some .volume)) := by
  refine ⟨?_, ?_, ?_, ?_, ?_, ?_, ?_⟩
  · intro pick eprec created accept old cs
    unfold saveCandlesE
    cases created <;> simp
  · intro pick eprec created accept old cs e v h
    unfold saveCandlesE at h
    cases created
    · simp only [Bool.false_eq_true, if_false, Out.err.injEq] at h
      rw [← h.1]; exact ⟨rfl, rfl⟩
    · simp at h
  · intro e v
    unfold loadCandlesE
    simp only [Out.err.injEq]
    constructor
    · rintro ⟨rfl, rfl⟩; exact ⟨rfl, rfl⟩
    · rintro ⟨rfl, rfl⟩; exact ⟨rfl, rfl⟩
  · intro bytes e v h
    have key : ∀ (ls : List (List Char)) (acc : List Candle), loadLoopE S acc ls = .err e v →
        e.message = none ∧ ∃ i w, e.cause = some (.field i w) := by
      intro ls
      induction ls with
      | nil => intro acc h; cases h
      | cons l ls ih =>
        intro acc h
        unfold loadLoopE at h
        split_ifs at h
        split at h
        · exact ih _ h
        · simp only [Out.err.injEq] at h; rw [← h.1]; exact ⟨rfl, _, _, rfl⟩
        · cases h
    exact key _ _ h
  · intro zones t l e v h
    obtain ⟨c, -, rfl⟩ := tell_err h; exact ⟨rfl, rfl⟩
  · intro d e v h
    obtain ⟨c, -, rfl⟩ := tell_err h; exact ⟨rfl, rfl⟩
  · intro minute cs mi e v h
    obtain ⟨-, c0, c1, rest, -, h⟩ := modifyIntervalE_err h
    rcases h with ⟨-, -, rfl⟩ | ⟨-, -, ⟨-, rfl⟩ | ⟨-, ⟨-, rfl⟩ | ⟨-, rfl⟩⟩⟩ <;>
      simp [EzErr.message, EzErr.cause]

/-- **C193**: a file is refused exactly for the first word, among the six of a line, that cannot be read, all lines before it
being candles and none up to it over-long; the error wraps the complaint about that very word. -/
theorem C193_refused_word (bytes : List Char) (e : EzErr) (v : List Candle) :
    loadCandlesE S (some bytes) = .err e v ↔ v = [] ∧
      ∃ (n : Nat) (l : List Char) (k : Nat) (w : List Char), (lines bytes)[n]? = some l ∧ l.length ≤ 65535 ∧
        (∀ (m : Nat) (l' : List Char), m < n → (lines bytes)[m]? = some l' →
          l'.length ≤ 65535 ∧ ∃ c, Spells S (trimmed l') c) ∧
        2 ≤ (trimmed l).length ∧ k < 6 ∧ (fields (trimmed l))[k]? = some w ∧ ¬ Readable S k w ∧
        (∀ i < k, ∃ s, (fields (trimmed l))[i]? = some s ∧ Readable S i s) ∧ e.cause = some (.field k w) ∧
        e.trail = ["market.loadCandlesFromFile"] := by
  simp only [loadCandlesE, rawLines_lines]
  generalize lines bytes = ls
  suffices gen : ∀ (ls : List (List Char)) (acc : List Candle), loadLoopE S acc ls = .err e v ↔ v = [] ∧
      ∃ (n : Nat) (l : List Char) (k : Nat) (w : List Char), ls[n]? = some l ∧ l.length ≤ 65535 ∧
        (∀ (m : Nat) (l' : List Char), m < n → ls[m]? = some l' → l'.length ≤ 65535 ∧ ∃ c, Spells S (trimmed l') c) ∧
        parseLineE S (trimmed l) = .refused k w ∧ e = .foreign "market.loadCandlesFromFile" (.field k w) by
    rw [gen]
    refine and_congr_right fun _ => exists_congr fun n => exists_congr fun l => exists_congr fun k => exists_congr fun w => ?_
    rw [parseLineE_refused]
    constructor
    · rintro ⟨h1, h2, h3, ⟨h4, h5, h6, h7, h8⟩, rfl⟩
      exact ⟨h1, h2, h3, h4, h5, h6, h7, h8, rfl, rfl⟩
    · rintro ⟨h1, h2, h3, h4, h5, h6, h7, h8, h9, h10⟩
      refine ⟨h1, h2, h3, ⟨h4, h5, h6, h7, h8⟩, ?_⟩
      cases e with
      | new => cases h9
      | wrap op e =>
        cases e <;> simp [EzErr.trail] at h10
      | foreign op c => simp only [EzErr.cause, Option.some.injEq, EzErr.trail, List.cons.injEq, and_true] at h9 h10; rw [h9, h10]
  intro ls
  induction ls with
  | nil => intro acc; simp [loadLoopE]
  | cons l ls ih =>
    intro acc
    have ht : dropCR l = trimmed l := rfl
    by_cases h1 : 65535 < l.length
    · simp only [loadLoopE, h1, if_true, reduceCtorEq, false_iff]
      rintro ⟨-, n, l0, k, w, e0, h2, h3, -⟩
      cases n with
      | zero => simp only [List.getElem?_cons_zero, Option.some.injEq] at e0; subst e0; omega
      | succ n => have := (h3 0 l (by omega) (by simp)).1; omega
    · simp only [loadLoopE, h1, if_false, ht]
      have hpl := parseLineE_plain (S := S) (trimmed l)
      cases hp : parseLineE S (trimmed l) with
      | candle c =>
        rw [hp] at hpl
        have hs := (parseLine_candle _ _).1 hpl.symm
        simp only
        rw [ih]
        refine and_congr_right fun _ => ?_
        constructor
        · rintro ⟨n, l0, k, w, e0, h2, h3, h4⟩
          refine ⟨n + 1, l0, k, w, by simpa using e0, h2, ?_, h4⟩
          intro m l' hm e'
          cases m with
          | zero =>
            simp only [List.getElem?_cons_zero, Option.some.injEq] at e'; subst e'
            exact ⟨by omega, c, hs⟩
          | succ m => exact h3 m l' (by omega) (by simpa using e')
        · rintro ⟨n, l0, k, w, e0, h2, h3, h4⟩
          cases n with
          | zero =>
            simp only [List.getElem?_cons_zero, Option.some.injEq] at e0; subst e0
            rw [hp] at h4; cases h4.1
          | succ n =>
            exact ⟨n, l0, k, w, by simpa using e0, h2, fun m l' hm e' => h3 (m + 1) l' (by omega) (by simpa using e'), h4⟩
      | refused k w =>
        rw [hp] at hpl
        simp only [Out.err.injEq]
        constructor
        · rintro ⟨rfl, rfl⟩
          exact ⟨rfl, 0, l, k, w, rfl, by omega, fun m l' hm => by omega, hp, rfl⟩
        · rintro ⟨rfl, n, l0, k', w', e0, h2, h3, h4, rfl⟩
          cases n with
          | zero =>
            simp only [List.getElem?_cons_zero, Option.some.injEq] at e0; subst e0
            rw [hp] at h4; cases h4; exact ⟨rfl, rfl⟩
          | succ n =>
            obtain ⟨-, c, hc⟩ := h3 0 l (by omega) (by simp)
            have := (parseLine_candle _ _).2 hc
            rw [← hpl] at this; cases this
      | panics =>
        rw [hp] at hpl
        simp only [reduceCtorEq, false_iff]
        rintro ⟨-, n, l0, k', w', e0, h2, h3, h4, -⟩
        cases n with
        | zero =>
          simp only [List.getElem?_cons_zero, Option.some.injEq] at e0; subst e0
          rw [hp] at h4; cases h4
        | succ n =>
          obtain ⟨-, c, hc⟩ := h3 0 l (by omega) (by simp)
          have := (parseLine_candle _ _).2 hc
          rw [← hpl] at this; cases this

/-! ### Examples -/

example : Told (newOrderRequestE ⟨⟨"Bitcoin", "BTC", ""⟩, ⟨"Dollar", "USD", ""⟩⟩ "buy" "limit" (.fin 1) .negZero (.fin 0))
    "LimitOrders must have a priced defined" :=
  (C191_newOrderRequest _ _ _ _ _ _).2.2.1.2 ⟨by decide +kernel, by decide +kernel, rfl, .inr rfl⟩

example : Told (Book.applyUpdateE ⟨0, [], [], 0⟩ ⟨.fin 1, .fin 1, "Ask"⟩) "update side must be ask or bid" :=
  (C191_books (S := FloatSem.exact) _ ⟨0, [], [], 0⟩ _ (.fin 1)).1.2 ⟨by decide +kernel, by decide +kernel⟩

/-- Five-minute candles and an interval of seven. -/
example (a b : Candle) (ha : a.time = 0) (hb : b.time = 300) : Told (modifyIntervalE S (fun t => t / 60 % 60) [a, b] 7)
    ("The retrieved candles cannot be modified to the 7 minutes timeframe, the delta between candles is 5 minutes") := by
  have e : gap a b = 5 := by rw [gap, ha, hb]; decide +kernel
  have : "The retrieved candles cannot be modified to the 7 minutes timeframe, the delta between candles is 5 minutes" = refusal 7 5 := by
    decide +kernel
  rw [this]
  refine ((C191_modifyInterval (S := S) _ _ _).2.1 _ ⟨5, rfl⟩).2 ⟨a, b, [], rfl, ?_, ?_, ?_, ?_⟩ <;> rw [e] <;> decide +kernel

example : refusal 7 5 ≠ refusal 75 5 ∧ refusal 1 11 ≠ refusal 11 1 :=
  ⟨fun h => absurd (C192_numbers_back h).1 (by decide), fun h => absurd (C192_numbers_back h).1 (by decide)⟩

/-- The second word of the second line. -/
example : loadCandlesE ieee (some "{1 2 3 4 5 6}\n{7 x 9 y 11 12}\n".toList) =
    .err (.foreign "market.loadCandlesFromFile" (.field 1 ['x'])) [] := by decide +kernel

end Finmod
