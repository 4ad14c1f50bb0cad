import Verif.Lemmas.Errors
import Verif.Props.CandleFile

/-!
# What an error says: C190–C193
-/

namespace Finmod.Spec
open Go

variable {α : Type}

/-- What stands behind the last dot. -/
def lastPart (s : String) : List Char := (s.toList.reverse.takeWhile (· ≠ '.')).reverse

/-- Whenever the call gives an error, its operation has the name of the function called. -/
def Named (name : String) (r : Out α) : Prop := ∀ e v, r = .err e v → lastPart e.op = name.toList

/-- The call gives an error with this message. -/
def Told (r : Out α) (m : String) : Prop := ∃ e v, r = .err e v ∧ e.message = some m

/-- Every error of the call has one of these messages. -/
def OneOf (r : Out α) (ms : List String) : Prop := ∀ e v, r = .err e v → ∃ m ∈ ms, e.message = some m

/-- **C190, the full claim**: the operation of an error names the function called. -/
def C190_claim : Prop :=
  (∀ S cs p, Named "MovingAverage" (movingAverageE S cs p)) ∧
  (∀ S cs p, Named "ExponentialMovingAverage" (exponentialMovingAverageE S cs p)) ∧
  (∀ S cs p, Named "SmoothedMovingAverage" (smoothedMovingAverageE S cs p)) ∧
  (∀ S cs spare p, Named "RSI" (RSIE S cs spare p)) ∧
  (∀ S minute cs mi, Named "ModifyInterval" (modifyIntervalE S minute cs mi)) ∧
  (∀ pick eprec created accept old cs, Named "SaveCandlesToFile" (saveCandlesE pick eprec created accept old cs).1) ∧
  (∀ S file, Named "LoadCandlesFromFile" (loadCandlesE S file)) ∧
  (∀ (b : Book) u, Named "ApplyUpdate" (b.applyUpdateE u)) ∧
  (∀ (b : Book) p, Named "GetDepth" (b.getDepthE p)) ∧
  (∀ S a b, Named "CalculateOverlap" (calculateOverlapE S a b)) ∧
  (∀ s n, Named "NewAsset" (newAssetE s n)) ∧
  (∀ s, Named "NewCryptoAsset" (newCryptoAssetE s)) ∧
  (∀ s, Named "NewForexAsset" (newForexAssetE s)) ∧
  (∀ s, Named "NewStockAsset" (newStockAssetE s)) ∧
  (∀ p a t q x y, Named "NewOrderRequest" (newOrderRequestE p a t q x y)) ∧
  (∀ S o x, Named "CalculateFields" (calculateFieldsE S o x)) ∧
  (∀ (t : Trade) i, Named "Update" (t.updateE i)) ∧ (∀ (o : Order) i, Named "Update" (o.updateE i)) ∧
  (∀ (p : Position) i, Named "Update" (p.updateE i)) ∧ (∀ (a : Annotation) i, Named "Update" (a.updateE i)) ∧
  (∀ S p t, Named "Modify" (modifyE S p t)) ∧
  (∀ zones (t : Tick) l, Named "GetLocationTime" (t.getLocationTimeE zones l)) ∧
  (∀ d, Named "RawDateToRFC3339" (rawDateToRFC3339E d))

end Finmod.Spec

namespace Finmod
open Go Spec

variable {α : Type} {S : FloatSem}

theorem named_of_op {r : Out α} {op name : String} (hn : lastPart op = name.toList) (h : ∀ e v, r = .err e v → e.op = op) :
    Named name r := by
  intro e v he; rw [h e v he]; exact hn

theorem named_tell {f : ErrCode → EzErr} {r : Res α} {op name : String} (hn : lastPart op = name.toList)
    (h : ∀ c, (f c).op = op) : Named name (r.tell f) :=
  named_of_op hn fun e v he => by obtain ⟨c, -, rfl⟩ := tell_err he; exact h c

theorem averages_op : (∀ cs p e v, movingAverageE S cs p = .err e v → e.op = "indicators.MovingAverage") ∧
    (∀ cs p e v, exponentialMovingAverageE S cs p = .err e v → e.op = "indicators.ExponentialMovingAverage") ∧
    (∀ cs p e v, smoothedMovingAverageE S cs p = .err e v → e.op = "indicators.SmoothedMovingAverage") ∧
    (∀ cs spare p e v, RSIE S cs spare p = .err e v → e.op = "movingAverage") := by
  refine ⟨?_, ?_, ?_, ?_⟩
  · intro cs p e v h
    rcases (movingAverageE_err.1 h).2 with ⟨-, rfl⟩ | ⟨_, -, ⟨-, rfl⟩ | ⟨-, rfl⟩⟩ <;> rfl
  · intro cs p e v h
    rcases (exponentialMovingAverageE_err.1 h).2 with ⟨-, rfl⟩ | ⟨_, -, ⟨-, rfl⟩ | ⟨-, rfl⟩⟩ <;> rfl
  · intro cs p e v h
    rcases (smoothedMovingAverageE_err.1 h).2 with ⟨-, rfl⟩ | ⟨_, -, ⟨-, rfl⟩ | ⟨-, rfl⟩⟩ <;> rfl
  · intro cs spare p e v h
    rcases (RSIE_err.1 h).2 with ⟨-, rfl⟩ | ⟨_, -, -, rfl⟩ <;> rfl

/-- The three errors of `ModifyInterval` with messages of this code, or an added-up volume that cannot be
read. -/
theorem modifyIntervalE_err {minute : Int → Int} {cs : List Candle} {mi : Int} {e : EzErr} {v : List Candle}
    (h : modifyIntervalE S minute cs mi = .err e v) : v = [] ∧ ∃ c0 c1 rest, cs = c0 :: c1 :: rest ∧
      (idiv (wrap64 (c1.time - c0.time)) 60 ≠ 1 ∧ mi = 1 ∧
        e = .new "market.ModifyInterval" .econflict "No 1 minute interval exists" ∨
       ¬ (idiv (wrap64 (c1.time - c0.time)) 60 ≠ 1 ∧ mi = 1) ∧ idiv (wrap64 (c1.time - c0.time)) 60 ≠ 0 ∧
       (imod mi (idiv (wrap64 (c1.time - c0.time)) 60) ≠ 0 ∧
        e = .new "market.ModifyInterval" .econflict
          ("The retrieved candles cannot be modified to the " ++ String.ofList (fmtInt mi) ++
            " minutes timeframe, the delta between candles is " ++
            String.ofList (fmtInt (idiv (wrap64 (c1.time - c0.time)) 60)) ++ " minutes") ∨
        imod mi (idiv (wrap64 (c1.time - c0.time)) 60) = 0 ∧
        ((∀ c ∈ cs, isAligned minute mi c = false) ∧ e = .wrap "market.ModifyInterval"
            (.new "market.findFirstCandle" .einvalid "Could not find the initial candle") ∨
         (∃ c ∈ cs, isAligned minute mi c = true) ∧ e = .foreign "candle.CompressCandle" .volume))) := by
  unfold modifyIntervalE at h
  split_ifs at h with h1
  rcases cs with _ | ⟨c0, _ | ⟨c1, rest⟩⟩
  · cases h
  · cases h
  simp only at h
  split_ifs at h with h2 h3 h4
  · simp only [Out.err.injEq] at h
    exact ⟨h.2.symm, c0, c1, rest, rfl, .inl ⟨h2.1, h2.2, h.1.symm⟩⟩
  · simp only [Out.err.injEq] at h
    exact ⟨h.2.symm, c0, c1, rest, rfl, .inr ⟨h2, h3, .inl ⟨h4, h.1.symm⟩⟩⟩
  · have h4 : imod mi (idiv (wrap64 (c1.time - c0.time)) 60) = 0 := not_not.1 h4
    have fin : ∀ {x : List Candle} {y : EzErr}, Out.err y x = Out.err e v → x = v ∧ e = y := by
      intro x y hh; simp only [Out.err.injEq] at hh; exact ⟨hh.2, hh.1.symm⟩
    cases hf : findFirstIndex minute (c0 :: c1 :: rest) mi with
    | panic => rw [hf] at h; cases h
    | err c w =>
      rw [hf] at h
      obtain ⟨a, b⟩ := fin h
      refine ⟨a.symm, c0, c1, rest, rfl, .inr ⟨h2, h3, .inr ⟨h4, .inl ⟨?_, b⟩⟩⟩⟩
      unfold findFirstIndex at hf
      split at hf
      · cases hf
      · rename_i hn
        intro c hc
        have := List.findIdx?_eq_none_iff.1 hn c hc
        exact this
    | ok first =>
      rw [hf] at h
      simp only at h
      have ha : ∃ c ∈ c0 :: c1 :: rest, isAligned minute mi c = true := by
        unfold findFirstIndex at hf
        split at hf
        · rename_i i hi
          have := List.findIdx?_eq_some_iff_getElem.1 hi
          obtain ⟨hl, hp, -⟩ := this
          exact ⟨_, List.getElem_mem hl, hp⟩
        · cases hf
      have done : ∀ {x : List Candle}, Out.err (EzErr.foreign "candle.CompressCandle" .volume) x = Out.err e v → x = [] →
          v = [] ∧ ∃ c0' c1' rest', c0 :: c1 :: rest = c0' :: c1' :: rest' ∧
      (idiv (wrap64 (c1'.time - c0'.time)) 60 ≠ 1 ∧ mi = 1 ∧
        e = .new "market.ModifyInterval" .econflict "No 1 minute interval exists" ∨
       ¬ (idiv (wrap64 (c1'.time - c0'.time)) 60 ≠ 1 ∧ mi = 1) ∧ idiv (wrap64 (c1'.time - c0'.time)) 60 ≠ 0 ∧
       (imod mi (idiv (wrap64 (c1'.time - c0'.time)) 60) ≠ 0 ∧
        e = .new "market.ModifyInterval" .econflict
          ("The retrieved candles cannot be modified to the " ++ String.ofList (fmtInt mi) ++
            " minutes timeframe, the delta between candles is " ++
            String.ofList (fmtInt (idiv (wrap64 (c1'.time - c0'.time)) 60)) ++ " minutes") ∨
        imod mi (idiv (wrap64 (c1'.time - c0'.time)) 60) = 0 ∧
        ((∀ c ∈ c0 :: c1 :: rest, isAligned minute mi c = false) ∧ e = .wrap "market.ModifyInterval"
            (.new "market.findFirstCandle" .einvalid "Could not find the initial candle") ∨
         (∃ c ∈ c0 :: c1 :: rest, isAligned minute mi c = true) ∧ e = .foreign "candle.CompressCandle" .volume))) := by
        rintro x hx rfl
        obtain ⟨a, b⟩ := fin hx
        exact ⟨a.symm, c0, c1, rest, rfl, .inr ⟨h2, h3, .inr ⟨h4, .inr ⟨ha, b⟩⟩⟩⟩
      split at h
      · split at h
        · split at h
          · cases h
          · exact done h rfl
          · cases h
        · exact done h rfl
        · cases h
      · cases h

theorem newListed_op {op : String} {table : List (String × String)}
    (ht : ∀ x ∈ table, x.1 ≠ "" ∧ x.2 ≠ "") {s : String} {e : EzErr} {v : Asset} :
    newListedAssetE op table s = .err e v ↔ (∀ x ∈ table, x.1 ≠ s) ∧ v = zeroAsset ∧
      e = .new op .enotfound "No asset with matching symbol found" := by
  unfold newListedAssetE
  cases hf : table.find? (fun e => e.1 = s) with
  | some x =>
    have hm := List.mem_of_find?_eq_some hf
    have hs : x.1 = s := by simpa using List.find?_some hf
    obtain ⟨h1, h2⟩ := ht x hm
    rw [hs] at h1
    simp only [newAssetE, h1, h2, if_false, reduceCtorEq, false_iff]
    rintro ⟨h, -⟩; exact h x hm hs
  | none =>
    simp only [Out.err.injEq]
    have := List.find?_eq_none.1 hf
    constructor
    · rintro ⟨rfl, rfl⟩; exact ⟨fun x hx => by simpa using this x hx, rfl, rfl⟩
    · rintro ⟨-, rfl, rfl⟩; exact ⟨rfl, rfl⟩

theorem tables_full : (∀ x ∈ newCryptoAssetTable, x.1 ≠ "" ∧ x.2 ≠ "") ∧ (∀ x ∈ newForexAssetTable, x.1 ≠ "" ∧ x.2 ≠ "") ∧
    (∀ x ∈ newStockAssetTable, x.1 ≠ "" ∧ x.2 ≠ "") := by decide +kernel

theorem calculateFields_not_err {o : OrderRequest} {x : Fl} (h1 : ¬ (Fl.eq o.total (.fin 0) && Fl.eq o.quantity (.fin 0)) = true)
    (h2 : ¬ (Fl.ne o.total (.fin 0) && Fl.ne o.quantity (.fin 0)) = true) (c : ErrCode) (v : Option OrderRequest) :
    (calculateFields S o x).2 ≠ .err c v := by
  unfold calculateFields; rw [if_neg h1, if_neg h2]; simp

/-- **C190, partial**: the operation of an error names the function called, for 20 of the 23 functions. -/
theorem C190_names_partial :
    (∀ S cs p, Named "MovingAverage" (movingAverageE S cs p)) ∧
    (∀ S cs p, Named "ExponentialMovingAverage" (exponentialMovingAverageE S cs p)) ∧
    (∀ S cs p, Named "SmoothedMovingAverage" (smoothedMovingAverageE S cs p)) ∧
    (∀ pick eprec created accept old cs, Named "SaveCandlesToFile" (saveCandlesE pick eprec created accept old cs).1) ∧
    (∀ (b : Book) u, Named "ApplyUpdate" (b.applyUpdateE u)) ∧
    (∀ (b : Book) p, Named "GetDepth" (b.getDepthE p)) ∧
    (∀ S a b, Named "CalculateOverlap" (calculateOverlapE S a b)) ∧
    (∀ s n, Named "NewAsset" (newAssetE s n)) ∧
    (∀ s, Named "NewCryptoAsset" (newCryptoAssetE s)) ∧
    (∀ s, Named "NewForexAsset" (newForexAssetE s)) ∧
    (∀ s, Named "NewStockAsset" (newStockAssetE s)) ∧
    (∀ p a t q x y, Named "NewOrderRequest" (newOrderRequestE p a t q x y)) ∧
    (∀ S o x, Named "CalculateFields" (calculateFieldsE S o x)) ∧
    (∀ (t : Trade) i, Named "Update" (t.updateE i)) ∧ (∀ (o : Order) i, Named "Update" (o.updateE i)) ∧
    (∀ (p : Position) i, Named "Update" (p.updateE i)) ∧ (∀ (a : Annotation) i, Named "Update" (a.updateE i)) ∧
    (∀ S p t, Named "Modify" (modifyE S p t)) ∧
    (∀ zones (t : Tick) l, Named "GetLocationTime" (t.getLocationTimeE zones l)) ∧
    (∀ d, Named "RawDateToRFC3339" (rawDateToRFC3339E d)) := by
  refine ⟨fun S cs p => named_of_op (by decide +kernel) (averages_op.1 cs p),
    fun S cs p => named_of_op (by decide +kernel) (averages_op.2.1 cs p),
    fun S cs p => named_of_op (by decide +kernel) (averages_op.2.2.1 cs p), ?_,
    fun b u => named_tell (op := "OrderBook.ApplyUpdate") (by decide +kernel) fun _ => rfl,
    fun b p => named_tell (op := "OrderBook.GetDepth") (by decide +kernel) fun c => by cases c <;> rfl,
    fun S a b => named_tell (op := "OrderBook.CalculateOverlap") (by decide +kernel) fun _ => rfl, ?_, ?_, ?_, ?_, ?_, ?_,
    fun _ _ => named_tell (op := "Trade.Update") (by decide +kernel) fun _ => rfl,
    fun _ _ => named_tell (op := "Order.Update") (by decide +kernel) fun _ => rfl,
    fun _ _ => named_tell (op := "Position.Update") (by decide +kernel) fun _ => rfl,
    fun _ _ => named_tell (op := "Annotation.Update") (by decide +kernel) fun _ => rfl,
    fun _ _ _ => named_tell (op := "position.Modify") (by decide +kernel) fun _ => rfl,
    fun _ _ _ => named_tell (op := "Tick.GetLocationTime") (by decide +kernel) fun _ => rfl,
    fun _ => named_tell (op := "RawDateToRFC3339") (by decide +kernel) fun _ => rfl⟩
  · intro pick eprec created accept old cs
    refine named_of_op (op := "market.SaveCandlesToFile") (by decide +kernel) ?_
    intro e v h
    unfold saveCandlesE at h
    split_ifs at h
    simp only [Out.err.injEq] at h; rw [← h.1]; rfl
  · intro s n
    refine named_of_op (op := "market.NewAsset") (by decide +kernel) ?_
    intro e v h
    unfold newAssetE at h
    split_ifs at h <;> · simp only [Out.err.injEq] at h; rw [← h.1]; rfl
  · intro s
    refine named_of_op (op := "market.NewCryptoAsset") (by decide +kernel) fun e v h => ?_
    rw [((newListed_op tables_full.1).1 h).2.2]; rfl
  · intro s
    refine named_of_op (op := "market.NewForexAsset") (by decide +kernel) fun e v h => ?_
    rw [((newListed_op tables_full.2.1).1 h).2.2]; rfl
  · intro s
    refine named_of_op (op := "market.NewStockAsset") (by decide +kernel) fun e v h => ?_
    rw [((newListed_op tables_full.2.2).1 h).2.2]; rfl
  · intro p a t q x y
    refine named_of_op (op := "market.NewOrderRequest") (by decide +kernel) ?_
    intro e v h
    unfold newOrderRequestE at h
    split_ifs at h <;> · simp only [Out.err.injEq] at h; rw [← h.1]; rfl
  · intro S o x
    refine named_of_op (op := "OrderRequest.CalculateFields") (by decide +kernel) ?_
    intro e v h
    unfold calculateFieldsE at h
    split_ifs at h with h1 h2
    · simp only [Out.err.injEq] at h; rw [← h.1]; rfl
    · simp only [Out.err.injEq] at h; rw [← h.1]; rfl
    · obtain ⟨c, hc, -⟩ := tell_err h
      exact absurd hc (calculateFields_not_err h1 h2 _ _)

theorem loadLoopE_op {ls : List (List Char)} {acc : List Candle} {e : EzErr} {v : List Candle}
    (h : loadLoopE S acc ls = .err e v) : e.op = "market.loadCandlesFromFile" := by
  induction ls generalizing acc with
  | nil => cases h
  | cons l ls ih =>
    unfold loadLoopE at h
    split_ifs at h
    split at h
    · exact ih h
    · simp only [Out.err.injEq] at h; rw [← h.1]; rfl
    · cases h

/-- The other three: every error of `RSI` names the moving average, every error of `LoadCandlesFromFile` spells its
name with a small letter, and an error of `ModifyInterval` names `CompressCandle`, with no trace of the function
called, exactly when it is about an added-up volume. -/
theorem C190_other_names_partial :
    (∀ S cs spare p e v, RSIE S cs spare p = .err e v → e.op = "movingAverage" ∧ e.trail = ["movingAverage"]) ∧
    (∀ S file e v, loadCandlesE S file = .err e v →
      e.op = "market.loadCandlesFromFile" ∧ e.trail = ["market.loadCandlesFromFile"]) ∧
    (∀ S minute cs mi e v, modifyIntervalE S minute cs mi = .err e v →
      (e.cause = none ∧ e.op = "market.ModifyInterval" ∧ (e.trail = ["market.ModifyInterval"] ∨ e.trail = ["market.ModifyInterval", "market.findFirstCandle"])) ∨
      (e.cause = some .volume ∧ e.op = "candle.CompressCandle" ∧ e.trail = ["candle.CompressCandle"])) := by
  refine ⟨?_, ?_, ?_⟩
  · intro S cs spare p e v h
    rcases (RSIE_err.1 h).2 with ⟨-, rfl⟩ | ⟨_, -, -, rfl⟩ <;> exact ⟨rfl, rfl⟩
  · intro S file e v h
    have key : ∀ (ls : List (List Char)) (acc : List Candle), loadLoopE S acc ls = .err e v →
        e.op = "market.loadCandlesFromFile" ∧ e.trail = ["market.loadCandlesFromFile"] := by
      intro ls
      induction ls with
      | nil => intro acc h; cases h
      | cons l ls ih =>
        intro acc h
        unfold loadLoopE at h
        split_ifs at h
        split at h
        · exact ih _ h
        · simp only [Out.err.injEq] at h; rw [← h.1]; exact ⟨rfl, rfl⟩
        · cases h
    unfold loadCandlesE at h
    split at h
    · simp only [Out.err.injEq] at h; rw [← h.1]; exact ⟨rfl, rfl⟩
    · exact key _ _ h
  · intro S minute cs mi e v h
    obtain ⟨-, c0, c1, rest, -, h⟩ := modifyIntervalE_err h
    rcases h with ⟨-, -, rfl⟩ | ⟨-, -, ⟨-, rfl⟩ | ⟨-, ⟨-, rfl⟩ | ⟨-, rfl⟩⟩⟩
    · exact .inl ⟨rfl, rfl, .inl rfl⟩
    · exact .inl ⟨rfl, rfl, .inl rfl⟩
    · exact .inl ⟨rfl, rfl, .inr rfl⟩
    · exact .inr ⟨rfl, rfl, rfl⟩

/-- **C190 is false of the code**: without candles `RSI` reports an error of the moving average. -/
theorem C190_names_violated : ¬ C190_claim := by
  rintro ⟨-, -, -, h, -⟩
  have := h FloatSem.exact none [] 14 (.new "movingAverage" .einvalid "Candle array missing") [] rfl
  revert this; decide +kernel

/-! ### Messages -/

/-- The averages and the index: no candles, too few, or a period below 1. -/
theorem C191_averages (cs : Option (List Candle)) (spare : List Candle) (p : Int) :
    (Told (movingAverageE S cs p) "Candle array missing" ↔ cs = none) ∧
    (Told (movingAverageE S cs p) "Period argument is larger than the length of candles" ↔
      ∃ l, cs = some l ∧ (l.length : Int) < p) ∧
    (Told (movingAverageE S cs p) "Period can't be less than 1" ↔ cs ≠ none ∧ p < 1) ∧
    OneOf (movingAverageE S cs p) ["Candle array missing", "Period argument is larger than the length of candles",
      "Period can't be less than 1"] ∧
    (Told (exponentialMovingAverageE S cs p) "Candle array missing" ↔ cs = none) ∧
    (Told (exponentialMovingAverageE S cs p) "Period argument is larger than the length of candles" ↔
      ∃ l, cs = some l ∧ (l.length : Int) < p) ∧
    (Told (exponentialMovingAverageE S cs p) "Period can't be less than 1" ↔ cs ≠ none ∧ p < 1) ∧
    OneOf (exponentialMovingAverageE S cs p) ["Candle array missing",
      "Period argument is larger than the length of candles", "Period can't be less than 1"] ∧
    (Told (smoothedMovingAverageE S cs p) "Candle array missing" ↔ cs = none) ∧
    (Told (smoothedMovingAverageE S cs p) "Period is larger than the amount of candles" ↔
      ∃ l, cs = some l ∧ (l.length : Int) < p) ∧
    (Told (smoothedMovingAverageE S cs p) "Period can't be less than 1" ↔ cs ≠ none ∧ p < 1) ∧
    OneOf (smoothedMovingAverageE S cs p) ["Candle array missing", "Period is larger than the amount of candles",
      "Period can't be less than 1"] ∧
    (Told (RSIE S cs spare p) "Candle array missing" ↔ cs = none) ∧
    (Told (RSIE S cs spare p) "Cannot calculate RSI with less than 14 candles" ↔ ∃ l, cs = some l ∧ l.length < 14) ∧
    OneOf (RSIE S cs spare p) ["Candle array missing", "Cannot calculate RSI with less than 14 candles"] := by
  have hp : p < 1 ↔ p ≤ 0 := by omega
  have n1 : ("Candle array missing" = "Period argument is larger than the length of candles") = False := by decide +kernel
  have n2 : ("Candle array missing" = "Period can't be less than 1") = False := by decide +kernel
  have n3 : ("Period argument is larger than the length of candles" = "Period can't be less than 1") = False := by decide +kernel
  have n4 : ("Candle array missing" = "Period is larger than the amount of candles") = False := by decide +kernel
  have n5 : ("Period is larger than the amount of candles" = "Period can't be less than 1") = False := by decide +kernel
  have n6 : ("Candle array missing" = "Cannot calculate RSI with less than 14 candles") = False := by decide +kernel
  have three : ∀ {r : Out (List Fl)} {op m2 : String} (_ : ("Candle array missing" = m2) = False)
      (_ : (m2 = "Period can't be less than 1") = False)
      (_ : ∀ {e v}, r = .err e v ↔ v = [] ∧ (cs = none ∧ e = .new op .einvalid "Candle array missing" ∨
        ∃ l, cs = some l ∧ ((l.length : Int) < p ∧ e = .new op .einvalid m2 ∨
          p ≤ 0 ∧ e = .new op .einvalid "Period can't be less than 1"))),
      (Told r "Candle array missing" ↔ cs = none) ∧ (Told r m2 ↔ ∃ l, cs = some l ∧ (l.length : Int) < p) ∧
      (Told r "Period can't be less than 1" ↔ cs ≠ none ∧ p < 1) ∧
      OneOf r ["Candle array missing", m2, "Period can't be less than 1"] := by
    intro r op m2 a b h
    have a' : (m2 = "Candle array missing") = False := eq_false fun h => by rw [← a]; exact h.symm
    have b' : ("Period can't be less than 1" = m2) = False := eq_false fun h => by rw [← b]; exact h.symm
    have c' : ("Period can't be less than 1" = "Candle array missing") = False := by decide +kernel
    refine ⟨⟨?_, ?_⟩, ⟨?_, ?_⟩, ⟨?_, ?_⟩, ?_⟩
    · rintro ⟨e, v, he, hm⟩
      rcases (h.1 he).2 with ⟨h1, rfl⟩ | ⟨l, -, ⟨-, rfl⟩ | ⟨-, rfl⟩⟩
      · exact h1
      · simp [EzErr.message, a'] at hm
      · simp [EzErr.message] at hm
    · intro hc; exact ⟨_, [], h.2 ⟨rfl, .inl ⟨hc, rfl⟩⟩, rfl⟩
    · rintro ⟨e, v, he, hm⟩
      rcases (h.1 he).2 with ⟨h1, rfl⟩ | ⟨l, hl, ⟨h1, rfl⟩ | ⟨-, rfl⟩⟩
      · simp [EzErr.message, a] at hm
      · exact ⟨l, hl, h1⟩
      · simp [EzErr.message, b'] at hm
    · rintro ⟨l, hl, h1⟩; exact ⟨_, [], h.2 ⟨rfl, .inr ⟨l, hl, .inl ⟨h1, rfl⟩⟩⟩, rfl⟩
    · rintro ⟨e, v, he, hm⟩
      rcases (h.1 he).2 with ⟨h1, rfl⟩ | ⟨l, hl, ⟨h1, rfl⟩ | ⟨h1, rfl⟩⟩
      · simp [EzErr.message] at hm
      · simp [EzErr.message, b] at hm
      · exact ⟨by rw [hl]; simp, hp.2 h1⟩
    · rintro ⟨h0, h1⟩
      obtain ⟨l, hl⟩ := Option.ne_none_iff_exists'.1 h0
      exact ⟨_, [], h.2 ⟨rfl, .inr ⟨l, hl, .inr ⟨hp.1 h1, rfl⟩⟩⟩, rfl⟩
    · intro e v he
      rcases (h.1 he).2 with ⟨-, rfl⟩ | ⟨l, -, ⟨-, rfl⟩ | ⟨-, rfl⟩⟩
      · exact ⟨_, by simp, rfl⟩
      · exact ⟨_, by simp, rfl⟩
      · exact ⟨_, by simp, rfl⟩
  obtain ⟨a1, a2, a3, a4⟩ := three n1 n3 (movingAverageE_err (S := S) (candles := cs) (period := p))
  obtain ⟨b1, b2, b3, b4⟩ := three n1 n3 (exponentialMovingAverageE_err (S := S) (candles := cs) (period := p))
  obtain ⟨c1, c2, c3, c4⟩ := three n4 n5 (smoothedMovingAverageE_err (S := S) (candles := cs) (period := p))
  refine ⟨a1, a2, a3, a4, b1, b2, b3, b4, c1, c2, c3, c4, ⟨?_, ?_⟩, ⟨?_, ?_⟩, ?_⟩
  · rintro ⟨e, v, he, hm⟩
    rcases (RSIE_err.1 he).2 with ⟨h1, rfl⟩ | ⟨l, -, -, rfl⟩
    · exact h1
    · simp [EzErr.message] at hm
  · intro hc; exact ⟨_, [], RSIE_err.2 ⟨rfl, .inl ⟨hc, rfl⟩⟩, rfl⟩
  · rintro ⟨e, v, he, hm⟩
    rcases (RSIE_err.1 he).2 with ⟨h1, rfl⟩ | ⟨l, hl, h1, rfl⟩
    · simp [EzErr.message] at hm
    · exact ⟨l, hl, h1⟩
  · rintro ⟨l, hl, h1⟩; exact ⟨_, [], RSIE_err.2 ⟨rfl, .inr ⟨l, hl, h1, rfl⟩⟩, rfl⟩
  · intro e v he
    rcases (RSIE_err.1 he).2 with ⟨-, rfl⟩ | ⟨l, -, -, rfl⟩
    · exact ⟨_, by simp, rfl⟩
    · exact ⟨_, by simp, rfl⟩

/-- The unexported `findFractal`, whose error is dropped by its only caller: with its errors it finds the
fractals it finds without. -/
theorem C190_same_fractals_partial (candles : List Candle) (start : Nat) (t : FractalType) (w : WilliamFractal) :
    findFractalE candles start t = .ok w ↔ findFractal candles start t = some w :=
  findFractalE_plain candles start t w

/-- The errors modelled here are those of the other files: without operation and message, each of the 23 functions is the
one modelled there. -/
theorem C190_same_functions_partial :
    (∀ S cs p, (movingAverageE S cs p).plain = movingAverage S cs p) ∧
    (∀ S cs p, (exponentialMovingAverageE S cs p).plain = exponentialMovingAverage S cs p) ∧
    (∀ S cs p, (smoothedMovingAverageE S cs p).plain = smoothedMovingAverage S cs p) ∧
    (∀ S cs spare p, (RSIE S cs spare p).plain = RSI S cs spare p) ∧
    (∀ S minute cs mi, (modifyIntervalE S minute cs mi).plain = modifyInterval S minute cs mi) ∧
    (∀ pick eprec created accept old cs, ((saveCandlesE pick eprec created accept old cs).1.plain,
      (saveCandlesE pick eprec created accept old cs).2) = saveCandles pick eprec created accept old cs) ∧
    (∀ S file, (loadCandlesE S file).plain = loadCandles S file) ∧
    (∀ (b : Book) u, (b.applyUpdateE u).plain = b.applyUpdate u) ∧
    (∀ (b : Book) p, (b.getDepthE p).plain = b.getDepth p) ∧
    (∀ S a b, (calculateOverlapE S a b).plain = calculateOverlap S a b) ∧
    (∀ s n, (newAssetE s n).plain = newAsset s n) ∧
    (∀ s, (newCryptoAssetE s).plain = newCryptoAsset s) ∧ (∀ s, (newForexAssetE s).plain = newForexAsset s) ∧
    (∀ s, (newStockAssetE s).plain = newStockAsset s) ∧
    (∀ p a t q x y, (newOrderRequestE p a t q x y).plain = newOrderRequest p a t q x y) ∧
    (∀ S o x, (calculateFieldsE S o x).plain = (calculateFields S o x).2) ∧
    (∀ (t : Trade) i, (t.updateE i).plain = t.update i) ∧ (∀ (o : Order) i, (o.updateE i).plain = o.update i) ∧
    (∀ (p : Position) i, (p.updateE i).plain = p.update i) ∧ (∀ (a : Annotation) i, (a.updateE i).plain = a.update i) ∧
    (∀ S p t, (modifyE S p t).plain = modify S p t) ∧
    (∀ zones (t : Tick) l, (t.getLocationTimeE zones l).plain = t.getLocationTime zones l) ∧
    (∀ d, (rawDateToRFC3339E d).plain = rawDateToRFC3339 d) :=
  ⟨fun _ => movingAverageE_plain, fun _ => exponentialMovingAverageE_plain, fun _ => smoothedMovingAverageE_plain,
    fun _ => RSIE_plain, fun _ => modifyIntervalE_plain, saveCandlesE_plain, fun _ => loadCandlesE_plain, applyUpdateE_plain,
    getDepthE_plain, fun _ => calculateOverlapE_plain, newAssetE_plain, newListedAssetE_plain _ _, newListedAssetE_plain _ _,
    newListedAssetE_plain _ _, newOrderRequestE_plain, fun _ => calculateFieldsE_plain,
    fun _ _ => plain_tell _ fun _ _ _ => rfl, fun _ _ => plain_tell _ fun _ _ _ => rfl,
    fun _ _ => plain_tell _ fun _ _ _ => rfl, fun _ _ => plain_tell _ fun _ _ _ => rfl,
    fun _ _ _ => plain_tell _ fun _ _ _ => rfl,
    fun _ _ _ => plain_tell _ fun _ _ h => (location_code h).symm, fun _ => plain_tell _ fun _ _ h => (rawDate_code h).symm⟩

/-- Without candles: the averages name themselves, `RSI` another function. -/
example : (movingAverageE FloatSem.exact none 3 = .err (.new "indicators.MovingAverage" .einvalid "Candle array missing") []) ∧
    RSIE FloatSem.exact none [] 14 = .err (.new "movingAverage" .einvalid "Candle array missing") [] := ⟨rfl, rfl⟩

end Finmod
