import Verif.Props.Assets
import Verif.Props.Orders
import Verif.Model.Strings

/-!
# The assets with a name, pairs of them, and the types of orders (C226, C227)
-/

namespace Finmod
open Go Spec

/-- The names of the crypto assets. -/
def Spec.cryptoName : String → Option String
  | "AAVE" => some "Aave"
  | "ALGO" => some "Algorand"
  | "BAT" => some "Basic Attention Token"
  | "BTC" => some "Bitcoin"
  | "BCH" => some "Bitcoin Cash"
  | "ADA" => some "Cardano"
  | "LINK" => some "Chainlink"
  | "COMP" => some "Compound"
  | "ATOM" => some "Cosmos"
  | "DAI" => some "DAI"
  | "DASH" => some "Dash"
  | "DOGE" => some "Dogecoin"
  | "EOS" => some "EOS.IO"
  | "ETH" => some "Ethereum"
  | "ETC" => some "Ethereum Classic"
  | "EWT" => some "Energy Web Token"
  | "EWTB" => some "Energy Web Token Bridged"
  | "FILE" => some "Filecoin"
  | "FLOW" => some "Flow"
  | "LTC" => some "Litecoin"
  | "XLM" => some "Lumen"
  | "XMR" => some "Monero"
  | "NANO" => some "Nano"
  | "MATIC" => some "Polygon"
  | "QTUM" => some "Qtum"
  | "OCEAN" => some "Ocean Token"
  | "DOT" => some "Polkadot"
  | "USDT" => some "Tether USD"
  | "GRT" => some "The Graph"
  | "UNI" => some "Uniswap"
  | "USDC" => some "USD Coin"
  | "XRP" => some "Ripple"
  | "ZED" => some "ZCash"
  | _ => none

/-- The names of the currencies. -/
def Spec.forexName : String → Option String
  | "USD" => some "United States Dollar"
  | "EUR" => some "Euro"
  | _ => none

/-- The names of the stocks. -/
def Spec.stockName : String → Option String
  | "AAPL" => some "Apple Inc"
  | _ => none

/-- A symbol with its name, or an error. -/
def Spec.named (symbol : String) : Option String → Res Asset
  | some n => .ok ⟨n, symbol, ""⟩
  | none => .err .enotfound ⟨"", "", ""⟩

theorem find_named {tbl : List (String × String)} {name : String → Option String} (h1 : ∀ e ∈ tbl, name e.1 = some e.2)
    (h2 : ∀ s n, name s = some n → (s, n) ∈ tbl) (s : String) {r : Res Asset}
    (hr : (∃ n, (s, n) ∈ tbl ∧ r = .ok ⟨n, s, ""⟩) ∨ ((∀ e ∈ tbl, e.1 ≠ s) ∧ r = .err .enotfound zeroAsset)) :
    r = named s (name s) := by
  rcases hr with ⟨n, hn, rfl⟩ | ⟨hn, rfl⟩
  · rw [show name s = some n from h1 _ hn]; rfl
  · cases e : name s with
    | none => rfl
    | some n => exact absurd rfl (hn _ (h2 s n e))

/-- **C226.** Exactly these symbols are known, under these names. -/
theorem C226_known (symbol : String) :
    newCryptoAsset symbol = named symbol (cryptoName symbol) ∧ newForexAsset symbol = named symbol (forexName symbol) ∧
    newStockAsset symbol = named symbol (stockName symbol) := by
  refine ⟨find_named (by decide +kernel) ?_ symbol (crypto_cases symbol), find_named (by decide +kernel) ?_ symbol (forex_cases symbol),
    find_named (by decide +kernel) ?_ symbol (stock_cases symbol)⟩
  · intro s n h
    unfold cryptoName at h
    split at h <;> first | cases h; done | (injection h with h; subst h; decide +kernel)
  · intro s n h
    unfold forexName at h
    split at h <;> first | cases h; done | (injection h with h; subst h; decide +kernel)
  · intro s n h
    unfold stockName at h
    split at h <;> first | cases h; done | (injection h with h; subst h; decide +kernel)

/-- `PairMappings` has a pair with this symbol. -/
def Spec.Traded (s : String) : Prop := ∃ k p, pairMapping k = some p ∧ (p.base.symbol = s ∨ p.quote.symbol = s)

theorem traded_iff (s : String) : Traded s ↔ ∃ e ∈ pairTable, e.2.1 = s ∨ e.2.2 = s := by
  constructor
  · rintro ⟨k, p, h, hs⟩
    unfold pairMapping at h
    cases hf : pairTable.find? (fun e => e.1 = k) with
    | none => rw [hf] at h; cases h
    | some e =>
      rw [hf] at h
      cases h
      exact ⟨e, List.mem_of_find?_eq_some hf, hs⟩
  · rintro ⟨e, he, hs⟩
    exact ⟨e.1, _, C64_mapping_injective.2.1 e he, hs⟩

/-- **C226.** Of the assets with a name, all but six are in some pair of `PairMappings`; Filecoin and ZCash are there under
the symbols `FIL` and `ZEC`, which no constructor knows. -/
theorem C226_traded {f : String → Res Asset} (hf : f ∈ Spec.assetConstructors) {s : String} {a : Asset} (h : f s = .ok a) :
    Traded s ↔ s ∉ ["AAPL", "EWT", "EWTB", "FILE", "USD", "ZED"] := by
  obtain ⟨h1, rfl, -⟩ := constructor_mem hf h
  rw [traded_iff]
  have : ∀ e ∈ allAssets, (pairTable.any fun r => decide (r.2.1 = e.1) || decide (r.2.2 = e.1)) =
      !decide (e.1 ∈ ["AAPL", "EWT", "EWTB", "FILE", "USD", "ZED"]) := by decide +kernel
  have := this _ h1
  by_cases hm : a.symbol ∈ ["AAPL", "EWT", "EWTB", "FILE", "USD", "ZED"]
  · simp only [hm, decide_true, Bool.not_true, List.any_eq_false, Bool.or_eq_true, decide_eq_true_eq] at this
    simp only [hm, not_true, iff_false, not_exists, not_and]
    exact this
  · simp only [hm, decide_false, Bool.not_false, List.any_eq_true, Bool.or_eq_true, decide_eq_true_eq] at this
    simp only [hm, not_false_eq_true, iff_true]
    exact this

/-- **C226.** See `C226_traded`. -/
theorem C226_missing : (∀ s ∈ ["FIL", "ZEC"], Traded s ∧ ∀ f ∈ Spec.assetConstructors, f s = .err .enotfound ⟨"", "", ""⟩) ∧
    newCryptoAsset "FILE" = .ok ⟨"Filecoin", "FILE", ""⟩ ∧ newCryptoAsset "ZED" = .ok ⟨"ZCash", "ZED", ""⟩ := by
  refine ⟨fun s hs => ⟨?_, ?_⟩, by decide +kernel, by decide +kernel⟩
  · rw [traded_iff]
    have : ∀ s ∈ ["FIL", "ZEC"], (pairTable.any fun r => decide (r.2.1 = s) || decide (r.2.2 = s)) = true := by decide +kernel
    have := this s hs
    simpa only [List.any_eq_true, Bool.or_eq_true, decide_eq_true_eq] using this
  · have : ∀ s ∈ ["FIL", "ZEC"], ∀ f ∈ Spec.assetConstructors, f s = .err .enotfound ⟨"", "", ""⟩ := by
      simp only [Spec.assetConstructors, List.forall_mem_cons]
      decide +kernel
    exact this s hs

/-- **C226.** `NewPair` takes the base first: the symbol of the pair is the symbol of the first asset, then the separator and
the symbol of the second, or the first alone if the second has no symbol. -/
theorem C226_pair (base quote : Asset) (separator : String) :
    (newPair base quote).base = base ∧ (newPair base quote).quote = quote ∧
    (newPair base quote).symbolWith separator =
      (if quote.symbol = "" then base.symbol else base.symbol ++ separator ++ quote.symbol) ∧
    (newPair base quote).string = base.symbol ++ "/" ++ quote.symbol ++ "\n" :=
  ⟨rfl, rfl, rfl, rfl⟩

example : newCryptoAsset ∈ Spec.assetConstructors ∧ newCryptoAsset "ZED" = .ok ⟨"ZCash", "ZED", ""⟩ ∧
    newCryptoAsset "BTC" = .ok ⟨"Bitcoin", "BTC", ""⟩ ∧
    (newPair ⟨"Bitcoin", "BTC", ""⟩ ⟨"Tether USD", "USDT", ""⟩).symbolWith "-" = "BTC-USDT" := by
  refine ⟨by simp [Spec.assetConstructors], by decide +kernel, by decide +kernel, by decide +kernel⟩

/-- **C227.** Of the five types of orders only `LimitOrder` needs a price: `TakeProfit` and `StopLoss` requests, which by their
documentation execute at a specific price, are accepted without one. -/
theorem C227_price {pair : Pair} {action : String} {quantity total : Fl} (hb : pair.base.symbol ≠ "") (ha : action ≠ "")
    (hq : quantity.isZero = false ∨ total.isZero = false) {type : String}
    (ht : type ∈ [marketOrder, closePositionOrder, limitOrder, takeProfitOrder, stopLossOrder]) {price : Fl} (hp : price.isZero = true) :
    newOrderRequest pair action type quantity price total =
      if type = "limit" then .err .einvalid none else .ok (some ⟨action, type, pair, price, .fin 0, .fin 0, quantity, total⟩) := by
  have hne : type ≠ "" := by
    rintro rfl
    exact absurd ht (by decide)
  by_cases hl : type = "limit"
  · rw [if_pos hl]
    exact (C53_request_validation ..).2 fun hv => by rw [hv.2.2.2.1 hl] at hp; cases hp
  · rw [if_neg hl]
    exact (C53_request_validation ..).1 ⟨hb, ha, hne, fun h => absurd h hl, hq⟩

/-- **C227.** What the others then cost: with no price, `CalculateFields` makes of a quantity a total of `quantity × 0`, whatever the
market price, unless the type is `MarketOrder`. -/
theorem C227_total (S : FloatSem) {o : OrderRequest} {price : Fl} (ht : o.total.isZero = true) (hq : o.quantity.isZero = false) :
    (calculateFields S o price).2 = .ok (some { o with total := S.mul o.quantity (if o.type = "market" then price else o.price) }) := by
  unfold calculateFields
  have e1 : Fl.eq o.total (.fin 0) = true := by rw [eq_zero_iff, ht]
  have e2 : Fl.eq o.quantity (.fin 0) = false := by rw [eq_zero_iff, hq]
  simp only [e1, e2, Fl.ne, Bool.not_true, Bool.not_false, Bool.and_false, Bool.false_and, Bool.false_eq_true, if_false, if_true, marketOrder]
  by_cases h : o.type = "market" <;> simp [h]

/-- **C227.** The types, the statuses and the rest are different strings, none of them empty. -/
theorem C227_names : [marketOrder, closePositionOrder, limitOrder, takeProfitOrder, stopLossOrder] =
      ["market", "close_position", "limit", "take_profit", "stop_loss"] ∧
    [fulfilledOrder, partialyFilledOrder, unfilledOrder, canceledOrder] = ["fulfilled", "partial_fill", "unfilled", "canceled"] ∧
    [buyAction, sellAction] = ["buy", "sell"] ∧ [longPosition, shortPosition] = ["long", "short"] :=
  ⟨rfl, rfl, rfl, rfl⟩

example : exPair.base.symbol ≠ "" ∧ (Fl.fin 5).isZero = false ∧ "stop_loss" ∈ [marketOrder, closePositionOrder, limitOrder, takeProfitOrder, stopLossOrder] ∧
    (Fl.fin 0).isZero = true ∧
    (calculateFields .exact ⟨"sell", "stop_loss", exPair, .fin 0, .fin 0, .fin 0, .fin 5, .fin 0⟩ (.fin 2000)).2 =
      .ok (some ⟨"sell", "stop_loss", exPair, .fin 0, .fin 0, .fin 0, .fin 5, .fin 0⟩) := by
  decide +kernel

end Finmod
