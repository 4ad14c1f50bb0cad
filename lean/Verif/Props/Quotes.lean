import Verif.Props.Known

/-!
# C283: what PairMappings holds
-/

namespace Finmod
open Go Spec

/-- `PairMappings` has a pair of these two, one way or the other. -/
def Spec.Exchanged (s t : String) : Prop :=
  ∃ k p, pairMapping k = some p ∧ (p.base.symbol = s ∧ p.quote.symbol = t ∨ p.base.symbol = t ∧ p.quote.symbol = s)

/-- In what the pairs of `PairMappings` are priced, and how many in each. -/
def Spec.quoteCounts : List (String × Nat) := [
  ("BTC", 396), ("USDT", 391), ("BUSD", 319), ("BNB", 258), ("ETH", 194), ("TRY", 60), ("USDC", 41), ("EUR", 37), ("PAX", 34), ("BRL", 33),
  ("TUSD", 32), ("BIDR", 28), ("AUD", 25), ("RUB", 22), ("GBP", 18), ("BKRW", 11), ("NGN", 10), ("UAH", 7), ("DAI", 5), ("ZAR", 5), ("IDRT", 4),
  ("USDP", 3), ("USDS", 3), ("UST", 3), ("BVND", 2), ("GYEN", 2), ("TRX", 2), ("VAI", 2), ("XRP", 2), ("DOGE", 1), ("DOT", 1)]

set_option maxRecDepth 20000 in
theorem quote_counts : ∀ e ∈ quoteCounts, pairTable.countP (fun r => r.2.2 = e.1) = e.2 := by decide +kernel

set_option maxRecDepth 20000 in
theorem quote_known : ∀ r ∈ pairTable, (quoteCounts.any fun e => decide (e.1 = r.2.2)) = true := by decide +kernel

set_option maxRecDepth 20000 in
theorem quote_hub : ∀ e ∈ quoteCounts, e.1 = "BTC" ∨ e.1 = "BVND" ∨
    (pairTable.any fun r => decide (r.2.1 = e.1) && decide (r.2.2 = "BTC") || decide (r.2.1 = "BTC") && decide (r.2.2 = e.1)) = true := by
  decide +kernel

set_option maxRecDepth 20000 in
theorem quote_odd : ∀ r ∈ pairTable, r.2.2 = "BVND" → r.2.1 = "USDT" ∨ r.2.1 = "BUSD" := by decide +kernel

theorem pairTable_length : pairTable.length = 1951 := by decide +kernel

/-- **C283** `PairMappings` has 1951 keys. -/
theorem C283_keys : ∃ keys : List String, keys.Nodup ∧ keys.length = 1951 ∧ ∀ k, k ∈ keys ↔ ∃ p, pairMapping k = some p := by
  refine ⟨pairTable.map fun e => e.1, pairTable_keys_nodup, by rw [List.length_map, pairTable_length], fun k => ⟨fun h => ?_, ?_⟩⟩
  · obtain ⟨⟨k, b, q⟩, he, rfl⟩ := List.mem_map.1 h
    exact ⟨_, pairMapping_of_mem he⟩
  · rintro ⟨p, h⟩
    exact List.mem_map.2 ⟨_, (pairMapping_some h).1, rfl⟩

/-- **C283** The pairs are priced in 31 assets, so many in each. -/
theorem C283_quotes :
    (∀ k p, pairMapping k = some p → ∃ n, (p.quote.symbol, n) ∈ quoteCounts) ∧
    ∀ q n, (q, n) ∈ quoteCounts → ∃ keys : List String, keys.Nodup ∧ keys.length = n ∧
      ∀ k, k ∈ keys ↔ ∃ p, pairMapping k = some p ∧ p.quote.symbol = q := by
  refine ⟨fun k p h => ?_, fun q n h => ?_⟩
  · have := quote_known _ (pairMapping_some h).1
    simp only [List.any_eq_true, decide_eq_true_eq] at this
    obtain ⟨⟨q, n⟩, he, rfl⟩ := this
    exact ⟨n, he⟩
  · refine ⟨(pairTable.filter fun r => r.2.2 = q).map fun e => e.1, ?_, ?_, fun k => ⟨fun hk => ?_, ?_⟩⟩
    · exact pairTable_keys_nodup.sublist (List.filter_sublist.map _)
    · rw [List.length_map, ← List.countP_eq_length_filter]
      exact quote_counts _ h
    · obtain ⟨⟨k, b, q'⟩, he, rfl⟩ := List.mem_map.1 hk
      rw [List.mem_filter, decide_eq_true_eq] at he
      exact ⟨_, pairMapping_of_mem he.1, he.2⟩
    · rintro ⟨p, hp, rfl⟩
      exact List.mem_map.2 ⟨_, List.mem_filter.2 ⟨(pairMapping_some hp).1, by simp⟩, rfl⟩

theorem exchanged_of {e : String × Nat} (h : (pairTable.any fun r =>
    decide (r.2.1 = e.1) && decide (r.2.2 = "BTC") || decide (r.2.1 = "BTC") && decide (r.2.2 = e.1)) = true) : Exchanged e.1 "BTC" := by
  simp only [List.any_eq_true, Bool.or_eq_true, Bool.and_eq_true, decide_eq_true_eq] at h
  obtain ⟨⟨k, b, q⟩, he, h⟩ := h
  exact ⟨k, _, pairMapping_of_mem he, h⟩

/-- **C283** Every asset of `PairMappings` can be exchanged for bitcoin through at most one other. -/
theorem C283_reach {s : String} (h : Traded s) (hs : s ≠ "BTC") : Exchanged s "BTC" ∨ ∃ m, Exchanged s m ∧ Exchanged m "BTC" := by
  have hub : ∀ q, (∃ n, (q, n) ∈ quoteCounts) → q = "BTC" ∨ q = "BVND" ∨ Exchanged q "BTC" := by
    rintro q ⟨n, hq⟩
    rcases quote_hub _ hq with h | h | h
    · exact .inl h
    · exact .inr (.inl h)
    · exact .inr (.inr (exchanged_of h))
  have usdt : Exchanged "USDT" "BTC" := by
    rcases hub "USDT" ⟨391, by decide⟩ with h | h | h
    · exact absurd h (by decide)
    · exact absurd h (by decide)
    · exact h
  have busd : Exchanged "BUSD" "BTC" := by
    rcases hub "BUSD" ⟨319, by decide⟩ with h | h | h
    · exact absurd h (by decide)
    · exact absurd h (by decide)
    · exact h
  obtain ⟨k, p, hp, h⟩ := h
  have hq := hub _ (C283_quotes.1 k p hp)
  rcases h with rfl | rfl
  · rcases hq with h | h | h
    · exact .inl ⟨k, p, hp, .inl ⟨rfl, h⟩⟩
    · rcases quote_odd _ (pairMapping_some hp).1 h with h' | h'
      · left; exact (show p.base.symbol = "USDT" from h') ▸ usdt
      · left; exact (show p.base.symbol = "BUSD" from h') ▸ busd
    · exact .inr ⟨_, ⟨k, p, hp, .inl ⟨rfl, rfl⟩⟩, h⟩
  · rcases hq with h | h | h
    · exact absurd h hs
    · rcases quote_odd _ (pairMapping_some hp).1 h with h' | h'
      · exact .inr ⟨"USDT", ⟨k, p, hp, .inr ⟨h', rfl⟩⟩, usdt⟩
      · exact .inr ⟨"BUSD", ⟨k, p, hp, .inr ⟨h', rfl⟩⟩, busd⟩
    · exact .inl h

/-- One asset with a detour: `SHIB`, through `USDT`. -/
example : Traded "SHIB" ∧ Exchanged "SHIB" "USDT" ∧ Exchanged "USDT" "BTC" := by
  have h1 : pairMapping "SHIBUSDT" = some ⟨symbolAsset "SHIB", symbolAsset "USDT"⟩ := by decide +kernel
  have h2 : pairMapping "BTCUSDT" = some ⟨symbolAsset "BTC", symbolAsset "USDT"⟩ := by decide +kernel
  exact ⟨⟨_, _, h1, .inl rfl⟩, ⟨_, _, h1, .inl ⟨rfl, rfl⟩⟩, ⟨_, _, h2, .inr ⟨rfl, rfl⟩⟩⟩

end Finmod
