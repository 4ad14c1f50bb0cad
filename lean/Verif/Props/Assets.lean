import Mathlib.Data.List.Nodup
import Verif.Model.Asset
import Verif.Lemmas.PairTable

/-!
# Assets, pairs and the pair table (C59–C64)
-/

namespace Finmod
open Go

/-- The three asset constructors. -/
def Spec.assetConstructors : List (String → Res Asset) := [newCryptoAsset, newForexAsset, newStockAsset]

theorem newAsset_ok {s n : String} (hs : s ≠ "") (hn : n ≠ "") : newAsset s n = .ok ⟨n, s, ""⟩ := by
  simp [newAsset, hs, hn]

/-- Looking a symbol up in a table of non-empty symbols and names. -/
theorem tableAsset {tbl : List (String × String)} (h : ∀ e ∈ tbl, e.1 ≠ "" ∧ e.2 ≠ "") (s : String) :
    (∃ n, (s, n) ∈ tbl ∧ (match tbl.find? (fun e => e.1 = s) with
      | some e => newAsset s e.2
      | none => .err .enotfound zeroAsset) = .ok ⟨n, s, ""⟩) ∨
    ((∀ e ∈ tbl, e.1 ≠ s) ∧ (match tbl.find? (fun e => e.1 = s) with
      | some e => newAsset s e.2
      | none => .err .enotfound zeroAsset) = .err .enotfound zeroAsset) := by
  cases hf : tbl.find? (fun e => e.1 = s) with
  | none =>
    right
    simp only [List.find?_eq_none, decide_eq_true_eq] at hf
    exact ⟨hf, rfl⟩
  | some e =>
    left
    have h1 := List.find?_some hf
    simp only [decide_eq_true_eq] at h1
    have h2 := List.mem_of_find?_eq_some hf
    obtain ⟨a, b⟩ := h e h2
    refine ⟨e.2, ?_, ?_⟩
    · rw [← h1]; exact h2
    · rw [h1] at a; exact newAsset_ok a b

theorem crypto_cases (s : String) :
    (∃ n, (s, n) ∈ newCryptoAssetTable ∧ newCryptoAsset s = .ok ⟨n, s, ""⟩) ∨
    ((∀ e ∈ newCryptoAssetTable, e.1 ≠ s) ∧ newCryptoAsset s = .err .enotfound zeroAsset) :=
  tableAsset (by decide +kernel) s
theorem forex_cases (s : String) :
    (∃ n, (s, n) ∈ newForexAssetTable ∧ newForexAsset s = .ok ⟨n, s, ""⟩) ∨
    ((∀ e ∈ newForexAssetTable, e.1 ≠ s) ∧ newForexAsset s = .err .enotfound zeroAsset) :=
  tableAsset (by decide +kernel) s
theorem stock_cases (s : String) :
    (∃ n, (s, n) ∈ newStockAssetTable ∧ newStockAsset s = .ok ⟨n, s, ""⟩) ∨
    ((∀ e ∈ newStockAssetTable, e.1 ≠ s) ∧ newStockAsset s = .err .enotfound zeroAsset) :=
  tableAsset (by decide +kernel) s

/-- All three tables. -/
def allAssets : List (String × String) := newCryptoAssetTable ++ newForexAssetTable ++ newStockAssetTable

theorem allAssets_nonempty : ∀ e ∈ allAssets, e.1 ≠ "" ∧ e.2 ≠ "" := by decide +kernel
theorem allAssets_symbols_nodup : (allAssets.map Prod.fst).Nodup := by decide +kernel
theorem allAssets_names_nodup : (allAssets.map Prod.snd).Nodup := by decide +kernel

/-- **C59.** `NewAsset` succeeds iff both strings are non-empty and returns exactly them. -/
theorem C59_newAsset (symbol name : String) :
    (symbol ≠ "" ∧ name ≠ "" → newAsset symbol name = .ok ⟨name, symbol, ""⟩) ∧
    (symbol = "" ∨ name = "" → newAsset symbol name = .err .einvalid ⟨"", "", ""⟩) := by
  refine ⟨fun h => newAsset_ok h.1 h.2, ?_⟩
  rintro (h | h)
  · simp [newAsset, h, zeroAsset]
  · by_cases h' : symbol = "" <;> simp [newAsset, h, h', zeroAsset]

/-- **C59.** Each of the three constructors returns an asset with the given symbol and a
non-empty name, or `ENOTFOUND` with the zero asset; and no symbol is known to two of them. -/
theorem C59_constructors (symbol : String) :
    (∀ f ∈ Spec.assetConstructors,
      (∃ n, n ≠ "" ∧ f symbol = .ok ⟨n, symbol, ""⟩) ∨ f symbol = .err .enotfound ⟨"", "", ""⟩) ∧
    (Spec.assetConstructors.countP (fun f => (f symbol).isOk) ≤ 1) := by
  have hd : List.Nodup (allAssets.map Prod.fst) := allAssets_symbols_nodup
  have hne := allAssets_nonempty
  unfold allAssets at hd hne
  simp only [List.map_append, List.nodup_append, List.mem_append, List.mem_map] at hd hne
  constructor
  · intro f hf
    simp only [Spec.assetConstructors, List.mem_cons, List.not_mem_nil, or_false] at hf
    rcases hf with rfl | rfl | rfl
    · rcases crypto_cases symbol with ⟨n, hn, e⟩ | ⟨_, e⟩
      · exact .inl ⟨n, (hne _ (.inl (.inl hn))).2, e⟩
      · exact .inr e
    · rcases forex_cases symbol with ⟨n, hn, e⟩ | ⟨_, e⟩
      · exact .inl ⟨n, (hne _ (.inl (.inr hn))).2, e⟩
      · exact .inr e
    · rcases stock_cases symbol with ⟨n, hn, e⟩ | ⟨_, e⟩
      · exact .inl ⟨n, (hne _ (.inr hn)).2, e⟩
      · exact .inr e
  · rcases crypto_cases symbol with ⟨n, hn, e⟩ | ⟨_, e⟩ <;>
    rcases forex_cases symbol with ⟨n', hn', e'⟩ | ⟨_, e'⟩ <;>
    rcases stock_cases symbol with ⟨n'', hn'', e''⟩ | ⟨_, e''⟩ <;>
    first
    | (exact absurd rfl (hd.1.2.2 symbol ⟨_, hn, rfl⟩ symbol ⟨_, hn', rfl⟩))
    | (exact absurd rfl (hd.2.2 symbol (.inl ⟨_, hn, rfl⟩) symbol ⟨_, hn'', rfl⟩))
    | (exact absurd rfl (hd.2.2 symbol (.inr ⟨_, hn', rfl⟩) symbol ⟨_, hn'', rfl⟩))
    | simp [Spec.assetConstructors, e, e', e'', Res.isOk]

example : newCryptoAsset "BTC" = .ok ⟨"Bitcoin", "BTC", ""⟩ ∧
    newForexAsset "BTC" = .err .enotfound ⟨"", "", ""⟩ := by decide +kernel

theorem constructor_mem {f : String → Res Asset} (hf : f ∈ Spec.assetConstructors) {s : String}
    {a : Asset} (h : f s = .ok a) : (a.symbol, a.name) ∈ allAssets ∧ a.symbol = s ∧ a.altSymbol = "" := by
  simp only [Spec.assetConstructors, List.mem_cons, List.not_mem_nil, or_false] at hf
  unfold allAssets
  simp only [List.mem_append]
  rcases hf with rfl | rfl | rfl
  · rcases crypto_cases s with ⟨n, hn, e⟩ | ⟨_, e⟩ <;> rw [e] at h <;> cases h
    exact ⟨.inl (.inl hn), rfl, rfl⟩
  · rcases forex_cases s with ⟨n, hn, e⟩ | ⟨_, e⟩ <;> rw [e] at h <;> cases h
    exact ⟨.inl (.inr hn), rfl, rfl⟩
  · rcases stock_cases s with ⟨n, hn, e⟩ | ⟨_, e⟩ <;> rw [e] at h <;> cases h
    exact ⟨.inr hn, rfl, rfl⟩

/-- **C60.** For assets obtained from the constructors, equal names mean equal symbols and equal
symbols mean equal names (so the assets are equal). -/
theorem C60_names_identify {f g : String → Res Asset} (hf : f ∈ Spec.assetConstructors)
    (hg : g ∈ Spec.assetConstructors) {s t : String} {a b : Asset} (ha : f s = .ok a)
    (hb : g t = .ok b) : (a.name = b.name ↔ a.symbol = b.symbol) ∧ (a.name = b.name ↔ s = t) ∧
      (a.name = b.name → a = b) := by
  obtain ⟨ha1, ha2, ha3⟩ := constructor_mem hf ha
  obtain ⟨hb1, hb2, hb3⟩ := constructor_mem hg hb
  have h1 : a.name = b.name → a.symbol = b.symbol := by
    intro h
    have := List.inj_on_of_nodup_map allAssets_names_nodup ha1 hb1 h
    exact congrArg Prod.fst this
  have h2 : a.symbol = b.symbol → a.name = b.name := by
    intro h
    have := List.inj_on_of_nodup_map allAssets_symbols_nodup ha1 hb1 h
    exact congrArg Prod.snd this
  refine ⟨⟨h1, h2⟩, ?_, ?_⟩
  · rw [← ha2, ← hb2]; exact ⟨h1, h2⟩
  · intro h
    have h' := h1 h
    cases a; cases b
    simp_all

example : newCryptoAsset ∈ Spec.assetConstructors ∧
    newCryptoAsset "USDT" = .ok ⟨"Tether USD", "USDT", ""⟩ :=
  ⟨by simp [Spec.assetConstructors], by decide +kernel⟩

theorem sep_split {c : Char} {a b x y : List Char} (ha : c ∉ a) (hb : c ∉ b)
    (h : a ++ c :: x = b ++ c :: y) : a = b ∧ x = y := by
  induction a generalizing b with
  | nil =>
    cases b with
    | nil => simpa using h
    | cons d b => simp at h hb; exact absurd h.1 hb.1
  | cons d a ih =>
    cases b with
    | nil => simp at h ha; exact absurd h.1.symm ha.1
    | cons e b =>
      simp only [List.cons_append, List.cons.injEq] at h
      simp only [List.mem_cons, not_or] at ha hb
      obtain ⟨h1, h2⟩ := ih ha.2 hb.2 h.2
      exact ⟨by rw [h.1, h1], h2⟩

/-- **C61.** With a one-character separator that occurs in neither base symbol, two pairs print
the same symbol iff base and quote symbols agree. -/
theorem C61_symbol_separator (p p' : Pair) (c : Char) (h : c ∉ p.base.symbol.toList)
    (h' : c ∉ p'.base.symbol.toList) :
    p.symbolWith (String.singleton c) = p'.symbolWith (String.singleton c) ↔
      p.base.symbol = p'.base.symbol ∧ p.quote.symbol = p'.quote.symbol := by
  unfold Pair.symbolWith
  constructor
  · intro e
    by_cases h1 : p.quote.symbol = "" <;> by_cases h2 : p'.quote.symbol = ""
    · simp only [h1, h2, if_true] at e; exact ⟨e, by rw [h1, h2]⟩
    · simp only [h1, h2, if_true, if_false] at e
      exfalso; apply h
      rw [e]; simp
    · simp only [h1, h2, if_true, if_false] at e
      exfalso; apply h'
      rw [← e]; simp
    · simp only [h1, h2, if_false] at e
      have e' := congrArg String.toList e
      simp only [String.toList_append, String.toList_singleton, List.append_assoc,
        List.singleton_append] at e'
      obtain ⟨a, b⟩ := sep_split h h' e'
      exact ⟨String.toList_injective a, String.toList_injective b⟩
  · rintro ⟨a, b⟩; rw [a, b]

example : ('/' ∉ (symbolAsset "ETH").symbol.toList) ∧
    (Pair.mk (symbolAsset "ETH") (symbolAsset "USD")).symbolWith (String.singleton '/') = "ETH/USD" := by
  decide +kernel

/-- The full claim of C62. -/
def Spec.C62_claim : Prop :=
  ∀ p p' : Pair, ¬ (p.base.symbol = p'.base.symbol ∧ p.quote.symbol = p'.quote.symbol) →
    p.symbolWith "" ≠ p'.symbolWith ""

/-- **C62 is false of the code**: `AB/C` and `A/BC` have the same symbol. -/
theorem C62_symbol_plain_violated : ¬ Spec.C62_claim := by
  intro h
  exact h ⟨symbolAsset "AB", symbolAsset "C"⟩ ⟨symbolAsset "A", symbolAsset "BC"⟩
    (by decide +kernel) (by decide +kernel)

/-! ### The pair table -/

theorem pairMapping_some {k : String} {p : Pair} (h : pairMapping k = some p) :
    (k, p.base.symbol, p.quote.symbol) ∈ pairTable ∧
    p = ⟨symbolAsset p.base.symbol, symbolAsset p.quote.symbol⟩ := by
  unfold pairMapping at h
  simp only [Option.map_eq_some_iff] at h
  obtain ⟨e, he, rfl⟩ := h
  have h1 := List.find?_some he
  simp only [decide_eq_true_eq] at h1
  have h2 := List.mem_of_find?_eq_some he
  subst h1
  exact ⟨h2, rfl⟩

theorem pairMapping_of_mem {k b q : String} (h : (k, b, q) ∈ pairTable) :
    pairMapping k = some ⟨symbolAsset b, symbolAsset q⟩ := by
  unfold pairMapping
  cases hf : pairTable.find? (fun e => e.1 = k) with
  | none =>
    simp only [List.find?_eq_none, decide_eq_true_eq] at hf
    exact absurd rfl (hf _ h)
  | some e =>
    have h1 := List.find?_some hf
    simp only [decide_eq_true_eq] at h1
    have h2 := List.mem_of_find?_eq_some hf
    have : e = (k, b, q) := List.inj_on_of_nodup_map pairTable_keys_nodup h2 h h1
    rw [this]; rfl

/-- **C62 (partial).** Among the pairs of `PairMappings` the symbol without separator does
identify the pair; and so it does for pairs whose base symbols have equal length. Missing: pairs
in general, for which it does not. -/
theorem C62_symbol_plain_partial :
    (∀ (k k' : String) (p p' : Pair), pairMapping k = some p → pairMapping k' = some p' →
      p.symbolWith "" = p'.symbolWith "" → p = p') ∧
    (∀ p p' : Pair, p.base.symbol.length = p'.base.symbol.length →
      p.symbolWith "" = p'.symbolWith "" →
      p.base.symbol = p'.base.symbol ∧ p.quote.symbol = p'.quote.symbol) := by
  have plain : ∀ p : Pair, p.symbolWith "" = p.base.symbol ++ p.quote.symbol := by
    intro p
    unfold Pair.symbolWith
    split
    · rename_i h; rw [h]; simp
    · simp
  constructor
  · intro k k' p p' h h' e
    obtain ⟨h1, h2⟩ := pairMapping_some h
    obtain ⟨h1', h2'⟩ := pairMapping_some h'
    rw [plain, plain] at e
    have := List.inj_on_of_nodup_map pairTable_symbols_nodup h1 h1' e
    simp only [Prod.mk.injEq] at this
    rw [h2, h2', this.2.1, this.2.2]
  · intro p p' hl e
    rw [plain, plain] at e
    have e' := congrArg String.toList e
    simp only [String.toList_append] at e'
    obtain ⟨a, b⟩ := List.append_inj e' (by rw [String.length_toList, String.length_toList]; exact hl)
    exact ⟨String.toList_injective a, String.toList_injective b⟩

example : pairMapping "ETHBTC" = some ⟨symbolAsset "ETH", symbolAsset "BTC"⟩ := by decide +kernel

/-- The full claim of C63. -/
def Spec.C63_claim : Prop :=
  ∀ (k : String) (p : Pair), pairMapping k = some p → p.symbolWith "" = k

/-- **C63 is false of the code**: `PairMappings["DYDXETH"]` is OOKI/ETH
(market/pair_mappings.go:1889). -/
theorem C63_mapping_symbol_violated : ¬ Spec.C63_claim := by
  intro h
  have := h "DYDXETH" ⟨symbolAsset "OOKI", symbolAsset "ETH"⟩ (by decide +kernel)
  exact absurd this (by decide +kernel)

/-- **C63 (partial).** Every other key is the symbol of its pair. Missing: the one wrong row. -/
theorem C63_mapping_symbol_partial (k : String) (p : Pair) (h : pairMapping k = some p)
    (hk : k ≠ "DYDXETH") : p.symbolWith "" = k := by
  obtain ⟨h1, _⟩ := pairMapping_some h
  obtain ⟨_, _, hq, _, h5⟩ := pairTable_rows _ h1
  rcases h5 with h5 | h5
  · unfold Pair.symbolWith
    rw [if_neg hq]
    simp only at h5
    simp [h5]
  · exact absurd h5 hk

/-- C63: a row that is right. -/
example : pairMapping "ETHBTC" = some ⟨symbolAsset "ETH", symbolAsset "BTC"⟩ ∧
    (Pair.mk (symbolAsset "ETH") (symbolAsset "BTC")).symbolWith "" = "ETHBTC" := by decide +kernel

/-- **C64.** The literal has no duplicate key; different keys give different pairs; base and
quote differ; no symbol is empty; and the map holds exactly the 1951 rows. -/
theorem C64_mapping_injective :
    (pairTable.map fun e => e.1).Nodup ∧
    (∀ e ∈ pairTable, pairMapping e.1 = some ⟨symbolAsset e.2.1, symbolAsset e.2.2⟩) ∧
    (∀ (k k' : String) (p p' : Pair), pairMapping k = some p → pairMapping k' = some p' →
      p.base.symbol = p'.base.symbol → p.quote.symbol = p'.quote.symbol → k = k') ∧
    (∀ (k : String) (p : Pair), pairMapping k = some p →
      k ≠ "" ∧ p.base.symbol ≠ "" ∧ p.quote.symbol ≠ "" ∧ p.base.symbol ≠ p.quote.symbol) := by
  refine ⟨pairTable_keys_nodup, fun e he => pairMapping_of_mem he, ?_, ?_⟩
  · intro k k' p p' h h' hb hq
    obtain ⟨h1, _⟩ := pairMapping_some h
    obtain ⟨h1', _⟩ := pairMapping_some h'
    have := List.inj_on_of_nodup_map pairTable_pairs_nodup h1 h1' (by simp [hb, hq])
    exact congrArg Prod.fst this
  · intro k p h
    obtain ⟨h1, _⟩ := pairMapping_some h
    obtain ⟨a, b, c, d, _⟩ := pairTable_rows _ h1
    exact ⟨a, b, c, d⟩

set_option maxRecDepth 20000 in
example : pairTable.length = 1951 := by decide +kernel

end Finmod
