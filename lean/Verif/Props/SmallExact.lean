import Verif.Props.Averages
import Verif.Props.CandleFile
import Verif.Props.Assets

/-!
# C142–C144: exactly what EMA ignores, when a save is complete, when plain symbols collide

The properties C71, C103 and C62 are false of the code. These are the exact boundaries.
-/

namespace Finmod
open Go Spec

/-! ### C142 -/

/-- **C142.** Whatever the arithmetic, `ExponentialMovingAverage` reads only the closes, and never
the one at index `period`. -/
theorem C142_ema_ignores (S : FloatSem) (cs cs' : List Candle) (n : Nat) (h1 : 1 ≤ n)
    (hlen : cs'.length = cs.length)
    (hsame : ∀ i (hi : i < cs.length), i ≠ n → (cs'[i]'(by omega)).close = cs[i].close) :
    exponentialMovingAverage S (some cs') n = exponentialMovingAverage S (some cs) n := by
  by_cases h2 : n ≤ cs.length
  · rw [ema_ok S cs n h1 h2, ema_ok S cs' n h1 (by omega)]
    have ht : (cs'.take n).map Candle.close = (cs.take n).map Candle.close := by
      apply List.ext_getElem (by simp [hlen])
      intro i hi hi'
      simp only [List.getElem_map, List.getElem_take]
      simp only [List.length_map, List.length_take] at hi'
      exact hsame i (by omega) (by omega)
    have hd : (cs'.drop (n + 1)).map Candle.close = (cs.drop (n + 1)).map Candle.close := by
      apply List.ext_getElem (by simp [hlen])
      intro i hi hi'
      simp only [List.getElem_map, List.getElem_drop]
      simp only [List.length_map, List.length_drop] at hi'
      exact hsame _ (by omega) (by omega)
    have ha : average S (cs'.take n) = average S (cs.take n) := by
      rw [average_eq, average_eq]
      unfold closes
      rw [ht, List.length_take, List.length_take, hlen]
    rcases Nat.lt_or_ge n cs.length with hlt | hge
    · rw [List.drop_eq_getElem_cons hlt, List.drop_eq_getElem_cons (l := cs') (by omega)]
      simp only
      rw [ha]
      unfold closes
      rw [hd]
    · rw [List.drop_eq_nil_of_le (by omega), List.drop_eq_nil_of_le (by omega)]
  · unfold exponentialMovingAverage
    simp only [hlen]
    rw [if_pos (by omega), if_pos (by omega)]

/-- **C142.** In exact arithmetic that is the only close it ignores: changing one close changes the
values if and only if it is not the one at index `period`. -/
theorem C142_ema_uses_iff {cs cs' : List Candle} {xs : List ℚ} (h : Closes cs xs) {n i : Nat}
    (h1 : 1 ≤ n) (h2 : n < cs.length) (hi : i < xs.length) {y : ℚ} (hy : xs[i] ≠ y)
    (h' : Closes cs' (xs.set i y)) (hsame : ∀ j, j ≠ i → (cs'[j]?).map Candle.close = (cs[j]?).map Candle.close) :
    exponentialMovingAverage FloatSem.exact (some cs') n ≠
      exponentialMovingAverage FloatSem.exact (some cs) n ↔ i ≠ n := by
  constructor
  · rintro hne rfl
    refine hne (C142_ema_ignores _ _ _ _ h1 ?_ ?_)
    · rw [h.length, h'.length, List.length_set]
    · intro j hj hji
      have hl : cs'.length = cs.length := by rw [h.length, h'.length, List.length_set]
      have := hsame j hji
      rw [List.getElem?_eq_getElem hj, List.getElem?_eq_getElem (by omega)] at this
      simpa using this
  · intro hin
    exact C71_uses_all_partial h h1 h2 hi hin hy h'

example : Closes [exClose 1, exClose 3, exClose 100, exClose 5] [1, 3, 100, 5] ∧
    Closes [exClose 1, exClose 3, exClose 7, exClose 5] ([1, 3, 100, 5].set 2 7) ∧
    exponentialMovingAverage FloatSem.exact (some [exClose 1, exClose 3, exClose 7, exClose 5]) 2 =
      exponentialMovingAverage FloatSem.exact (some [exClose 1, exClose 3, exClose 100, exClose 5]) 2 :=
  ⟨.cons (Fl.is_fin _) (.cons (Fl.is_fin _) (.cons (Fl.is_fin _) (.cons (Fl.is_fin _) .nil))),
   .cons (Fl.is_fin _) (.cons (Fl.is_fin _) (.cons (Fl.is_fin _) (.cons (Fl.is_fin _) .nil))), by decide +kernel⟩

/-! ### C143 -/

/-- **C143.** After a save that created its file, the file is the complete text exactly when every
write was taken in full. (The outcome reported is nil in either case.) -/
theorem C143_complete_iff (pick : ℚ → Nat × ℤ) (eprec : ℤ) (accept : Nat → Nat)
    (old : Option (List Char)) (cs : List Candle) :
    (saveCandles pick eprec true accept old cs).1 = .ok () ∧
    ((saveCandles pick eprec true accept old cs).2 = some (candleText pick eprec cs) ↔
      ∀ (i : Nat) (c : Candle), cs[i]? = some c → (candleLine pick eprec c).length + 1 ≤ accept i) := by
  have gen : ∀ (cs : List Candle) (k : Nat),
      (writeLoop pick eprec accept k cs).length ≤ (candleText pick eprec cs).length ∧
      (writeLoop pick eprec accept k cs = candleText pick eprec cs ↔
      ∀ (i : Nat) (c : Candle), cs[i]? = some c → (candleLine pick eprec c).length + 1 ≤ accept (k + i)) := by
    intro cs
    induction cs with
    | nil => intro k; simp [writeLoop, candleText]
    | cons c cs ih =>
      intro k
      obtain ⟨l1, l2⟩ := ih (k + 1)
      have e : candleText pick eprec (c :: cs) = (candleLine pick eprec c ++ ['\n']) ++ candleText pick eprec cs := rfl
      rw [writeLoop, e]
      generalize hL : candleLine pick eprec c ++ ['\n'] = L
      have hLl : L.length = (candleLine pick eprec c).length + 1 := by rw [← hL]; simp
      refine ⟨by simp only [List.length_append, List.length_take]; omega, ?_⟩
      constructor
      · intro h
        have hl := congrArg List.length h
        simp only [List.length_append, List.length_take] at hl
        have ht : L.length ≤ accept k := by omega
        rw [List.take_of_length_le ht, List.append_cancel_left_eq] at h
        intro i c' hc
        cases i with
        | zero => cases hc; simpa [← hLl] using ht
        | succ i =>
          have := (l2.1 h) i c' hc
          rwa [show k + 1 + i = k + (i + 1) by omega] at this
      · intro h
        have h0 := h 0 c rfl
        rw [List.take_of_length_le (by simpa [hLl] using h0), l2.2]
        intro i c' hc
        have := h (i + 1) c' hc
        rwa [show k + (i + 1) = k + 1 + i by omega] at this
  refine ⟨rfl, ?_⟩
  have := (gen cs 0).2
  simp only [zero_add] at this
  rw [← this]
  simp [saveCandles]

/-- A disk that takes everything, and one that takes ten bytes of a write. -/
example : (∀ c ∈ sampleCandles, (candleLine (shortest ieee) 6 c).length + 1 ≤ 1000) ∧
    ¬ (∀ c ∈ sampleCandles, (candleLine (shortest ieee) 6 c).length + 1 ≤ 10) := by
  decide +kernel

/-! ### C144 -/

/-- **C144.** Two pairs share the symbol without separator exactly when the symbols of one split
the same text at another place: one base symbol continues the other by some text that the other
quote symbol starts with. -/
theorem C144_plain_symbols_collide_iff (p p' : Pair) :
    p.symbolWith "" = p'.symbolWith "" ↔
      (∃ m, p'.base.symbol = p.base.symbol ++ m ∧ p.quote.symbol = m ++ p'.quote.symbol) ∨
      (∃ m, p.base.symbol = p'.base.symbol ++ m ∧ p'.quote.symbol = m ++ p.quote.symbol) := by
  have e : ∀ p : Pair, p.symbolWith "" = p.base.symbol ++ p.quote.symbol := by
    intro p
    unfold Pair.symbolWith
    split_ifs with h
    · rw [h]; simp
    · simp
  rw [e, e]
  have inj : ∀ a b : String, a = b ↔ a.toList = b.toList := fun a b => String.toList_inj.symm
  rw [inj, String.toList_append, String.toList_append, List.append_eq_append_iff]
  constructor
  · rintro (⟨m, h1, h2⟩ | ⟨m, h1, h2⟩)
    · exact .inl ⟨String.ofList m, by rw [inj]; simpa using h1, by rw [inj]; simpa using h2⟩
    · exact .inr ⟨String.ofList m, by rw [inj]; simpa using h1, by rw [inj]; simpa using h2⟩
  · rintro (⟨m, h1, h2⟩ | ⟨m, h1, h2⟩)
    · exact .inl ⟨m.toList, by rw [h1]; simp, by rw [h2]; simp⟩
    · exact .inr ⟨m.toList, by rw [h1]; simp, by rw [h2]; simp⟩

example : (⟨symbolAsset "AB", symbolAsset "C"⟩ : Pair).symbolWith "" = (⟨symbolAsset "A", symbolAsset "BC"⟩ : Pair).symbolWith "" ∧
    ∃ m, (symbolAsset "AB").symbol = (symbolAsset "A").symbol ++ m ∧ (symbolAsset "BC").symbol = m ++ (symbolAsset "C").symbol :=
  ⟨by decide +kernel, "B", by decide +kernel, by decide +kernel⟩

end Finmod
