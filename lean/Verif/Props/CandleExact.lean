import Verif.Props.CandleSpacing

/-!
# C132–C133: exactly when `ModifyInterval` panics, exactly when `GetMinInterval` is negative

C31 and C35 are false of the code; these theorems say for which inputs.
-/

namespace Finmod
open Go Spec

/-! ### C132 -/

/-- **C132** `ModifyInterval` panics exactly on: no candles; two first candles less than a minute
apart, unless the interval is 1; interval 0 with the first two at least a minute apart and an
aligned candle that is not the last. -/
theorem C132_panics_iff (S : FloatSem) (minute : Int → Int) (candles : List Candle)
    (interval : Int) (hb : ∀ c ∈ candles, |c.time| < 2 ^ 62) :
    modifyInterval S minute candles interval = .panic ↔
      candles = [] ∨ ∃ c0 c1 cs, candles = c0 :: c1 :: cs ∧
        ((|c1.time - c0.time| < 60 ∧ interval ≠ 1) ∨
         (60 ≤ |c1.time - c0.time| ∧ interval = 0 ∧
          ∃ c ∈ candles.dropLast, Aligned minute 0 c)) := by
  match candles, hb with
  | [], _ => simp [modifyInterval]
  | [c], _ => simp [modifyInterval]
  | c0 :: c1 :: cs, hb =>
    have h0 : |c0.time| ≤ 2 ^ 62 := (hb c0 (by simp)).le
    have h1 : |c1.time| < 2 ^ 62 := hb c1 (by simp)
    have hsp : idiv (wrap64 (c1.time - c0.time)) 60 = Int.tdiv (c1.time - c0.time) 60 :=
      spacing_eq h0 h1
    rcases lt_or_ge |c1.time - c0.time| 60 with hgap | hgap
    · have hz : idiv (wrap64 (c1.time - c0.time)) 60 = 0 := by
        rw [hsp]
        rw [abs_lt] at hgap
        rcases le_total 0 (c1.time - c0.time) with hs | hs
        · exact Int.tdiv_eq_zero_of_lt hs hgap.2
        · rw [← neg_neg (c1.time - c0.time), Int.neg_tdiv,
            Int.tdiv_eq_zero_of_lt (by omega) (by omega)]; rfl
      by_cases hi : interval = 1
      · subst hi
        have : modifyInterval S minute (c0 :: c1 :: cs) 1 = .err .econflict [] := by
          simp only [modifyInterval, hz]
          rw [if_neg (by simp), if_pos (by simp)]
        rw [this]
        refine iff_of_false (by simp) ?_
        rintro (h | ⟨d0, d1, ds, he, h | h⟩)
        · exact absurd h (by simp)
        · exact h.2 rfl
        · exact absurd h.2.1 (by decide)
      · refine iff_of_true ?_ (Or.inr ⟨c0, c1, cs, rfl, Or.inl ⟨hgap, hi⟩⟩)
        simp only [modifyInterval, hz]
        rw [if_neg (by simp), if_neg (by simp [hi]), if_pos trivial]
    · by_cases hi : interval = 0
      swap
      · refine iff_of_false (C31_no_panic_partial S minute _ interval
          (Or.inr ⟨c0, c1, cs, rfl, hi, h0, h1, hgap⟩)) ?_
        rintro (h | ⟨d0, d1, ds, he, h | h⟩)
        · exact absurd h (by simp)
        · simp only [List.cons.injEq] at he
          obtain ⟨rfl, rfl, rfl⟩ := he
          omega
        · exact hi h.2.1
      · subst hi
        have hne : idiv (wrap64 (c1.time - c0.time)) 60 ≠ 0 := by
          rw [hsp]; exact tdiv60_ne_zero hgap
        have hm : imod 0 (idiv (wrap64 (c1.time - c0.time)) 60) = 0 := Int.zero_tmod _
        have key : modifyInterval S minute (c0 :: c1 :: cs) 0 = .panic ↔
            ∃ c ∈ (c0 :: c1 :: cs).dropLast, Aligned minute 0 c := by
          generalize hL : c0 :: c1 :: cs = L at *
          have hlen : L.length ≠ 1 := by rw [← hL]; simp
          have hexp : modifyInterval S minute L 0 =
            match findFirstIndex minute L 0 with
            | .ok first =>
              match L[first]? with
              | some p =>
                match resampleLoop S L 0 p.time (L.drop (first + 1)) (first + 1) first [] with
                | .ok (acc, start) =>
                  match compressCandle S L start L.length with
                  | .ok c => .ok (acc ++ [c])
                  | .err e _ => .err e []
                  | .panic => .panic
                | .err e _ => .err e []
                | .panic => .panic
              | none => .panic
            | .err e _ => .err e []
            | .panic => .panic := by
            subst hL
            conv_lhs => unfold modifyInterval
            rw [if_neg hlen]
            simp only [hm]
            rw [if_neg (by simp), if_neg hne, if_neg (by simp)]
            rfl
          rw [hexp]
          unfold findFirstIndex
          cases hidx : L.findIdx? (isAligned minute 0) with
          | none =>
            refine iff_of_false (by simp) ?_
            rintro ⟨c, hc, hal⟩
            have := findIdx?_none_all hidx c (List.mem_of_mem_dropLast hc)
            rw [(isAligned_iff _ _ _).2 hal] at this
            exact absurd this (by simp)
          | some i =>
            obtain ⟨pre, p, rest, hs, hi, hp, hpre⟩ := findIdx?_some_split hidx
            have hget : L[i]? = some p := by rw [hs, ← hi]; simp
            have hdrop : L.drop (i + 1) = rest := by rw [hs, ← hi]; simp [List.drop_append]
            simp only [hget, hdrop]
            cases rest with
            | cons r rs =>
              refine iff_of_true (by simp [resampleLoop, isBoundary]) ⟨p, ?_, (isAligned_iff _ _ _).1 hp⟩
              rw [hs, List.dropLast_append_of_ne_nil (by simp), List.dropLast_cons_of_ne_nil (by simp)]
              simp
            | nil =>
              refine iff_of_false ?_ ?_
              · simp only [resampleLoop]
                have hlast : L[L.length - 1]? = some p := by rw [hs]; simp
                have hle : i ≤ L.length := by rw [hs, ← hi]; simp
                unfold compressCandle
                rw [hget, hlast]
                simp only
                rw [if_pos ⟨hle, le_refl _⟩]
                cases hf : fixed5 S (volumeLoop S (.fin 0) (List.take (L.length - i) (L.drop i))) <;> simp
              · rintro ⟨c, hc, hal⟩
                rw [hs] at hc
                rw [List.dropLast_concat] at hc
                have := hpre c hc
                rw [(isAligned_iff _ _ _).2 hal] at this
                exact absurd this (by simp)
        rw [key]
        constructor
        · rintro ⟨c, hc, hal⟩
          exact Or.inr ⟨c0, c1, cs, rfl, Or.inr ⟨hgap, rfl, c, hc, hal⟩⟩
        · rintro (h | ⟨d0, d1, ds, he, h | h⟩)
          · exact absurd h (by simp)
          · simp only [List.cons.injEq] at he
            obtain ⟨rfl, rfl, rfl⟩ := he
            omega
          · exact h.2.2

example : modifyInterval ieee (fun _ => 0) demoCandles 0 = .panic :=
  (C132_panics_iff ieee (fun _ => 0) demoCandles 0 (by decide)).2
    (Or.inr ⟨_, _, _, rfl, Or.inr ⟨by decide, rfl, demoCandles[0], by decide, by decide⟩⟩)

/-! ### C133 -/

/-- **C133** On the binary64 semantics of amd64, `GetMinInterval` is negative exactly for lists of
fewer than two candles, whatever they hold (neighbours less than 2^53 seconds apart). -/
theorem C133_negative_iff (cs : List Candle) (hb : ∀ g ∈ gaps cs, g < 2 ^ 53) :
    getMinInterval ieee cs < 0 ↔ cs.length < 2 := by
  constructor
  · intro h
    by_contra hc
    exact absurd (C35_minInterval_partial ieee ieee_lawful cs (by omega) hb) (by omega)
  · intro h
    match cs, h with
    | [], _ => decide +kernel
    | [c], _ =>
      have : getMinInterval ieee [c] = getMinInterval ieee [] := rfl
      rw [this]; decide +kernel
    | _ :: _ :: _, h => simp at h; omega

/-- **C133** In every float semantics a list of fewer than two candles gives the one value that
the conversion of `math.MaxFloat64` gives: no list content enters. -/
theorem C133_short_constant (S : FloatSem) (cs : List Candle) (h : cs.length < 2) :
    getMinInterval S cs = Int.tdiv (S.toInt (S.const (2 ^ 1024 - 2 ^ 971))) 60 := by
  match cs, h with
  | [], _ => rfl
  | [c], _ => rfl
  | _ :: _ :: _, h => simp at h; omega

example : getMinInterval ieee [demoCandles[0]] < 0 :=
  (C133_negative_iff _ (by decide +kernel)).2 (by decide)

end Finmod
