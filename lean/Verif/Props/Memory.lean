import Verif.Props.Widening
import Verif.Props.Accuracy

/-!
# Volatility with a shorter memory: C273
-/

namespace Finmod
open Go Spec

/-- Without rounding: from values that no candle since is narrower than. -/
theorem ewv_memory {beta beta' : Fl} {b b' : ℚ} (hb : beta.Is b) (hb' : beta'.Is b') (h0 : 0 ≤ b) (hle : b ≤ b') :
    ∀ (cs : List Candle) (x y : Fl) (q r : ℚ), FiniteRanges cs → (cs.Pairwise fun c d => rangeOf c ≤ rangeOf d) →
      (∀ c ∈ cs, q ≤ rangeOf c) → x.Is q → y.Is r → r ≤ q →
      ∃ s t, (cs.foldl (ewvStep FloatSem.exact beta) x).Is s ∧ (cs.foldl (ewvStep FloatSem.exact beta') y).Is t ∧ t ≤ s ∧
        ∀ m, q ≤ m → (∀ c ∈ cs, rangeOf c ≤ m) → s ≤ m := by
  intro cs
  induction cs with
  | nil => intro x y q r _ _ _ hx hy hrq; exact ⟨q, r, hx, hy, hrq, fun m hm _ => hm⟩
  | cons c cs ih =>
    intro x y q r hf hp hq hx hy hrq
    obtain ⟨f1, f2⟩ := hf c (by simp)
    rw [List.pairwise_cons] at hp
    have hqc := hq c (by simp)
    have e1 := ewvStep_exact hb hx f1 f2
    have e2 := ewvStep_exact hb' hy f1 f2
    have hqn : b * q + (1 - b) * rangeOf c ≤ rangeOf c := by nlinarith
    obtain ⟨s, t, k1, k2, k3, k4⟩ := ih _ _ _ _ (fun d hd => hf d (by simp [hd])) hp.2 (fun d hd => hqn.trans (hp.1 d hd)) e1 e2
      (by nlinarith [mul_nonneg (sub_nonneg.2 hle) (sub_nonneg.2 hqc), mul_nonneg (h0.trans hle) (sub_nonneg.2 hrq)])
    exact ⟨s, t, k1, k2, k3, fun m hm hc => k4 m (hqn.trans (hc c (by simp))) fun d hd => hc d (by simp [hd])⟩

/-- **C273** Without rounding, of candles that never get narrower the volatility with the smaller `beta` is not the smaller, and neither
exceeds the range of the widest candle. -/
theorem C273_memory_partial {cs : List Candle} (hw : Widening FloatSem.exact cs) {beta beta' : Fl} {b b' : ℚ} (hb : beta.Is b)
    (hb' : beta'.Is b') (h0 : 0 ≤ b) (hle : b ≤ b') :
    ∃ short long, (exponentialWeightedVolatility FloatSem.exact cs beta).Is short ∧
      (exponentialWeightedVolatility FloatSem.exact cs beta').Is long ∧ long ≤ short ∧
      ∀ c ∈ cs.getLast?, short ≤ rangeOf c := by
  obtain ⟨hr, hp⟩ := hw
  have hn : ∀ c ∈ cs, 0 ≤ rangeOf c := by
    intro c hc
    have h := hr c hc
    have := h.ordered
    rw [(Fl.isFinite_is h.low).le (Fl.isFinite_is h.high), decide_eq_true_eq] at this
    unfold rangeOf
    linarith
  obtain ⟨s, t, k1, k2, k3, k4⟩ := ewv_memory hb hb' h0 hle cs (.fin 0) (.fin 0) 0 0 (fun c hc => ⟨(hr c hc).high, (hr c hc).low⟩) hp hn
    (Fl.is_fin 0) (Fl.is_fin 0) le_rfl
  refine ⟨s, t, k1, k2, k3, fun c hc => ?_⟩
  obtain ⟨ds, rfl⟩ := List.getLast?_eq_some_iff.1 hc
  refine k4 _ (hn c (by simp)) fun d hd => ?_
  rcases List.mem_append.1 hd with hd | hd
  · exact (List.pairwise_append.1 hp).2.2 d hd c (by simp)
  · rw [List.mem_singleton.1 hd]

/-- **C273** In float64 the volatility with the greater `beta` exceeds the other by at most the two rounding errors, whatever the number
of candles. -/
theorem C273_near_partial {cs : List Candle} (hw : Widening FloatSem.exact cs) (hr : FloatRanges cs) {beta beta' : Fl} {b b' M : ℚ}
    (hb : beta.Is b) (hb' : beta'.Is b') (hbr : ieee.Rep beta) (hbr' : ieee.Rep beta') (h0 : 0 ≤ b) (hle : b ≤ b')
    (h1 : 32 * 2 ^ (-53 : ℤ) ≤ 1 - b') (hM0 : 0 ≤ M) (hM : ∀ c ∈ cs, rangeOf c ≤ M) (hbig : M ≤ 2 ^ (900 : ℤ)) :
    ∃ short long, (exponentialWeightedVolatility ieee cs beta).Is short ∧ (exponentialWeightedVolatility ieee cs beta').Is long ∧
      long ≤ short + ((16 * 2 ^ (-53 : ℤ) * M + 4 * 2 ^ (-1075 : ℤ)) / (1 - b) + (16 * 2 ^ (-53 : ℤ) * M + 4 * 2 ^ (-1075 : ℤ)) / (1 - b')) := by
  have hf : FiniteRanges cs := fun c hc => ⟨(hw.1 c hc).high, (hw.1 c hc).low⟩
  have hM' : ∀ c ∈ cs, |rangeOf c| ≤ M := by
    intro c hc
    have h := hw.1 c hc
    have := h.ordered
    rw [(Fl.isFinite_is h.low).le (Fl.isFinite_is h.high), decide_eq_true_eq] at this
    rw [abs_of_nonneg (by unfold rangeOf; linarith)]
    exact hM c hc
  obtain ⟨s, t, k1, k2, k3, _⟩ := C273_memory_partial hw hb hb' h0 hle
  obtain ⟨r, e1, e2⟩ := C109_volatility_accurate hf hr hb hbr h0 (by linarith) hM0 hM' hbig
  obtain ⟨r', e1', e2'⟩ := C109_volatility_accurate hf hr hb' hbr' (h0.trans hle) h1 hM0 hM' hbig
  rw [← (C74_weighted_sum hf hb).toRat, k1.toRat, abs_le] at e2
  rw [← (C74_weighted_sum hf hb').toRat, k2.toRat, abs_le] at e2'
  exact ⟨r, r', e1, e1', by linarith⟩

/-- The claim for float64. -/
def Spec.C273_claim : Prop :=
  ∀ (cs : List Candle) (beta beta' : Fl), Widening ieee cs → Fl.le (.fin 0) beta = true → Fl.le beta beta' = true →
    Fl.le beta' (.fin 1) = true → Fl.le (exponentialWeightedVolatility ieee cs beta') (exponentialWeightedVolatility ieee cs beta) = true

/-- **C273** is false in float64: of 24 candles from 1 to 4 the volatility with 0.1 is 3, with 0.2 it is 3.0000000000000004. -/
theorem C273_memory_violated : ¬ Spec.C273_claim := by
  intro h
  have := h (List.replicate 24 (exRange 4 1)) (.fin (3602879701896397 / 36028797018963968)) (.fin (3602879701896397 / 18014398509481984))
    ⟨fun c hc => by rw [List.eq_of_mem_replicate hc]; constructor <;> decide +kernel, List.pairwise_replicate.2 (.inr le_rfl)⟩
    (by decide +kernel) (by decide +kernel) (by decide +kernel)
  revert this; decide +kernel

example : Widening FloatSem.exact [exRange 5 4, exRange 8 6, exRange 11 (17/2)] ∧ FloatRanges [exRange 5 4, exRange 8 6, exRange 11 (17/2)] ∧
    Fl.Is (.fin (1/4)) (1/4) ∧ ieee.Rep (.fin (1/4)) ∧ (32 : ℚ) * 2 ^ (-53 : ℤ) ≤ 1 - 1/2 := by
  refine ⟨⟨?_, by unfold rangeOf; decide +kernel⟩, ?_, Fl.is_fin _, fun q hq => by cases hq; decide +kernel, by norm_num⟩
  · intro c hc
    simp only [List.mem_cons, List.not_mem_nil, or_false] at hc
    rcases hc with rfl | rfl | rfl <;> constructor <;> decide +kernel
  · intro c hc
    simp only [List.mem_cons, List.not_mem_nil, or_false] at hc
    rcases hc with rfl | rfl | rfl <;> constructor <;> (intro q hq; cases hq; decide +kernel)

end Finmod
