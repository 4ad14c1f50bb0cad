import Verif.Props.Accuracy

/-!
# C282: what one more candle does to the volatility
-/

namespace Finmod
open Go Spec

/-- Without rounding the volatility of candles with ranges from 0 to `M` lies from 0 to `M`. -/
theorem ewv_within {cs : List Candle} (hf : FiniteRanges cs) {M : ℚ} (hM0 : 0 ≤ M) (hM : ∀ c ∈ cs, 0 ≤ rangeOf c ∧ rangeOf c ≤ M)
    {beta : Fl} {b : ℚ} (hb : beta.Is b) (h0 : 0 ≤ b) (h1 : b ≤ 1) :
    ∃ v, (exponentialWeightedVolatility FloatSem.exact cs beta).Is v ∧ 0 ≤ v ∧ v ≤ M := by
  induction cs using List.reverseRecOn with
  | nil => exact ⟨0, Fl.is_fin 0, le_rfl, hM0⟩
  | append_singleton cs c ih =>
    obtain ⟨v, hv, v0, v1⟩ := ih (fun d hd => hf d (by simp [hd])) fun d hd => hM d (by simp [hd])
    obtain ⟨f1, f2⟩ := hf c (by simp)
    obtain ⟨r0, r1⟩ := hM c (by simp)
    refine ⟨b * v + (1 - b) * rangeOf c, ?_, ?_, ?_⟩
    · unfold exponentialWeightedVolatility
      rw [List.foldl_append]
      exact ewvStep_exact hb hv f1 f2
    · have := mul_nonneg h0 v0
      have := mul_nonneg (sub_nonneg.2 h1) r0
      linarith
    · have := mul_le_mul_of_nonneg_left v1 h0
      have := mul_le_mul_of_nonneg_left r1 (sub_nonneg.2 h1)
      linarith

/-- **C282, in exact arithmetic** One more candle moves the volatility by `1 - beta` times the difference of the candle's range and the
volatility before: towards the range and not past it, and by at most `(1 - beta) M` when all ranges are from 0 to `M`. -/
theorem C282_step {cs : List Candle} {c : Candle} (hf : FiniteRanges (cs ++ [c])) {M : ℚ} (hM : ∀ d ∈ cs ++ [c], 0 ≤ rangeOf d ∧ rangeOf d ≤ M)
    {beta : Fl} {b : ℚ} (hb : beta.Is b) (h0 : 0 ≤ b) (h1 : b ≤ 1) :
    ∃ v w, (exponentialWeightedVolatility FloatSem.exact cs beta).Is v ∧ (exponentialWeightedVolatility FloatSem.exact (cs ++ [c]) beta).Is w ∧
      w - v = (1 - b) * (rangeOf c - v) ∧ min v (rangeOf c) ≤ w ∧ w ≤ max v (rangeOf c) ∧ |w - v| ≤ (1 - b) * M := by
  obtain ⟨r0, r1⟩ := hM c (by simp)
  obtain ⟨v, hv, v0, v1⟩ := ewv_within (cs := cs) (fun d hd => hf d (by simp [hd])) (r0.trans r1) (fun d hd => hM d (by simp [hd])) hb h0 h1
  obtain ⟨f1, f2⟩ := hf c (by simp)
  have h1' := sub_nonneg.2 h1
  refine ⟨v, b * v + (1 - b) * rangeOf c, hv, ?_, by ring, ?_, ?_, ?_⟩
  · unfold exponentialWeightedVolatility
    rw [List.foldl_append]
    exact ewvStep_exact hb hv f1 f2
  · have := mul_le_mul_of_nonneg_left (min_le_left v (rangeOf c)) h0
    have := mul_le_mul_of_nonneg_left (min_le_right v (rangeOf c)) h1'
    linarith
  · have := mul_le_mul_of_nonneg_left (le_max_left v (rangeOf c)) h0
    have := mul_le_mul_of_nonneg_left (le_max_right v (rangeOf c)) h1'
    linarith
  · have e : b * v + (1 - b) * rangeOf c - v = (1 - b) * (rangeOf c - v) := by ring
    rw [e, abs_mul, abs_of_nonneg h1']
    exact mul_le_mul_of_nonneg_left (abs_le.2 ⟨by linarith, by linarith⟩) h1'

/-- **C282, in float64** One more candle moves the volatility by at most `(1 - beta) M` and two rounding errors, whatever the number of candles. -/
theorem C282_near {cs : List Candle} {c : Candle} (hf : FiniteRanges (cs ++ [c])) (hr : FloatRanges (cs ++ [c])) {M : ℚ}
    (hM : ∀ d ∈ cs ++ [c], 0 ≤ rangeOf d ∧ rangeOf d ≤ M) (hbig : M ≤ 2 ^ (900 : ℤ))
    {beta : Fl} {b : ℚ} (hb : beta.Is b) (hbr : ieee.Rep beta) (h0 : 0 ≤ b) (h1 : 32 * 2 ^ (-53 : ℤ) ≤ 1 - b) :
    ∃ v w, (exponentialWeightedVolatility ieee cs beta).Is v ∧ (exponentialWeightedVolatility ieee (cs ++ [c]) beta).Is w ∧
      |w - v - (1 - b) * (rangeOf c - v)| ≤ 2 * ((16 * 2 ^ (-53 : ℤ) * M + 4 * 2 ^ (-1075 : ℤ)) / (1 - b)) ∧
      |w - v| ≤ (1 - b) * M + 2 * ((16 * 2 ^ (-53 : ℤ) * M + 4 * 2 ^ (-1075 : ℤ)) / (1 - b)) := by
  have hu : (0 : ℚ) < 2 ^ (-53 : ℤ) := zpow_pos (by norm_num) _
  have hb1 : b ≤ 1 := by linarith
  have hf' : FiniteRanges cs := fun d hd => hf d (by simp [hd])
  have hM0 : 0 ≤ M := (hM c (by simp)).1.trans (hM c (by simp)).2
  have hMa : ∀ d ∈ cs ++ [c], |rangeOf d| ≤ M := fun d hd => by rw [abs_of_nonneg (hM d hd).1]; exact (hM d hd).2
  obtain ⟨v, w, k1, k2, k3, -, -, k4⟩ := C282_step hf hM hb h0 hb1
  obtain ⟨r, e1, e2⟩ := C109_volatility_accurate hf' (fun d hd => hr d (by simp [hd])) hb hbr h0 h1 hM0 (fun d hd => hMa d (by simp [hd])) hbig
  obtain ⟨s, e1', e2'⟩ := C109_volatility_accurate hf hr hb hbr h0 h1 hM0 hMa hbig
  rw [← (C74_weighted_sum hf' hb).toRat, k1.toRat] at e2
  rw [← (C74_weighted_sum hf hb).toRat, k2.toRat] at e2'
  generalize (16 * 2 ^ (-53 : ℤ) * M + 4 * 2 ^ (-1075 : ℤ)) / (1 - b) = E at *
  rw [abs_le] at e2 e2' k4
  refine ⟨r, s, e1, e1', ?_, abs_le.2 ⟨by linarith, by linarith⟩⟩
  have e : s - r - (1 - b) * (rangeOf c - r) = (s - w) - b * (r - v) := by linear_combination k3
  have p1 := mul_le_mul_of_nonneg_left e2.1 h0
  have p2 := mul_le_mul_of_nonneg_left e2.2 h0
  have hE : 0 ≤ E := by linarith
  have p3 := mul_le_mul_of_nonneg_right hb1 hE
  rw [e, abs_le]
  constructor <;> linarith

/-- The bound is reached by the first candle. -/
example : FiniteRanges ([] ++ [exRange 5 1]) ∧ (∀ d ∈ [] ++ [exRange 5 1], 0 ≤ rangeOf d ∧ rangeOf d ≤ 4) ∧
    FloatRanges ([] ++ [exRange 5 1]) ∧ (32 : ℚ) * 2 ^ (-53 : ℤ) ≤ 1 - 1 / 4 ∧ ieee.Rep (.fin (1 / 4)) ∧
    exponentialWeightedVolatility ieee [] (.fin (1 / 4)) = .fin 0 ∧ exponentialWeightedVolatility ieee [exRange 5 1] (.fin (1 / 4)) = .fin 3 := by
  refine ⟨?_, ?_, ?_, by norm_num, fun q hq => by cases hq; decide +kernel, by decide +kernel, by decide +kernel⟩
  · intro c hc
    simp only [List.nil_append, List.mem_cons, List.not_mem_nil, or_false] at hc
    subst hc; exact ⟨by decide +kernel, by decide +kernel⟩
  · unfold rangeOf; decide +kernel
  · intro c hc
    simp only [List.nil_append, List.mem_cons, List.not_mem_nil, or_false] at hc
    subst hc
    exact ⟨fun q hq => by cases hq; decide +kernel, fun q hq => by cases hq; decide +kernel⟩

end Finmod
