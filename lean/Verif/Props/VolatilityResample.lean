import Verif.Props.Memory
import Verif.Props.FractalResample
import Verif.Props.CandleRegular

/-!
# Volatility of a resampled series: C274
-/

namespace Finmod
open Go Spec

/-- `k` candles no wider than `R` move the volatility no further up than one candle of range `R` that counts as all of them. -/
theorem ewv_group {beta : Fl} {b : ℚ} (hb : beta.Is b) (h0 : 0 ≤ b) (h1 : b ≤ 1) {R : ℚ} :
    ∀ (g : List Candle) (x : Fl) (v : ℚ), x.Is v → FiniteRanges g → (∀ c ∈ g, rangeOf c ≤ R) →
      ∃ s, (g.foldl (ewvStep FloatSem.exact beta) x).Is s ∧ s ≤ b ^ g.length * v + (1 - b ^ g.length) * R := by
  intro g
  induction g with
  | nil => intro x v hx _ _; exact ⟨v, hx, by simp⟩
  | cons c g ih =>
    intro x v hx hf hR
    obtain ⟨f1, f2⟩ := hf c (by simp)
    obtain ⟨s, hs, hle⟩ := ih _ _ (ewvStep_exact hb hx f1 f2) (fun d hd => hf d (by simp [hd])) fun d hd => hR d (by simp [hd])
    refine ⟨s, hs, hle.trans ?_⟩
    have hc := hR c (by simp)
    have hp : 0 ≤ b ^ g.length := pow_nonneg h0 _
    rw [List.length_cons, pow_succ]
    nlinarith [mul_nonneg hp (mul_nonneg (sub_nonneg.2 h1) (sub_nonneg.2 hc))]

/-- What a summary does to the range of the candles of its group. -/
theorem summary_range {S : FloatSem} {g : List Candle} {c : Candle} (hs : Summary S g c) (hg : g ≠ []) (hr : ∀ v ∈ g, InRange S v)
    (hf : FiniteRanges g) : c.high.isFinite = true ∧ c.low.isFinite = true ∧ ∀ v ∈ g, rangeOf v ≤ rangeOf c := by
  obtain ⟨⟨v, hv, e⟩, up⟩ := summary_price hs hg hr .up
  obtain ⟨⟨w, hw, e'⟩, down⟩ := summary_price hs hg hr .down
  simp only [price] at e e' up down
  have f1 : c.high.isFinite = true := by rw [← e]; exact (hf v hv).1
  have f2 : c.low.isFinite = true := by rw [← e']; exact (hf w hw).2
  refine ⟨f1, f2, fun u hu => ?_⟩
  have a := up u hu
  have d := down u hu
  rw [(Fl.isFinite_is (hf u hu).1).le (Fl.isFinite_is f1), decide_eq_true_eq] at a
  rw [(Fl.isFinite_is f2).le (Fl.isFinite_is (hf u hu).2), decide_eq_true_eq] at d
  unfold rangeOf
  linarith

/-- The volatility of the first `i` of the resampled candles against that of the candles they are made of. -/
theorem ewv_resampled {S : FloatSem} {cs out : List Candle} {m : Nat} (hm : 1 ≤ m) (hf : FiniteRanges cs) (hr : ∀ c ∈ cs, InRange S c)
    (hs : ∀ i (hi : i < out.length), Summary S ((cs.drop (i * m)).take m) out[i]) {beta beta' : Fl} {b : ℚ} (hb : beta.Is b)
    (hb' : beta'.Is (b ^ m)) (h0 : 0 ≤ b) (h1 : b ≤ 1) :
    ∀ i, i ≤ out.length → i * m ≤ cs.length →
      ∃ fine coarse, ((cs.take (i * m)).foldl (ewvStep FloatSem.exact beta) (.fin 0)).Is fine ∧
        ((out.take i).foldl (ewvStep FloatSem.exact beta') (.fin 0)).Is coarse ∧ fine ≤ coarse := by
  intro i
  induction i with
  | zero => intro _ _; exact ⟨0, 0, by simp, by simp, le_rfl⟩
  | succ i ih =>
    intro hi hil
    have e : (i + 1) * m = i * m + m := by ring
    rw [e] at hil ⊢
    obtain ⟨v, w, hv, hw, hvw⟩ := ih (by omega) (by omega)
    have hl : ((cs.drop (i * m)).take m).length = m := by simp; omega
    have hsub : ∀ c ∈ (cs.drop (i * m)).take m, c ∈ cs := fun c hc => List.mem_of_mem_drop (List.mem_of_mem_take hc)
    obtain ⟨f1, f2, hR⟩ := summary_range (hs i (by omega)) (by intro h; rw [h] at hl; simp at hl; omega) (fun c hc => hr c (hsub c hc))
      fun c hc => hf c (hsub c hc)
    obtain ⟨s, hs1, hs2⟩ := ewv_group hb h0 h1 _ _ _ hv (fun c hc => hf c (hsub c hc)) hR
    refine ⟨s, b ^ m * w + (1 - b ^ m) * rangeOf out[i], ?_, ?_, hs2.trans ?_⟩
    · rw [List.take_add, List.foldl_append]; exact hs1
    · rw [← List.take_concat_get' out i (by omega), List.foldl_append, List.foldl_cons, List.foldl_nil]
      exact ewvStep_exact hb' hw f1 f2
    · rw [hl]
      have := mul_le_mul_of_nonneg_left hvw (pow_nonneg h0 m)
      linarith

/-- **C274** Of a regular series resampled to `m` times its interval, without rounding, the volatility with `beta ^ m` is not below the
volatility with `beta` of the candles it was made from, if the last group is full. -/
theorem C274_coarse (S : FloatSem) (hS : Lawful S) (minute : Int → Int) (d m k : Nat) (hd : 1 ≤ d) (hm : 1 ≤ m) (candles : List Candle)
    (hlen : 2 ≤ candles.length) (hreg : Regular d candles) (j : Nat) (hj : j < candles.length)
    (hal : Aligned minute (m * d : Nat) candles[j]) (hna : ∀ i (h : i < j), ¬ Aligned minute (m * d : Nat) candles[i])
    (hk : candles.length = j + k * m) (hf : FiniteRanges candles) (hr : ∀ c ∈ candles, InRange S c)
    (out : List Candle) (h : modifyInterval S minute candles (m * d : Nat) = .ok out)
    {beta beta' : Fl} {b : ℚ} (hb : beta.Is b) (hb' : beta'.Is (b ^ m)) (h0 : 0 ≤ b) (h1 : b ≤ 1) :
    ∃ fine coarse, (exponentialWeightedVolatility FloatSem.exact (candles.drop j) beta).Is fine ∧
      (exponentialWeightedVolatility FloatSem.exact out beta').Is coarse ∧ fine ≤ coarse := by
  obtain ⟨hl, hs⟩ := C28_regular S hS minute d m hd hm candles hlen hreg j hj hal hna out h
  have hlk : out.length = k := by
    rw [hl, hk, Nat.add_sub_cancel_left, Nat.add_sub_assoc hm, Nat.add_comm, Nat.add_mul_div_right _ _ (by omega),
      Nat.div_eq_of_lt (by omega), Nat.zero_add]
  obtain ⟨v, w, hv, hw, hvw⟩ := ewv_resampled (S := S) (cs := candles.drop j) (out := out) hm (fun c hc => hf c (List.mem_of_mem_drop hc))
    (fun c hc => hr c (List.mem_of_mem_drop hc)) (fun i hi => by rw [List.drop_drop]; exact (hs i hi).1) hb hb' h0 h1 k (by omega)
    (by simp; omega)
  refine ⟨v, w, ?_, ?_, hvw⟩
  · rw [List.take_of_length_le (by simp; omega)] at hv; exact hv
  · rw [List.take_of_length_le (by omega)] at hw; exact hw

/-- **C274** In float64, up to the two rounding errors. -/
theorem C274_near (minute : Int → Int) (d m k : Nat) (hd : 1 ≤ d) (hm : 1 ≤ m) (candles : List Candle)
    (hlen : 2 ≤ candles.length) (hreg : Regular d candles) (j : Nat) (hj : j < candles.length)
    (hal : Aligned minute (m * d : Nat) candles[j]) (hna : ∀ i (h : i < j), ¬ Aligned minute (m * d : Nat) candles[i])
    (hk : candles.length = j + k * m) (hf : FiniteRanges candles) (hfr : FloatRanges candles) (hr : ∀ c ∈ candles, InRange ieee c)
    (out : List Candle) (h : modifyInterval ieee minute candles (m * d : Nat) = .ok out)
    {beta beta' : Fl} {b M : ℚ} (hb : beta.Is b) (hb' : beta'.Is (b ^ m)) (hbr : ieee.Rep beta) (hbr' : ieee.Rep beta') (h0 : 0 ≤ b)
    (h1 : 32 * 2 ^ (-53 : ℤ) ≤ 1 - b) (hM : ∀ c ∈ candles, |rangeOf c| ≤ M) (hMo : ∀ c ∈ out, |rangeOf c| ≤ M)
    (hbig : M ≤ 2 ^ (900 : ℤ)) :
    ∃ fine coarse, (exponentialWeightedVolatility ieee (candles.drop j) beta).Is fine ∧
      (exponentialWeightedVolatility ieee out beta').Is coarse ∧
      fine ≤ coarse + ((16 * 2 ^ (-53 : ℤ) * M + 4 * 2 ^ (-1075 : ℤ)) / (1 - b) +
        (16 * 2 ^ (-53 : ℤ) * M + 4 * 2 ^ (-1075 : ℤ)) / (1 - b ^ m)) := by
  have hp : (0 : ℚ) < 2 ^ (-53 : ℤ) := zpow_pos (by norm_num) _
  have hb1 : b ≤ 1 := by linarith
  have hbm : b ^ m ≤ b := by
    calc b ^ m ≤ b ^ 1 := pow_le_pow_of_le_one h0 hb1 hm
      _ = b := pow_one b
  have hM0 : 0 ≤ M := (abs_nonneg _).trans (hM _ (List.getElem_mem hj))
  obtain ⟨pre, groups, g1, -, g3, g4⟩ := C24_groups ieee minute candles _ out hlen h
  have hout : FiniteRanges out ∧ FloatRanges out := by
    have key : ∀ c ∈ out, ∃ v ∈ candles, ∃ w ∈ candles, v.high = c.high ∧ w.low = c.low := by
      intro c hc
      obtain ⟨i, hi, rfl⟩ := List.mem_iff_getElem.1 hc
      obtain ⟨hl, hget⟩ := List.forall₂_iff_get.1 g4
      have hs := hget i (hl ▸ hi) hi
      have hin : ∀ v ∈ groups.get ⟨i, hl ▸ hi⟩, v ∈ candles := fun v hv => by
        rw [g1]; exact List.mem_append_right _ (List.mem_flatten.2 ⟨_, List.get_mem _ _, hv⟩)
      obtain ⟨⟨v, hv, e⟩, -⟩ := summary_price hs (g3 _ (List.get_mem _ _)) (fun v hv => hr v (hin v hv)) .up
      obtain ⟨⟨w, hw, e'⟩, -⟩ := summary_price hs (g3 _ (List.get_mem _ _)) (fun v hv => hr v (hin v hv)) .down
      exact ⟨v, hin v hv, w, hin w hw, e, e'⟩
    constructor <;> intro c hc <;> obtain ⟨v, hv, w, hw, e, e'⟩ := key c hc <;> rw [← e, ← e']
    · exact ⟨(hf v hv).1, (hf w hw).2⟩
    · exact ⟨(hfr v hv).1, (hfr w hw).2⟩
  have hfd : FiniteRanges (candles.drop j) := fun c hc => hf c (List.mem_of_mem_drop hc)
  obtain ⟨s, t, k1, k2, k3⟩ := C274_coarse ieee ieee_lawful minute d m k hd hm candles hlen hreg j hj hal hna hk hf hr out h hb hb' h0 hb1
  obtain ⟨r, e1, e2⟩ := C109_volatility_accurate hfd (fun c hc => hfr c (List.mem_of_mem_drop hc)) hb hbr h0 h1 hM0
    (fun c hc => hM c (List.mem_of_mem_drop hc)) hbig
  obtain ⟨r', e1', e2'⟩ := C109_volatility_accurate hout.1 hout.2 hb' hbr' (pow_nonneg h0 m) (by linarith) hM0 hMo hbig
  rw [← (C74_weighted_sum hfd hb).toRat, k1.toRat, abs_le] at e2
  rw [← (C74_weighted_sum hout.1 hb').toRat, k2.toRat, abs_le] at e2'
  exact ⟨r, r', e1, e1', by linarith⟩

example : modifyInterval ieee utcMinute (demoCandles.take 3) (2 * 1 : Nat) = .ok [⟨120, .fin 2, .fin 5, .fin 0, .fin 1, .fin (5/2)⟩] ∧
    Regular 1 (demoCandles.take 3) ∧ Aligned utcMinute (2 * 1 : Nat) demoCandles[1] ∧ ¬ Aligned utcMinute (2 * 1 : Nat) demoCandles[0] ∧
    FiniteRanges (demoCandles.take 3) ∧ (∀ c ∈ demoCandles.take 3, InRange ieee c) ∧ FloatRanges (demoCandles.take 3) ∧
    (demoCandles.take 3).length = 1 + 1 * 2 ∧ Fl.Is (.fin (1/2)) (1/2) ∧ Fl.Is (.fin (1/4)) ((1/2) ^ 2) ∧
    exponentialWeightedVolatility ieee ((demoCandles.take 3).drop 1) (.fin (1/2)) = .fin (11/4) ∧
    exponentialWeightedVolatility ieee [⟨120, .fin 2, .fin 5, .fin 0, .fin 1, .fin (5/2)⟩] (.fin (1/4)) = .fin (15/4) := by
  refine ⟨by decide +kernel, ⟨by decide, ?_⟩, by decide, by decide, by unfold FiniteRanges; decide +kernel, by unfold InRange; decide +kernel, ?_, rfl,
    Fl.is_fin _, by simp; norm_num, by decide +kernel, by decide +kernel⟩
  · intro i hi
    simp only [demoCandles, List.take_succ_cons, List.take_zero, List.length_cons, List.length_nil] at hi
    interval_cases i <;> rfl
  · intro c hc
    simp only [demoCandles, List.take_succ_cons, List.take_zero, List.mem_cons, List.not_mem_nil, or_false] at hc
    rcases hc with rfl | rfl | rfl <;> constructor <;> (intro q hq; cases hq; decide +kernel)

end Finmod
