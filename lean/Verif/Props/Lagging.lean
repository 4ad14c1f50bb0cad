import Verif.Props.Faster

/-!
# The smoothed average lags most: C271
-/

namespace Finmod
open Go Spec

/-- A price that comes before all of a list comes before its mean. -/
theorem before_mean {R T : ℚ → ℚ → Prop} (h : Trend R T) {v : List ℚ} (hv : v ≠ []) {x : ℚ} (hx : ∀ y ∈ v, T x y) : T x (mean v) := by
  have hl : (0 : ℚ) < v.length := by exact_mod_cast List.length_pos_iff.2 hv
  have hs : v.sum = v.length * mean v := by unfold mean; field_simp
  have key : ∀ l : List ℚ, (∀ y ∈ l, T x y) → T (l.length * x) l.sum := by
    intro l hl
    induction l with
    | nil => cases h <;> simp
    | cons a l ih =>
      have i1 := hl a (by simp)
      have i2 := ih fun y hy => hl y (by simp [hy])
      rw [List.sum_cons, List.length_cons]
      cases h <;> beta_reduce at * <;> push_cast <;> linarith
  have := key v hx
  rw [hs] at this
  cases h <;> beta_reduce at * <;> exact le_of_mul_le_mul_left this hl

/-- The mean of the next window. -/
theorem mean_slide {xs : List ℚ} {n i : Nat} (h1 : 1 ≤ n) (hi : i + n < xs.length) :
    mean ((xs.drop (i + 1)).take n) = mean ((xs.drop i).take n) + (xs[i + n] - xs[i]) / n := by
  have e1 : (xs.drop i).take (n + 1) = xs[i] :: (xs.drop (i + 1)).take n := by
    rw [List.drop_eq_getElem_cons (by omega), List.take_succ_cons]
  have hlen : n < (xs.drop i).length := by simp; omega
  have e2 : (xs.drop i).take (n + 1) = (xs.drop i).take n ++ [xs[i + n]] := by
    rw [← List.take_concat_get' _ n hlen, List.getElem_drop]
  have e := congrArg List.sum (e1.symm.trans e2)
  rw [List.sum_cons, List.sum_append, List.sum_singleton] at e
  have l1 : ((xs.drop (i + 1)).take n).length = n := by simp; omega
  have l2 : ((xs.drop i).take n).length = n := by simp; omega
  have hn : (n : ℚ) ≠ 0 := by positivity
  unfold mean
  rw [l1, l2]
  field_simp
  linarith

/-- The smoothed average never gets ahead of the mean of its window. -/
theorem smma_behind_ma {R T : ℚ → ℚ → Prop} (h : Trend R T) {xs : List ℚ} (hp : xs.Pairwise T) {n : Nat} (h1 : 1 ≤ n) :
    ∀ i : Nat, i + n ≤ xs.length →
      T (((xs.drop n).take i).foldl (fun prev x => (prev * ((n : ℚ) - 1) + x) / n) (mean (xs.take n))) (mean ((xs.drop i).take n)) := by
  have hn : (1 : ℚ) ≤ n := by exact_mod_cast h1
  intro i
  induction i with
  | zero => intro _; simpa using h.rfl' _
  | succ i ih =>
    intro hi
    have ih := ih (by omega)
    have hlen : i < (xs.drop n).length := by simp; omega
    have hx : T xs[i] (mean ((xs.drop i).take n)) := by
      refine before_mean h (by intro h0; have := congrArg List.length h0; simp at this; omega) fun y hy => ?_
      obtain ⟨j, hj, rfl⟩ := List.mem_iff_getElem.1 hy
      simp only [List.length_take, List.length_drop] at hj
      simp only [List.getElem_take, List.getElem_drop]
      rcases Nat.eq_zero_or_pos j with rfl | hj0
      · exact h.rfl' _
      · exact List.pairwise_iff_getElem.1 hp _ _ _ _ (by omega)
    rw [mean_slide h1 (by omega), ← List.take_concat_get' _ i hlen, List.foldl_append, List.foldl_cons, List.foldl_nil, List.getElem_drop]
    have e : xs[n + i] = xs[i + n] := by congr 1; omega
    rw [e]
    generalize mean ((xs.drop i).take n) = M at *
    generalize List.foldl _ _ _ = s at *
    have hk : M + (xs[i + n] - xs[i]) / n - (s * ((n : ℚ) - 1) + xs[i + n]) / n = (M - s) * (1 - 1 / n) + (M - xs[i]) / n := by
      field_simp
      ring
    have hw : (0 : ℚ) ≤ 1 - 1 / n := by
      rw [sub_nonneg, div_le_one (by linarith)]; exact hn
    have hn0 : (0 : ℚ) ≤ n := by linarith
    cases h <;> beta_reduce at * <;>
    · have a := mul_nonneg (sub_nonneg.2 ih) hw
      have b := div_nonneg (sub_nonneg.2 hx) hn0
      have : (xs[i] - M) / n = - ((M - xs[i]) / n) := by ring
      linarith

/-- Without rounding, the smoothed average of period `m` against the moving average of a period `n ≤ m` at the same candle, and against
the exponential average of a period `n ≤ m` at the next candle. -/
theorem lagging_q {R T : ℚ → ℚ → Prop} (hR : Trend R T) {xs : List ℚ} (hpR : xs.Pairwise R) {n m : Nat} (h1 : 1 ≤ n) (hnm : n ≤ m)
    (h2 : m ≤ xs.length) :
    List.Forall₂ T (smmaQ xs m) ((maQ xs n).drop (m - n)) ∧
    List.Forall₂ T ((smmaQ xs m).take (xs.length - m)) ((emaQ xs n).drop (m - n)) := by
  have h := hR.self
  have hp : xs.Pairwise T := hpR.imp hR.weak
  have hm1 := h1.trans hnm
  obtain ⟨q1, q2, _⟩ := faster_q hR hpR h1 hnm h2
  have tr : ∀ {a b c : List ℚ}, List.Forall₂ T a b → List.Forall₂ T b c → List.Forall₂ T a c := by
    intro a b c h1 h2
    induction h1 generalizing c with
    | nil => cases h2; exact .nil
    | cons x _ ih =>
      cases h2 with
      | cons y h2 => exact .cons (h.trans x y) (ih h2)
  have hn : (1 : ℚ) ≤ m := by exact_mod_cast hm1
  have hw : (1 : ℚ) / m ≤ 2 / ((m : ℚ) + 1) := by
    rw [div_le_div_iff₀ (by linarith) (by linarith)]; linarith
  refine ⟨tr ?_ q1, tr ?_ q2⟩
  · rw [List.forall₂_iff_get]
    refine ⟨by simp [smmaQ, maQ, length_scan], fun i i1 i2 => ?_⟩
    have hi : i + m ≤ xs.length := by simp [maQ] at i2; omega
    have := smma_behind_ma hR hp hm1 i hi
    have e : (smmaQ xs m)[i] = ((smmaQ xs m).drop i)[0]'(by simp at i1 ⊢; omega) := by simp
    simp only [List.get_eq_getElem, maQ, List.getElem_map, List.getElem_range]
    rw [e]
    have e2 : ∀ (l : List ℚ) (a : ℚ) (t : List ℚ) (hl : 0 < l.length), l = a :: t → l[0] = a := by
      rintro _ a t hl rfl; rfl
    have e3 : ∃ t, (smmaQ xs m).drop i =
        ((xs.drop m).take i).foldl (fun prev x => (prev * ((m : ℚ) - 1) + x) / m) (mean (xs.take m)) :: t := by
      unfold smmaQ
      rw [scan_drop _ _ _ _ (by simp; omega)]
      cases (xs.drop m).drop i with
      | nil => exact ⟨_, rfl⟩
      | cons b l => exact ⟨_, rfl⟩
    obtain ⟨t, e3⟩ := e3
    rw [e2 _ _ _ _ e3]
    exact this
  · rcases Nat.lt_or_ge m xs.length with hlt | hge
    · obtain ⟨w1, w2⟩ := weight_trend hm1
      obtain ⟨s1, s2⟩ := seed_trend h hp hm1 hlt.le
      -- the smoothed average of the same closes as the exponential one is ahead of the one that takes them a candle later
      have key : ∀ (l : List ℚ) (c a b : ℚ), (c :: l).Pairwise T → (∀ d ∈ c :: l, T a d) → T b a →
          List.Forall₂ T ((scan (fun prev x => (prev * ((m : ℚ) - 1) + x) / m) b (c :: l)).take (l.length + 1))
            (scan (fun prev x => x * (2 / ((m : ℚ) + 1)) + prev * (1 - 2 / ((m : ℚ) + 1))) a l) := by
        intro l
        induction l with
        | nil => intro c a b _ _ hab; exact .cons hab .nil
        | cons d l ih =>
          intro c a b hp ha hab
          have hp' := List.pairwise_cons.1 hp
          have had := ha d (by simp)
          have hac := ha c (by simp)
          have hmm : (b * ((m : ℚ) - 1) + c) / m = c * (1 / m) + b * (1 - 1 / m) := by field_simp; ring
          refine .cons hab (ih d _ _ hp'.2 (fun e he => ?_) ?_)
          · have hde : T d e := by
              rcases List.mem_cons.1 he with rfl | he
              · exact h.rfl' _
              · exact (List.pairwise_cons.1 hp'.2).1 e he
            exact h.trans (h.between w1 w2 had).2 hde
          · beta_reduce
            rw [hmm]
            have hcd : T c d := hp'.1 d (by simp)
            exact h.trans (h.later (by positivity) hcd) (h.mix hw (hw.trans w2) hab had)
      have e1 : emaQ xs m =
          scan (fun prev x => x * (2 / ((m : ℚ) + 1)) + prev * (1 - 2 / ((m : ℚ) + 1))) (mean (xs.take m)) (xs.drop (m + 1)) := by
        unfold emaQ
        rw [List.drop_eq_getElem_cons hlt]
      rw [e1]
      unfold smmaQ
      rw [List.drop_eq_getElem_cons hlt, show xs.length - m = (xs.drop (m + 1)).length + 1 by simp; omega]
      refine key _ _ _ _ ?_ ?_ (h.rfl' _)
      · rw [← List.drop_eq_getElem_cons hlt]; exact hp.sublist (List.drop_sublist _ _)
      · rw [← List.drop_eq_getElem_cons hlt]; exact s2
    · have e1 : emaQ xs m = [] := by unfold emaQ; rw [List.drop_eq_nil_of_le hge]
      rw [e1, show xs.length - m = 0 by omega]
      exact .nil

/-- **C271** Without rounding, while the closes rise SmoothedMovingAverage is never above MovingAverage of the same or a shorter period at
the same candle, nor above ExponentialMovingAverage of such a period at the next candle; while they fall never below. -/
theorem C271_lags_partial {R T : ℚ → ℚ → Prop} (h : Trend R T) {cs : List Candle} {xs : List ℚ} (hx : Closes cs xs) (hp : xs.Pairwise R)
    (n m : Nat) (h1 : 1 ≤ n) (hnm : n ≤ m) (h2 : m ≤ cs.length) :
    ∃ smooth ma ema ss as es, smoothedMovingAverage FloatSem.exact (some cs) m = .ok smooth ∧
      movingAverage FloatSem.exact (some cs) n = .ok ma ∧ exponentialMovingAverage FloatSem.exact (some cs) n = .ok ema ∧
      List.Forall₂ Fl.Is smooth ss ∧ List.Forall₂ Fl.Is ma as ∧ List.Forall₂ Fl.Is ema es ∧
      List.Forall₂ T ss (as.drop (m - n)) ∧ List.Forall₂ T (ss.take (cs.length - m)) (es.drop (m - n)) := by
  obtain ⟨q1, q2⟩ := lagging_q h hp h1 hnm (hx.length ▸ h2)
  obtain ⟨o1, e1, f1⟩ := ma_exact hx h1 (hnm.trans h2)
  obtain ⟨o2, e2, f2⟩ := ema_exact hx h1 (hnm.trans h2)
  obtain ⟨o3, e3, f3⟩ := smma_exact hx (h1.trans hnm) h2
  rw [← hx.length] at q2
  exact ⟨_, _, _, _, _, _, e3, e1, e2, f3, f1, f2, q1, q2⟩

/-- **C271** In float64 SmoothedMovingAverage of closes that do not fall is ahead of MovingAverage by at most the two rounding errors. -/
theorem C271_near_partial {cs : List Candle} {xs : List ℚ} (hx : Closes cs xs) (hr : FloatCloses cs) (hp : xs.Pairwise fun a b => a ≤ b)
    {n m : Nat} (h1 : 1 ≤ n) (hnm : n ≤ m) (hm : m ≤ 2 ^ 47) (h2 : m ≤ cs.length) {M : ℚ} (hM : ∀ x ∈ xs, |x| ≤ M)
    (hbig : M ≤ 2 ^ (900 : ℤ)) :
    ∃ smooth ma, smoothedMovingAverage ieee (some cs) m = .ok smooth ∧ movingAverage ieee (some cs) n = .ok ma ∧
      List.Forall₂ (fun x y => ∃ r s, x.Is r ∧ y.Is s ∧ r ≤ s + (8 * m * (2 ^ (-53 : ℤ) * M + 2 ^ (-1075 : ℤ)) +
        (2 * (n + 1) * 2 ^ (-53 : ℤ) * M + 2 ^ (-1075 : ℤ)))) smooth (ma.drop (m - n)) := by
  obtain ⟨q1, _⟩ := lagging_q .rises hp h1 hnm (hx.length ▸ h2)
  obtain ⟨o0, e0, f0⟩ := ma_near_all hx hr h1 (hnm.trans (hm.trans (by norm_num))) (hnm.trans h2) hM hbig
  obtain ⟨p2, d2, g2⟩ := C108_smma_accurate hx hr (h1.trans hnm) hm h2 hM hbig
  exact ⟨p2, o0, d2, e0, near_forall₂ g2 f0 q1⟩

/-- The claim: at each candle that has both, the smoothed average of closes that do not fall is not above the other average, whose first
value belongs to a candle `k` after the first of the smoothed one. -/
def Spec.C271_claim (S : FloatSem) (f : FloatSem → Option (List Candle) → Int → Res (List Fl)) (k : Nat) : Prop :=
  ∀ (cs : List Candle) (n : Nat) (smooth out : List Fl), CloseRises cs → 1 ≤ n → n ≤ cs.length →
    smoothedMovingAverage S (some cs) n = .ok smooth → f S (some cs) n = .ok out →
    List.Forall₂ (fun x y => Fl.le x y = true) (smooth.drop k) out

/-- `n` candles with the given closes. -/
def closeCandles (xs : List ℚ) : List Candle := xs.map fun x => ⟨0, .fin 1, .fin 1, .fin 1, .fin x, .fin 1⟩

/-- **C271** is false of ExponentialMovingAverage even without rounding, since it leaves out a close: of the closes 1, 1, 3, 3 the
smoothed averages of period 2 at the last two candles are 2 and 2.5, the exponential ones 1 and 2.333. In float64 it is false of
MovingAverage too: with all closes 1.3 and period 7 the averages are 1.3, the second smoothed average is 1.3000000000000003. -/
theorem C271_lags_violated :
    ¬ Spec.C271_claim FloatSem.exact exponentialMovingAverage 1 ∧ ¬ Spec.C271_claim ieee exponentialMovingAverage 1 ∧
      ¬ Spec.C271_claim ieee movingAverage 0 := by
  have hr : CloseRises (closeCandles [1, 1, 3, 3]) := by
    unfold CloseRises closeCandles; decide +kernel
  refine ⟨fun h => ?_, fun h => ?_, fun h => ?_⟩
  · have := h (closeCandles [1, 1, 3, 3]) 2 [.fin 1, .fin 2, .fin (5 / 2)] [.fin 1, .fin (7 / 3)] hr (by norm_num) (by decide)
      (by decide +kernel) (by decide +kernel)
    cases this with | cons h _ => revert h; decide +kernel
  · have := h (closeCandles [1, 1, 3, 3]) 2 [.fin 1, .fin 2, .fin (5 / 2)] [.fin 1, .fin (5254199565265579 / 2251799813685248)] hr (by norm_num) (by decide)
      (by decide +kernel) (by decide +kernel)
    cases this with | cons h _ => revert h; decide +kernel
  · have := h (flatCandles (5854679515581645 / 4503599627370496) 8) 7
      [.fin (5854679515581645 / 4503599627370496), .fin (2927339757790823 / 2251799813685248)]
      [.fin (5854679515581645 / 4503599627370496), .fin (5854679515581645 / 4503599627370496)]
      (flat_rises (by norm_num) _) (by norm_num) (by decide) (by decide +kernel) (by decide +kernel)
    cases this with | cons _ h => cases h with | cons h _ => revert h; decide +kernel

example : Closes (closeCandles [1, 2, 4]) [1, 2, 4] ∧ [(1 : ℚ), 2, 4].Pairwise (fun a b => a < b) ∧
    Spec.Trend (fun a b => a < b) (fun a b => a ≤ b) ∧ smmaQ [1, 2, 4] 2 = [3 / 2, 11 / 4] ∧ maQ [1, 2, 4] 2 = [3 / 2, 3] ∧
    CloseRises (closeCandles [1, 2, 4]) ∧ FloatCloses (closeCandles [1, 2, 4]) := by
  refine ⟨.cons (Fl.is_fin _) (.cons (Fl.is_fin _) (.cons (Fl.is_fin _) .nil)), by simp; norm_num, .risesStrictly, by decide +kernel,
    by decide +kernel, by unfold CloseRises closeCandles; decide +kernel, ?_⟩
  intro c hc
  simp only [closeCandles, List.map_cons, List.map_nil, List.mem_cons, List.not_mem_nil, or_false] at hc
  rcases hc with rfl | rfl | rfl <;> (intro q hq; cases hq; decide +kernel)

end Finmod
