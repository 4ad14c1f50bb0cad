import Verif.Lemmas.Err
import Verif.Props.Averages
import Verif.Props.Volatility

/-!
# Accuracy of the averages in float64 (C107–C109)

How far the machine's averages are from the true ones. `M` bounds the prices; the bounds of the
recursive averages do not depend on the number of candles.
-/

namespace Finmod
open Go Spec

/-- The closes are numbers a float64 can hold. -/
def Spec.FloatCloses (cs : List Candle) : Prop := ∀ c ∈ cs, ieee.Rep c.close

theorem closes_isF {cs : List Candle} {xs : List ℚ} (h : Closes cs xs) (hr : FloatCloses cs) :
    List.Forall₂ IsF (closes cs) xs := by
  induction h with
  | nil => exact .nil
  | cons hc _ ih =>
    exact .cons (isF_of_rep hc (hr _ (by simp))) (ih (fun c hc => hr c (by simp [hc])))

theorem isF_const_int {n : ℤ} (h : |n| ≤ 2 ^ 53) : IsF (ieee.const n) n := isF_int h

theorem isF_const_zero : ieee.const 0 = .fin 0 := by
  have : ieee.rnd ((0 : ℤ) : ℚ) = .fin ((0 : ℤ) : ℚ) := ieee_lawful.r64.int 0 (by norm_num)
  simpa [FloatSem.const] using this

theorem isF_one : IsF (ieee.const 1) 1 := by
  have := isF_const_int (n := 1) (by norm_num); simpa using this

theorem isF_two : IsF (ieee.const 2) 2 := by
  have := isF_const_int (n := 2) (by norm_num); simpa using this

theorem zpow_two_le {a b : ℤ} (h : a ≤ b) : (2 : ℚ) ^ a ≤ 2 ^ b := zpow_le_zpow_right₀ (by norm_num) h

theorem huge_big {c M : ℚ} (hc : c ≤ 2 ^ (100 : ℤ)) (hM0 : 0 ≤ M) (hM : M ≤ 2 ^ (900 : ℤ)) : c * M ≤ huge / 4 := by
  have h : (2 : ℚ) ^ (100 : ℤ) * 2 ^ (900 : ℤ) ≤ huge / 4 := by
    rw [huge_eq, ← zpow_add₀ (by norm_num)]
    have e : (2 : ℚ) ^ (1023 : ℤ) / 4 = 2 ^ (1021 : ℤ) := by
      rw [show (1023 : ℤ) = 1021 + 2 by norm_num, zpow_add₀ (by norm_num)]; norm_num
    rw [e]; exact zpow_two_le (by norm_num)
  have h0 : (0 : ℚ) ≤ 2 ^ (100 : ℤ) := zpow_nonneg (by norm_num) _
  calc c * M ≤ 2 ^ (100 : ℤ) * M := mul_le_mul_of_nonneg_right hc hM0
    _ ≤ 2 ^ (100 : ℤ) * 2 ^ (900 : ℤ) := mul_le_mul_of_nonneg_left hM h0
    _ ≤ huge / 4 := h

theorem huge_one : 1 ≤ huge / 4 := by
  have h := huge_big (c := 1) (M := 1) (by norm_num) (by norm_num) (by
    calc (1 : ℚ) = 2 ^ (0 : ℤ) := by norm_num
      _ ≤ _ := zpow_two_le (by norm_num))
  linarith

theorem tiny_small : tiny ≤ 1 / 2 ^ 200 := by
  rw [tiny_eq]
  calc (2 : ℚ) ^ (-1075 : ℤ) ≤ 2 ^ (-200 : ℤ) := zpow_two_le (by norm_num)
    _ = 1 / 2 ^ 200 := by norm_num

theorem average_near {cs : List Candle} {xs : List ℚ} (hF : List.Forall₂ IsF (closes cs) xs) {M : ℚ}
    (hne : cs ≠ []) (hn : cs.length ≤ 2 ^ 52) (hM : ∀ x ∈ xs, |x| ≤ M) (hbig : M ≤ 2 ^ (900 : ℤ)) :
    ∃ r, IsF (average ieee cs) r ∧ |r - mean xs| ≤ 2 * (cs.length + 1) * uR * M + tiny := by
  have hlen : xs.length = cs.length := by rw [← hF.length_eq, closes, List.length_map]
  have hpos : 0 < cs.length := List.length_pos_iff.2 hne
  have hM0 : 0 ≤ M := by
    cases xs with
    | nil => simp at hlen; omega
    | cons x xs => exact (abs_nonneg x).trans (hM x (by simp))
  have hlenq : ((closes cs).length : ℚ) = cs.length := by simp [closes]
  set n : ℚ := (cs.length : ℚ) with hnq
  have hn1 : 1 ≤ n := by rw [hnq]; exact_mod_cast hpos
  have hn2 : n ≤ 2 ^ 52 := by rw [hnq]; exact_mod_cast hn
  have hu := uR_pos
  have hu2 : 2 * n * uR ≤ 1 := by
    have : uR = 1 / 2 ^ 53 := by rw [uR_eq]; norm_num
    rw [this]; linarith
  have hB := sum_abs_le hM
  rw [hlen] at hB
  have hbig2 := huge_big (c := 2 * n) (M := M) (by norm_num at hn2 ⊢; linarith) hM0 hbig
  have hh := huge_pos
  obtain ⟨s, hs, hse⟩ := sum_near hF (by rw [hlenq]; exact hu2) (by linarith)
  rw [hlenq] at hse
  have hsum := abs_sum_le xs
  have hs1 : |s - xs.sum| ≤ n * M := by
    refine hse.trans ?_
    have h0 : 0 ≤ (xs.map abs).sum := (abs_nonneg _).trans hsum
    calc 2 * n * uR * (xs.map abs).sum ≤ 1 * (xs.map abs).sum := mul_le_mul_of_nonneg_right hu2 h0
      _ ≤ n * M := by linarith
  have hs2 : |s| ≤ 2 * n * M := by
    have e : s = xs.sum + (s - xs.sum) := by ring
    rw [e]; refine (abs_add_le _ _).trans ?_; linarith
  have hn0 : n ≠ 0 := by linarith
  have hsn : |s / n| ≤ 2 * M := by
    rw [abs_div, abs_of_pos (by linarith : 0 < n), div_le_iff₀ (by linarith)]; linarith
  have hint : IsF (ieee.ofInt cs.length) n := by
    have := isF_int (n := cs.length) (by
      rw [abs_of_nonneg (by positivity)]
      have : (cs.length : ℤ) ≤ 2 ^ 52 := by exact_mod_cast hn
      linarith)
    simpa [hnq] using this
  have hMM : 2 * M ≤ huge := by nlinarith
  obtain ⟨r, hr, hre⟩ := div_near hs.1 hint.1 hn0 (hsn.trans hMM)
  refine ⟨r, ?_, ?_⟩
  · rw [average_eq, isF_const_zero]; exact hr
  · have e : r - mean xs = (r - s / n) + (s - xs.sum) / n := by
      unfold mean; rw [hlen]; ring
    rw [e]
    refine (abs_add_le _ _).trans ?_
    have h1 : uR * |s / n| ≤ uR * (2 * M) := mul_le_mul_of_nonneg_left hsn hu.le
    have h2 : |(s - xs.sum) / n| ≤ 2 * n * uR * M := by
      rw [abs_div, abs_of_pos (by linarith : 0 < n), div_le_iff₀ (by linarith)]
      refine hse.trans ?_
      have : 2 * n * uR * (xs.map abs).sum ≤ 2 * n * uR * (n * M) :=
        mul_le_mul_of_nonneg_left hB (by positivity)
      linarith
    linarith

/-- **C107.** In float64 every value of `MovingAverage` is within `2 (n+1) 2^-53 M + 2^-1075` of
the mean of its window, `M` a bound of the closes of that window. -/
theorem C107_moving_average_accurate {cs : List Candle} {xs : List ℚ} (hx : Closes cs xs)
    (hr : FloatCloses cs) {n : Nat} (h1 : 1 ≤ n) (hn : n ≤ 2 ^ 52) (h2 : n ≤ cs.length) :
    ∃ out, movingAverage ieee (some cs) n = .ok out ∧ out.length = cs.length - n + 1 ∧
      ∀ (k : Nat) (M : ℚ), k + n ≤ cs.length → (∀ x ∈ (xs.drop k).take n, |x| ≤ M) → M ≤ 2 ^ (900 : ℤ) →
        ∃ y r, out[k]? = some y ∧ y.Is r ∧
          |r - mean ((xs.drop k).take n)| ≤ 2 * (n + 1) * 2 ^ (-53 : ℤ) * M + 2 ^ (-1075 : ℤ) := by
  refine ⟨_, movingAverage_ok ieee cs n h1 h2, by simp, ?_⟩
  intro k M hk hM hbig
  have hF : List.Forall₂ IsF (closes ((cs.drop k).take n)) ((xs.drop k).take n) := by
    apply closes_isF ((hx.drop k).take n)
    intro c hc
    exact hr c (List.mem_of_mem_drop (List.mem_of_mem_take hc))
  have hl : ((cs.drop k).take n).length = n := by simp; omega
  obtain ⟨r, h3, h4⟩ := average_near hF (by rw [← List.length_pos_iff, hl]; omega) (by omega) hM hbig
  refine ⟨_, r, ?_, h3.1, ?_⟩
  · rw [List.getElem?_map, List.getElem?_range (by omega)]; rfl
  · rw [hl, uR_eq, tiny_eq] at h4; exact h4

/-! ### Exponential average -/

theorem emaWeight_near {n : Nat} (h1 : 1 ≤ n) (hn : n ≤ 2 ^ 48) :
    ∃ p, IsF (emaWeight ieee n) p ∧ |p - 2 / ((n : ℚ) + 1)| ≤ 2 * uR * (2 / ((n : ℚ) + 1)) := by
  have hq : (1 : ℚ) ≤ n := by exact_mod_cast h1
  have hq2 : (n : ℚ) ≤ 2 ^ 48 := by exact_mod_cast hn
  have hadd : IsF (ieee.add (ieee.ofInt n) (ieee.const 1)) ((n : ℚ) + 1) := by
    have hnI : IsF (ieee.ofInt n) (n : ℚ) := by
      have := isF_int (n := n) (by
        rw [abs_of_nonneg (by positivity)]
        have : (n : ℤ) ≤ 2 ^ 48 := by exact_mod_cast hn
        linarith)
      simpa using this
    have hi := ieee_lawful.r64.int (n + 1) (by
      rw [abs_of_nonneg (by positivity)]
      have : (n : ℤ) ≤ 2 ^ 48 := by exact_mod_cast hn
      linarith)
    rcases FloatSem.add_is (S := ieee) hnI.1 isF_one.1 with e | ⟨_, _, h⟩
    · refine ⟨?_, by have := Grid.int (n + 1); push_cast at this; exact this⟩
      rw [e]
      push_cast at hi
      rw [hi]; exact Fl.is_fin _
    · norm_num at h
  have hpos : (0 : ℚ) < (n : ℚ) + 1 := by linarith
  have hw1 : 2 / ((n : ℚ) + 1) ≤ 1 := by rw [div_le_one hpos]; linarith
  have hw0 : 0 < 2 / ((n : ℚ) + 1) := by positivity
  obtain ⟨p, hp, hpe⟩ := div_near isF_two.1 hadd.1 hpos.ne' (by
    rw [abs_of_pos hw0]; have := huge_one; linarith)
  refine ⟨p, hp, hpe.trans ?_⟩
  rw [abs_of_pos hw0]
  have ht : tiny ≤ uR * (2 / ((n : ℚ) + 1)) := by
    refine tiny_small.trans ?_
    have : 1 / 2 ^ 50 ≤ 2 / ((n : ℚ) + 1) := by
      rw [div_le_div_iff₀ (by norm_num) hpos]; have h3 : (n : ℚ) ≤ 281474976710656 := hq2.trans (by norm_num)
      linarith
    calc (1 : ℚ) / 2 ^ 200 ≤ uR * (1 / 2 ^ 50) := by rw [uR_eq]; norm_num
      _ ≤ _ := mul_le_mul_of_nonneg_left this uR_nonneg
  linarith

theorem ema_step_near {w p e x M E : ℚ} {wp prev c : Fl} {ê : ℚ} (hw0 : 0 ≤ w) (hw1 : w ≤ 1)
    (hp : IsF wp p) (hpe : |p - w| ≤ 2 * uR * w) (hprev : IsF prev ê) (hê : |ê - e| ≤ E) (heM : |e| ≤ M)
    (hc : IsF c x) (hxM : |x| ≤ M) (hbig : 8 * (M + E) + 4 ≤ huge) :
    ∃ r, IsF (emaNext ieee wp prev c) r ∧
      |r - (x * w + e * (1 - w))| ≤ (1 - w) * E + 13 * uR * M + 9 * uR * E + 3 * tiny := by
  have hu := uR_pos
  have hus := uR_small
  have ht := tiny_pos
  have ht1 : tiny ≤ 1 := tiny_small.trans (by norm_num)
  have hM0 : 0 ≤ M := (abs_nonneg _).trans hxM
  have hE0 : 0 ≤ E := (abs_nonneg _).trans hê
  have hp2 : |p - w| ≤ 2 * uR := hpe.trans (by nlinarith)
  have hpa : |p| ≤ 1 + 2 * uR := by
    have e1 : p = w + (p - w) := by ring
    rw [e1]; refine (abs_add_le _ _).trans ?_
    rw [abs_of_nonneg hw0]; linarith
  have h1p : |1 - p| ≤ 1 + 2 * uR := by
    have e1 : 1 - p = (1 - w) + -(p - w) := by ring
    rw [e1]; refine (abs_add_le _ _).trans ?_
    rw [abs_neg, abs_of_nonneg (by linarith : (0:ℚ) ≤ 1 - w)]; linarith
  obtain ⟨q, hq, hqe⟩ := sub_near isF_one hp (by linarith)
  have hq2 : |q - (1 - w)| ≤ 4 * uR := by
    have e1 : q - (1 - w) = (q - (1 - p)) + -(p - w) := by ring
    rw [e1]; refine (abs_add_le _ _).trans ?_
    rw [abs_neg]
    have := mul_le_mul_of_nonneg_left h1p hu.le
    nlinarith
  have hqa : |q| ≤ 1 + 4 * uR := by
    have e1 : q = (1 - w) + (q - (1 - w)) := by ring
    rw [e1]; refine (abs_add_le _ _).trans ?_
    rw [abs_of_nonneg (by linarith : (0:ℚ) ≤ 1 - w)]; linarith
  have hêa : |ê| ≤ M + E := by
    have e1 : ê = e + (ê - e) := by ring
    rw [e1]; exact (abs_add_le _ _).trans (by linarith)
  -- close * p
  have hxp : |x * p| ≤ 2 * M := by
    rw [abs_mul]; nlinarith [abs_nonneg x, abs_nonneg p]
  obtain ⟨m1, hm1, hm1e⟩ := mul_near hc.1 hp.1 (hxp.trans (by linarith))
  have d1 : |m1 - x * w| ≤ 4 * uR * M + tiny := by
    have e1 : m1 - x * w = (m1 - x * p) + x * (p - w) := by ring
    rw [e1]; refine (abs_add_le _ _).trans ?_
    rw [abs_mul]
    have a1 : uR * |x * p| ≤ uR * (2 * M) := mul_le_mul_of_nonneg_left hxp hu.le
    have a2 : |x| * |p - w| ≤ M * (2 * uR) := mul_le_mul hxM hp2 (abs_nonneg _) hM0
    linarith
  -- prev * (1 - p)
  have hêq : |ê * q| ≤ 2 * (M + E) := by
    rw [abs_mul]
    have : |ê| * |q| ≤ (M + E) * 2 := mul_le_mul hêa (by linarith) (abs_nonneg _) (by linarith)
    linarith
  obtain ⟨m2, hm2, hm2e⟩ := mul_near hprev.1 hq.1 (hêq.trans (by linarith))
  have d2 : |m2 - e * (1 - w)| ≤ (1 - w) * E + 6 * uR * (M + E) + tiny := by
    have e1 : m2 - e * (1 - w) = (m2 - ê * q) + (ê * q - e * (1 - w)) := by ring
    rw [e1]; refine (abs_add_le _ _).trans ?_
    have a1 : uR * |ê * q| ≤ uR * (2 * (M + E)) := mul_le_mul_of_nonneg_left hêq hu.le
    have a2 := mul_err hê hq2 hêa (le_of_eq (abs_of_nonneg (by linarith : (0:ℚ) ≤ 1 - w)))
    linarith
  -- sum
  have htrue : |x * w + e * (1 - w)| ≤ M := by
    refine (abs_add_le _ _).trans ?_
    rw [abs_mul, abs_mul, abs_of_nonneg hw0, abs_of_nonneg (by linarith : (0:ℚ) ≤ 1 - w)]
    nlinarith
  have hwE : (1 - w) * E ≤ E := by nlinarith
  have hsum : |m1 + m2| ≤ 2 * (M + E) + 2 * tiny := by
    have e1 : m1 + m2 = (x * w + e * (1 - w)) + (m1 - x * w) + (m2 - e * (1 - w)) := by ring
    rw [e1]
    refine (abs_add_le _ _).trans ((add_le_add_left (abs_add_le _ _) _).trans ?_)
    nlinarith
  obtain ⟨r, hr, hre⟩ := add_near hm1 hm2 (hsum.trans (by linarith))
  refine ⟨r, hr, ?_⟩
  have e1 : r - (x * w + e * (1 - w)) = (r - (m1 + m2)) + (m1 - x * w) + (m2 - e * (1 - w)) := by ring
  rw [e1]
  refine (abs_add_le _ _).trans ((add_le_add_left (abs_add_le _ _) _).trans ?_)
  have a1 := mul_le_mul_of_nonneg_left hsum hu.le
  have : uR * tiny ≤ tiny / 4 := by nlinarith
  nlinarith

theorem forall₂_and_mem {α β : Type} {R : α → β → Prop} {P : β → Prop} {l : List α} {m : List β}
    (h : List.Forall₂ R l m) (hP : ∀ b ∈ m, P b) : List.Forall₂ (fun a b => R a b ∧ P b) l m := by
  induction h with
  | nil => exact .nil
  | cons h1 _ ih => exact .cons ⟨h1, hP _ (by simp)⟩ (ih (fun b hb => hP b (by simp [hb])))

/-- Within `E` of a true value that is at most `M`. -/
def Within (E M : ℚ) (y : Fl) (q : ℚ) : Prop := ∃ r, IsF y r ∧ |r - q| ≤ E ∧ |q| ≤ M

theorem mean_abs_le {xs : List ℚ} {M : ℚ} (hne : xs ≠ []) (h : ∀ x ∈ xs, |x| ≤ M) : |mean xs| ≤ M := by
  have hpos : (0 : ℚ) < xs.length := by
    have := List.length_pos_iff.2 hne; exact_mod_cast this
  unfold mean
  rw [abs_div, abs_of_pos hpos, div_le_iff₀ hpos]
  have := (abs_sum_le xs).trans (sum_abs_le h)
  linarith

/-- **C108.** In float64 every value of `ExponentialMovingAverage` is within
`(n+1) (16 · 2^-53 M + 4 · 2^-1075)` of the true exponential average, whatever the number of
candles; `M` bounds the closes. -/
theorem C108_ema_accurate {cs : List Candle} {xs : List ℚ} (hx : Closes cs xs) (hr : FloatCloses cs)
    {n : Nat} (h1 : 1 ≤ n) (hn : n ≤ 2 ^ 47) (h2 : n ≤ cs.length) {M : ℚ} (hM : ∀ x ∈ xs, |x| ≤ M)
    (hbig : M ≤ 2 ^ (900 : ℤ)) :
    ∃ out, exponentialMovingAverage ieee (some cs) n = .ok out ∧
      List.Forall₂ (fun y q => ∃ r, y.Is r ∧
        |r - q| ≤ (n + 1) * (16 * 2 ^ (-53 : ℤ) * M + 4 * 2 ^ (-1075 : ℤ))) out (emaQ xs n) := by
  rw [← uR_eq, ← tiny_eq]
  have hF := closes_isF hx hr
  have hlen := hx.length
  refine ⟨_, ema_ok ieee cs n h1 h2, ?_⟩
  have hd := hx.drop n
  unfold emaQ
  cases hc : cs.drop n with
  | nil =>
    have : xs.drop n = [] := by
      rw [List.drop_eq_nil_iff] at hc ⊢; omega
    rw [this]; exact .nil
  | cons c rest =>
    cases hxd : xs.drop n with
    | nil => rw [List.drop_eq_nil_iff] at hxd; have := congrArg List.length hc; simp at this; omega
    | cons x xrest =>
      simp only
      rw [hc, hxd] at hd
      have hq : (1 : ℚ) ≤ n := by exact_mod_cast h1
      have hq2 : (n : ℚ) ≤ 140737488355328 := by
        have : (n : ℚ) ≤ ((2 ^ 47 : ℕ) : ℚ) := by exact_mod_cast hn
        exact this.trans (by norm_num)
      have hmem : ∀ x ∈ xs.take n, |x| ≤ M := fun x hx => hM x (List.mem_of_mem_take hx)
      have htn : (cs.take n).length = n := by simp; omega
      have hxn : (xs.take n).length = n := by simp; omega
      have hne : xs.take n ≠ [] := by rw [← List.length_pos_iff, hxn]; omega
      have hM0 : 0 ≤ M := (abs_nonneg _).trans (mean_abs_le hne hmem)
      have hu := uR_pos
      have ht := tiny_pos
      have hnu : ((n : ℚ) + 1) * uR ≤ 1 / 32 := by
        have : uR = 1 / 9007199254740992 := by rw [uR_eq]; norm_num
        rw [this]; linarith
      have hnt : ((n : ℚ) + 1) * tiny ≤ 1 / 16 := by
        have h3 := tiny_small
        calc ((n : ℚ) + 1) * tiny ≤ 140737488355329 * (1 / 2 ^ 200) :=
              mul_le_mul (by linarith) h3 ht.le (by norm_num)
          _ ≤ 1 / 16 := by norm_num
      set E : ℚ := (n + 1) * (16 * uR * M + 4 * tiny) with hE
      have hE0 : 0 ≤ E := by positivity
      have hEM : E ≤ M / 2 + 1 / 4 := by
        have : E = 16 * (((n : ℚ) + 1) * uR) * M + 4 * (((n : ℚ) + 1) * tiny) := by rw [hE]; ring
        rw [this]; nlinarith
      have huE : 9 * uR * E ≤ 5 * uR * M + 2 * tiny := by
        have : uR * E = (((n : ℚ) + 1) * uR) * (16 * uR * M + 4 * tiny) := by rw [hE]; ring
        have h0 : 0 ≤ 16 * uR * M + 4 * tiny := by positivity
        nlinarith [mul_nonneg hu.le hM0]
      have hbig2 := huge_big (c := 12) (M := M) (by
        calc (12 : ℚ) ≤ 2 ^ (4 : ℤ) := by norm_num
          _ ≤ _ := zpow_two_le (by norm_num)) hM0 hbig
      have hone := huge_one
      have hge : (4 : ℚ) ≤ 2 ^ (100 : ℤ) := by
        calc (4 : ℚ) = 2 ^ (2 : ℤ) := by norm_num
          _ ≤ _ := zpow_two_le (by norm_num)
      have hbig3 : 8 * (M + E) + 4 ≤ huge := by
        have : 24 ≤ huge := by
          have := huge_big (c := 24) (M := 1) (by
            calc (24 : ℚ) ≤ 2 ^ (5 : ℤ) := by norm_num
              _ ≤ _ := zpow_two_le (by norm_num)) (by norm_num) (by
            calc (1 : ℚ) = 2 ^ (0 : ℤ) := by norm_num
              _ ≤ _ := zpow_two_le (by norm_num))
          linarith
        linarith
      obtain ⟨p, hp, hpe⟩ := emaWeight_near h1 (hn.trans (by norm_num))
      have hw := weight_bounds h1
      obtain ⟨a, ha, hae⟩ := average_near (cs := cs.take n) (closes_isF (hx.take n)
          (fun c hc => hr c (List.mem_of_mem_take hc)))
        (by rw [← List.length_pos_iff, htn]; omega) (by rw [htn]; exact hn.trans (by norm_num)) hmem hbig
      rw [htn] at hae
      have hwE : 2 / ((n : ℚ) + 1) * E = 32 * uR * M + 8 * tiny := by
        rw [hE]; field_simp; ring
      have hR : List.Forall₂ (Within E M)
          (scan (emaNext ieee (emaWeight ieee n)) (average ieee (cs.take n)) (closes rest))
          (scan (fun prev x => x * (2 / ((n : ℚ) + 1)) + prev * (1 - 2 / ((n : ℚ) + 1)))
            (mean (xs.take n)) xrest) := by
        apply scan_forall₂ (Q := fun c x => IsF c x ∧ |x| ≤ M)
        · refine ⟨a, ha, hae.trans ?_, mean_abs_le hne hmem⟩
          rw [hE]
          nlinarith [mul_nonneg hu.le hM0]
        · have hd2 : Closes rest xrest := (List.forall₂_cons.1 hd).2
          have hmr : ∀ c ∈ rest, ieee.Rep c.close := fun c hc' => hr c (List.mem_of_mem_drop (i := n) (by rw [hc]; simp [hc']))
          have hmx : ∀ x ∈ xrest, |x| ≤ M := fun x hx' => hM x (List.mem_of_mem_drop (i := n) (by rw [hxd]; simp [hx']))
          have := closes_isF hd2 hmr
          exact forall₂_and_mem this hmx
        · rintro y q c x ⟨r, hr1, hr2, hr3⟩ ⟨hc1, hc2⟩
          obtain ⟨r', h3, h4⟩ := ema_step_near hw.1 hw.2 hp hpe hr1 hr2 hr3 hc1 hc2 hbig3
          refine ⟨r', h3, ?_, ?_⟩
          · refine h4.trans ?_
            nlinarith
          · refine (abs_add_le _ _).trans ?_
            rw [abs_mul, abs_mul, abs_of_nonneg hw.1, abs_of_nonneg (by linarith [hw.2] : (0 : ℚ) ≤ 1 - 2 / ((n : ℚ) + 1))]
            nlinarith [hw.1, hw.2]
      exact hR.imp (fun y q h => by obtain ⟨r, a1, a2, _⟩ := h; exact ⟨r, a1.1, a2⟩)

/-! ### Smoothed average -/

theorem isF_nat {n : Nat} (hn : n ≤ 2 ^ 52) : IsF (ieee.ofInt n) (n : ℚ) := by
  have := isF_int (n := n) (by
    rw [abs_of_nonneg (by positivity)]
    have : (n : ℤ) ≤ 2 ^ 52 := by exact_mod_cast hn
    linarith)
  simpa using this

theorem isF_pred {n : Nat} (hn : n ≤ 2 ^ 52) : IsF (ieee.sub (ieee.ofInt n) (ieee.const 1)) ((n : ℚ) - 1) := by
  have hi := ieee_lawful.r64.int ((n : ℤ) - 1) (by
    have : (n : ℤ) ≤ 2 ^ 52 := by exact_mod_cast hn
    rw [abs_le]; constructor <;> linarith)
  push_cast at hi
  have hg := Grid.int ((n : ℤ) - 1)
  push_cast at hg
  unfold FloatSem.sub
  rcases FloatSem.add_is (S := ieee) (isF_nat hn).1 isF_one.1.neg with e | ⟨_, _, h⟩
  · refine ⟨?_, hg⟩
    rw [e, ← sub_eq_add_neg, hi]; exact Fl.is_fin _
  · norm_num at h

/-- The last two operations of a step: `(z + x) / n` with `z` near `(n - 1) prev`. -/
theorem smma_tail_near {n : Nat} (h1 : 1 ≤ n) (hn : n ≤ 2 ^ 47) {zf c : Fl} {z ê e x M E : ℚ}
    (hz : IsF zf z) (hzê : |z - ê * ((n : ℚ) - 1)| ≤ 2 * uR * n * (M + E) + 2 * tiny)
    (hê : |ê - e| ≤ E) (heM : |e| ≤ M) (hc : IsF c x) (hxM : |x| ≤ M)
    (hbig : 4 * n * (M + E) + 4 ≤ huge) :
    ∃ r, IsF (ieee.div (ieee.add zf c) (ieee.ofInt n)) r ∧
      |r - (e * ((n : ℚ) - 1) + x) / n| ≤ (1 - 1 / n) * E + 5 * uR * (M + E) + 4 * tiny := by
  have hu := uR_pos
  have hus := uR_small
  have ht := tiny_pos
  have ht1 : tiny ≤ 1 := tiny_small.trans (by norm_num)
  have hM0 : 0 ≤ M := (abs_nonneg _).trans hxM
  have hE0 : 0 ≤ E := (abs_nonneg _).trans hê
  have hq : (1 : ℚ) ≤ n := by exact_mod_cast h1
  have hn0 : (0 : ℚ) < n := by linarith
  set A := M + E with hA
  have hA0 : 0 ≤ A := by linarith
  have hnA : 0 ≤ (n : ℚ) * A := by positivity
  have hêa : |ê| ≤ A := by
    have e1 : ê = e + (ê - e) := by ring
    rw [e1]; exact (abs_add_le _ _).trans (by linarith)
  have hzx : |z + x| ≤ n * A + (2 * uR * n * A + 2 * tiny) := by
    have e1 : z + x = ê * ((n : ℚ) - 1) + (z - ê * ((n : ℚ) - 1)) + x := by ring
    rw [e1]
    refine (abs_add_le _ _).trans ((add_le_add_left (abs_add_le _ _) _).trans ?_)
    rw [abs_mul, abs_of_nonneg (by linarith : (0 : ℚ) ≤ (n : ℚ) - 1)]
    have : |ê| * ((n : ℚ) - 1) ≤ A * ((n : ℚ) - 1) := mul_le_mul_of_nonneg_right hêa (by linarith)
    nlinarith
  have hzx2 : |z + x| ≤ 2 * (n * A) + 2 * tiny := by nlinarith
  obtain ⟨s, hs, hse⟩ := add_near hz hc (hzx2.trans (by nlinarith))
  have hsa : |s| ≤ 3 * (n * A) + 3 * tiny := by
    have e1 : s = (z + x) + (s - (z + x)) := by ring
    rw [e1]; refine (abs_add_le _ _).trans ?_
    nlinarith [abs_nonneg (z + x)]
  have hsa' : |s| ≤ (1 + uR) * |z + x| := by
    have e1 : s = (z + x) + (s - (z + x)) := by ring
    rw [e1]; refine (abs_add_le _ _).trans ?_
    have e2 : (z + x) + (s - (z + x)) - (z + x) = s - (z + x) := by ring
    linarith
  have hsn : |s / n| ≤ |s| := by
    rw [abs_div, abs_of_pos hn0, div_le_iff₀ hn0]; nlinarith [abs_nonneg s]
  obtain ⟨r, hr, hre⟩ := div_near hs.1 (isF_nat (hn.trans (by norm_num))).1 hn0.ne'
    (hsn.trans (hsa.trans (by nlinarith)))
  refine ⟨r, hr, ?_⟩
  have e1 : r - (e * ((n : ℚ) - 1) + x) / n =
      (r - s / n) + ((s - (z + x)) + (z - ê * ((n : ℚ) - 1)) + (ê - e) * ((n : ℚ) - 1)) / n := by
    field_simp; ring
  rw [e1]
  refine (abs_add_le _ _).trans ?_
  have f1 : |(s - (z + x)) + (z - ê * ((n : ℚ) - 1)) + (ê - e) * ((n : ℚ) - 1)| ≤
      uR * |z + x| + (2 * uR * n * A + 2 * tiny) + E * ((n : ℚ) - 1) := by
    refine (abs_add_le _ _).trans (add_le_add ((abs_add_le _ _).trans (add_le_add hse hzê)) ?_)
    rw [abs_mul, abs_of_nonneg (by linarith : (0 : ℚ) ≤ (n : ℚ) - 1)]
    exact mul_le_mul_of_nonneg_right hê (by linarith)
  have f2 : |s / n| = |s| / n := by rw [abs_div, abs_of_pos hn0]
  have f3 : |(s - (z + x)) + (z - ê * ((n : ℚ) - 1)) + (ê - e) * ((n : ℚ) - 1)| / n ≤
      (uR * |z + x| + (2 * uR * n * A + 2 * tiny) + E * ((n : ℚ) - 1)) / n :=
    div_le_div_of_nonneg_right f1 hn0.le
  rw [abs_div, abs_of_pos hn0]
  rw [f2] at hre
  have f4 : uR * (|s| / n) ≤ uR * ((1 + uR) * |z + x| / n) :=
    mul_le_mul_of_nonneg_left (div_le_div_of_nonneg_right hsa' hn0.le) hu.le
  have f5 : |z + x| / n ≤ A + 2 * uR * A + 2 * tiny := by
    rw [div_le_iff₀ hn0]
    nlinarith
  have f6 : (uR * |z + x| + (2 * uR * n * A + 2 * tiny) + E * ((n : ℚ) - 1)) / n =
      uR * (|z + x| / n) + 2 * uR * A + 2 * tiny / n + (1 - 1 / n) * E := by
    field_simp
    ring
  have f7 : 2 * tiny / n ≤ 2 * tiny := by rw [div_le_iff₀ hn0]; nlinarith
  have f8 : uR * ((1 + uR) * |z + x| / n) = uR * (1 + uR) * (|z + x| / n) := by ring
  have f9 : uR * (|z + x| / n) ≤ uR * (A + 2 * uR * A + 2 * tiny) := mul_le_mul_of_nonneg_left f5 hu.le
  have f10 : uR * (1 + uR) * (|z + x| / n) ≤ uR * (1 + uR) * (A + 2 * uR * A + 2 * tiny) :=
    mul_le_mul_of_nonneg_left f5 (by positivity)
  have g1 : uR * A * uR ≤ uR * A * (1 / 100) := mul_le_mul_of_nonneg_left (by linarith) (by positivity)
  have g2 : uR * tiny ≤ 1 / 100 * tiny := mul_le_mul_of_nonneg_right (by linarith) ht.le
  have g3 : uR * A * uR * uR ≤ uR * A * (1 / 100) := by
    have : uR * A * uR * uR ≤ uR * A * uR * 1 := mul_le_mul_of_nonneg_left (by linarith) (by positivity)
    linarith
  have g4 : uR * tiny * uR ≤ 1 / 100 * tiny := by
    have : uR * tiny * uR ≤ uR * tiny * 1 := mul_le_mul_of_nonneg_left (by linarith) (by positivity)
    linarith
  have g0 : 0 ≤ uR * A := by positivity
  linarith

theorem smma_second_near {n : Nat} (h1 : 1 ≤ n) (hn : n ≤ 2 ^ 47) {prev c : Fl} {ê e x M E : ℚ}
    (hp : IsF prev ê) (hê : |ê - e| ≤ E) (heM : |e| ≤ M) (hc : IsF c x) (hxM : |x| ≤ M)
    (hbig : 4 * n * (M + E) + 4 ≤ huge) :
    ∃ r, IsF (smmaSecond ieee n prev c) r ∧
      |r - (e * ((n : ℚ) - 1) + x) / n| ≤ (1 - 1 / n) * E + 5 * uR * (M + E) + 4 * tiny := by
  have hu := uR_pos
  have ht := tiny_pos
  have hM0 : 0 ≤ M := (abs_nonneg _).trans hxM
  have hE0 : 0 ≤ E := (abs_nonneg _).trans hê
  have hq : (1 : ℚ) ≤ n := by exact_mod_cast h1
  have hêa : |ê| ≤ M + E := by
    have e1 : ê = e + (ê - e) := by ring
    rw [e1]; exact (abs_add_le _ _).trans (by linarith)
  have hprod : |ê * ((n : ℚ) - 1)| ≤ n * (M + E) := by
    rw [abs_mul, abs_of_nonneg (by linarith : (0 : ℚ) ≤ (n : ℚ) - 1), mul_comm]
    exact mul_le_mul (by linarith) hêa (abs_nonneg _) (by linarith)
  have hnA : 0 ≤ (n : ℚ) * (M + E) := by positivity
  obtain ⟨m, hm, hme⟩ := mul_near hp.1 (isF_pred (hn.trans (by norm_num))).1 (hprod.trans (by linarith))
  refine smma_tail_near h1 hn hm ?_ hê heM hc hxM hbig
  have := mul_le_mul_of_nonneg_left hprod hu.le
  have h3 : 0 ≤ uR * (n * (M + E)) := by positivity
  linarith

theorem smma_next_near {n : Nat} (h1 : 1 ≤ n) (hn : n ≤ 2 ^ 47) {prev c : Fl} {ê e x M E : ℚ}
    (hp : IsF prev ê) (hê : |ê - e| ≤ E) (heM : |e| ≤ M) (hc : IsF c x) (hxM : |x| ≤ M)
    (hbig : 4 * n * (M + E) + 4 ≤ huge) :
    ∃ r, IsF (smmaNext ieee n prev c) r ∧
      |r - (e * ((n : ℚ) - 1) + x) / n| ≤ (1 - 1 / n) * E + 5 * uR * (M + E) + 4 * tiny := by
  have hu := uR_pos
  have hus := uR_small
  have ht := tiny_pos
  have ht1 : tiny ≤ 1 := tiny_small.trans (by norm_num)
  have hM0 : 0 ≤ M := (abs_nonneg _).trans hxM
  have hE0 : 0 ≤ E := (abs_nonneg _).trans hê
  have hq : (1 : ℚ) ≤ n := by exact_mod_cast h1
  have hnu : (n : ℚ) * uR ≤ 1 / 32 := by
    have hq2 : (n : ℚ) ≤ 140737488355328 := by
      have : (n : ℚ) ≤ ((2 ^ 47 : ℕ) : ℚ) := by exact_mod_cast hn
      exact this.trans (by norm_num)
    have : uR = 1 / 9007199254740992 := by rw [uR_eq]; norm_num
    rw [this]; linarith
  have hêa : |ê| ≤ M + E := by
    have e1 : ê = e + (ê - e) := by ring
    rw [e1]; exact (abs_add_le _ _).trans (by linarith)
  set A := M + E with hA
  have hA0 : 0 ≤ A := by linarith
  have hprod : |ê * (n : ℚ)| ≤ n * A := by
    rw [abs_mul, abs_of_nonneg (by linarith : (0 : ℚ) ≤ (n : ℚ)), mul_comm]
    exact mul_le_mul le_rfl hêa (abs_nonneg _) (by linarith)
  have hnA : 0 ≤ (n : ℚ) * A := by positivity
  obtain ⟨m, hm, hme⟩ := mul_near hp.1 (isF_nat (hn.trans (by norm_num))).1 (hprod.trans (by linarith))
  have hme2 : |m - ê * n| ≤ uR * (n * A) + tiny :=
    hme.trans (by have := mul_le_mul_of_nonneg_left hprod hu.le; linarith)
  have hmê : |m - ê| ≤ ((n : ℚ) - 1) * A + (uR * (n * A) + tiny) := by
    have e1 : m - ê = ê * ((n : ℚ) - 1) + (m - ê * n) := by ring
    rw [e1]; refine (abs_add_le _ _).trans (add_le_add ?_ hme2)
    rw [abs_mul, abs_of_nonneg (by linarith : (0 : ℚ) ≤ (n : ℚ) - 1), mul_comm]
    exact mul_le_mul le_rfl hêa (abs_nonneg _) (by linarith)
  have hunA : uR * (n * A) ≤ A := by
    have : uR * (n * A) = n * uR * A := by ring
    rw [this]; nlinarith
  obtain ⟨z, hz, hze⟩ := sub_near hm hp (hmê.trans (by linarith))
  refine smma_tail_near h1 hn hz ?_ hê heM hc hxM hbig
  have e1 : z - ê * ((n : ℚ) - 1) = (z - (m - ê)) + (m - ê * n) := by ring
  rw [e1]
  refine (abs_add_le _ _).trans ?_
  have h3 := mul_le_mul_of_nonneg_left hmê hu.le
  have h4 : uR * (uR * (n * A)) ≤ uR * A := mul_le_mul_of_nonneg_left hunA hu.le
  have h5 : uR * tiny ≤ 1 * tiny := mul_le_mul_of_nonneg_right (by linarith) ht.le
  have h6 : 2 * uR * n * A = 2 * (uR * (n * A)) := by ring
  rw [h6]
  linarith

/-- **C108.** In float64 every value of `SmoothedMovingAverage` is within
`8 n (2^-53 M + 2^-1075)` of the true smoothed average, whatever the number of candles. -/
theorem C108_smma_accurate {cs : List Candle} {xs : List ℚ} (hx : Closes cs xs) (hr : FloatCloses cs)
    {n : Nat} (h1 : 1 ≤ n) (hn : n ≤ 2 ^ 47) (h2 : n ≤ cs.length) {M : ℚ} (hM : ∀ x ∈ xs, |x| ≤ M)
    (hbig : M ≤ 2 ^ (900 : ℤ)) :
    ∃ out, smoothedMovingAverage ieee (some cs) n = .ok out ∧
      List.Forall₂ (fun y q => ∃ r, y.Is r ∧
        |r - q| ≤ 8 * n * (2 ^ (-53 : ℤ) * M + 2 ^ (-1075 : ℤ))) out (smmaQ xs n) := by
  rw [← uR_eq, ← tiny_eq]
  have hlen := hx.length
  have hq : (1 : ℚ) ≤ n := by exact_mod_cast h1
  have hn0 : (0 : ℚ) < n := by linarith
  have hq2 : (n : ℚ) ≤ 140737488355328 := by
    have : (n : ℚ) ≤ ((2 ^ 47 : ℕ) : ℚ) := by exact_mod_cast hn
    exact this.trans (by norm_num)
  have hmem : ∀ x ∈ xs.take n, |x| ≤ M := fun x hx => hM x (List.mem_of_mem_take hx)
  have htn : (cs.take n).length = n := by simp; omega
  have hxn : (xs.take n).length = n := by simp; omega
  have hne : xs.take n ≠ [] := by rw [← List.length_pos_iff, hxn]; omega
  have hM0 : 0 ≤ M := (abs_nonneg _).trans (mean_abs_le hne hmem)
  have hu := uR_pos
  have ht := tiny_pos
  have hnu : (n : ℚ) * uR ≤ 1 / 32 := by
    have : uR = 1 / 9007199254740992 := by rw [uR_eq]; norm_num
    rw [this]; linarith
  have hnt : (n : ℚ) * tiny ≤ 1 / 32 := by
    calc (n : ℚ) * tiny ≤ 140737488355328 * (1 / 2 ^ 200) :=
          mul_le_mul (by linarith) tiny_small ht.le (by norm_num)
      _ ≤ 1 / 32 := by norm_num
  set E : ℚ := 8 * n * (uR * M + tiny) with hE
  have hE0 : 0 ≤ E := by positivity
  have hEM : E ≤ M / 4 + 1 / 4 := by
    have : E = 8 * ((n : ℚ) * uR) * M + 8 * ((n : ℚ) * tiny) := by rw [hE]; ring
    rw [this]; nlinarith
  have huE : 5 * uR * E ≤ 2 * uR * M + 2 * tiny := by
    have : uR * E = 8 * ((n : ℚ) * uR) * (uR * M + tiny) := by rw [hE]; ring
    have h0 : 0 ≤ uR * M + tiny := by positivity
    nlinarith
  have hbig2 := huge_big (c := 8 * n) (M := M) (by
    calc 8 * (n : ℚ) ≤ 2 ^ (60 : ℤ) := by norm_num; linarith
      _ ≤ _ := zpow_two_le (by norm_num)) hM0 hbig
  have hbig4 := huge_big (c := 8 * n) (M := 1) (by
    calc 8 * (n : ℚ) ≤ 2 ^ (60 : ℤ) := by norm_num; linarith
      _ ≤ _ := zpow_two_le (by norm_num)) (by norm_num) (by
    calc (1 : ℚ) = 2 ^ (0 : ℤ) := by norm_num
      _ ≤ _ := zpow_two_le (by norm_num))
  have hbig3 : 4 * n * (M + E) + 4 ≤ huge := by
    have h3 : 4 * (n : ℚ) * (M + E) ≤ 4 * n * (M + (M / 4 + 1 / 4)) :=
      mul_le_mul_of_nonneg_left (by linarith) (by linarith)
    have h4 : 4 * (n : ℚ) * (M + (M / 4 + 1 / 4)) = 5 * (n * M) + n := by ring
    have h5 : 0 ≤ (n : ℚ) * M := by positivity
    linarith
  have hEn : (1 - 1 / (n : ℚ)) * E = E - 8 * (uR * M + tiny) := by
    rw [hE]; field_simp
  have hstep : ∀ q x : ℚ, |q| ≤ M → |x| ≤ M → |(q * ((n : ℚ) - 1) + x) / n| ≤ M := by
    intro q x hq1 hx1
    rw [abs_div, abs_of_pos hn0, div_le_iff₀ hn0]
    refine (abs_add_le _ _).trans ?_
    rw [abs_mul, abs_of_nonneg (by linarith : (0 : ℚ) ≤ (n : ℚ) - 1)]
    have := mul_le_mul_of_nonneg_right hq1 (by linarith : (0 : ℚ) ≤ (n : ℚ) - 1)
    linarith
  obtain ⟨a, ha, hae⟩ := average_near (cs := cs.take n) (closes_isF (hx.take n)
      (fun c hc => hr c (List.mem_of_mem_take hc)))
    (by rw [← List.length_pos_iff, htn]; omega) (by rw [htn]; exact hn.trans (by norm_num)) hmem hbig
  have efirst : smmaFirst ieee cs n = average ieee (cs.take n) := by
    rw [average_eq, isF_const_zero, htn]; rfl
  rw [htn] at hae
  have hfirst : Within E M (smmaFirst ieee cs n) (mean (xs.take n)) := by
    rw [efirst]
    refine ⟨a, ha, hae.trans ?_, mean_abs_le hne hmem⟩
    rw [hE]
    have : 0 ≤ uR * M := by positivity
    nlinarith
  refine ⟨_, smma_ok ieee cs n h1 h2, ?_⟩
  suffices hR : List.Forall₂ (Within E M) (smmaFirst ieee cs n :: (match cs.drop n with
      | [] => []
      | c :: rest => scan (smmaNext ieee n) (smmaSecond ieee n (smmaFirst ieee cs n) c.close) (closes rest)))
      (smmaQ xs n) from
    hR.imp (fun y q h => by obtain ⟨r, a1, a2, _⟩ := h; exact ⟨r, a1.1, a2⟩)
  have hd := hx.drop n
  unfold smmaQ
  cases hc : cs.drop n with
  | nil =>
    have : xs.drop n = [] := by
      rw [List.drop_eq_nil_iff] at hc ⊢; omega
    rw [this]; exact .cons hfirst .nil
  | cons c rest =>
    cases hxd : xs.drop n with
    | nil => rw [List.drop_eq_nil_iff] at hxd; have := congrArg List.length hc; simp at this; omega
    | cons x xrest =>
      rw [hc, hxd] at hd
      have hcr : ∀ c' ∈ c :: rest, ieee.Rep c'.close := fun c' h' => hr c' (List.mem_of_mem_drop (i := n) (by rw [hc]; exact h'))
      have hxr : ∀ x' ∈ x :: xrest, |x'| ≤ M := fun x' h' => hM x' (List.mem_of_mem_drop (i := n) (by rw [hxd]; exact h'))
      have hall := forall₂_and_mem (closes_isF hd hcr) hxr
      simp only [closes, List.map_cons, List.forall₂_cons] at hall
      obtain ⟨⟨hc1, hc2⟩, hall⟩ := hall
      simp only [scan]
      refine .cons hfirst ?_
      apply scan_forall₂ (Q := fun c x => IsF c x ∧ |x| ≤ M) ?_ hall
      · rintro y q c x ⟨r, hr1, hr2, hr3⟩ ⟨hc1, hc2⟩
        obtain ⟨r', h3, h4⟩ := smma_next_near h1 hn hr1 hr2 hr3 hc1 hc2 hbig3
        refine ⟨r', h3, h4.trans ?_, hstep _ _ hr3 hc2⟩
        rw [hEn]; nlinarith
      · obtain ⟨r, hr1, hr2, hr3⟩ := hfirst
        obtain ⟨r', h3, h4⟩ := smma_second_near h1 hn hr1 hr2 hr3 hc1 hc2 hbig3
        refine ⟨r', h3, h4.trans ?_, hstep _ _ hr3 hc2⟩
        rw [hEn]; nlinarith

/-! ### Volatility -/

theorem ewv_step_near {b M E : ℚ} {beta v : Fl} {c : Candle} {x ê hi lo : ℚ} (hb : IsF beta b) (hb0 : 0 ≤ b)
    (hb1 : b < 1) (hv : IsF v ê) (hê : |ê - x| ≤ E) (hxM : |x| ≤ M) (hhi : IsF c.high hi)
    (hlo : IsF c.low lo) (hd : |hi - lo| ≤ M) (hbig : 8 * (M + E) + 4 ≤ huge) :
    ∃ r, IsF (ewvStep ieee beta v c) r ∧
      |r - (b * x + (1 - b) * (hi - lo))| ≤ b * E + 10 * uR * M + 3 * uR * E + 3 * tiny := by
  have hu := uR_pos
  have hus := uR_small
  have ht := tiny_pos
  have ht1 : tiny ≤ 1 := tiny_small.trans (by norm_num)
  have hM0 : 0 ≤ M := (abs_nonneg _).trans hxM
  have hE0 : 0 ≤ E := (abs_nonneg _).trans hê
  have hêa : |ê| ≤ M + E := by
    have e1 : ê = x + (ê - x) := by ring
    rw [e1]; exact (abs_add_le _ _).trans (by linarith)
  have hbv : |b * ê| ≤ b * (M + E) := by
    rw [abs_mul, abs_of_nonneg hb0]; exact mul_le_mul_of_nonneg_left hêa hb0
  have hbv2 : b * (M + E) ≤ M + E := by nlinarith
  obtain ⟨m1, hm1, hm1e⟩ := mul_near hb.1 hv.1 (hbv.trans (by linarith))
  obtain ⟨cb, hcb, hcbe⟩ := sub_near isF_one hb (by
    rw [abs_of_pos (by linarith)]; have := huge_one; linarith)
  rw [abs_of_pos (by linarith : 0 < 1 - b)] at hcbe
  obtain ⟨d, hdf, hde⟩ := sub_near hhi hlo (hd.trans (by linarith))
  have hde2 : |d - (hi - lo)| ≤ uR * M := hde.trans (mul_le_mul_of_nonneg_left hd hu.le)
  have hcba : |cb| ≤ 2 * (1 - b) := by
    have e1 : cb = (1 - b) + (cb - (1 - b)) := by ring
    rw [e1]; refine (abs_add_le _ _).trans ?_
    rw [abs_of_pos (by linarith : 0 < 1 - b)]; nlinarith
  have hda : |d| ≤ 2 * M := by
    have e1 : d = (hi - lo) + (d - (hi - lo)) := by ring
    rw [e1]; refine (abs_add_le _ _).trans ?_; nlinarith
  have hcd : |cb * d| ≤ 4 * ((1 - b) * M) := by
    rw [abs_mul]
    have := mul_le_mul hcba hda (abs_nonneg _) (by linarith)
    linarith
  have h1bM : (1 - b) * M ≤ M := by nlinarith
  have h1bM0 : 0 ≤ (1 - b) * M := mul_nonneg (by linarith) hM0
  obtain ⟨m2, hm2, hm2e⟩ := mul_near hcb.1 hdf.1 (hcd.trans (by linarith))
  have d1 : |m1 - b * x| ≤ b * E + uR * (b * (M + E)) + tiny := by
    have e1 : m1 - b * x = (m1 - b * ê) + b * (ê - x) := by ring
    rw [e1]; refine (abs_add_le _ _).trans ?_
    rw [abs_mul, abs_of_nonneg hb0]
    have a1 := mul_le_mul_of_nonneg_left hbv hu.le
    have a2 := mul_le_mul_of_nonneg_left hê hb0
    linarith
  have d2 : |m2 - (1 - b) * (hi - lo)| ≤ 7 * (uR * ((1 - b) * M)) + tiny := by
    have e1 : m2 - (1 - b) * (hi - lo) = (m2 - cb * d) + (cb * d - (1 - b) * (hi - lo)) := by ring
    rw [e1]; refine (abs_add_le _ _).trans ?_
    have a1 := mul_le_mul_of_nonneg_left hcd hu.le
    have a2 := mul_err hcbe hde2 hcba hd
    linarith
  have htrue : |b * x + (1 - b) * (hi - lo)| ≤ M := by
    refine (abs_add_le _ _).trans ?_
    rw [abs_mul, abs_mul, abs_of_nonneg hb0, abs_of_pos (by linarith : 0 < 1 - b)]
    nlinarith
  have hbE : b * E ≤ E := by nlinarith
  have huM : uR * M ≤ 1 / 100 * M := mul_le_mul_of_nonneg_right (by linarith) hM0
  have huE : uR * E ≤ 1 / 100 * E := mul_le_mul_of_nonneg_right (by linarith) hE0
  have u1 : uR * (b * (M + E)) ≤ uR * b * M + uR * E := by nlinarith [mul_nonneg hu.le hE0]
  have u2 : uR * b * M + uR * ((1 - b) * M) = uR * M := by ring
  have u3 : 0 ≤ uR * ((1 - b) * M) := by positivity
  have u4 : 0 ≤ uR * b * M := by positivity
  have hsum : |m1 + m2| ≤ 2 * (M + E) + 2 * tiny := by
    have e1 : m1 + m2 = (b * x + (1 - b) * (hi - lo)) + (m1 - b * x) + (m2 - (1 - b) * (hi - lo)) := by ring
    rw [e1]
    refine (abs_add_le _ _).trans ((add_le_add_left (abs_add_le _ _) _).trans ?_)
    linarith
  obtain ⟨r, hr, hre⟩ := add_near hm1 hm2 (hsum.trans (by linarith))
  refine ⟨r, hr, ?_⟩
  have e1 : r - (b * x + (1 - b) * (hi - lo)) =
    (r - (m1 + m2)) + (m1 - b * x) + (m2 - (1 - b) * (hi - lo)) := by ring
  rw [e1]
  refine (abs_add_le _ _).trans ((add_le_add_left (abs_add_le _ _) _).trans ?_)
  have a1 := mul_le_mul_of_nonneg_left hsum hu.le
  have : uR * tiny ≤ tiny / 4 := by nlinarith
  linarith

/-- The highs and lows are numbers a float64 can hold. -/
def Spec.FloatRanges (cs : List Candle) : Prop := ∀ c ∈ cs, ieee.Rep c.high ∧ ieee.Rep c.low

/-- **C109.** In float64 the volatility is within `(16 · 2^-53 M + 4 · 2^-1075) / (1 - beta)` of
the true weighted sum, whatever the number of candles; `M` bounds the ranges. -/
theorem C109_volatility_accurate {cs : List Candle} (hf : FiniteRanges cs) (hr : FloatRanges cs)
    {beta : Fl} {b M : ℚ} (hb : beta.Is b) (hbr : ieee.Rep beta) (hb0 : 0 ≤ b)
    (hb1 : 32 * 2 ^ (-53 : ℤ) ≤ 1 - b) (hM0 : 0 ≤ M) (hM : ∀ c ∈ cs, |rangeOf c| ≤ M) (hbig : M ≤ 2 ^ (900 : ℤ)) :
    ∃ r, (exponentialWeightedVolatility ieee cs beta).Is r ∧
      |r - ∑ i ∈ Finset.range cs.length,
        (1 - b) * b ^ (cs.length - 1 - i) * (cs.map rangeOf).getD i 0| ≤
        (16 * 2 ^ (-53 : ℤ) * M + 4 * 2 ^ (-1075 : ℤ)) / (1 - b) := by
  rw [← uR_eq] at *
  rw [← tiny_eq]
  have hu := uR_pos
  have ht := tiny_pos
  have h1b : 0 < 1 - b := by linarith only [hb1, hu]
  have hb' := isF_of_rep hb hbr
  set E : ℚ := (16 * uR * M + 4 * tiny) / (1 - b) with hE
  have hE0 : 0 ≤ E := div_nonneg (add_nonneg (mul_nonneg (mul_nonneg (by norm_num) hu.le) hM0) (mul_nonneg (by norm_num) ht.le)) h1b.le
  have hEb : (1 - b) * E = 16 * uR * M + 4 * tiny := by rw [hE]; field_simp
  have huE : 32 * (uR * E) ≤ 16 * uR * M + 4 * tiny := by
    rw [← hEb]; nlinarith
  have htu : 16 * tiny ≤ uR := by
    have : (16 : ℚ) * (1 / 2 ^ 200) ≤ uR := by rw [uR_eq]; norm_num
    linarith [tiny_small]
  have hEM : E ≤ M / 2 + 1 / 4 := by
    have h3 : 32 * uR * E ≤ 16 * uR * M + uR := by linarith
    have h4 : 32 * E ≤ 16 * M + 1 := by
      by_contra hc
      have := mul_lt_mul_of_pos_left (not_le.1 hc) hu
      linarith
    linarith
  have hbig2 := huge_big (c := 12) (M := M) (by
    calc (12 : ℚ) ≤ 2 ^ (4 : ℤ) := by norm_num
      _ ≤ _ := zpow_two_le (by norm_num)) hM0 hbig
  have hbig3 : 8 * (M + E) + 4 ≤ huge := by
    have : 24 ≤ huge := by
      have := huge_big (c := 24) (M := 1) (by
        calc (24 : ℚ) ≤ 2 ^ (5 : ℤ) := by norm_num
          _ ≤ _ := zpow_two_le (by norm_num)) (by norm_num) (by
        calc (1 : ℚ) = 2 ^ (0 : ℤ) := by norm_num
          _ ≤ _ := zpow_two_le (by norm_num))
      linarith
    linarith
  suffices h : ∀ (cs : List Candle) (v w : Fl) (q : ℚ), FiniteRanges cs → FloatRanges cs →
      (∀ c ∈ cs, |rangeOf c| ≤ M) → Within E M v q → w.Is q →
      ∃ q', Within E M (cs.foldl (ewvStep ieee beta) v) q' ∧ (cs.foldl (ewvStep FloatSem.exact beta) w).Is q' by
    obtain ⟨q, ⟨r, h1, h2, _⟩, h3⟩ := h cs (.fin 0) (.fin 0) 0 hf hr hM
      ⟨0, isF_zero, by simpa using hE0, by simpa using hM0⟩ (Fl.is_fin 0)
    refine ⟨r, h1.1, ?_⟩
    have := Fl.Is.unique h3 (C74_weighted_sum hf hb)
    rw [← this]; exact h2
  intro cs
  induction cs with
  | nil => intro v w q _ _ _ h1 h2; exact ⟨q, h1, h2⟩
  | cons c cs ih =>
    intro v w q hf hr hM hv hw
    obtain ⟨f1, f2⟩ := hf c (by simp)
    obtain ⟨r1, r2⟩ := hr c (by simp)
    have hMc := hM c (by simp)
    obtain ⟨r, hr1, hr2, hr3⟩ := hv
    have hhi := isF_of_rep (Fl.isFinite_is f1) r1
    have hlo := isF_of_rep (Fl.isFinite_is f2) r2
    obtain ⟨r', h3, h4⟩ := ewv_step_near hb' hb0 (by linarith) hr1 hr2 hr3 hhi hlo hMc hbig3
    simp only [List.foldl_cons]
    refine ih _ _ (b * q + (1 - b) * rangeOf c) (fun c hc => hf c (by simp [hc]))
      (fun c hc => hr c (by simp [hc])) (fun c hc => hM c (by simp [hc])) ⟨r', h3, ?_, ?_⟩
      (ewvStep_exact hb hw f1 f2)
    · refine h4.trans ?_
      have : b * E = E - (16 * uR * M + 4 * tiny) := by linarith only [hEb]
      have huM : 0 ≤ uR * M := mul_nonneg hu.le hM0
      linarith only [this, huM, huE, ht]
    · refine (abs_add_le _ _).trans ?_
      rw [abs_mul, abs_mul, abs_of_nonneg hb0, abs_of_pos h1b]
      nlinarith

/-! ### Examples -/

/-- Three closes, one of them 0.1 as a float64. -/
def accCandles : List Candle :=
  [0, 1, 2, 3].map fun t : Int => ⟨t, .fin 1, .fin 3, .fin (1 / 2), if t = 1 then ieee.rnd (1 / 10) else .fin (t + 2), .fin 1⟩

/-- C107 to C109: the candles are float64s. -/
example : FloatCloses accCandles ∧ FloatRanges accCandles ∧ FiniteRanges accCandles := by
  refine ⟨?_, ?_, ?_⟩
  · intro c hc q hq
    have : ∀ c ∈ accCandles, ieee.rnd c.close.toRat = .fin c.close.toRat := by decide +kernel
    have h := this c hc
    rw [hq] at h; exact h
  · intro c hc
    have : ∀ c ∈ accCandles, ieee.rnd c.high.toRat = .fin c.high.toRat ∧ ieee.rnd c.low.toRat = .fin c.low.toRat := by
      decide +kernel
    obtain ⟨h1, h2⟩ := this c hc
    exact ⟨fun q hq => by rw [hq] at h1; exact h1, fun q hq => by rw [hq] at h2; exact h2⟩
  · unfold FiniteRanges; decide +kernel

/-- C107: the rounding error is really there: this average is not the true mean. -/
example : ∃ out, movingAverage ieee (some accCandles) 2 = .ok out ∧
    out[0]?.map Fl.toRat ≠ some ((2 + 3602879701896397 / 36028797018963968) / 2) := by
  refine ⟨_, movingAverage_ok ieee accCandles 2 (by norm_num) (by decide), ?_⟩
  decide +kernel

/-- C108 and C109: the closes, and a float64 smoothing factor. -/
example : ieee.Rep (.fin (7 / 8)) ∧ 32 * (2 : ℚ) ^ (-53 : ℤ) ≤ 1 - 7 / 8 ∧
    (∀ c ∈ accCandles, |rangeOf c| ≤ 5 / 2) ∧
    Closes accCandles [2, 3602879701896397 / 36028797018963968, 4, 5] := by
  refine ⟨fun q hq => by cases hq; decide +kernel, by norm_num, by decide +kernel, ?_⟩
  refine .cons ?_ (.cons ?_ (.cons ?_ (.cons ?_ .nil))) <;> exact .inl (by decide +kernel)

end Finmod
