import Verif.Lemmas.Text

/-!
# The shortest decimal of a float64 meets the formatting contract
-/

namespace Go

theorem pow10_sub (a b : ℤ) : pow10 (a - b) = pow10 a / pow10 b := by
  rw [pow10_eq, pow10_eq, pow10_eq, zpow_sub₀ (by norm_num)]

theorem shortestFrom_spec {S : FloatSem} {q : ℚ} {dp : ℤ} (fuel n j : Nat) (h1 : n ≤ j)
    (h2 : j < n + fuel)
    (hj : S.rnd ((⌊q / pow10 (dp - j)⌋.toNat : Nat) * pow10 (dp - j)) = .fin q) :
    ∃ m : Nat, m ≤ j ∧ (shortestFrom S q dp fuel n).2 = dp - m ∧
      S.rnd ((shortestFrom S q dp fuel n).1 * pow10 (dp - m)) = .fin q ∧
      (shortestFrom S q dp fuel n).1 ≤ ⌊q / pow10 (dp - m)⌋.toNat + 1 := by
  induction fuel generalizing n with
  | zero => omega
  | succ fuel ih =>
    have up : ∀ lo : Nat, lo = ⌊q / pow10 (dp - n)⌋.toNat → S.rnd (((lo + 1 : Nat) : ℚ) * pow10 (dp - n)) = .fin q →
        ∃ m : Nat, m ≤ j ∧ (if lo + 1 = 10 ^ n then ((1, dp) : Nat × ℤ) else (lo + 1, dp - n)).2 = dp - m ∧
          S.rnd ((if lo + 1 = 10 ^ n then ((1, dp) : Nat × ℤ) else (lo + 1, dp - n)).1 * pow10 (dp - m)) = .fin q ∧
          (if lo + 1 = 10 ^ n then ((1, dp) : Nat × ℤ) else (lo + 1, dp - n)).1 ≤ ⌊q / pow10 (dp - m)⌋.toNat + 1 := by
      intro lo hlo hr
      split_ifs with hh
      · refine ⟨0, by omega, by simp, ?_, by simp⟩
        rw [hh, pow10_sub] at hr
        have e1 : pow10 (n : ℤ) = 10 ^ n := by rw [pow10_eq, zpow_natCast]
        rw [e1] at hr
        push_cast at hr ⊢
        rw [mul_div_cancel₀ _ (by positivity)] at hr
        simpa using hr
      · exact ⟨n, h1, rfl, hr, by omega⟩
    rw [shortestFrom]
    split_ifs with a b c d e f
    all_goals try simp only [Bool.and_eq_true, decide_eq_true_eq] at a
    · exact ⟨n, h1, rfl, a.1, by simp⟩
    · have := up _ rfl a.2
      simp only [c, if_true] at this; exact this
    · have := up _ rfl a.2
      simp only [c, if_false] at this; exact this
    · rw [decide_eq_true_eq] at d
      exact ⟨n, h1, rfl, d, by simp⟩
    · rw [decide_eq_true_eq] at e
      have := up _ rfl e
      simp only [f, if_true] at this; exact this
    · rw [decide_eq_true_eq] at e
      have := up _ rfl e
      simp only [f, if_false] at this; exact this
    · by_cases hn : n = j
      · subst hn; rw [decide_eq_true_eq] at d; exact absurd hj d
      · exact ih (n + 1) (by omega) (by omega)

/-- A positive float64 is a multiple of `2^-1074` below `2^1024`. -/
theorem rep64_pos {q : ℚ} (hq : 0 < q) (h : rnd64 q = .fin q) :
    (∃ m : Nat, 0 < m ∧ q * 2 ^ 1074 = m) ∧ q < 2 ^ 1024 := by
  rw [rnd64, rne_pos hq] at h
  split_ifs at h with hb
  simp only [Fl.fin.injEq] at h
  constructor
  · have hk : (-1074 : ℤ) ≤ ulpExp 53 (-1074) q := le_max_right _ _
    obtain ⟨k, hk'⟩ := Int.eq_ofNat_of_zero_le (a := ulpExp 53 (-1074) q + 1074) (by omega)
    have hq2 : q * 2 ^ 1074 = ((roundInt (q / pow2 (ulpExp 53 (-1074) q)) * 2 ^ k : ℤ) : ℚ) := by
      conv_lhs => rw [← h, roundMag]
      rw [pow2_eq, show ulpExp 53 (-1074) q = (k : ℤ) - 1074 by omega, zpow_sub₀ (by norm_num)]
      push_cast
      rw [zpow_natCast]
      have : (2 : ℚ) ^ (1074 : ℤ) = 2 ^ 1074 := zpow_ofNat _ _
      rw [this]; field_simp
    have hpos : (0 : ℚ) < q * 2 ^ 1074 := by positivity
    rw [hq2] at hpos
    have hpos' : 0 < roundInt (q / pow2 (ulpExp 53 (-1074) q)) * 2 ^ k := by exact_mod_cast hpos
    obtain ⟨m, hm⟩ := Int.eq_ofNat_of_zero_le hpos'.le
    refine ⟨m, by omega, ?_⟩
    rw [hq2, hm]; simp
  · rw [h] at hb
    rw [pow2_eq, zpow_natCast, not_le] at hb
    exact hb

/-- Some number of digits within the bound gives the float exactly. -/
theorem shortest_fuel {q : ℚ} (hq : 0 < q) (h : ieee.rnd q = .fin q) : ∃ j : Nat, 1 ≤ j ∧ j < 1 + 2200 ∧
    ieee.rnd ((⌊q / pow10 (Int.log 10 q + 1 - j)⌋.toNat : Nat) * pow10 (Int.log 10 q + 1 - j)) = .fin q ∧
    -1074 ≤ Int.log 10 q ∧ Int.log 10 q ≤ 1024 := by
  obtain ⟨⟨M, hM0, hM⟩, hlt⟩ := rep64_pos hq h
  have hlo : -1074 ≤ Int.log 10 q := by
    have h2 : (2 : ℚ) ^ (-1074 : ℤ) ≤ q := by
      have : (1 : ℚ) ≤ M := by exact_mod_cast hM0
      rw [zpow_neg, show (2 : ℚ) ^ (1074 : ℤ) = 2 ^ 1074 from zpow_ofNat _ _, inv_le_iff_one_le_mul₀ (by positivity)]
      rw [hM]; exact this
    have h3 : ((10 : ℕ) : ℚ) ^ (-1074 : ℤ) ≤ q := by
      refine le_trans ?_ h2
      rw [zpow_neg, zpow_neg, show (2 : ℚ) ^ (1074 : ℤ) = 2 ^ 1074 from zpow_ofNat _ _,
        show ((10 : ℕ) : ℚ) ^ (1074 : ℤ) = 10 ^ 1074 from zpow_ofNat _ _]
      exact inv_anti₀ (by positivity) (pow_le_pow_left₀ (by norm_num) (by norm_num) _)
    exact (Int.zpow_le_iff_le_log (by norm_num) hq).1 h3
  have hhi : Int.log 10 q ≤ 1024 := by
    by_contra hc
    have hc' : (1025 : ℤ) ≤ Int.log 10 q := by omega
    have := (Int.zpow_le_iff_le_log (b := 10) (by norm_num) hq).2 hc'
    have h4 : (2 : ℚ) ^ 1024 ≤ ((10 : ℕ) : ℚ) ^ (1025 : ℤ) := by
      rw [show ((10 : ℕ) : ℚ) ^ (1025 : ℤ) = 10 ^ 1025 from zpow_ofNat _ _]
      exact le_trans (pow_le_pow_left₀ (by norm_num) (by norm_num) _) (pow_le_pow_right₀ (by norm_num) (by norm_num : 1024 ≤ 1025))
    linarith
  obtain ⟨j, hj⟩ := Int.eq_ofNat_of_zero_le (a := Int.log 10 q + 1 + 1074) (by omega)
  have he : Int.log 10 q + 1 - (j : ℤ) = -1074 := by omega
  have hval : q / pow10 (-1074) = ((M * 5 ^ 1074 : ℕ) : ℤ) := by
    rw [pow10_eq, zpow_neg, show (10 : ℚ) ^ (1074 : ℤ) = 10 ^ 1074 from zpow_ofNat _ _, div_inv_eq_mul,
      show (10 : ℚ) = 2 * 5 by norm_num, mul_pow, ← mul_assoc, hM]
    norm_cast
  have hex : ieee.rnd ((⌊q / pow10 (Int.log 10 q + 1 - j)⌋.toNat : Nat) * pow10 (Int.log 10 q + 1 - j)) = .fin q := by
    rw [he, hval, Int.floor_intCast, Int.toNat_natCast]
    have : ((M * 5 ^ 1074 : ℕ) : ℚ) = q / pow10 (-1074) := by rw [hval]; norm_cast
    rw [this, div_mul_cancel₀ _ (pow10_pos _).ne', h]
  exact ⟨j, by omega, by omega, hex, hlo, hhi⟩

/-- The digits chosen by `shortest` read back as the number, and there are not too many. -/
theorem shortest_good : GoodPick ieee (shortest ieee) := by
  have main : ∀ q, 0 < q → ieee.rnd q = .fin q → ∃ m : Nat, m ≤ 2200 ∧
      (shortest ieee q).2 = Int.log 10 q + 1 - m ∧
      ieee.rnd ((shortest ieee q).1 * pow10 (Int.log 10 q + 1 - m)) = .fin q ∧
      (shortest ieee q).1 ≤ ⌊q / pow10 (Int.log 10 q + 1 - m)⌋.toNat + 1 ∧
      -1074 ≤ Int.log 10 q ∧ Int.log 10 q ≤ 1024 := by
    intro q hq h
    obtain ⟨j, hj1, hj2, hex, hlo, hhi⟩ := shortest_fuel hq h
    obtain ⟨m, k2, k3, k4, k5⟩ := shortestFrom_spec 2200 1 j (by omega) (by omega) hex
    exact ⟨m, by omega, k3, k4, k5, hlo, hhi⟩
  constructor
  · intro q hq h
    obtain ⟨m, -, k3, k4, -⟩ := main q hq h
    rw [k3]; exact k4
  · intro q hq h
    obtain ⟨m, k2, k3, k4, k5, k6, k7⟩ := main q hq h
    refine ⟨?_, ?_, by rw [k3]; omega⟩
    · rcases Nat.eq_zero_or_pos (shortest ieee q).1 with h0 | h0
      · rw [h0] at k4
        have := ieee_lawful.r64.int 0 (by norm_num)
        simp only [Int.cast_zero] at this
        simp only [Nat.cast_zero, zero_mul, this, Fl.fin.injEq] at k4
        exact absurd k4 hq.ne
      · exact h0
    · have hlt : q < pow10 (Int.log 10 q + 1) := by
        rw [pow10_eq]; exact_mod_cast Int.lt_zpow_succ_log_self (b := 10) (by norm_num) q
      have hb : ⌊q / pow10 (Int.log 10 q + 1 - m)⌋.toNat < 10 ^ m := by
        have : q / pow10 (Int.log 10 q + 1 - m) < ((10 ^ m : ℤ) : ℚ) := by
          rw [div_lt_iff₀ (pow10_pos _), pow10_sub]
          have e1 : pow10 (m : ℤ) = 10 ^ m := by rw [pow10_eq, zpow_natCast]
          rw [e1]; push_cast; field_simp; exact hlt
        have := Int.floor_lt.2 this
        have hp : (0 : ℤ) < 10 ^ m := by positivity
        zify; omega
      rw [Nat.length_toDigits_le_iff (by norm_num) (by norm_num)]
      calc (shortest ieee q).1 ≤ 10 ^ m := by omega
        _ < 10 ^ 2500 := Nat.pow_lt_pow_right (by norm_num) (by omega)

end Go
