import Verif.Go.IEEE
import Mathlib.Tactic.NormNum
import Mathlib.Tactic.Ring
import Mathlib.Tactic.Positivity

/-!
# C102: the machine's rounding is IEEE-754 round-to-nearest, ties to even
-/

namespace Go

/-- A finite number of the binary format with `p` digits: `m * 2^e` with `|m| < 2^p`. -/
def IsFloat (p : ℕ) (emin : ℤ) (emax : ℕ) (r : ℚ) : Prop :=
  ∃ m e : ℤ, |m| < 2 ^ p ∧ emin ≤ e ∧ e + p ≤ emax ∧ r = m * (2 : ℚ) ^ e

/-- Finite float64 and float32 values. -/
def IsFloat64 : ℚ → Prop := IsFloat 53 (-1074) 1024
def IsFloat32 : ℚ → Prop := IsFloat 24 (-149) 128

theorem IsFloat.neg {p : ℕ} {emin : ℤ} {emax : ℕ} {r : ℚ} (h : IsFloat p emin emax r) : IsFloat p emin emax (-r) := by
  obtain ⟨m, e, h1, h2, h3, rfl⟩ := h
  exact ⟨-m, e, by rwa [abs_neg], h2, h3, by push_cast; ring⟩

/-! ## Rounding to an integer -/

theorem roundInt_err (x : ℚ) : |(roundInt x : ℚ) - x| ≤ 1 / 2 := by
  have h1 := Int.floor_le x
  have h2 := Int.lt_floor_add_one x
  unfold roundInt
  dsimp only
  rw [abs_le]
  split_ifs with a b c <;> push_cast <;> constructor <;> linarith

theorem int_abs_ge {n : ℤ} (h : n ≠ 0) : (1 : ℚ) ≤ |(n : ℚ)| := by
  have : (1 : ℤ) ≤ |n| := Int.one_le_abs h
  exact_mod_cast this

theorem roundInt_nearest (x : ℚ) (n : ℤ) : |(roundInt x : ℚ) - x| ≤ |(n : ℚ) - x| := by
  by_cases h : n = roundInt x
  · rw [h]
  · have h1 := roundInt_err x
    have h2 : (1 : ℚ) ≤ |((n - roundInt x : ℤ) : ℚ)| := int_abs_ge (by omega)
    have h3 : |((n - roundInt x : ℤ) : ℚ)| ≤ |(n : ℚ) - x| + |(roundInt x : ℚ) - x| := by
      have e : ((n - roundInt x : ℤ) : ℚ) = ((n : ℚ) - x) - ((roundInt x : ℚ) - x) := by push_cast; ring
      rw [e]; exact abs_sub _ _
    linarith

theorem roundInt_tie {x : ℚ} {n : ℤ} (hn : n ≠ roundInt x) (h : |(n : ℚ) - x| = |(roundInt x : ℚ) - x|) :
    roundInt x % 2 = 0 ∧ |n - roundInt x| = 1 := by
  have h1 := roundInt_err x
  have h2 : (1 : ℚ) ≤ |((n - roundInt x : ℤ) : ℚ)| := int_abs_ge (by omega)
  have h3 : |((n - roundInt x : ℤ) : ℚ)| ≤ |(n : ℚ) - x| + |(roundInt x : ℚ) - x| := by
    have e : ((n - roundInt x : ℤ) : ℚ) = ((n : ℚ) - x) - ((roundInt x : ℚ) - x) := by push_cast; ring
    rw [e]; exact abs_sub _ _
  have h4 : |(roundInt x : ℚ) - x| = 1 / 2 := by linarith
  constructor
  · have f1 := Int.floor_le x
    have f2 := Int.lt_floor_add_one x
    unfold roundInt at h4 ⊢
    dsimp only at h4 ⊢
    split_ifs at h4 ⊢ with a b c
    · rw [abs_of_nonpos (by linarith)] at h4; linarith
    · push_cast at h4; rw [abs_of_nonneg (by linarith)] at h4; linarith
    · exact c
    · omega
  · have : |((n - roundInt x : ℤ) : ℚ)| ≤ 1 := by linarith
    have h5 : |n - roundInt x| ≤ 1 := by exact_mod_cast this
    have h6 : (1 : ℤ) ≤ |n - roundInt x| := by exact_mod_cast h2
    omega

section
variable {p : ℕ} {emin : ℤ} {emax : ℕ}

/-- Rounding a positive number: the unit in the last place. -/
theorem roundMag_err (q : ℚ) : |roundMag p emin q - q| ≤ pow2 (ulpExp p emin q) / 2 := by
  have hu := pow2_pos (ulpExp p emin q)
  have h := roundInt_err (q / pow2 (ulpExp p emin q))
  have e : roundMag p emin q - q =
      ((roundInt (q / pow2 (ulpExp p emin q)) : ℚ) - q / pow2 (ulpExp p emin q)) * pow2 (ulpExp p emin q) := by
    unfold roundMag; field_simp
  rw [e, abs_mul, abs_of_pos hu]
  nlinarith

theorem roundMag_nearest_mul (q : ℚ) (n : ℤ) :
    |roundMag p emin q - q| ≤ |n * pow2 (ulpExp p emin q) - q| := by
  have hu := pow2_pos (ulpExp p emin q)
  have h := roundInt_nearest (q / pow2 (ulpExp p emin q)) n
  have e : ∀ m : ℤ, (m : ℚ) * pow2 (ulpExp p emin q) - q =
      ((m : ℚ) - q / pow2 (ulpExp p emin q)) * pow2 (ulpExp p emin q) := by
    intro m; field_simp
  have e1 : roundMag p emin q - q = _ := e (roundInt (q / pow2 (ulpExp p emin q)))
  rw [e1, e, abs_mul, abs_mul]
  exact mul_le_mul_of_nonneg_right h (abs_nonneg _)

/-- The largest power of two not above `q`, as a multiple of the unit. -/
theorem pow_log_mul {q : ℚ} (h : emin ≤ Int.log 2 q - (p - 1)) (hp : 1 ≤ p) :
    pow2 (Int.log 2 q) = ((2 ^ (p - 1) : ℕ) : ℤ) * pow2 (ulpExp p emin q) := by
  have e : ulpExp p emin q = Int.log 2 q - (p - 1) := max_eq_left h
  have e2 : Int.log 2 q = ((p - 1 : ℕ) : ℤ) + (Int.log 2 q - (p - 1)) := by push_cast [Nat.cast_sub hp]; ring
  rw [e, pow2_eq, pow2_eq]
  conv_lhs => rw [e2]
  rw [zpow_add₀ (by norm_num), zpow_natCast]
  push_cast
  rfl

/-- A format number is a multiple of `q`'s unit, or below `q`'s power of two. -/
theorem float_mul_or_below {q s : ℚ} (hs : IsFloat p emin emax s) :
    (∃ n : ℤ, s = n * pow2 (ulpExp p emin q)) ∨ (emin ≤ Int.log 2 q - (p - 1) ∧ s < pow2 (Int.log 2 q)) := by
  obtain ⟨m, e, h1, h2, h3, rfl⟩ := hs
  rcases le_or_gt (ulpExp p emin q) e with h | h
  · left
    obtain ⟨k, hk⟩ := Int.le.dest h
    refine ⟨m * 2 ^ k, ?_⟩
    rw [pow2_eq, ← hk, zpow_add₀ (by norm_num), zpow_natCast]
    push_cast; ring
  · right
    have hmax : emin < ulpExp p emin q := lt_of_le_of_lt h2 h
    have e1 : ulpExp p emin q = Int.log 2 q - (p - 1) := by
      unfold ulpExp at hmax ⊢
      rcases lt_max_iff.1 hmax with h | h
      · exact max_eq_left h.le
      · omega
    refine ⟨by omega, ?_⟩
    rw [pow2_eq]
    have a1 : (m : ℚ) < 2 ^ p := by
      have := (abs_lt.1 h1).2
      exact_mod_cast this
    have a2 : (0 : ℚ) < 2 ^ e := zpow_pos (by norm_num) _
    calc (m : ℚ) * 2 ^ e < 2 ^ p * 2 ^ e := mul_lt_mul_of_pos_right a1 a2
      _ = (2 : ℚ) ^ ((p : ℤ) + e) := by rw [zpow_add₀ (by norm_num), zpow_natCast]
      _ ≤ 2 ^ Int.log 2 q := zpow_le_zpow_right₀ (by norm_num) (by omega)

theorem roundMag_nearest (hp : 1 ≤ p) {q s : ℚ} (hq : 0 < q) (hs : IsFloat p emin emax s) :
    |roundMag p emin q - q| ≤ |s - q| := by
  rcases float_mul_or_below (q := q) hs with ⟨n, hn⟩ | ⟨h1, h2⟩
  · rw [hn]; exact roundMag_nearest_mul q n
  · have h3 := log_le hq
    have := roundMag_nearest_mul (p := p) (emin := emin) q ((2 ^ (p - 1) : ℕ) : ℤ)
    rw [← pow_log_mul h1 hp] at this
    refine this.trans ?_
    rw [abs_of_nonpos (by linarith), abs_of_nonpos (by linarith)]
    linarith

theorem roundMag_tie (hp : 1 ≤ p) {q s : ℚ} (hq : 0 < q) (hs : IsFloat p emin emax s) (hne : s ≠ roundMag p emin q)
    (ht : |s - q| = |roundMag p emin q - q|) : ∃ k : ℤ, roundMag p emin q = 2 * k * |s - roundMag p emin q| := by
  have hu := pow2_pos (ulpExp p emin q)
  rcases float_mul_or_below (q := q) hs with ⟨n, hn⟩ | ⟨h1, h2⟩
  · have e : ∀ m : ℤ, |(m : ℚ) * pow2 (ulpExp p emin q) - q| =
        |(m : ℚ) - q / pow2 (ulpExp p emin q)| * pow2 (ulpExp p emin q) := by
      intro m
      rw [← abs_of_pos hu, ← abs_mul, abs_of_pos hu]
      congr 1; field_simp
    have hr : roundMag p emin q = (roundInt (q / pow2 (ulpExp p emin q)) : ℚ) * pow2 (ulpExp p emin q) := rfl
    rw [hn, hr, e, e] at ht
    have ht' := mul_right_cancel₀ hu.ne' ht
    have hne' : n ≠ roundInt (q / pow2 (ulpExp p emin q)) := by
      intro h; apply hne; rw [hn, hr, h]
    obtain ⟨t1, t2⟩ := roundInt_tie hne' ht'
    have t3 : |s - roundMag p emin q| = pow2 (ulpExp p emin q) := by
      rw [hn, hr, ← sub_mul, abs_mul, abs_of_pos hu]
      have : |(n : ℚ) - (roundInt (q / pow2 (ulpExp p emin q)) : ℚ)| = 1 := by exact_mod_cast t2
      rw [this, one_mul]
    rw [t3, hr]
    refine ⟨roundInt (q / pow2 (ulpExp p emin q)) / 2, ?_⟩
    have : roundInt (q / pow2 (ulpExp p emin q)) = 2 * (roundInt (q / pow2 (ulpExp p emin q)) / 2) := by omega
    conv_lhs => rw [this]
    push_cast; ring
  · exfalso
    have h3 := log_le hq
    have := roundMag_nearest_mul (p := p) (emin := emin) q ((2 ^ (p - 1) : ℕ) : ℤ)
    rw [← pow_log_mul h1 hp, ← ht, abs_of_nonpos (by linarith), abs_of_nonpos (by linarith)] at this
    linarith

theorem quot_lt {q : ℚ} : q / pow2 (ulpExp p emin q) < 2 ^ p := by
  have hu := pow2_pos (ulpExp p emin q)
  rw [div_lt_iff₀ hu]
  refine lt_of_lt_of_le (lt_log_succ (q := q)) ?_
  rw [pow2_eq, pow2_eq, ← zpow_natCast, ← zpow_add₀ (by norm_num)]
  apply zpow_le_zpow_right₀ (by norm_num)
  have : Int.log 2 q - (p - 1) ≤ ulpExp p emin q := le_max_left _ _
  omega

theorem roundMag_isFloat (hp : 1 ≤ p) (hr : emin + p ≤ emax) {q : ℚ} (hq : 0 < q) (h : roundMag p emin q < pow2 emax) :
    IsFloat p emin emax (roundMag p emin q) := by
  set e := ulpExp p emin q with he
  have hu := pow2_pos e
  set m := roundInt (q / pow2 e) with hm
  have hrm : roundMag p emin q = (m : ℚ) * 2 ^ e := by rw [← pow2_eq]; rfl
  have hle : m ≤ 2 ^ p := by
    apply roundInt_le_int
    push_cast
    exact quot_lt.le
  have h0 : 0 ≤ m := int_le_roundInt (by push_cast; positivity)
  have hemin : emin ≤ e := le_max_right _ _
  have hep : m ≠ 0 → m = 2 ^ p ∨ e + p ≤ emax := by
    intro _
    by_contra hcon
    push Not at hcon
    have e1 : e = Int.log 2 q - (p - 1) := by
      rcases max_choice (Int.log 2 q - (p - 1)) emin with h | h
      · exact h
      · exfalso
        have : e = emin := h
        omega
    have : pow2 emax ≤ roundMag p emin q := by
      refine le_trans ?_ (pow2_le_roundMag (k := Int.log 2 q) ?_ (log_le hq))
      · rw [pow2_eq, pow2_eq]
        exact zpow_le_zpow_right₀ (by norm_num) (by omega)
      · rw [← he]; omega
    linarith
  by_cases hm0 : m = 0
  · exact ⟨0, emin, by simp, le_rfl, hr, by rw [hrm, hm0]; simp⟩
  rcases eq_or_lt_of_le hle with heq | hlt
  · have hlt' : (2 : ℚ) ^ ((p : ℤ) + e) < 2 ^ (emax : ℤ) := by
      rw [← pow2_eq emax, zpow_add₀ (by norm_num), zpow_natCast]
      rw [hrm, heq] at h
      push_cast at h
      exact h
    have hlt2 : (p : ℤ) + e < emax := (zpow_lt_zpow_iff_right₀ (by norm_num)).1 hlt'
    refine ⟨2 ^ (p - 1), e + 1, ?_, by omega, by omega, ?_⟩
    · rw [abs_of_nonneg (by positivity)]
      exact pow_lt_pow_right₀ (by norm_num) (by omega)
    · rw [hrm, heq, zpow_add₀ (by norm_num), zpow_one]
      push_cast
      obtain ⟨k, rfl⟩ : ∃ k, p = k + 1 := ⟨p - 1, by omega⟩
      rw [Nat.add_sub_cancel, pow_succ]; ring
  · rcases hep hm0 with h1 | h1
    · omega
    · exact ⟨m, e, by rw [abs_of_nonneg h0]; exact hlt, hemin, h1, hrm⟩

theorem isFloat_lt {s : ℚ} (hs : IsFloat p emin emax s) : s < pow2 emax := by
  obtain ⟨m, e, h1, h2, h3, rfl⟩ := hs
  have a1 : (m : ℚ) < 2 ^ p := by
    have := (abs_lt.1 h1).2
    exact_mod_cast this
  have a2 : (0 : ℚ) < 2 ^ e := zpow_pos (by norm_num) _
  rw [pow2_eq]
  calc (m : ℚ) * 2 ^ e < 2 ^ p * 2 ^ e := mul_lt_mul_of_pos_right a1 a2
    _ = (2 : ℚ) ^ ((p : ℤ) + e) := by rw [zpow_add₀ (by norm_num), zpow_natCast]
    _ ≤ 2 ^ (emax : ℤ) := zpow_le_zpow_right₀ (by norm_num) (by omega)

theorem roundMag_float (hp : 1 ≤ p) {s : ℚ} (h0 : 0 < s) (hs : IsFloat p emin emax s) : roundMag p emin s = s := by
  have := roundMag_nearest hp h0 hs
  rw [sub_self, abs_zero] at this
  have := abs_eq_zero.1 (le_antisymm this (abs_nonneg _))
  linarith

/-- The overflow threshold: half a unit above the largest finite number. -/
theorem roundMag_overflow (hp : 2 ≤ p) (hr : emin + p ≤ emax) {q : ℚ} (hq : 0 < q) :
    pow2 emax ≤ roundMag p emin q ↔ (2 : ℚ) ^ (emax : ℤ) - 2 ^ ((emax : ℤ) - p - 1) ≤ q := by
  have two : (0 : ℚ) < 2 := by norm_num
  have hu : (0 : ℚ) < 2 ^ ((emax : ℤ) - p) := zpow_pos two _
  have hhalf : (2 : ℚ) ^ ((emax : ℤ) - p - 1) = 2 ^ ((emax : ℤ) - p) / 2 := by rw [zpow_sub_one₀ two.ne']; ring
  have hmaxu : (2 : ℚ) ^ (emax : ℤ) = 2 ^ p * 2 ^ ((emax : ℤ) - p) := by
    rw [← zpow_natCast (2 : ℚ) p, ← zpow_add₀ two.ne']; congr 1; ring
  have hpow1 : (2 : ℚ) ^ ((emax : ℤ) - 1) = 2 ^ (p - 1) * 2 ^ ((emax : ℤ) - p) := by
    rw [← zpow_natCast (2 : ℚ) (p - 1), ← zpow_add₀ two.ne']; congr 1; push_cast [Nat.cast_sub (show 1 ≤ p by omega)]; ring
  have hpp : (2 : ℚ) ^ p = 2 * 2 ^ (p - 1) := by
    obtain ⟨k, rfl⟩ : ∃ k, p = k + 1 := ⟨p - 1, by omega⟩
    rw [Nat.add_sub_cancel, pow_succ]; ring
  have hge2 : (2 : ℚ) ≤ 2 ^ (p - 1) := by
    calc (2 : ℚ) = 2 ^ 1 := by norm_num
      _ ≤ 2 ^ (p - 1) := pow_le_pow_right₀ (by norm_num) (by omega)
  have ulp_of : ∀ {x : ℚ}, Int.log 2 x = emax - 1 → ulpExp p emin x = emax - p := by
    intro x hx; unfold ulpExp; rw [hx, max_eq_left (by omega)]; ring
  rw [hhalf]
  constructor
  · intro h
    by_contra hlt
    push Not at hlt
    rcases lt_or_ge (Int.log 2 q) (emax - 1) with hl | hl
    · have hq1 : q ≤ pow2 ((emax : ℤ) - 1) := by
        refine (lt_log_succ (q := q)).le.trans ?_
        rw [pow2_eq, pow2_eq]; exact zpow_le_zpow_right₀ (by norm_num) (by omega)
      have := roundMag_le_pow2 (p := p) (emin := emin) (q := q) (k := (emax : ℤ) - 1)
        (by unfold ulpExp; exact max_le (by omega) (by omega)) hq1
      have h2 := h.trans this
      rw [pow2_eq, pow2_eq, hmaxu, hpow1] at h2
      nlinarith
    · have hl' : Int.log 2 q = emax - 1 := by
        have h1 := log_le hq
        have : (2 : ℚ) ^ Int.log 2 q < 2 ^ (emax : ℤ) := by
          rw [pow2_eq] at h1
          nlinarith
        have := (zpow_lt_zpow_iff_right₀ (by norm_num : (1 : ℚ) < 2)).1 this
        omega
      have hrm : roundMag p emin q = (roundInt (q / pow2 ((emax : ℤ) - p)) : ℚ) * pow2 ((emax : ℤ) - p) := by
        unfold roundMag; rw [ulp_of hl']
      rw [hrm, pow2_eq, pow2_eq, hmaxu] at h
      have h1 : (2 : ℚ) ^ p ≤ (roundInt (q / 2 ^ ((emax : ℤ) - p)) : ℚ) := le_of_mul_le_mul_right h hu
      have h2 := (abs_le.1 (roundInt_err (q / 2 ^ ((emax : ℤ) - p)))).2
      have h3 : q / 2 ^ ((emax : ℤ) - p) < 2 ^ p - 1 / 2 := by
        rw [div_lt_iff₀ hu]; rw [hmaxu] at hlt; linarith
      linarith
  · intro h
    set T : ℚ := 2 ^ (emax : ℤ) - 2 ^ ((emax : ℤ) - p) / 2 with hT
    have hTx : T = (2 ^ p - 1 / 2) * 2 ^ ((emax : ℤ) - p) := by rw [hT, hmaxu]; ring
    have hT0 : 0 < T := by rw [hTx]; apply mul_pos _ hu; rw [hpp]; linarith
    have hlog : Int.log 2 T = emax - 1 := by
      have l1 : (emax : ℤ) - 1 ≤ Int.log 2 T := by
        rw [← Int.zpow_le_iff_le_log (by norm_num) hT0]
        push_cast
        rw [hpow1, hTx, hpp]
        apply mul_le_mul_of_nonneg_right _ hu.le
        linarith
      have l2 : Int.log 2 T < emax := by
        rw [← Int.lt_zpow_iff_log_lt (by norm_num) hT0]
        push_cast
        rw [hT]; linarith
      omega
    have hTr : roundMag p emin T = pow2 emax := by
      unfold roundMag
      dsimp only
      rw [ulp_of hlog, pow2_eq, pow2_eq]
      have : T / 2 ^ ((emax : ℤ) - p) = 2 ^ p - 1 / 2 := by rw [hTx]; field_simp
      rw [this]
      have fl : ⌊(2 ^ p - 1 / 2 : ℚ)⌋ = 2 ^ p - 1 := by
        rw [Int.floor_eq_iff]; push_cast; constructor <;> linarith
      have hr2 : roundInt (2 ^ p - 1 / 2) = 2 ^ p := by
        unfold roundInt
        dsimp only
        rw [fl]
        have e : (2 ^ p - 1 / 2 : ℚ) - ((2 ^ p - 1 : ℤ) : ℚ) = 1 / 2 := by push_cast; ring
        rw [e, if_neg (by norm_num), if_neg (by norm_num), if_neg, sub_add_cancel]
        obtain ⟨k, rfl⟩ : ∃ k, p = k + 1 := ⟨p - 1, by omega⟩
        rw [pow_succ]; omega
      rw [hr2, hmaxu]
      push_cast; rfl
    rw [← hTr]
    exact roundMag_mono (by omega) hT0 h

/-! ## The whole format -/

/-- Round to nearest, ties to even, overflow to infinity, sign kept. -/
structure NearestEven (p : ℕ) (emin : ℤ) (emax : ℕ) (rnd : ℚ → Fl) : Prop where
  /-- A finite result is a number of the format, no number of the format is nearer, and on a tie the
  result is an even multiple of the gap. -/
  finite : ∀ q r, rnd q = .fin r → IsFloat p emin emax r ∧
    (∀ s, IsFloat p emin emax s → |r - q| ≤ |s - q|) ∧
    (∀ s, IsFloat p emin emax s → s ≠ r → |s - q| = |r - q| → ∃ k : ℤ, r = 2 * k * |s - r|)
  /-- A result of minus zero comes from a small negative number. -/
  negZero : ∀ q, rnd q = .negZero → q < 0 ∧ (∀ s, IsFloat p emin emax s → |q| ≤ |s - q|)
  /-- Infinity exactly beyond half a unit above the largest number. -/
  infinite : ∀ q neg, rnd q = .inf neg ↔
    (2 : ℚ) ^ (emax : ℤ) - 2 ^ ((emax : ℤ) - p - 1) ≤ |q| ∧ neg = decide (q < 0)
  /-- Numbers of the format are kept. -/
  exact : ∀ s, IsFloat p emin emax s → rnd s = .fin s
  /-- Never NaN. -/
  num : ∀ q, rnd q ≠ .nan

theorem rne_zero : rne p emin emax 0 = .fin 0 := by unfold rne; rw [if_pos rfl]

theorem rne_nearestEven (hp : 2 ≤ p) (hr : emin + p ≤ emax) : NearestEven p emin emax (rne p emin emax) := by
  have hp1 : 1 ≤ p := by omega
  have f0 : IsFloat p emin emax 0 := ⟨0, emin, by simp, le_rfl, hr, by simp⟩
  have thr : (0 : ℚ) < (2 : ℚ) ^ (emax : ℤ) - 2 ^ ((emax : ℤ) - p - 1) := by
    have : (2 : ℚ) ^ ((emax : ℤ) - p - 1) < (2 : ℚ) ^ (emax : ℤ) := zpow_lt_zpow_right₀ (by norm_num) (by omega)
    linarith
  -- what a positive number gives
  have posfin : ∀ q r, 0 < q → rne p emin emax q = .fin r → roundMag p emin q < pow2 emax ∧ r = roundMag p emin q := by
    intro q r hq h
    rw [rne_pos hq] at h
    split_ifs at h with hc
    exact ⟨not_le.1 hc, (Fl.fin.inj h).symm⟩
  have P : ∀ q r, 0 < q → rne p emin emax q = .fin r → IsFloat p emin emax r ∧
      (∀ s, IsFloat p emin emax s → |r - q| ≤ |s - q|) ∧
      (∀ s, IsFloat p emin emax s → s ≠ r → |s - q| = |r - q| → ∃ k : ℤ, r = 2 * k * |s - r|) := by
    intro q r hq h
    obtain ⟨h1, rfl⟩ := posfin q r hq h
    exact ⟨roundMag_isFloat hp1 hr hq h1, fun s hs => roundMag_nearest hp1 hq hs,
      fun s hs hne ht => roundMag_tie hp1 hq hs hne ht⟩
  have posinf : ∀ q neg, 0 < q → (rne p emin emax q = .inf neg ↔
      (2 : ℚ) ^ (emax : ℤ) - 2 ^ ((emax : ℤ) - p - 1) ≤ |q| ∧ neg = decide (q < 0)) := by
    intro q neg hq
    rw [rne_pos hq, abs_of_pos hq, ← roundMag_overflow hp hr hq, decide_eq_false (not_lt.2 hq.le)]
    split_ifs with hc
    · simp [hc, eq_comm]
    · simp [hc]
  have negcase : ∀ q, q < 0 → rne p emin emax q = Fl.neg (rne p emin emax (-q)) := by
    intro q hq
    have := rne_neg (p := p) (emin := emin) (emax := emax) (-q) (neg_pos.2 hq).ne'
    rwa [neg_neg] at this
  have negfin : ∀ x : Fl, ∀ r, Fl.neg x = .fin r → (x = .fin (-r) ∧ r ≠ 0) ∨ (x = .negZero ∧ r = 0) := by
    intro x r h
    cases x with
    | nan => simp [Fl.neg] at h
    | inf b => simp [Fl.neg] at h
    | negZero => right; simp [Fl.neg] at h; exact ⟨rfl, h.symm⟩
    | fin v =>
      left
      by_cases hv : v = 0
      · simp [Fl.neg, hv] at h
      · simp [Fl.neg, hv] at h
        subst h
        exact ⟨by rw [neg_neg], neg_ne_zero.2 hv⟩
  refine ⟨?_, ?_, ?_, ?_, rne_ne_nan⟩
  · intro q r h
    rcases lt_trichotomy q 0 with hq | hq | hq
    · rw [negcase q hq] at h
      rcases negfin _ _ h with ⟨h1, h2⟩ | ⟨h1, h2⟩
      · obtain ⟨a, b, c⟩ := P (-q) (-r) (neg_pos.2 hq) h1
        have ab : ∀ s : ℚ, |-s - -q| = |s - q| := fun s => by rw [← abs_neg]; congr 1; ring
        refine ⟨by simpa using a.neg, ?_, ?_⟩
        · intro s hs
          have := b (-s) hs.neg
          rwa [ab, ab] at this
        · intro s hs hne ht
          obtain ⟨k, hk⟩ := c (-s) hs.neg (fun h => hne (neg_inj.1 h)) (by rw [ab, ab]; exact ht)
          have e : |-s - -r| = |s - r| := by rw [← abs_neg]; congr 1; ring
          rw [e] at hk
          exact ⟨-k, by push_cast; linarith⟩
      · exfalso
        rw [rne_pos (neg_pos.2 hq)] at h1
        split_ifs at h1
    · subst hq
      rw [rne_zero] at h
      obtain rfl := Fl.fin.inj h
      refine ⟨f0, fun s _ => by simp, fun s _ _ _ => ⟨0, by simp⟩⟩
    · exact P q r hq h
  · intro q h
    rcases lt_trichotomy q 0 with hq | hq | hq
    · refine ⟨hq, fun s hs => ?_⟩
      rw [negcase q hq] at h
      have hz : rne p emin emax (-q) = .fin 0 := by
        cases hx : rne p emin emax (-q) with
        | nan => rw [hx] at h; simp [Fl.neg] at h
        | inf b => rw [hx] at h; simp [Fl.neg] at h
        | negZero => rw [hx] at h; simp [Fl.neg] at h
        | fin v =>
          rw [hx] at h
          by_cases hv : v = 0
          · rw [hv]
          · simp [Fl.neg, hv] at h
      obtain ⟨-, b, -⟩ := P (-q) 0 (neg_pos.2 hq) hz
      have := b (-s) hs.neg
      have e1 : |(0 : ℚ) - -q| = |q| := by congr 1; ring
      have e2 : |-s - -q| = |s - q| := by rw [← abs_neg]; congr 1; ring
      rwa [e1, e2] at this
    · subst hq; rw [rne_zero] at h; simp at h
    · rw [rne_pos hq] at h
      split_ifs at h
  · intro q neg
    rcases lt_trichotomy q 0 with hq | hq | hq
    · rw [negcase q hq]
      have := posinf (-q) (!neg) (neg_pos.2 hq)
      rw [abs_neg] at this
      have e1 : Fl.neg (rne p emin emax (-q)) = .inf neg ↔ rne p emin emax (-q) = .inf (!neg) := by
        cases rne p emin emax (-q) with
        | nan => simp [Fl.neg]
        | inf b => cases b <;> cases neg <;> simp [Fl.neg]
        | negZero => simp [Fl.neg]
        | fin v => by_cases hv : v = 0 <;> simp [Fl.neg, hv]
      rw [e1, this, decide_eq_false (not_lt.2 (neg_pos.2 hq).le), decide_eq_true hq]
      cases neg <;> simp
    · subst hq
      rw [rne_zero, abs_zero]
      simp only [reduceCtorEq, false_iff, not_and]
      intro h; linarith
    · exact posinf q neg hq
  · intro s hs
    have pc : ∀ s, 0 < s → IsFloat p emin emax s → rne p emin emax s = .fin s := by
      intro s h0 hs
      rw [rne_pos h0, roundMag_float hp1 h0 hs, if_neg (not_le.2 (isFloat_lt hs))]
    rcases lt_trichotomy s 0 with h0 | h0 | h0
    · rw [negcase s h0, pc _ (neg_pos.2 h0) hs.neg]
      have : -s ≠ 0 := (neg_pos.2 h0).ne'
      simp [Fl.neg, h0.ne]
    · rw [h0, rne_zero]
    · exact pc s h0 hs

end

/-- **C102.** The model's float64 and float32 roundings are IEEE-754 round-to-nearest, ties-to-even. -/
theorem C102_nearest_even : NearestEven 53 (-1074) 1024 ieee.rnd ∧ NearestEven 24 (-149) 128 ieee.rnd32 :=
  ⟨rne_nearestEven (by norm_num) (by norm_num), rne_nearestEven (by norm_num) (by norm_num)⟩

/-- **C102.** They meet the laws assumed by the theorems stated for lawful float semantics. -/
theorem C102_laws : Lawful ieee := ieee_lawful

/-- The rounded value is within half a unit in the last place. -/
theorem rne_err {p : ℕ} {emin : ℤ} {emax : ℕ} {q r : ℚ} (h : rne p emin emax q = .fin r) :
    |r - q| ≤ max (|q| * 2 ^ (-(p : ℤ))) (2 ^ (emin - 1)) := by
  have pos : ∀ q r, 0 < q → rne p emin emax q = .fin r → |r - q| ≤ max (|q| * 2 ^ (-(p : ℤ))) (2 ^ (emin - 1)) := by
    intro q r hq h
    rw [rne_pos hq] at h
    split_ifs at h
    obtain rfl := Fl.fin.inj h
    refine (roundMag_err q).trans ?_
    rw [pow2_eq]
    have e : (2 : ℚ) ^ ulpExp p emin q / 2 = 2 ^ (ulpExp p emin q - 1) := by rw [zpow_sub_one₀ (by norm_num)]; ring
    rw [e]
    rcases max_choice (Int.log 2 q - (p - 1)) emin with h | h
    · have h' : ulpExp p emin q = _ := h
      rw [h']
      apply le_max_of_le_left
      have := log_le hq
      rw [pow2_eq] at this
      rw [abs_of_pos hq]
      calc (2 : ℚ) ^ (Int.log 2 q - (p - 1) - 1) = 2 ^ Int.log 2 q * 2 ^ (-(p : ℤ)) := by
            rw [← zpow_add₀ (by norm_num)]; congr 1; ring
        _ ≤ q * 2 ^ (-(p : ℤ)) := mul_le_mul_of_nonneg_right this (zpow_nonneg (by norm_num) _)
    · have h' : ulpExp p emin q = _ := h
      rw [h']; exact le_max_right _ _
  rcases lt_trichotomy q 0 with hq | hq | hq
  · have hn := rne_neg (p := p) (emin := emin) (emax := emax) q hq.ne
    rw [h] at hn
    by_cases hr : r = 0
    · subst hr
      rw [show Fl.neg (.fin 0) = .negZero by simp [Fl.neg], rne_pos (neg_pos.2 hq)] at hn
      split_ifs at hn
    · have : Fl.neg (.fin r) = .fin (-r) := by simp [Fl.neg, hr]
      rw [this] at hn
      have := pos _ _ (neg_pos.2 hq) hn
      rw [abs_neg] at this
      have e : |-r - -q| = |r - q| := by rw [← abs_neg]; congr 1; ring
      rwa [e] at this
  · subst hq
    unfold rne at h
    rw [if_pos rfl] at h
    obtain rfl := Fl.fin.inj h
    rw [sub_zero, abs_zero]
    exact le_max_of_le_right (zpow_nonneg (by norm_num) _)
  · exact pos q r hq h

/-- **C102.** Relative error of a float64 operation: at most 2^-53, or half the smallest number. -/
theorem C102_error {q r : ℚ} (h : ieee.rnd q = .fin r) : |r - q| ≤ max (|q| * 2 ^ (-53 : ℤ)) (2 ^ (-1075 : ℤ)) := by
  have := rne_err (p := 53) (emin := -1074) (emax := 1024) h
  norm_num at this ⊢
  exact this

/-- One tenth is not a float64; the nearest one is 3602879701896397 / 2^55. -/
example : ieee.rnd (1 / 10) = .fin (3602879701896397 / 36028797018963968) := by decide +kernel
example : IsFloat64 (3602879701896397 / 36028797018963968) :=
  ⟨7205759403792794, -56, by norm_num, by norm_num, by norm_num, by norm_num⟩
/-- A tie: 2^53 + 1 lies between 2^53 and 2^53 + 2. -/
example : ieee.rnd (2 ^ 53 + 1) = .fin (2 ^ 53) := by decide +kernel

end Go
