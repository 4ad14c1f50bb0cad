import Verif.Props.IEEE
import Mathlib.Tactic.Linarith

/-!
# Multiplying a rounded quotient back

For a number `z` of the format and a whole number `n`, let `x` be `z / n` rounded. Then
`n x` rounded minus `x` grows with `z`. For arbitrary numbers `x` of the format this is false.
-/

namespace Go

variable {p : ℕ} {emin : ℤ} {emax : ℕ}

theorem roundMag_zero : roundMag p emin 0 = 0 := by
  unfold roundMag
  have : roundInt (0 / pow2 (ulpExp p emin 0)) = 0 := by
    rw [zero_div]; exact_mod_cast roundInt_int 0
  simp only [this]; simp

theorem roundMag_nonneg' {q : ℚ} (hq : 0 ≤ q) : 0 ≤ roundMag p emin q := by
  rcases eq_or_lt_of_le hq with h | h
  · rw [← h, roundMag_zero]
  · exact roundMag_nonneg h

theorem roundMag_mono' (hp : 1 ≤ p) {q r : ℚ} (hq : 0 ≤ q) (h : q ≤ r) : roundMag p emin q ≤ roundMag p emin r := by
  rcases eq_or_lt_of_le hq with h0 | h0
  · rw [← h0, roundMag_zero]; exact roundMag_nonneg' (hq.trans h)
  · exact roundMag_mono hp h0 h

/-- Half-way rounds to an even number. -/
theorem roundInt_half_even {x : ℚ} (h : |(roundInt x : ℚ) - x| = 1 / 2) : roundInt x % 2 = 0 := by
  have f1 := Int.floor_le x
  have f2 := Int.lt_floor_add_one x
  unfold roundInt at h ⊢
  dsimp only at h ⊢
  split_ifs at h ⊢ with a b c
  · rw [abs_of_nonpos (by linarith)] at h; linarith
  · push_cast at h; rw [abs_of_nonneg (by linarith)] at h; linarith
  · exact c
  · omega

/-- Small whole multiples of a power of two are numbers of the format. -/
theorem roundMag_mul_pow (hp : 1 ≤ p) {n : ℕ} (h1 : 1 ≤ n) (h2 : n < 2 ^ p) {j : ℤ} (hj : emin ≤ j) :
    roundMag p emin (n * pow2 j) = n * pow2 j := by
  have h0 : (0 : ℚ) < n * pow2 j := mul_pos (by exact_mod_cast h1) (pow2_pos j)
  refine roundMag_float (emax := (j + p).toNat) hp h0 ⟨n, j, ?_, hj, Int.self_le_toNat _, ?_⟩
  · rw [abs_of_nonneg (by omega)]; exact_mod_cast h2
  · rw [pow2_eq]; rfl

theorem pow2_le_pow2 {a b : ℤ} (h : a ≤ b) : pow2 a ≤ pow2 b := by
  rw [pow2_eq, pow2_eq]; exact zpow_le_zpow_right₀ (by norm_num) h

/-- A multiple of a unit is a multiple of every smaller unit. -/
theorem mul_pow2_of_le {a b : ℤ} (h : a ≤ b) (m : ℤ) : ∃ k : ℤ, (m : ℚ) * pow2 b = k * pow2 a := by
  obtain ⟨n, hn⟩ := Int.le.dest h
  refine ⟨m * 2 ^ n, ?_⟩
  rw [pow2_eq, pow2_eq, ← hn, zpow_add₀ (by norm_num), zpow_natCast]; push_cast; ring

theorem gap_of_lt {u : ℚ} (hu : 0 < u) {k m : ℤ} (h : (k : ℚ) * u < m * u) : u ≤ m * u - k * u := by
  have h1 : (k : ℚ) < m := lt_of_mul_lt_mul_right h hu.le
  have h2 : k + 1 ≤ m := by exact_mod_cast h1
  have h3 : (k : ℚ) + 1 ≤ m := by exact_mod_cast h2
  nlinarith

/-- The error of multiplying a rounded quotient back. -/
theorem back_err (hp : 1 ≤ p) {n : ℕ} (hn : 1 ≤ n) {z : ℚ} (fz : IsFloat p emin emax z)
    (hx : 0 < roundMag p emin (z / n)) :
    |roundMag p emin (n * roundMag p emin (z / n)) - n * roundMag p emin (z / n)| ≤ |z - n * roundMag p emin (z / n)| ∧
    |z - n * roundMag p emin (z / n)| = n * |roundMag p emin (z / n) - z / n| ∧
    |z - n * roundMag p emin (z / n)| ≤ n * (pow2 (ulpExp p emin (z / n)) / 2) := by
  have hn0 : (0 : ℚ) < n := by exact_mod_cast hn
  have e : |z - n * roundMag p emin (z / n)| = n * |roundMag p emin (z / n) - z / n| := by
    rw [← abs_of_pos hn0, ← abs_mul, abs_of_pos hn0, ← abs_neg]
    congr 1; field_simp; ring
  refine ⟨roundMag_nearest hp (mul_pos hn0 hx) fz, e, ?_⟩
  rw [e]
  exact mul_le_mul_of_nonneg_left (roundMag_err _) hn0.le

theorem back_upper {n u P x X : ℚ} (hn : 2 ≤ n) (hu : 0 < u) (hg : u ≤ P - x) (h : X - n * x ≤ n * (u / 2)) :
    X - x ≤ n * P - P := by
  have h1 : (n - 1) * u ≤ (n - 1) * (P - x) := mul_le_mul_of_nonneg_left hg (by linarith)
  have h2 : 2 * u ≤ n * u := mul_le_mul_of_nonneg_right hn hu.le
  linarith

theorem back_lower {n u P y Y : ℚ} (hn : 2 ≤ n) (hu : 0 < u) (hg : u ≤ y - P) (h : -(n * (u / 2)) ≤ Y - n * y) :
    n * P - P ≤ Y - y := by
  have h1 : (n - 1) * u ≤ (n - 1) * (y - P) := mul_le_mul_of_nonneg_left hg (by linarith)
  have h2 : 2 * u ≤ n * u := mul_le_mul_of_nonneg_right hn hu.le
  linarith

theorem back_far {n u x y X Y : ℚ} (hn : 2 ≤ n) (hu : 0 < u) (hg : 2 * u ≤ y - x) (h : X - n * x ≤ n * (u / 2))
    (h' : -(n * (u / 2)) ≤ Y - n * y) : X - x ≤ Y - y := by
  have h1 : (n - 1) * (2 * u) ≤ (n - 1) * (y - x) := mul_le_mul_of_nonneg_left hg (by linarith)
  have h2 : 2 * u ≤ n * u := mul_le_mul_of_nonneg_right hn hu.le
  linarith

theorem back_mono (hp : 1 ≤ p) {n : ℕ} (hn : 2 ≤ n) (hnp : n < 2 ^ p) {z z' : ℚ} (hz : 0 < z) (h : z ≤ z')
    (fz : IsFloat p emin emax z) (fz' : IsFloat p emin emax z') :
    roundMag p emin (n * roundMag p emin (z / n)) - roundMag p emin (z / n) ≤
    roundMag p emin (n * roundMag p emin (z' / n)) - roundMag p emin (z' / n) := by
  have hn0 : (0 : ℚ) < n := by exact_mod_cast (show 0 < n by omega)
  have hn2 : (2 : ℚ) ≤ n := by exact_mod_cast hn
  set a := z / n with ha
  set b := z' / n with hb
  have ha0 : 0 < a := div_pos hz hn0
  have hab : a ≤ b := div_le_div_of_nonneg_right h hn0.le
  have hb0 : 0 < b := ha0.trans_le hab
  set x := roundMag p emin a with hx
  set y := roundMag p emin b with hy
  have hx0 : 0 ≤ x := roundMag_nonneg ha0
  have hxy : x ≤ y := roundMag_mono hp ha0 hab
  have hXY : roundMag p emin (n * x) ≤ roundMag p emin (n * y) :=
    roundMag_mono' hp (mul_nonneg hn0.le hx0) (mul_le_mul_of_nonneg_left hxy hn0.le)
  rcases eq_or_lt_of_le hxy with heq | hlt
  · rw [heq]
  have hy0 : 0 < y := hx0.trans_lt hlt
  -- nothing to subtract
  rcases eq_or_lt_of_le hx0 with hxz | hxpos
  · rw [← hxz, mul_zero, roundMag_zero, sub_zero]
    have h1 : roundMag p emin y ≤ roundMag p emin (n * y) := roundMag_mono hp hy0 (by nlinarith)
    have h2 : roundMag p emin y = y := roundMag_idem hp hb0 hy0.ne'
    linarith
  obtain ⟨x1, x2, x3⟩ := back_err hp (n := n) (by omega) fz (by rw [← ha, ← hx]; exact hxpos)
  obtain ⟨y1, y2, y3⟩ := back_err hp (n := n) (by omega) fz' (by rw [← hb, ← hy]; exact hy0)
  rw [← ha, ← hx] at x1 x2 x3
  rw [← hb, ← hy] at y1 y2 y3
  set X := roundMag p emin (n * x) with hX
  set Y := roundMag p emin (n * y) with hY
  set u := pow2 (ulpExp p emin a) with hu
  set v := pow2 (ulpExp p emin b) with hv
  have hu0 : 0 < u := pow2_pos _
  have hv0 : 0 < v := pow2_pos _
  have ex : x = roundInt (a / u) * u := rfl
  have ey : y = roundInt (b / v) * v := rfl
  have bx := abs_le.1 (x1.trans x3)
  have by' := abs_le.1 (y1.trans y3)
  have hlog : Int.log 2 a ≤ Int.log 2 b := Int.log_mono_right ha0 hab
  have hexp : ulpExp p emin a ≤ ulpExp p emin b := by unfold ulpExp; omega
  rcases eq_or_lt_of_le hexp with he | he
  · -- the same unit
    have huv : v = u := by rw [hv, hu, he]
    rw [huv] at ey by' y3
    set k := roundInt (a / u) with hk
    have ey' : y = roundInt (b / u) * u := by rw [ey]
    set m := roundInt (b / u) with hm
    have hkm : k < m := by
      rw [ex, ey'] at hlt
      have := lt_of_mul_lt_mul_right hlt hu0.le
      exact_mod_cast this
    have hyx : y - x = (m - k) * u := by rw [ex, ey']; ring
    rcases lt_or_ge (k + 1) m with h2 | h2
    · have : (2 : ℚ) ≤ (m : ℚ) - k := by
        have : k + 2 ≤ m := by omega
        have : ((k + 2 : ℤ) : ℚ) ≤ m := by exact_mod_cast this
        push_cast at this; linarith
      have h3 : 2 * u ≤ y - x := by rw [hyx]; exact mul_le_mul_of_nonneg_right this hu0.le
      exact back_far hn2 hu0 h3 bx.2 by'.1
    · have hmk : m = k + 1 := by omega
      have hyx1 : y - x = u := by rw [hyx, hmk]; push_cast; ring
      rcases eq_or_lt_of_le hXY with hw | hw
      · -- both products round to the same number: two ties to even at neighbours
        exfalso
        have hny : (n : ℚ) * y - n * x = n * u := by rw [← hyx1]; ring
        have sum : (n : ℚ) * u ≤ |z - n * x| + |z' - n * y| := by
          have h1 := (abs_le.1 x1).2
          have h2 := (abs_le.1 y1).1
          rw [hw] at h1
          linarith
        have tx : |x - a| = u / 2 := by
          have : (n : ℚ) * |x - a| = n * (u / 2) := by rw [← x2]; linarith
          exact mul_left_cancel₀ hn0.ne' this
        have ty : |y - b| = u / 2 := by
          have : (n : ℚ) * |y - b| = n * (u / 2) := by rw [← y2]; linarith
          exact mul_left_cancel₀ hn0.ne' this
        have even : ∀ {c : ℚ}, |(roundInt (c / u) : ℚ) * u - c| = u / 2 → roundInt (c / u) % 2 = 0 := by
          intro c hc
          apply roundInt_half_even
          have e : (roundInt (c / u) : ℚ) - c / u = ((roundInt (c / u) : ℚ) * u - c) / u := by field_simp
          rw [e, abs_div, hc, abs_of_pos hu0]
          field_simp
        have e1 : k % 2 = 0 := even (by rw [← hk, ← ex]; exact tx)
        have e2 : m % 2 = 0 := even (by rw [← hm, ← ey']; exact ty)
        omega
      · -- two different numbers beyond `x` are a unit apart
        have hle1 : ulpExp p emin a ≤ ulpExp p emin (n * x) := by
          rcases le_total (Int.log 2 a - (p - 1)) emin with hc | hc
          · have : ulpExp p emin a = emin := max_eq_right hc
            rw [this]; exact le_max_right _ _
          · have e : ulpExp p emin a = Int.log 2 a - (p - 1) := max_eq_left hc
            have : pow2 (Int.log 2 a) ≤ x := pow2_le_roundMag (by rw [e]; omega) (log_le ha0)
            have h3 : pow2 (Int.log 2 a) ≤ n * x := this.trans (by nlinarith)
            have h4 : Int.log 2 a ≤ Int.log 2 (n * x) := by
              rw [← Int.zpow_le_iff_le_log (by norm_num) (mul_pos hn0 hxpos)]
              rw [pow2_eq] at h3; exact_mod_cast h3
            unfold ulpExp; omega
        have hle2 : ulpExp p emin a ≤ ulpExp p emin (n * y) := by
          refine hle1.trans ?_
          have : Int.log 2 (n * x) ≤ Int.log 2 (n * y) :=
            Int.log_mono_right (mul_pos hn0 hxpos) (mul_le_mul_of_nonneg_left hxy hn0.le)
          unfold ulpExp; omega
        obtain ⟨i, hi⟩ := mul_pow2_of_le hle1 (roundInt (n * x / pow2 (ulpExp p emin (n * x))))
        obtain ⟨j, hj⟩ := mul_pow2_of_le hle2 (roundInt (n * y / pow2 (ulpExp p emin (n * y))))
        have hXi : X = i * u := hi
        have hYj : Y = j * u := hj
        have := gap_of_lt hu0 (k := i) (m := j) (by rw [← hXi, ← hYj]; exact hw)
        rw [← hXi, ← hYj] at this
        linarith
  · -- a power of two lies between
    have hl : emin < Int.log 2 b - (p - 1) := by
      by_contra hc
      have : ulpExp p emin b = emin := max_eq_right (not_lt.1 hc)
      have h2 : emin ≤ ulpExp p emin a := le_max_right _ _
      omega
    have hvl : ulpExp p emin b = Int.log 2 b - (p - 1) := max_eq_left hl.le
    have hal : Int.log 2 a < Int.log 2 b := by
      have : Int.log 2 a - (p - 1) ≤ ulpExp p emin a := le_max_left _ _
      omega
    set P := pow2 (Int.log 2 b) with hP
    have hP0 : 0 < P := pow2_pos _
    have hp' : (1 : ℤ) ≤ p := by exact_mod_cast hp
    have haP : a ≤ P := (lt_log_succ (q := a)).le.trans (pow2_le_pow2 (by omega))
    have hxP : x ≤ P := roundMag_le_pow2 (by omega) haP
    have hPy : P ≤ y := pow2_le_roundMag (by omega) (log_le hb0)
    have hnP : roundMag p emin (n * P) = n * P := roundMag_mul_pow hp (by omega) hnp (by omega)
    obtain ⟨i, hi⟩ := mul_pow2_of_le (a := ulpExp p emin a) (b := Int.log 2 b) (by omega) 1
    obtain ⟨j, hj⟩ := mul_pow2_of_le (a := ulpExp p emin b) (b := Int.log 2 b) (by omega) 1
    rw [Int.cast_one, one_mul] at hi hj
    have hPi : P = i * u := hi
    have hPj : P = j * v := hj
    have s1 : X - x ≤ n * P - P := by
      rcases eq_or_lt_of_le hxP with he | hlt'
      · rw [hX, he, hnP]
      · have hg := gap_of_lt hu0 (k := roundInt (a / u)) (m := i) (by rw [← ex, ← hPi]; exact hlt')
        rw [← ex, ← hPi] at hg
        exact back_upper hn2 hu0 hg bx.2
    have s2 : n * P - P ≤ Y - y := by
      rcases eq_or_lt_of_le hPy with he | hlt'
      · rw [hY, ← he, hnP]
      · have hg := gap_of_lt hv0 (k := j) (m := roundInt (b / v)) (by rw [← ey, ← hPj]; exact hlt')
        rw [← ey, ← hPj] at hg
        exact back_lower hn2 hv0 hg by'.1
    linarith

/-- The same in terms of the rounded quotients, for any whole number. -/
theorem back_mono' (hp : 1 ≤ p) {n : ℕ} (hn : 1 ≤ n) (hnp : n < 2 ^ p) {z z' : ℚ} (hz : 0 ≤ z) (hz' : 0 ≤ z')
    (fz : IsFloat p emin emax z) (fz' : IsFloat p emin emax z')
    (h : roundMag p emin (z / n) ≤ roundMag p emin (z' / n)) :
    0 ≤ roundMag p emin (n * roundMag p emin (z / n)) - roundMag p emin (z / n) ∧
    roundMag p emin (n * roundMag p emin (z / n)) - roundMag p emin (z / n) ≤
    roundMag p emin (n * roundMag p emin (z' / n)) - roundMag p emin (z' / n) := by
  have hn0 : (0 : ℚ) < n := by exact_mod_cast hn
  have hn1 : (1 : ℚ) ≤ n := by exact_mod_cast hn
  have idem : ∀ w : ℚ, 0 ≤ w → roundMag p emin (roundMag p emin (w / n)) = roundMag p emin (w / n) := by
    intro w hw
    rcases eq_or_lt_of_le hw with h0 | h0
    · rw [← h0, zero_div, roundMag_zero, roundMag_zero]
    · by_cases hx : roundMag p emin (w / n) = 0
      · rw [hx, roundMag_zero]
      · exact roundMag_idem hp (div_pos h0 hn0) hx
  have ge : ∀ w : ℚ, 0 ≤ w → 0 ≤ roundMag p emin (n * roundMag p emin (w / n)) - roundMag p emin (w / n) := by
    intro w hw
    have h0 : 0 ≤ roundMag p emin (w / n) := roundMag_nonneg' (div_nonneg hw hn0.le)
    have := roundMag_mono' (emin := emin) hp h0 (show roundMag p emin (w / n) ≤ n * roundMag p emin (w / n) by nlinarith)
    rw [idem w hw] at this
    linarith
  refine ⟨ge z hz, ?_⟩
  rcases eq_or_lt_of_le hz with h0 | h0
  · rw [← h0, zero_div, roundMag_zero, mul_zero, roundMag_zero, sub_zero]; exact ge z' hz'
  rcases eq_or_lt_of_le hn with h1 | h1
  · subst h1
    rw [Nat.cast_one] at idem
    rw [Nat.cast_one, one_mul, one_mul, idem z hz, idem z' hz', sub_self, sub_self]
  · rcases le_total z z' with hle | hle
    · exact back_mono hp h1 hnp h0 hle fz fz'
    · have : roundMag p emin (z' / n) ≤ roundMag p emin (z / n) :=
        roundMag_mono' hp (div_nonneg hz' hn0.le) (div_le_div_of_nonneg_right hle hn0.le)
      rw [le_antisymm h this]

end Go
