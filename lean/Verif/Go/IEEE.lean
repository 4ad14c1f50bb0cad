import Verif.Go.Float
import Mathlib.Data.Int.Log
import Mathlib.Tactic.FieldSimp
import Mathlib.Tactic.NormNum
import Mathlib.Tactic.Positivity

/-!
# IEEE-754 binary64 and binary32, round to nearest, ties to even

`rne p emin emax q` rounds the rational `q` to a binary format with `p` bits of precision,
smallest exponent `emin` (of the unit in the last place) and overflow threshold `2^emax`.
binary64 is `rne 53 (-1074) 1024`, binary32 is `rne 24 (-149) 128`.  The laws of `LawfulRnd`
are proved for every such format with `p ≥ 1`, `emin ≤ 0` and `p ≤ emax`.
-/

namespace Go

/-- `2^e` as a rational, by natural-number powers so that the kernel computes it quickly. -/
def pow2 (e : ℤ) : ℚ :=
  match e with
  | Int.ofNat n => ((2 ^ n : ℕ) : ℚ)
  | Int.negSucc n => 1 / ((2 ^ (n + 1) : ℕ) : ℚ)

/-- Round to the nearest integer, ties to even. -/
def roundInt (x : ℚ) : ℤ :=
  let k := ⌊x⌋
  let r := x - k
  if r < 1 / 2 then k else if 1 / 2 < r then k + 1 else if k % 2 = 0 then k else k + 1

/-- Exponent of the unit in the last place used for a positive `q`. -/
def ulpExp (p : ℕ) (emin : ℤ) (q : ℚ) : ℤ := max (Int.log 2 q - (p - 1)) emin

/-- Nearest multiple of the unit in the last place, for a positive `q`. -/
def roundMag (p : ℕ) (emin : ℤ) (q : ℚ) : ℚ :=
  let u := pow2 (ulpExp p emin q)
  roundInt (q / u) * u

/-- Round a rational to the format. -/
def rne (p : ℕ) (emin : ℤ) (emax : ℕ) (q : ℚ) : Fl :=
  if q = 0 then .fin 0 else
  let m := roundMag p emin |q|
  if pow2 emax ≤ m then .inf (decide (q < 0))
  else if q < 0 then (if m = 0 then .negZero else .fin (-m))
  else .fin m

/-- float64 rounding. -/
def rnd64 : ℚ → Fl := rne 53 (-1074) 1024
/-- float32 rounding. -/
def rnd32 : ℚ → Fl := rne 24 (-149) 128

/-- The machine: IEEE-754 binary64/binary32; out-of-range float-to-int conversions give the
result of amd64's CVTTSD2SI. -/
def ieee : FloatSem where
  rnd := rnd64
  rnd32 := rnd32
  oor := fun _ => -2^63

theorem pow2_eq (e : ℤ) : pow2 e = (2 : ℚ) ^ e := by
  cases e with
  | ofNat n => simp [pow2]
  | negSucc n => simp [pow2, zpow_negSucc]

theorem pow2_pos (e : ℤ) : 0 < pow2 e := by rw [pow2_eq]; exact zpow_pos (by norm_num) _

theorem roundInt_int (n : ℤ) : roundInt n = n := by simp [roundInt]

theorem floor_le_roundInt (x : ℚ) : ⌊x⌋ ≤ roundInt x := by
  unfold roundInt; simp only; split_ifs <;> omega

theorem roundInt_le_succ (x : ℚ) : roundInt x ≤ ⌊x⌋ + 1 := by
  unfold roundInt; simp only; split_ifs <;> omega

theorem roundInt_mono {x y : ℚ} (h : x ≤ y) : roundInt x ≤ roundInt y := by
  rcases lt_or_eq_of_le (Int.floor_le_floor h) with hlt | heq
  · have h1 := roundInt_le_succ x
    have h2 := floor_le_roundInt y
    omega
  · unfold roundInt
    simp only [heq]
    have : x - (⌊y⌋ : ℚ) ≤ y - (⌊y⌋ : ℚ) := by linarith
    split_ifs <;> first | omega | (exfalso; linarith)

theorem roundInt_le_int {x : ℚ} {n : ℤ} (h : x ≤ n) : roundInt x ≤ n := by
  have := roundInt_mono h; rwa [roundInt_int] at this

theorem int_le_roundInt {x : ℚ} {n : ℤ} (h : (n : ℚ) ≤ x) : n ≤ roundInt x := by
  have := roundInt_mono h; rwa [roundInt_int] at this

section
variable {p : ℕ} {emin : ℤ}

theorem roundMag_nonneg {q : ℚ} (hq : 0 < q) : 0 ≤ roundMag p emin q := by
  unfold roundMag
  have hu := pow2_pos (ulpExp p emin q)
  have : 0 ≤ roundInt (q / pow2 (ulpExp p emin q)) := by
    apply int_le_roundInt
    have := div_pos hq hu
    exact_mod_cast this.le
  have h2 : (0:ℚ) ≤ roundInt (q / pow2 (ulpExp p emin q)) := by exact_mod_cast this
  positivity

/-- `2^k` is a multiple of every smaller unit: rounding preserves `≤ 2^k` and `≥ 2^k`. -/
theorem roundMag_le_pow2 {q : ℚ} {k : ℤ} (hk : ulpExp p emin q ≤ k) (h : q ≤ pow2 k) :
    roundMag p emin q ≤ pow2 k := by
  unfold roundMag
  set e := ulpExp p emin q with he
  have hu := pow2_pos e
  obtain ⟨n, hn⟩ := Int.le.dest hk
  have hk2 : pow2 k = ((2 ^ n : ℤ) : ℚ) * pow2 e := by
    rw [pow2_eq, pow2_eq, ← hn, zpow_add₀ (by norm_num)]; push_cast; rw [zpow_natCast]; ring
  have : q / pow2 e ≤ ((2 ^ n : ℤ) : ℚ) := by
    rw [div_le_iff₀ hu, ← hk2]; exact h
  have h3 := roundInt_le_int this
  have h4 : (roundInt (q / pow2 e) : ℚ) ≤ ((2 ^ n : ℤ) : ℚ) := by exact_mod_cast h3
  rw [hk2]; exact mul_le_mul_of_nonneg_right h4 hu.le

theorem pow2_le_roundMag {q : ℚ} {k : ℤ} (hk : ulpExp p emin q ≤ k) (h : pow2 k ≤ q) :
    pow2 k ≤ roundMag p emin q := by
  unfold roundMag
  set e := ulpExp p emin q with he
  have hu := pow2_pos e
  obtain ⟨n, hn⟩ := Int.le.dest hk
  have hk2 : pow2 k = ((2 ^ n : ℤ) : ℚ) * pow2 e := by
    rw [pow2_eq, pow2_eq, ← hn, zpow_add₀ (by norm_num)]; push_cast; rw [zpow_natCast]; ring
  have : ((2 ^ n : ℤ) : ℚ) ≤ q / pow2 e := by
    rw [le_div_iff₀ hu, ← hk2]; exact h
  have h3 := int_le_roundInt this
  have h4 : ((2 ^ n : ℤ) : ℚ) ≤ (roundInt (q / pow2 e) : ℚ) := by exact_mod_cast h3
  rw [hk2]; exact mul_le_mul_of_nonneg_right h4 hu.le

theorem log_le {q : ℚ} (hq : 0 < q) : pow2 (Int.log 2 q) ≤ q := by
  rw [pow2_eq]; exact_mod_cast Int.zpow_log_le_self (b := 2) (by norm_num) hq

theorem lt_log_succ {q : ℚ} : q < pow2 (Int.log 2 q + 1) := by
  rw [pow2_eq]; exact_mod_cast Int.lt_zpow_succ_log_self (b := 2) (by norm_num) q

theorem roundMag_mono (hp : 1 ≤ p) {q r : ℚ} (hq : 0 < q) (h : q ≤ r) :
    roundMag p emin q ≤ roundMag p emin r := by
  have hr : 0 < r := lt_of_lt_of_le hq h
  have hlog : Int.log 2 q ≤ Int.log 2 r := Int.log_mono_right hq h
  have hexp : ulpExp p emin q ≤ ulpExp p emin r := by unfold ulpExp; omega
  rcases eq_or_lt_of_le hexp with heq | hlt
  · unfold roundMag
    rw [heq]
    have hu := pow2_pos (ulpExp p emin r)
    have : q / pow2 (ulpExp p emin r) ≤ r / pow2 (ulpExp p emin r) :=
      div_le_div_of_nonneg_right h hu.le
    have h2 := roundInt_mono this
    have h3 : (roundInt (q / pow2 (ulpExp p emin r)) : ℚ) ≤
      roundInt (r / pow2 (ulpExp p emin r)) := by exact_mod_cast h2
    exact mul_le_mul_of_nonneg_right h3 hu.le
  · have hlog' : Int.log 2 q + 1 ≤ Int.log 2 r := by unfold ulpExp at hlt; omega
    have h1 : q ≤ pow2 (Int.log 2 r) := by
      refine le_trans lt_log_succ.le ?_
      rw [pow2_eq, pow2_eq]
      exact zpow_le_zpow_right₀ (by norm_num) hlog'
    have e1 : ulpExp p emin q ≤ Int.log 2 r := by unfold ulpExp at *; omega
    have e2 : ulpExp p emin r ≤ Int.log 2 r := by unfold ulpExp at *; omega
    exact le_trans (roundMag_le_pow2 e1 h1) (pow2_le_roundMag e2 (log_le hr))

/-- A multiple of its own unit is unchanged. -/
theorem roundMag_of_mul {q : ℚ} {n : ℤ} (h : q = n * pow2 (ulpExp p emin q)) :
    roundMag p emin q = q := by
  unfold roundMag
  set e := ulpExp p emin q with he
  have hu := pow2_pos e
  have : q / pow2 e = n := by rw [h]; field_simp
  simp only [this, roundInt_int]; exact h.symm

/-- Rounding a rounded magnitude changes nothing. -/
theorem roundMag_idem (hp : 1 ≤ p) {q : ℚ} (hq : 0 < q) (h0 : roundMag p emin q ≠ 0) :
    roundMag p emin (roundMag p emin q) = roundMag p emin q := by
  set m := roundMag p emin q with hm
  have hmpos : 0 < m := lt_of_le_of_ne (roundMag_nonneg hq) (Ne.symm h0)
  set e := ulpExp p emin q with he
  have hdef : m = roundInt (q / pow2 e) * pow2 e := by rw [hm, roundMag]
  -- either the exponent did not grow, or m is a power of two
  by_cases hle : ulpExp p emin m ≤ e
  · obtain ⟨n, hn⟩ := Int.le.dest hle
    have : pow2 e = ((2 ^ n : ℤ) : ℚ) * pow2 (ulpExp p emin m) := by
      rw [pow2_eq, pow2_eq, ← hn, zpow_add₀ (by norm_num)]; push_cast; rw [zpow_natCast]; ring
    apply roundMag_of_mul (n := roundInt (q / pow2 e) * 2 ^ n)
    rw [Int.cast_mul, mul_assoc, ← this]; exact hdef
  · have hlt : e < ulpExp p emin m := not_le.1 hle
    have hlog : Int.log 2 q < Int.log 2 m := by
      by_contra hc
      apply hle
      rw [he]; unfold ulpExp; omega
    -- m ≤ 2^(log q + 1) ≤ 2^(log m) ≤ m
    have h1 : m ≤ pow2 (Int.log 2 m) := by
      apply roundMag_le_pow2
      · rw [← he]
        have : e < Int.log 2 m := by unfold ulpExp at *; omega
        exact this.le
      · refine le_trans lt_log_succ.le ?_
        rw [pow2_eq, pow2_eq]
        exact zpow_le_zpow_right₀ (by norm_num) (by omega)
    have h2 : m = pow2 (Int.log 2 m) := le_antisymm h1 (log_le hmpos)
    have hul : ulpExp p emin m ≤ Int.log 2 m := by unfold ulpExp at *; omega
    apply le_antisymm
    · conv_rhs => rw [h2]
      exact roundMag_le_pow2 hul h1
    · conv_lhs => rw [h2]
      exact pow2_le_roundMag hul (log_le hmpos)

/-- Integers below `2^p` are exact. -/
theorem roundMag_int (hp : 1 ≤ p) (he : emin ≤ 0) {n : ℤ} (hn : 0 < n) (hb : n ≤ 2 ^ p) :
    roundMag p emin n = n := by
  have hnq : (0:ℚ) < n := by exact_mod_cast hn
  rcases eq_or_lt_of_le hb with hb | hb
  · -- n = 2^p
    have hnp : (n : ℚ) = pow2 p := by rw [hb, pow2_eq]; push_cast; rw [zpow_natCast]
    have hlog : Int.log 2 (n : ℚ) = p := by
      rw [hnp, pow2_eq]; exact_mod_cast Int.log_zpow (R := ℚ) (b := 2) (by norm_num) p
    have hul : ulpExp p emin (n:ℚ) ≤ p := by unfold ulpExp; omega
    apply le_antisymm
    · conv_rhs => rw [hnp]
      exact roundMag_le_pow2 hul hnp.le
    · conv_lhs => rw [hnp]
      exact pow2_le_roundMag hul hnp.ge
  · have hlog : Int.log 2 (n : ℚ) < p := by
      by_contra hc
      have h1 : pow2 p ≤ pow2 (Int.log 2 (n:ℚ)) := by
        rw [pow2_eq, pow2_eq]
        exact zpow_le_zpow_right₀ (by norm_num) (by omega)
      have h2 := le_trans h1 (log_le hnq)
      rw [pow2_eq, zpow_natCast] at h2
      have h3 : (n : ℚ) < ((2 ^ p : ℤ) : ℚ) := by exact_mod_cast hb
      push_cast at h3
      linarith
    have hul : ulpExp p emin (n:ℚ) ≤ 0 := by unfold ulpExp; omega
    obtain ⟨k, hk⟩ := Int.le.dest hul
    apply roundMag_of_mul (n := n * 2 ^ k)
    have : pow2 (ulpExp p emin (n:ℚ)) * 2 ^ k = 1 := by
      rw [pow2_eq, ← zpow_natCast (2:ℚ) k, ← zpow_add₀ (by norm_num), hk, zpow_zero]
    push_cast
    rw [mul_assoc, mul_comm ((2:ℚ)^k), this, mul_one]

end

section
variable {p emax : ℕ} {emin : ℤ}

theorem rne_pos {q : ℚ} (hq : 0 < q) : rne p emin emax q =
    if pow2 emax ≤ roundMag p emin q then .inf false else .fin (roundMag p emin q) := by
  have h1 : q ≠ 0 := ne_of_gt hq
  have h2 : ¬ q < 0 := not_lt.2 hq.le
  simp [rne, h1, h2, abs_of_pos hq]

theorem rne_neg (q : ℚ) (hq : q ≠ 0) : rne p emin emax (-q) = Fl.neg (rne p emin emax q) := by
  have h1 : -q ≠ 0 := neg_ne_zero.2 hq
  rcases lt_or_gt_of_ne hq with h | h
  · have h2 : ¬ (-q < 0) := by linarith
    unfold rne
    simp only [hq, h1, h2, h, abs_neg, if_false, if_true, decide_true, decide_false]
    split_ifs with h3 h4
    · simp [Fl.neg]
    · rw [h4]; simp [Fl.neg]
    · simp [Fl.neg, h4]
  · have h2 : -q < 0 := by linarith
    have h3 : ¬ q < 0 := by linarith
    unfold rne
    simp only [hq, h1, h2, h3, abs_neg, if_false, if_true, decide_true, decide_false]
    split_ifs with h4 h5
    · simp [Fl.neg]
    · simp [Fl.neg, h5]
    · simp [Fl.neg, h5]

theorem key_rne_pos_nonneg {q : ℚ} (hq : 0 < q) : Ext.ofRat 0 ≤ (rne p emin emax q).key := by
  rw [rne_pos hq]
  split_ifs
  · simp [Fl.key]
  · simpa [Fl.key] using roundMag_nonneg hq

theorem rne_mono_pos (hp : 1 ≤ p) {q r : ℚ} (hq : 0 < q) (h : q ≤ r) :
    (rne p emin emax q).key ≤ (rne p emin emax r).key := by
  rw [rne_pos hq, rne_pos (lt_of_lt_of_le hq h)]
  have hm := roundMag_mono (emin := emin) hp hq h
  split_ifs with h1 h2 h2
  · exact le_rfl
  · exact absurd (le_trans h1 hm) h2
  · simp [Fl.key]
  · simpa [Fl.key] using hm

theorem key_neg_le {x y : Fl} (hx : x ≠ .nan) (hy : y ≠ .nan) (h : x.key ≤ y.key) :
    (Fl.neg y).key ≤ (Fl.neg x).key := by
  have aux : ∀ q : ℚ, (Fl.neg (.fin q)).key = Ext.ofRat (-q) := by
    intro q; by_cases hq : q = 0 <;> simp [Fl.neg, Fl.key, hq]
  rcases x with _ | (_ | _) | q | _ <;> rcases y with _ | (_ | _) | r | _ <;>
    first | exact absurd rfl hx | exact absurd rfl hy | skip
  all_goals try rw [aux]
  all_goals try rw [aux]
  all_goals clear aux
  all_goals simp_all [Fl.neg, Fl.key]

theorem rne_ne_nan (q : ℚ) : rne p emin emax q ≠ .nan := by
  unfold rne; simp only; split_ifs <;> simp

theorem rne_lawful (hp : 1 ≤ p) (he : emin ≤ 0) (hmax : p < emax) :
    LawfulRnd (rne p emin emax) (2 ^ p) where
  mono := by
    intro q r h
    have hz : (rne p emin emax 0).key = Ext.ofRat 0 := by simp [rne, Fl.key]
    have npos : ∀ q : ℚ, q < 0 → (rne p emin emax q).key ≤ Ext.ofRat 0 := by
      intro q hq
      have h1 := key_rne_pos_nonneg (p := p) (emin := emin) (emax := emax) (q := -q) (by linarith)
      have h2 := rne_neg (p := p) (emin := emin) (emax := emax) (-q) (by linarith)
      rw [neg_neg] at h2
      rw [h2]
      have h3 := key_neg_le (x := .fin 0) (y := rne p emin emax (-q)) (by simp) (rne_ne_nan _) h1
      simpa [Fl.neg, Fl.key] using h3
    rcases lt_trichotomy q 0 with hq | hq | hq
    · rcases lt_trichotomy r 0 with hr | hr | hr
      · have h2 := rne_neg (p := p) (emin := emin) (emax := emax) (-q) (by linarith)
        have h3 := rne_neg (p := p) (emin := emin) (emax := emax) (-r) (by linarith)
        rw [neg_neg] at h2 h3
        rw [h2, h3]
        apply key_neg_le (rne_ne_nan _) (rne_ne_nan _)
        exact rne_mono_pos hp (by linarith) (by linarith)
      · subst hr; rw [hz]; exact npos q hq
      · exact le_trans (npos q hq) (key_rne_pos_nonneg hr)
    · subst hq
      rw [hz]
      rcases lt_or_eq_of_le h with hr | hr
      · exact key_rne_pos_nonneg hr
      · rw [← hr, hz]
    · exact rne_mono_pos hp hq h
  not_nan := rne_ne_nan
  int := by
    have key : ∀ n : ℤ, 0 < n → n ≤ 2 ^ p → rne p emin emax n = .fin n := by
      intro n hn hb
      rw [rne_pos (by exact_mod_cast hn), roundMag_int hp he hn hb, if_neg]
      rw [pow2_eq, zpow_natCast, not_le]
      have : (n:ℚ) ≤ ((2 ^ p : ℤ) : ℚ) := by exact_mod_cast hb
      push_cast at this
      refine lt_of_le_of_lt this ?_
      exact pow_lt_pow_right₀ (by norm_num) hmax
    intro n hn
    rcases lt_trichotomy n 0 with h | h | h
    · have h1 := key (-n) (by omega) (by rw [abs_of_neg h] at hn; exact hn)
      have h2 := rne_neg (p := p) (emin := emin) (emax := emax) (-(n:ℚ)) (by
        have : (n:ℚ) < 0 := by exact_mod_cast h
        linarith)
      rw [neg_neg] at h2
      push_cast at h1
      rw [h2, h1]
      have : (n:ℚ) ≠ 0 := by exact_mod_cast (ne_of_lt h)
      simp [Fl.neg, this]
    · subst h; simp [rne]
    · exact key n h (by rw [abs_of_pos h] at hn; exact hn)
  idem := by
    have key : ∀ q r : ℚ, 0 < q → rne p emin emax q = .fin r → rne p emin emax r = .fin r := by
      intro q r hq h
      rw [rne_pos hq] at h
      split_ifs at h with h1
      simp only [Fl.fin.injEq] at h
      by_cases h0 : roundMag p emin q = 0
      · rw [← h, h0]; simp [rne]
      · have hpos := lt_of_le_of_ne (roundMag_nonneg hq) (Ne.symm h0)
        rw [h] at hpos h1 h0
        have := roundMag_idem hp hq (emin := emin) (by rw [h]; exact h0)
        rw [h] at this
        rw [rne_pos hpos, this, if_neg h1]
    intro q r h
    rcases lt_trichotomy q 0 with hq | hq | hq
    · have h2 := rne_neg (p := p) (emin := emin) (emax := emax) (-q) (by linarith)
      rw [neg_neg, h] at h2
      have h3 : rne p emin emax (-q) = Fl.neg (.fin r) := by
        rw [h2]
        cases h4 : rne p emin emax (-q) with
        | fin s =>
          by_cases hs : s = 0
          · rw [h4, hs] at h2; simp [Fl.neg] at h2
          · rw [h4] at h2; simp [Fl.neg, hs] at h2; simp [Fl.neg, hs]
        | nan => exact absurd h4 (rne_ne_nan _)
        | inf b => rw [h4] at h2; simp [Fl.neg] at h2
        | negZero =>
          exfalso
          rw [rne_pos (by linarith)] at h4
          split_ifs at h4
      by_cases hr : r = 0
      · subst hr; simp [rne]
      · simp only [Fl.neg, hr, if_false] at h3
        have h4 := key (-q) (-r) (by linarith) h3
        have h5 := rne_neg (p := p) (emin := emin) (emax := emax) (-r) (neg_ne_zero.2 hr)
        rw [neg_neg, h4] at h5
        rw [h5]; simp [Fl.neg, hr]
    · subst hq
      have : r = 0 := by simpa [rne, eq_comm] using h
      subst this; simp [rne]
    · exact key q r hq h
  odd := rne_neg
  pos := by
    intro q hq
    rw [rne_pos hq]; split_ifs <;> simp

end

theorem ieee_lawful : Lawful ieee where
  r64 := rne_lawful (by norm_num) (by norm_num) (by norm_num)
  r32 := rne_lawful (by norm_num) (by norm_num) (by norm_num)

end Go
