import Verif.Lemmas.Shortest

/-!
# The shortest decimal is the shortest, and the closest of that length
-/

namespace Go

theorem rnd_between {S : FloatSem} (hS : Lawful S) {q a b x : ℚ} (hq : 0 < q) (ha : S.rnd a = .fin q)
    (hb : S.rnd b = .fin q) (h1 : a ≤ x) (h2 : x ≤ b) : S.rnd x = .fin q := by
  have k1 := hS.r64.mono _ _ h1
  have k2 := hS.r64.mono _ _ h2
  rw [ha] at k1
  rw [hb] at k2
  have h3 := le_antisymm k2 k1
  have h4 := hS.r64.not_nan x
  cases hx : S.rnd x with
  | nan => exact absurd hx h4
  | inf s => rw [hx] at h3; cases s <;> simp [Fl.key] at h3
  | negZero =>
    rw [hx] at h3
    simp [Fl.key] at h3
    exact absurd h3 hq.ne
  | fin r => rw [hx] at h3; simp [Fl.key] at h3; rw [h3]

/-- One of the two decimals with `n` digits next to `q` reads back as `q`. -/
def okAt (S : FloatSem) (q : ℚ) (dp : ℤ) (n : Nat) : Prop :=
  S.rnd ((⌊q / pow10 (dp - n)⌋.toNat : Nat) * pow10 (dp - n)) = .fin q ∨
  S.rnd ((⌊q / pow10 (dp - n)⌋.toNat + 1 : Nat) * pow10 (dp - n)) = .fin q

/-- The decimal with `n` digits chosen by `shortest`. -/
def choice (S : FloatSem) (q : ℚ) (dp : ℤ) (n : Nat) : Nat × ℤ :=
  let e := dp - n
  let lo := ⌊q / pow10 e⌋.toNat
  let hi := lo + 1
  let up := if hi = 10 ^ n then (1, dp) else (hi, e)
  if S.rnd (lo * pow10 e) = .fin q ∧ S.rnd (hi * pow10 e) = .fin q then (if q / pow10 e - lo ≤ 1 / 2 then (lo, e) else up)
  else if S.rnd (lo * pow10 e) = .fin q then (lo, e)
  else up

theorem shortestFrom_first {S : FloatSem} {q : ℚ} {dp : ℤ} (fuel n j : Nat) (h1 : n ≤ j) (h2 : j < n + fuel)
    (hj : okAt S q dp j) : ∃ m, n ≤ m ∧ m ≤ j ∧ okAt S q dp m ∧ (∀ i, n ≤ i → i < m → ¬ okAt S q dp i) ∧
      shortestFrom S q dp fuel n = choice S q dp m := by
  induction fuel generalizing n with
  | zero => omega
  | succ fuel ih =>
    by_cases ho : okAt S q dp n
    · refine ⟨n, le_refl _, h1, ho, fun i a b => by omega, ?_⟩
      rw [shortestFrom, choice]
      simp only [Bool.and_eq_true, decide_eq_true_eq]
      unfold okAt at ho
      by_cases a : S.rnd ((⌊q / pow10 (dp - n)⌋.toNat : Nat) * pow10 (dp - n)) = .fin q
      · simp only [a, true_and, if_true]
      · have b := ho.resolve_left a
        simp only [a, b, false_and, if_false, if_true]
    · have hn : n ≠ j := fun h => ho (h ▸ hj)
      obtain ⟨m, k1, k2, k3, k4, k5⟩ := ih (n + 1) (by omega) (by omega)
      refine ⟨m, by omega, k2, k3, ?_, ?_⟩
      · intro i a b
        by_cases hi : i = n
        · rw [hi]; exact ho
        · exact k4 i (by omega) b
      · rw [← k5, shortestFrom]
        unfold okAt at ho
        rw [not_or] at ho
        simp only [ho.1, ho.2, decide_false, Bool.false_and, Bool.false_eq_true, if_false]

section
variable {S : FloatSem} {q : ℚ} {dp : ℤ}

theorem pow10_add (a b : ℤ) : pow10 (a + b) = pow10 a * pow10 b := by
  rw [pow10_eq, pow10_eq, pow10_eq, zpow_add₀ (by norm_num)]

theorem pow10_nat (n : Nat) : pow10 (n : ℤ) = 10 ^ n := by rw [pow10_eq, zpow_natCast]

theorem low_le (hq : 0 < q) (e : ℤ) : (⌊q / pow10 e⌋.toNat : ℚ) * pow10 e ≤ q ∧
    q < ((⌊q / pow10 e⌋.toNat + 1 : Nat) : ℚ) * pow10 e := by
  have hp := pow10_pos e
  have h0 : 0 ≤ ⌊q / pow10 e⌋ := Int.floor_nonneg.2 (by positivity)
  obtain ⟨k, hk⟩ := Int.eq_ofNat_of_zero_le h0
  have h1 := Int.floor_le (q / pow10 e)
  have h2 := Int.lt_floor_add_one (q / pow10 e)
  rw [hk] at h1 h2 ⊢
  rw [Int.toNat_natCast]
  simp only [Int.cast_natCast] at h1 h2
  rw [le_div_iff₀ hp] at h1
  rw [div_lt_iff₀ hp] at h2
  exact ⟨h1, by push_cast; exact h2⟩

theorem high_le (hq : 0 < q) (hlt : q < pow10 dp) (n : Nat) : ⌊q / pow10 (dp - n)⌋.toNat + 1 ≤ 10 ^ n := by
  have h1 := (low_le hq (dp - n)).1
  have h2 : (⌊q / pow10 (dp - n)⌋.toNat : ℚ) * pow10 (dp - n) < 10 ^ n * pow10 (dp - n) := by
    refine lt_of_le_of_lt h1 ?_
    rw [← pow10_nat, ← pow10_add]
    rwa [show (n : ℤ) + (dp - n) = dp by ring]
  have h3 := lt_of_mul_lt_mul_right h2 (pow10_pos _).le
  have h4 : ⌊q / pow10 (dp - n)⌋.toNat < 10 ^ n := by exact_mod_cast h3
  omega

/-- The choice is one of the two neighbours with `n` digits, and is the number `hi` or `lo`. -/
theorem choice_value (n : Nat) : ((choice S q dp n).1 : ℚ) * pow10 (choice S q dp n).2 =
    if S.rnd ((⌊q / pow10 (dp - n)⌋.toNat : Nat) * pow10 (dp - n)) = .fin q ∧
      (S.rnd ((⌊q / pow10 (dp - n)⌋.toNat + 1 : Nat) * pow10 (dp - n)) = .fin q →
        q / pow10 (dp - n) - (⌊q / pow10 (dp - n)⌋.toNat : Nat) ≤ 1 / 2) then
      (⌊q / pow10 (dp - n)⌋.toNat : Nat) * pow10 (dp - n)
    else ((⌊q / pow10 (dp - n)⌋.toNat + 1 : Nat) : ℚ) * pow10 (dp - n) := by
  have up : ∀ hi : Nat, ((if hi = 10 ^ n then ((1, dp) : Nat × ℤ) else (hi, dp - n)).1 : ℚ) *
      pow10 (if hi = 10 ^ n then ((1, dp) : Nat × ℤ) else (hi, dp - n)).2 = (hi : ℚ) * pow10 (dp - n) := by
    intro hi
    split_ifs with h
    · rw [h]
      push_cast
      rw [← pow10_nat, ← pow10_add, show (n : ℤ) + (dp - n) = dp by ring, one_mul]
    · rfl
  unfold choice
  simp only
  by_cases a : S.rnd ((⌊q / pow10 (dp - n)⌋.toNat : Nat) * pow10 (dp - n)) = .fin q
  · by_cases b : S.rnd ((⌊q / pow10 (dp - n)⌋.toNat + 1 : Nat) * pow10 (dp - n)) = .fin q
    · by_cases c : q / pow10 (dp - n) - (⌊q / pow10 (dp - n)⌋.toNat : Nat) ≤ 1 / 2
      · simp only [a, b, c, and_self, if_true, imp_self]
      · simp only [a, b, c, and_self, if_true, if_false, imp_false, not_true_eq_false, and_false]
        exact up _
    · simp only [a, b, and_false, if_false, if_true, false_imp_iff, and_self]
  · simp only [a, false_and, if_false]
    exact up _

theorem choice_lt (hq : 0 < q) (hlt : q < pow10 dp) {n : Nat} (hn : 0 < n) : (choice S q dp n).1 < 10 ^ n := by
  have h := high_le hq hlt n
  have h1 : 1 < 10 ^ n := Nat.one_lt_pow hn.ne' (by norm_num)
  unfold choice
  simp only
  split_ifs <;> simp only <;> omega

/-- Any decimal with at most `n` digits is outside the two neighbours. -/
theorem outside (hq : 0 < q) (hge : pow10 (dp - 1) ≤ q) {n M : Nat} {f : ℤ} (hn : 0 < n) (hM : M < 10 ^ n) :
    (M : ℚ) * pow10 f ≤ (⌊q / pow10 (dp - n)⌋.toNat : Nat) * pow10 (dp - n) ∨
    ((⌊q / pow10 (dp - n)⌋.toNat + 1 : Nat) : ℚ) * pow10 (dp - n) ≤ M * pow10 f := by
  have hl := low_le hq (dp - n)
  generalize hlo : ⌊q / pow10 (dp - n)⌋.toNat = lo at *
  have hp := pow10_pos (dp - n)
  by_cases hf : dp - n ≤ f
  · obtain ⟨k, hk⟩ := Int.eq_ofNat_of_zero_le (a := f - (dp - n)) (by omega)
    have e : (M : ℚ) * pow10 f = ((M * 10 ^ k : Nat) : ℚ) * pow10 (dp - n) := by
      rw [show f = (k : ℤ) + (dp - n) by omega, pow10_add, pow10_nat]; push_cast; ring
    rw [e]
    rcases Nat.lt_or_ge (M * 10 ^ k) (lo + 1) with h | h
    · left
      exact mul_le_mul_of_nonneg_right (by exact_mod_cast Nat.lt_succ_iff.1 h) hp.le
    · right
      exact mul_le_mul_of_nonneg_right (by exact_mod_cast h) hp.le
  · left
    have h1 : (M : ℚ) * pow10 f ≤ pow10 (dp - 1) := by
      have hM' : (M : ℚ) ≤ 10 ^ n := by exact_mod_cast hM.le
      have hf' : pow10 f ≤ pow10 (dp - n - 1) := by
        rw [pow10_eq, pow10_eq]; exact zpow_le_zpow_right₀ (by norm_num) (by omega)
      calc (M : ℚ) * pow10 f ≤ 10 ^ n * pow10 (dp - n - 1) :=
            mul_le_mul hM' hf' (pow10_pos _).le (by positivity)
        _ = pow10 (dp - 1) := by
            rw [← pow10_nat, ← pow10_add]; congr 1; ring
    refine le_trans h1 ?_
    have e : pow10 (dp - 1) = ((10 ^ (n - 1) : Nat) : ℚ) * pow10 (dp - n) := by
      push_cast
      rw [← pow10_nat, ← pow10_add]; congr 1; omega
    rw [e] at hge ⊢
    have h2 : ((10 ^ (n - 1) : Nat) : ℚ) * pow10 (dp - n) < ((lo + 1 : Nat) : ℚ) * pow10 (dp - n) :=
      lt_of_le_of_lt hge hl.2
    have h3 := lt_of_mul_lt_mul_right h2 hp.le
    have h4 : 10 ^ (n - 1) ≤ lo := by have : 10 ^ (n - 1) < lo + 1 := by exact_mod_cast h3
                                      omega
    exact mul_le_mul_of_nonneg_right (by exact_mod_cast h4) hp.le

theorem ok_of_digits (hS : Lawful S) (hq : 0 < q) (hr : S.rnd q = .fin q) (hge : pow10 (dp - 1) ≤ q) {n M : Nat} {f : ℤ}
    (hn : 0 < n) (hM : M < 10 ^ n) (h : S.rnd (M * pow10 f) = .fin q) : okAt S q dp n := by
  have hl := low_le hq (dp - n)
  rcases outside hq hge hn hM (f := f) with ho | ho
  · exact Or.inl (rnd_between hS hq h hr ho hl.1)
  · exact Or.inr (rnd_between hS hq hr h hl.2.le ho)

theorem choice_nearest (hS : Lawful S) (hq : 0 < q) (hr : S.rnd q = .fin q) (hge : pow10 (dp - 1) ≤ q) {n M : Nat} {f : ℤ}
    (hn : 0 < n) (hM : M < 10 ^ n) (h : S.rnd (M * pow10 f) = .fin q) :
    |(choice S q dp n).1 * pow10 (choice S q dp n).2 - q| ≤ |M * pow10 f - q| := by
  have hl := low_le hq (dp - n)
  have ho := outside hq hge hn hM (f := f)
  have hp := pow10_pos (dp - n)
  rw [choice_value]
  have half : q / pow10 (dp - n) - (⌊q / pow10 (dp - n)⌋.toNat : Nat) ≤ 1 / 2 ↔
      q - (⌊q / pow10 (dp - n)⌋.toNat : Nat) * pow10 (dp - n) ≤
        ((⌊q / pow10 (dp - n)⌋.toNat + 1 : Nat) : ℚ) * pow10 (dp - n) - q := by
    rw [sub_le_iff_le_add, div_le_iff₀ hp]
    push_cast
    constructor <;> intro h <;> linarith
  simp only [half]
  generalize ⌊q / pow10 (dp - n)⌋.toNat = lo at *
  have hlo : (M : ℚ) * pow10 f ≤ (lo : ℚ) * pow10 (dp - n) → S.rnd ((lo : Nat) * pow10 (dp - n)) = .fin q :=
    fun ho => rnd_between hS hq h hr ho hl.1
  have hhi : ((lo + 1 : Nat) : ℚ) * pow10 (dp - n) ≤ (M : ℚ) * pow10 f →
      S.rnd (((lo + 1 : Nat) : ℚ) * pow10 (dp - n)) = .fin q :=
    fun ho => rnd_between hS hq hr h hl.2.le ho
  generalize (lo : ℚ) * pow10 (dp - n) = a at *
  generalize ((lo + 1 : Nat) : ℚ) * pow10 (dp - n) = b at *
  generalize (M : ℚ) * pow10 f = x at *
  split_ifs with hc
  · rw [abs_of_nonpos (by linarith : a - q ≤ 0)]
    rcases ho with ho | ho
    · rw [abs_of_nonpos (by linarith : x - q ≤ 0)]; linarith
    · have := hc.2 (hhi ho)
      rw [abs_of_nonneg (by linarith : 0 ≤ x - q)]; linarith
  · rw [abs_of_nonneg (by linarith : 0 ≤ b - q)]
    rcases ho with ho | ho
    · have h1 := hlo ho
      have h2 : ¬ (q - a ≤ b - q) := fun hh => hc ⟨h1, fun _ => hh⟩
      rw [abs_of_nonpos (by linarith : x - q ≤ 0)]; linarith
    · rw [abs_of_nonneg (by linarith : 0 ≤ x - q)]; linarith

end

/-- For float64: of all decimals that read back as `q`, `shortest` has the fewest digits, and of those
with as few digits it is the closest. -/
theorem shortest_best {q : ℚ} (hq : 0 < q) (hr : ieee.rnd q = .fin q) {M : Nat} {f : ℤ}
    (h : ieee.rnd (M * pow10 f) = .fin q) :
    (Nat.toDigits 10 (shortest ieee q).1).length ≤ (Nat.toDigits 10 M).length ∧
    ((Nat.toDigits 10 M).length = (Nat.toDigits 10 (shortest ieee q).1).length →
      |(shortest ieee q).1 * pow10 (shortest ieee q).2 - q| ≤ |M * pow10 f - q|) := by
  have hlt : q < pow10 (Int.log 10 q + 1) := by
    rw [pow10_eq]; exact_mod_cast Int.lt_zpow_succ_log_self (b := 10) (by norm_num) q
  have hge : pow10 (Int.log 10 q + 1 - 1) ≤ q := by
    rw [pow10_eq, add_sub_cancel_right]; exact_mod_cast Int.zpow_log_le_self (b := 10) (by norm_num) hq
  obtain ⟨s1, s2, s3⟩ := shortest_good.size q hq hr
  have sb := shortest_good.back q hq hr
  have lenpos : ∀ n : Nat, 0 < (Nat.toDigits 10 n).length := fun n => Nat.length_toDigits_pos
  have lenlt : ∀ n : Nat, n < 10 ^ (Nat.toDigits 10 n).length := fun n =>
    (Nat.length_toDigits_le_iff (by norm_num) (lenpos n)).1 (le_refl _)
  -- there is a good number of digits within the fuel
  obtain ⟨j, hj1, hj2, hj⟩ : ∃ j, 1 ≤ j ∧ j < 1 + 2200 ∧ okAt ieee q (Int.log 10 q + 1) j := by
    obtain ⟨j, a, b, c, -⟩ := shortest_fuel hq hr
    exact ⟨j, a, b, Or.inl c⟩
  obtain ⟨m, m1, m2, m3, m4, m5⟩ := shortestFrom_first 2200 1 j hj1 hj2 hj
  have m5' : shortest ieee q = choice ieee q (Int.log 10 q + 1) m := m5
  have hN : (Nat.toDigits 10 (shortest ieee q).1).length ≤ m := by
    rw [Nat.length_toDigits_le_iff (by norm_num) (by omega), m5']
    exact choice_lt hq hlt (by omega)
  have hmin : ∀ (K : Nat) (g : ℤ), ieee.rnd (K * pow10 g) = .fin q → m ≤ (Nat.toDigits 10 K).length := by
    intro K g hK
    by_contra hc
    exact m4 _ (lenpos K) (by omega) (ok_of_digits ieee_lawful hq hr hge (lenpos K) (lenlt K) hK)
  refine ⟨le_trans hN (hmin M f h), ?_⟩
  intro he
  have hm : (Nat.toDigits 10 M).length = m := by
    have := hmin _ _ sb
    omega
  rw [m5']
  exact choice_nearest ieee_lawful hq hr hge (by omega) (hm ▸ lenlt M) h

/-- The last digit of the shortest decimal is not zero. -/
theorem shortest_mod {q : ℚ} (hq : 0 < q) (hr : ieee.rnd q = .fin q) : (shortest ieee q).1 % 10 ≠ 0 := by
  intro h
  obtain ⟨k, hk⟩ := Nat.dvd_of_mod_eq_zero h
  obtain ⟨s1, -, -⟩ := shortest_good.size q hq hr
  have sb := shortest_good.back q hq hr
  have hk0 : 0 < k := by omega
  have e : ((shortest ieee q).1 : ℚ) * pow10 (shortest ieee q).2 = (k : ℚ) * pow10 ((shortest ieee q).2 + 1) := by
    rw [hk, pow10_add, show pow10 1 = 10 by rw [pow10_eq]; norm_num]; push_cast; ring
  rw [e] at sb
  have h1 := (shortest_best hq hr sb).1
  have h2 : (Nat.toDigits 10 (shortest ieee q).1).length = (Nat.toDigits 10 k).length + 1 := by
    rw [hk, Nat.toDigits_of_base_le (by norm_num) (by omega), List.length_append]
    simp
  omega

end Go
