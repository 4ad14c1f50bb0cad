import Verif.Model.Date
import Verif.Spec.Date
import Mathlib.Tactic.IntervalCases
import Mathlib.Tactic.Ring

/-!
# C96, C97: dates
-/

namespace Finmod
open Go Spec

/-! ## Calendar arithmetic -/

theorem isLeap_iff (y : Nat) : isLeap y = true ↔ leap y := by
  simp only [isLeap, leap, Bool.and_eq_true, Bool.or_eq_true, beq_iff_eq, bne_iff_ne]
  omega

theorem daysSinceEpoch_closed (y : Nat) : daysSinceEpoch y + (y + 292277022399) / 100
    = 365 * (y + 292277022399) + (y + 292277022399) / 4 + (y + 292277022399) / 400 := by
  simp only [daysSinceEpoch]
  generalize hY : y + 292277022399 = Y
  obtain ⟨a, r, rfl, hr⟩ : ∃ a r, Y = 400 * a + r ∧ r < 400 :=
    ⟨Y / 400, Y % 400, by omega, by omega⟩
  obtain ⟨b, s, rfl, hs⟩ : ∃ b s, r = 100 * b + s ∧ s < 100 :=
    ⟨r / 100, r % 100, by omega, by omega⟩
  obtain ⟨c, t, rfl, ht⟩ : ∃ c t, s = 4 * c + t ∧ t < 4 :=
    ⟨s / 4, s % 4, by omega, by omega⟩
  have e1 : (400 * a + (100 * b + (4 * c + t))) / 400 = a := by omega
  rw [e1]
  have e2 : (400 * a + (100 * b + (4 * c + t)) - 400 * a) = 100 * b + (4 * c + t) := by omega
  rw [e2]
  have e3 : (100 * b + (4 * c + t)) / 100 = b := by omega
  rw [e3]
  have e4 : 100 * b + (4 * c + t) - 100 * b = 4 * c + t := by omega
  rw [e4]
  have e5 : (4 * c + t) / 4 = c := by omega
  rw [e5]
  omega

theorem daysSinceEpoch_succ (y : Nat) : daysSinceEpoch (y + 1) = daysSinceEpoch y + yearLength y := by
  have h1 := daysSinceEpoch_closed y
  have h2 := daysSinceEpoch_closed (y + 1)
  unfold yearLength
  by_cases h : leap y
  · rw [if_pos h]; unfold leap at h; omega
  · rw [if_neg h]; unfold leap at h; omega

theorem daysSinceEpoch_eq (y : Nat) :
    daysSinceEpoch y = daysSinceEpoch 0 + ((List.range y).map yearLength).sum := by
  induction y with
  | zero => simp
  | succ n ih => rw [daysSinceEpoch_succ, ih, List.range_succ]; simp; omega

theorem months_eq {y m : Nat} (h1 : 1 ≤ m) (h2 : m ≤ 12) :
    daysBefore.getD (m - 1) 0 + (if isLeap y = true ∧ 3 ≤ m then 1 else 0)
      = ((List.range (m - 1)).map fun j => monthLength y (j + 1)).sum := by
  simp only [isLeap_iff]
  by_cases hl : leap y
  · interval_cases m <;> simp [List.range_succ, monthLength, daysBefore, hl]
  · interval_cases m <;> simp [List.range_succ, monthLength, daysBefore, hl]

theorem daysIn_eq {y m : Nat} (h1 : 1 ≤ m) (h2 : m ≤ 12) : daysIn m y = monthLength y m := by
  unfold daysIn
  simp only [isLeap_iff]
  by_cases hl : leap y
  · interval_cases m <;> simp [monthLength, daysBefore, hl]
  · interval_cases m <;> simp [monthLength, daysBefore, hl]

theorem years_le (y : Nat) : ((List.range y).map yearLength).sum ≤ 366 * y := by
  induction y with
  | zero => simp
  | succ n ih =>
    rw [List.range_succ]
    have : yearLength n ≤ 366 := by unfold yearLength; split <;> omega
    simp; omega

theorem months_le (y n : Nat) : ((List.range n).map fun j => monthLength y (j + 1)).sum ≤ 31 * n := by
  induction n with
  | zero => simp
  | succ n ih =>
    rw [List.range_succ]
    have : monthLength y (n + 1) ≤ 31 := by unfold monthLength; split_ifs <;> omega
    simp; omega

theorem dayCount_1970 : dayCount 1970 1 1 = 719528 := by decide +kernel

theorem goDate_midnight {y m d : Nat} (hy : y < 10000) (h : RealDate y m d) :
    goDate y m d 0 0 0 0 = ⟨midnight y m d + unixToInternal, 0, "UTC"⟩ := by
  obtain ⟨h1, h2, h3, h4⟩ := h
  have hm := months_eq (y := y) h1 h2
  have hl : d ≤ 31 := by
    refine le_trans h4 ?_
    unfold monthLength; split_ifs <;> omega
  have hye := daysSinceEpoch_eq y
  have hyl := years_le y
  have hml := months_le y (m - 1)
  have h0 : daysSinceEpoch 0 = 106751990353566 := by decide +kernel
  have hsum : (if isLeap y = true ∧ 3 ≤ m then daysSinceEpoch y + daysBefore.getD (m - 1) 0 + 1
      else daysSinceEpoch y + daysBefore.getD (m - 1) 0) + (d - 1)
      = daysSinceEpoch 0 + dayCount y m d := by
    unfold dayCount
    rw [hye]
    split_ifs at hm ⊢ <;> omega
  have hdc : dayCount y m d < 4000000 := by unfold dayCount; omega
  have hu : unixToInternal = 62135596800 := rfl
  unfold goDate
  simp only [hsum, h0, midnight, dayCount_1970]
  rw [wrap64_of_range (x := _ + (-9223371966579724800 + -62135596800)) (by push_cast; omega) (by push_cast; omega)]
  rw [wrap64_of_range (by push_cast; omega) (by push_cast; omega)]
  congr 1
  push_cast; omega

/-! ## The parser -/

theorem skipChar_some {p : Char} {v w : List Char} : skipChar p v = some w ↔ v = p :: w := by
  cases v with
  | nil => simp [skipChar]
  | cons c cs =>
    simp only [skipChar]
    split_ifs with h
    · subst h; simp
    · simp [h]

theorem getnum2_some {v w : List Char} {n : Nat} : getnum2 v = some (n, w) ↔
    ∃ a b, v = a :: b :: w ∧ digitChar a = true ∧ digitChar b = true ∧ n = digitVal a * 10 + digitVal b := by
  match v with
  | [] => simp [getnum2]
  | [a] => simp [getnum2]
  | a :: b :: cs =>
    simp only [getnum2, Bool.and_eq_true]
    split_ifs with h
    · simp only [Option.some.injEq, Prod.mk.injEq, List.cons.injEq]
      constructor
      · rintro ⟨rfl, rfl⟩; exact ⟨a, b, ⟨rfl, rfl, rfl⟩, h.1, h.2, rfl⟩
      · rintro ⟨a', b', ⟨rfl, rfl, rfl⟩, _, _, rfl⟩; exact ⟨rfl, rfl⟩
    · simp only [false_iff, List.cons.injEq]
      rintro ⟨a', b', ⟨rfl, rfl, _⟩, h1, h2, _⟩
      exact h ⟨h1, h2⟩

theorem getYear_some {v w : List Char} {n : Nat} : getYear v = some (n, w) ↔
    ∃ a b c d, v = a :: b :: c :: d :: w ∧ digitChar a = true ∧ digitChar b = true ∧ digitChar c = true ∧
      digitChar d = true ∧ n = digitVal a * 1000 + digitVal b * 100 + digitVal c * 10 + digitVal d := by
  match v with
  | [] => simp [getYear]
  | [a] => simp [getYear]
  | [a, b] => simp [getYear]
  | [a, b, c] => simp [getYear]
  | a :: b :: c :: d :: cs =>
    simp only [getYear, Bool.and_eq_true]
    split_ifs with h
    · simp only [Option.some.injEq, Prod.mk.injEq, List.cons.injEq]
      constructor
      · rintro ⟨rfl, rfl⟩; exact ⟨a, b, c, d, ⟨rfl, rfl, rfl, rfl, rfl⟩, h.1.1.1, h.1.1.2, h.1.2, h.2, rfl⟩
      · rintro ⟨a', b', c', d', ⟨rfl, rfl, rfl, rfl, rfl⟩, _, _, _, _, rfl⟩; exact ⟨rfl, rfl⟩
    · simp only [false_iff, List.cons.injEq]
      rintro ⟨a', b', c', d', ⟨rfl, rfl, rfl, rfl, _⟩, h1, h2, h3, h4, _⟩
      exact h ⟨⟨⟨h1, h2⟩, h3⟩, h4⟩

theorem digit_ne_T {c : Char} (h : digitChar c = true) : 'T' ≠ c := by
  rintro rfl
  revert h; decide

theorem getnum1_T {v w : List Char} {n : Nat} (h : getnum1 v = some (n, w)) (hT : 'T' ∈ v) : 'T' ∈ w := by
  match v with
  | [] => simp at hT
  | [a] =>
    simp only [getnum1] at h
    split_ifs at h with h1
    have := digit_ne_T h1
    simp [this] at hT
  | a :: b :: cs =>
    simp only [getnum1] at h
    split_ifs at h with h1 h2
    · have ha := digit_ne_T h1
      have hb := digit_ne_T h2
      simp only [Option.some.injEq, Prod.mk.injEq] at h
      rw [← h.2]
      simpa [ha, hb] using hT
    · have ha := digit_ne_T h1
      simp only [Option.some.injEq, Prod.mk.injEq] at h
      rw [← h.2]
      simpa [ha] using hT

theorem getnum2_T {v w : List Char} {n : Nat} (h : getnum2 v = some (n, w)) (hT : 'T' ∈ v) : 'T' ∈ w := by
  obtain ⟨a, b, rfl, ha, hb, _⟩ := getnum2_some.1 h
  simpa [digit_ne_T ha, digit_ne_T hb] using hT

theorem getFraction_T {v : List Char} (hT : 'T' ∈ v) : 'T' ∈ (getFraction v).2 := by
  match v with
  | [] => simp at hT
  | [a] => simpa [getFraction] using hT
  | p :: a :: cs =>
    simp only [getFraction]
    split_ifs with h
    · have hp : 'T' ≠ p := by rcases h.1 with h | h <;> subst h <;> decide
      have ha := digit_ne_T h.2
      have hcs : 'T' ∈ cs := by simpa [hp, ha] using hT
      rw [← List.takeWhile_append_dropWhile (p := digitChar) (l := cs)] at hcs
      rcases List.mem_append.1 hcs with h' | h'
      · exact absurd rfl (digit_ne_T ((List.all_takeWhile (p := digitChar) (l := cs) |> List.all_eq_true.1) _ h'))
      · exact h'
    · exact hT

theorem getZone_T {v w : List Char} {n : Int} (h : getZone v = some (n, w)) (hT : 'T' ∈ v) : 'T' ∈ w := by
  unfold getZone at h
  split at h
  · simp only [Option.some.injEq, Prod.mk.injEq] at h
    rw [← h.2]
    simpa using hT
  · rename_i s a b c d cs
    split_ifs at h with h1 h2 h3
    · simp only [Bool.and_eq_true] at h1
      simp only [Option.some.injEq, Prod.mk.injEq] at h
      rw [← h.2]
      subst h2
      simpa [digit_ne_T h1.1.1.1, digit_ne_T h1.1.1.2, digit_ne_T h1.1.2, digit_ne_T h1.2] using hT
    · simp only [Bool.and_eq_true] at h1
      simp only [Option.some.injEq, Prod.mk.injEq] at h
      rw [← h.2]
      subst h3
      simpa [digit_ne_T h1.1.1.1, digit_ne_T h1.1.1.2, digit_ne_T h1.1.2, digit_ne_T h1.2] using hT
  · simp at h

/-- The clock part never contains another `T`. -/
theorem parseClock_T {v : List Char} {r} (h : parseClock v = some r) : 'T' ∉ v := by
  intro hT
  simp only [parseClock, Option.bind_eq_some_iff, Prod.exists] at h
  obtain ⟨hour, v1, h1, h⟩ := h
  split_ifs at h with c1
  simp only [Option.bind_eq_some_iff, Prod.exists] at h
  obtain ⟨v2, h2, min, v3, h3, h⟩ := h
  split_ifs at h with c2
  simp only [Option.bind_eq_some_iff, Prod.exists] at h
  obtain ⟨v4, h4, sec, v5, h5, h⟩ := h
  split_ifs at h with c3
  simp only [Option.bind_eq_some_iff, Prod.exists] at h
  obtain ⟨off, v6, h6, h⟩ := h
  split_ifs at h with c4
  have t1 := getnum1_T h1 hT
  rw [skipChar_some.1 h2] at t1
  have t3 := getnum2_T h3 (by simpa using t1)
  rw [skipChar_some.1 h4] at t3
  have t5 := getnum2_T h5 (by simpa using t3)
  have t6 := getZone_T h6 (getFraction_T t5)
  subst c4
  simp at t6

theorem split_at_T {s p x y : List Char} (hp : 'T' ∉ p) (hy : 'T' ∉ y)
    (h : s ++ 'T' :: x = p ++ 'T' :: y) : s = p ∧ x = y := by
  rcases List.append_eq_append_iff.1 h with ⟨a, h1, h2⟩ | ⟨c, h1, h2⟩
  · cases a with
    | nil => exact ⟨by simpa using h1.symm, by simpa using h2⟩
    | cons z zs =>
      simp only [List.cons_append, List.cons.injEq] at h2
      exact absurd (by rw [h1, ← h2.1]; simp) hp
  · cases c with
    | nil => exact ⟨by simpa using h1, by simpa using h2.symm⟩
    | cons z zs =>
      simp only [List.cons_append, List.cons.injEq] at h2
      exact absurd (by rw [h2.2]; simp) hy

theorem dig_toNat (k : Nat) : (dig k).toNat = 48 + k % 10 := by
  have h : ∀ j < 10, (Char.ofNat (48 + j)).toNat = 48 + j := by decide
  exact h _ (Nat.mod_lt _ (by omega))

theorem dig_digit (k : Nat) : digitChar (dig k) = true := by
  simp only [digitChar, dig_toNat, decide_eq_true_eq]; omega

theorem dig_val (k : Nat) : digitVal (dig k) = k % 10 := by
  simp only [digitVal, dig_toNat]; omega

theorem eq_dig {c : Char} {k : Nat} (h : digitChar c = true) (hk : k % 10 = digitVal c) : c = dig k := by
  simp only [digitChar, decide_eq_true_eq] at h
  have h1 : c.toNat = (dig k).toNat := by rw [dig_toNat, hk, digitVal]; omega
  exact Char.ext (UInt32.ext h1)

theorem digitVal_lt {c : Char} (h : digitChar c = true) : digitVal c < 10 := by
  simp only [digitChar, decide_eq_true_eq] at h
  unfold digitVal; omega

theorem midnight_clock : parseClock ['0', '0', ':', '0', '0', ':', '0', '0', 'Z'] = some (0, 0, 0, 0, 0) := by
  decide +kernel

/-- What the parser accepts after the suffix has been appended. -/
theorem parse_some {s : List Char} {t : Time} (h : parseRFC3339 (s ++ midnightSuffix) = some t) :
    ∃ y m d, y < 10000 ∧ RealDate y m d ∧ s = dateText y m d ∧
      t = ⟨midnight y m d + unixToInternal, 0, "UTC"⟩ := by
  simp only [parseRFC3339, Option.bind_eq_some_iff, Prod.exists] at h
  obtain ⟨year, v1, h1, v2, h2, month, v3, h3, h⟩ := h
  split_ifs at h with c1
  simp only [Option.bind_eq_some_iff, Prod.exists] at h
  obtain ⟨v4, h4, day, v5, h5, v6, h6, hour, min, sec, nsec, off, h7, h⟩ := h
  split_ifs at h with c2
  obtain ⟨a, b, c, d, e1, ha, hb, hc, hd, hyear⟩ := getYear_some.1 h1
  obtain ⟨m1, m2, e3, hm1, hm2, hmonth⟩ := getnum2_some.1 h3
  obtain ⟨d1, d2, e5, hd1, hd2, hday⟩ := getnum2_some.1 h5
  have e2 := skipChar_some.1 h2
  have e4 := skipChar_some.1 h4
  have e6 := skipChar_some.1 h6
  have hT := parseClock_T h7
  subst e6 e5 e4 e3 e2
  have := split_at_T (s := s) (x := ['0', '0', ':', '0', '0', ':', '0', '0', 'Z'])
    (p := [a, b, c, d, '-', m1, m2, '-', d1, d2]) (y := v6)
    (by simp [digit_ne_T ha, digit_ne_T hb, digit_ne_T hc, digit_ne_T hd, digit_ne_T hm1,
          digit_ne_T hm2, digit_ne_T hd1, digit_ne_T hd2]) hT (by simpa [midnightSuffix] using e1)
  obtain ⟨hs, rfl⟩ := this
  rw [midnight_clock] at h7
  simp only [Option.some.injEq, Prod.mk.injEq] at h7
  obtain ⟨rfl, rfl, rfl, rfl, rfl⟩ := h7
  have va := digitVal_lt ha
  have vb := digitVal_lt hb
  have vc := digitVal_lt hc
  have vd := digitVal_lt hd
  have vm1 := digitVal_lt hm1
  have vm2 := digitVal_lt hm2
  have vd1 := digitVal_lt hd1
  have vd2 := digitVal_lt hd2
  have hy : year < 10000 := by omega
  have hr : RealDate year month day := by
    have := daysIn_eq (y := year) (m := month) (by omega) (by omega)
    refine ⟨by omega, by omega, by omega, by omega⟩
  refine ⟨year, month, day, hy, hr, ?_, ?_⟩
  · rw [hs]
    unfold dateText
    rw [← eq_dig ha (by omega), ← eq_dig hb (by omega), ← eq_dig hc (by omega), ← eq_dig hd (by omega),
      ← eq_dig hm1 (by omega), ← eq_dig hm2 (by omega), ← eq_dig hd1 (by omega), ← eq_dig hd2 (by omega)]
  · rw [goDate_midnight hy hr] at h
    simp only [Int.sub_zero, Option.some.injEq] at h
    obtain ⟨q1, q2, q3, q4⟩ := hr
    have hyl := years_le year
    have hml := months_le year (month - 1)
    have hdc : dayCount year month day < 4000000 := by unfold dayCount; omega
    have hu : unixToInternal = 62135596800 := rfl
    have hw : wrap64 (midnight year month day + unixToInternal) = midnight year month day + unixToInternal := by
      apply wrap64_of_range <;> simp only [midnight, dayCount_1970] <;> omega
    rw [← h, hw]

theorem parse_dateText {y m d : Nat} (hy : y < 10000) (h : RealDate y m d) :
    parseRFC3339 (dateText y m d ++ midnightSuffix) = some ⟨midnight y m d + unixToInternal, 0, "UTC"⟩ := by
  have hr := h
  obtain ⟨q1, q2, q3, q4⟩ := h
  have h31 : monthLength y m ≤ 31 := by unfold monthLength; split_ifs <;> omega
  have ey : digitVal (dig (y / 1000)) * 1000 + digitVal (dig (y / 100)) * 100 + digitVal (dig (y / 10)) * 10
      + digitVal (dig y) = y := by simp only [dig_val]; omega
  have em : digitVal (dig (m / 10)) * 10 + digitVal (dig m) = m := by simp only [dig_val]; omega
  have ed : digitVal (dig (d / 10)) * 10 + digitVal (dig d) = d := by simp only [dig_val]; omega
  have hyl := years_le y
  have hml := months_le y (m - 1)
  have hdc : dayCount y m d < 4000000 := by unfold dayCount; omega
  have hu : unixToInternal = 62135596800 := rfl
  have hw : wrap64 (midnight y m d + unixToInternal) = midnight y m d + unixToInternal := by
    apply wrap64_of_range <;> simp only [midnight, dayCount_1970] <;> push_cast <;> omega
  have hdi := daysIn_eq (y := y) q1 q2
  simp only [parseRFC3339, dateText, midnightSuffix, List.cons_append, List.nil_append, getYear, getnum2,
    skipChar, dig_digit, Bool.and_true, if_true, Option.bind_some, ey, em, ed, midnight_clock]
  rw [if_neg (by omega), if_neg (by omega), goDate_midnight hy hr]
  simp only [Int.sub_zero, hw]

/-! ## C96 -/

/-- C96: a string is accepted iff it is YYYY-MM-DD for a date of the calendar (years 0000 to 9999),
and the result is then midnight UTC of that date. -/
theorem C96_accepts_exactly_dates (s : List Char) (t : Time) :
    rawDateToRFC3339 s = .ok t ↔ ∃ y m d, y < 10000 ∧ RealDate y m d ∧ s = dateText y m d ∧
      t = ⟨midnight y m d + unixToInternal, 0, "UTC"⟩ := by
  unfold rawDateToRFC3339
  constructor
  · intro h
    split at h
    · simp at h
    · rename_i u hu
      simp only [Res.ok.injEq] at h
      subst h
      exact parse_some hu
  · rintro ⟨y, m, d, hy, hr, rfl, rfl⟩
    rw [parse_dateText hy hr]

/-- C96: in Unix seconds, with no fraction. -/
theorem C96_unix_midnight (y m d : Nat) (hy : y < 10000) (hr : RealDate y m d) :
    ∃ t, rawDateToRFC3339 (dateText y m d) = .ok t ∧ t.unix = midnight y m d ∧ t.nsec = 0 ∧ t.loc = "UTC" ∧
      t.unix % 86400 = 0 := by
  refine ⟨_, (C96_accepts_exactly_dates _ _).2 ⟨y, m, d, hy, hr, rfl, rfl⟩, ?_, rfl, rfl, ?_⟩
  all_goals
    have hyl := years_le y
    have hml := months_le y (m - 1)
    have h31 : monthLength y m ≤ 31 := by unfold monthLength; split_ifs <;> omega
    obtain ⟨q1, q2, q3, q4⟩ := hr
    have hdc : dayCount y m d < 4000000 := by unfold dayCount; omega
    have hun : (⟨midnight y m d + unixToInternal, 0, "UTC"⟩ : Time).unix = midnight y m d := by
      simp only [Time.unix, Int.add_sub_cancel]
      apply wrap64_of_range <;> simp only [midnight, dayCount_1970] <;> omega
    rw [hun]
  unfold midnight
  omega

/-- C96: every other string is refused with an error and the zero time; nothing panics. -/
theorem C96_refuses_rest (s : List Char)
    (h : ¬ ∃ y m d, y < 10000 ∧ RealDate y m d ∧ s = dateText y m d) :
    rawDateToRFC3339 s = .err .external zeroTime := by
  cases hr : rawDateToRFC3339 s with
  | ok t =>
    obtain ⟨y, m, d, hy, hd, hs, _⟩ := (C96_accepts_exactly_dates s t).1 hr
    exact absurd ⟨y, m, d, hy, hd, hs⟩ h
  | err c v =>
    unfold rawDateToRFC3339 at hr
    split at hr
    · exact hr.symm
    · simp at hr
  | panic =>
    unfold rawDateToRFC3339 at hr
    split at hr <;> simp at hr

example : RealDate 2024 2 29 ∧ ¬ RealDate 2023 2 29 ∧ dateText 2024 2 29 = "2024-02-29".toList ∧
    midnight 2000 3 1 = 951868800 ∧ midnight 1969 12 31 = -86400 := by decide +kernel

example : rawDateToRFC3339 "2021-03-05".toList = .ok ⟨1614902400 + 62135596800, 0, "UTC"⟩ ∧
    rawDateToRFC3339 "2021-3-05".toList = .err .external zeroTime ∧
    rawDateToRFC3339 "2021-03-05T10:00:00Z".toList = .err .external zeroTime ∧
    rawDateToRFC3339 "2021-02-30".toList = .err .external zeroTime := by decide +kernel

/-! ## C97 -/

theorem years_mono {a b : Nat} (h : a < b) :
    ((List.range a).map yearLength).sum + yearLength a ≤ ((List.range b).map yearLength).sum := by
  induction b with
  | zero => omega
  | succ n ih =>
    rw [List.range_succ]
    simp only [List.map_append, List.sum_append, List.map_cons, List.map_nil, List.sum_cons, List.sum_nil]
    by_cases h' : a < n
    · have := ih h'; omega
    · have : a = n := by omega
      subst this; omega

theorem months_mono {y a b : Nat} (h : a < b) :
    ((List.range a).map fun j => monthLength y (j + 1)).sum + monthLength y (a + 1)
      ≤ ((List.range b).map fun j => monthLength y (j + 1)).sum := by
  induction b with
  | zero => omega
  | succ n ih =>
    rw [List.range_succ]
    simp only [List.map_append, List.sum_append, List.map_cons, List.map_nil, List.sum_cons, List.sum_nil]
    by_cases h' : a < n
    · have := ih h'; omega
    · have : a = n := by omega
      subst this; omega

theorem year_total (y : Nat) : ((List.range 12).map fun j => monthLength y (j + 1)).sum = yearLength y := by
  by_cases hl : leap y <;> simp [List.range_succ, monthLength, yearLength, hl]

theorem dayCount_in_year {y m d : Nat} (h : RealDate y m d) :
    dayCount y m d < ((List.range y).map yearLength).sum + yearLength y := by
  obtain ⟨q1, q2, q3, q4⟩ := h
  have h1 := months_mono (y := y) (show m - 1 < 12 by omega)
  rw [year_total, show m - 1 + 1 = m by omega] at h1
  unfold dayCount
  omega

/-- Dates in calendar order have increasing day counts. -/
theorem dayCount_lt {y m d y' m' d' : Nat} (h : RealDate y m d) (h' : RealDate y' m' d')
    (hlt : y < y' ∨ (y = y' ∧ (m < m' ∨ (m = m' ∧ d < d')))) : dayCount y m d < dayCount y' m' d' := by
  rcases hlt with hy | ⟨rfl, hm | ⟨rfl, hd⟩⟩
  · have h1 := dayCount_in_year h
    have h2 := years_mono hy
    have h3 : ((List.range y').map yearLength).sum ≤ dayCount y' m' d' := by unfold dayCount; omega
    omega
  · obtain ⟨q1, q2, q3, q4⟩ := h
    obtain ⟨p1, p2, p3, p4⟩ := h'
    have h1 := months_mono (y := y) (show m - 1 < m' - 1 by omega)
    rw [show m - 1 + 1 = m by omega] at h1
    unfold dayCount
    omega
  · obtain ⟨q1, q2, q3, q4⟩ := h
    unfold dayCount
    omega

theorem dig_lt (a b : Nat) : dig a < dig b ↔ a % 10 < b % 10 := by
  rw [Char.lt_def, UInt32.lt_iff_toNat_lt]
  have h1 : (dig a).val.toNat = 48 + a % 10 := dig_toNat a
  have h2 : (dig b).val.toNat = 48 + b % 10 := dig_toNat b
  omega

theorem dig_eq (a b : Nat) : dig a = dig b ↔ a % 10 = b % 10 := by
  constructor
  · intro h
    have h1 := dig_toNat a
    rw [h, dig_toNat b] at h1
    omega
  · intro h; unfold dig; rw [h]

theorem dateText_lt {y m d y' m' d' : Nat} (hy : y < 10000) (hy' : y' < 10000) (hm : m < 100) (hm' : m' < 100)
    (hd : d < 100) (hd' : d' < 100) : dateText y m d < dateText y' m' d' ↔
      (y < y' ∨ (y = y' ∧ (m < m' ∨ (m = m' ∧ d < d')))) := by
  have hdash : (('-' : Char) < '-') = False := by simp
  have hnil : (([] : List Char) < []) = False := by simp
  simp only [dateText, List.cons_lt_cons_iff, dig_lt, dig_eq, hdash, hnil, true_and, false_or,
    and_false, or_false]
  have e1 : y' % 10 = y' - y' / 10 * 10 := by omega
  obtain ⟨a, b, c, e, rfl, ha, hb, hc, he⟩ : ∃ a b c e, y = 1000 * a + 100 * b + 10 * c + e ∧
    a < 10 ∧ b < 10 ∧ c < 10 ∧ e < 10 :=
    ⟨y / 1000, y / 100 % 10, y / 10 % 10, y % 10, by omega, by omega, by omega, by omega, by omega⟩
  obtain ⟨a', b', c', e', rfl, ha', hb', hc', he'⟩ : ∃ a b c e, y' = 1000 * a + 100 * b + 10 * c + e ∧
    a < 10 ∧ b < 10 ∧ c < 10 ∧ e < 10 :=
    ⟨y' / 1000, y' / 100 % 10, y' / 10 % 10, y' % 10, by omega, by omega, by omega, by omega, by omega⟩
  obtain ⟨f, g, rfl, hf, hg⟩ : ∃ f g, m = 10 * f + g ∧ f < 10 ∧ g < 10 :=
    ⟨m / 10, m % 10, by omega, by omega, by omega⟩
  obtain ⟨f', g', rfl, hf', hg'⟩ : ∃ f g, m' = 10 * f + g ∧ f < 10 ∧ g < 10 :=
    ⟨m' / 10, m' % 10, by omega, by omega, by omega⟩
  obtain ⟨k, l, rfl, hk, hl⟩ : ∃ f g, d = 10 * f + g ∧ f < 10 ∧ g < 10 :=
    ⟨d / 10, d % 10, by omega, by omega, by omega⟩
  obtain ⟨k', l', rfl, hk', hl'⟩ : ∃ f g, d' = 10 * f + g ∧ f < 10 ∧ g < 10 :=
    ⟨d' / 10, d' % 10, by omega, by omega, by omega⟩
  rw [show (1000 * a + 100 * b + 10 * c + e) / 1000 % 10 = a by omega,
    show (1000 * a + 100 * b + 10 * c + e) / 100 % 10 = b by omega,
    show (1000 * a + 100 * b + 10 * c + e) / 10 % 10 = c by omega,
    show (1000 * a + 100 * b + 10 * c + e) % 10 = e by omega,
    show (1000 * a' + 100 * b' + 10 * c' + e') / 1000 % 10 = a' by omega,
    show (1000 * a' + 100 * b' + 10 * c' + e') / 100 % 10 = b' by omega,
    show (1000 * a' + 100 * b' + 10 * c' + e') / 10 % 10 = c' by omega,
    show (1000 * a' + 100 * b' + 10 * c' + e') % 10 = e' by omega,
    show (10 * f + g) / 10 % 10 = f by omega, show (10 * f + g) % 10 = g by omega,
    show (10 * f' + g') / 10 % 10 = f' by omega, show (10 * f' + g') % 10 = g' by omega,
    show (10 * k + l) / 10 % 10 = k by omega, show (10 * k + l) % 10 = l by omega,
    show (10 * k' + l') / 10 % 10 = k' by omega, show (10 * k' + l') % 10 = l' by omega]
  clear e1 hdash hnil hy hy' hm hm' hd hd'
  omega

/-- C97: instants of accepted strings are ordered like the strings, byte by byte. -/
theorem C97_order (s s' : List Char) (t t' : Time) (h : rawDateToRFC3339 s = .ok t)
    (h' : rawDateToRFC3339 s' = .ok t') :
    (t.before t' = true ↔ s < s') ∧ (t.unix < t'.unix ↔ s < s') ∧ (t.equal t' = true ↔ s = s') := by
  obtain ⟨y, m, d, hy, hr, rfl, rfl⟩ := (C96_accepts_exactly_dates s t).1 h
  obtain ⟨y', m', d', hy', hr', rfl, rfl⟩ := (C96_accepts_exactly_dates s' t').1 h'
  obtain ⟨u, hu, hun, _⟩ := C96_unix_midnight y m d hy hr
  obtain ⟨u', hu', hun', _⟩ := C96_unix_midnight y' m' d' hy' hr'
  rw [h] at hu; rw [h'] at hu'
  simp only [Res.ok.injEq] at hu hu'
  subst hu hu'
  have h31 : monthLength y m ≤ 31 := by unfold monthLength; split_ifs <;> omega
  have h31' : monthLength y' m' ≤ 31 := by unfold monthLength; split_ifs <;> omega
  have hr1 := hr
  have hr1' := hr'
  obtain ⟨q1, q2, q3, q4⟩ := hr1
  obtain ⟨p1, p2, p3, p4⟩ := hr1'
  have hlt := dateText_lt hy hy' (show m < 100 by omega) (show m' < 100 by omega) (show d < 100 by omega)
    (show d' < 100 by omega)
  have hmid : midnight y m d < midnight y' m' d' ↔
      (y < y' ∨ (y = y' ∧ (m < m' ∨ (m = m' ∧ d < d')))) := by
    constructor
    · intro hlt
      by_contra hn
      have : (y' < y ∨ (y' = y ∧ (m' < m ∨ (m' = m ∧ d' < d)))) ∨ (y = y' ∧ m = m' ∧ d = d') := by omega
      rcases this with this | ⟨rfl, rfl, rfl⟩
      · have := dayCount_lt hr' hr this
        unfold midnight at hlt; omega
      · omega
    · intro hc
      have := dayCount_lt hr hr' hc
      unfold midnight; omega
  have heq : midnight y m d = midnight y' m' d' ↔ (y = y' ∧ m = m' ∧ d = d') := by
    constructor
    · intro he
      by_contra hn
      have : (y < y' ∨ (y = y' ∧ (m < m' ∨ (m = m' ∧ d < d')))) ∨
          (y' < y ∨ (y' = y ∧ (m' < m ∨ (m' = m ∧ d' < d)))) := by omega
      rcases this with this | this
      · have := dayCount_lt hr hr' this
        unfold midnight at he; omega
      · have := dayCount_lt hr' hr this
        unfold midnight at he; omega
    · rintro ⟨rfl, rfl, rfl⟩; rfl
  refine ⟨?_, ?_, ?_⟩
  · rw [hlt, ← hmid, Time.before, decide_eq_true_eq]
    simp only [lt_irrefl, and_false, or_false]
    omega
  · rw [hlt, ← hmid, hun, hun']
  · rw [Time.equal, decide_eq_true_eq]
    simp only [and_true]
    rw [show (midnight y m d + unixToInternal = midnight y' m' d' + unixToInternal) ↔
      midnight y m d = midnight y' m' d' by omega, heq]
    constructor
    · rintro ⟨rfl, rfl, rfl⟩; rfl
    · intro he
      simp only [dateText, List.cons.injEq, dig_eq] at he
      omega

theorem nextDay_real {y m d : Nat} (h : RealDate y m d) :
    RealDate (nextDay y m d).1 (nextDay y m d).2.1 (nextDay y m d).2.2 := by
  obtain ⟨q1, q2, q3, q4⟩ := h
  have hpos : ∀ y m, 1 ≤ monthLength y m := by
    intro y m; unfold monthLength; split_ifs <;> omega
  unfold nextDay
  split_ifs with h1 h2
  · exact ⟨q1, q2, by dsimp only; omega, by dsimp only; omega⟩
  · exact ⟨by dsimp only; omega, by dsimp only; omega, le_refl _, hpos _ _⟩
  · exact ⟨le_refl _, by dsimp only; omega, le_refl _, hpos _ _⟩

theorem dayCount_next {y m d : Nat} (h : RealDate y m d) :
    dayCount (nextDay y m d).1 (nextDay y m d).2.1 (nextDay y m d).2.2 = dayCount y m d + 1 := by
  obtain ⟨q1, q2, q3, q4⟩ := h
  unfold nextDay
  split_ifs with h1 h2
  · simp only [dayCount]; omega
  · simp only [dayCount]
    rw [show m + 1 - 1 = (m - 1) + 1 by omega, List.range_succ]
    simp only [List.map_append, List.sum_append, List.map_cons, List.map_nil, List.sum_cons, List.sum_nil]
    rw [show m - 1 + 1 = m by omega]
    omega
  · have hm : m = 12 := by omega
    subst hm
    have ht := year_total y
    rw [show (12 : Nat) = 11 + 1 from rfl, List.range_succ] at ht
    simp only [List.map_append, List.sum_append, List.map_cons, List.map_nil, List.sum_cons, List.sum_nil] at ht
    simp only [dayCount]
    rw [List.range_succ]
    simp only [List.map_append, List.sum_append, List.map_cons, List.map_nil, List.sum_cons, List.sum_nil,
      Nat.sub_self, List.range_zero, show 12 - 1 = 11 from rfl]
    simp only [show (11 + 1 : Nat) = 12 from rfl] at ht
    omega

/-- C97: the day after an accepted date (other than 9999-12-31) is accepted and 86400 seconds
later. -/
theorem C97_next_day (y m d : Nat) (hr : RealDate y m d) (hy : (nextDay y m d).1 < 10000) :
    ∃ t t', rawDateToRFC3339 (dateText y m d) = .ok t ∧
      rawDateToRFC3339 (dateText (nextDay y m d).1 (nextDay y m d).2.1 (nextDay y m d).2.2) = .ok t' ∧
      t'.unix = t.unix + 86400 := by
  have hy0 : y < 10000 := by
    unfold nextDay at hy; split_ifs at hy <;> simp only at hy <;> omega
  obtain ⟨t, h1, h2, _⟩ := C96_unix_midnight y m d hy0 hr
  obtain ⟨t', h1', h2', _⟩ := C96_unix_midnight _ _ _ hy (nextDay_real hr)
  refine ⟨t, t', h1, h1', ?_⟩
  rw [h2, h2', midnight, midnight, dayCount_next hr]
  push_cast; omega

example : rawDateToRFC3339 "2020-12-31".toList = .ok ⟨midnight 2020 12 31 + unixToInternal, 0, "UTC"⟩ ∧
    rawDateToRFC3339 "2021-01-01".toList = .ok ⟨midnight 2021 1 1 + unixToInternal, 0, "UTC"⟩ ∧
    "2020-12-31".toList < "2021-01-01".toList ∧ nextDay 2020 12 31 = (2021, 1, 1) ∧
    nextDay 2020 2 28 = (2020, 2, 29) ∧ nextDay 2100 2 28 = (2100, 3, 1) := by decide +kernel

end Finmod
