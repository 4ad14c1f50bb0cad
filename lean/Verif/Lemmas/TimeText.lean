import Verif.Model.TimeText
import Verif.Props.Date

/-!
# Times as text: calendar and digits
-/

namespace Finmod
open Go Spec

/-! ## The calendar, from days to dates -/

theorem absYear_spec (d : Nat) :
    d + (absYear d).1 / 100 = 365 * (absYear d).1 + (absYear d).1 / 4 + (absYear d).1 / 400 + (absYear d).2 ∧
    (absYear d).2 ≤ 365 ∧ ((absYear d).2 = 365 →
      ((absYear d).1 + 1) % 4 = 0 ∧ (((absYear d).1 + 1) % 100 ≠ 0 ∨ ((absYear d).1 + 1) % 400 = 0)) := by
  simp only [absYear]
  obtain ⟨n, r, rfl, hr⟩ : ∃ n r, d = 146097 * n + r ∧ r < 146097 := ⟨d / 146097, d % 146097, by omega, by omega⟩
  have e1 : (146097 * n + r) / 146097 = n := by omega
  rw [e1]
  have e2 : 146097 * n + r - 146097 * n = r := by omega
  rw [e2]
  obtain ⟨c, hc⟩ : ∃ c, r / 36524 - r / 36524 / 4 = c := ⟨_, rfl⟩
  rw [hc]
  obtain ⟨s, hs⟩ : ∃ s, r - 36524 * c = s := ⟨_, rfl⟩
  rw [hs]
  have hc3 : c ≤ 3 := by omega
  have hrs : r = 36524 * c + s := by omega
  have hs1 : s ≤ 36524 := by omega
  have hs2 : s = 36524 → c = 3 := by omega
  obtain ⟨q, t, rfl, ht⟩ : ∃ q t, s = 1461 * q + t ∧ t < 1461 := ⟨s / 1461, s % 1461, by omega, by omega⟩
  have e3 : (1461 * q + t) / 1461 = q := by omega
  rw [e3]
  have e4 : 1461 * q + t - 1461 * q = t := by omega
  rw [e4]
  obtain ⟨k, hk⟩ : ∃ k, t / 365 - t / 365 / 4 = k := ⟨_, rfl⟩
  rw [hk]
  have hk3 : k ≤ 3 := by omega
  obtain ⟨u, hu⟩ : ∃ u, t - 365 * k = u := ⟨_, rfl⟩
  rw [hu]
  have htu : t = 365 * k + u := by omega
  have hu1 : u ≤ 365 := by omega
  have hu2 : u = 365 → k = 3 := by omega
  have hq : q ≤ 24 := by omega
  have f4 : (400 * n + 100 * c + 4 * q + k) / 4 = 100 * n + 25 * c + q := by omega
  have f100 : (400 * n + 100 * c + 4 * q + k) / 100 = 4 * n + c := by omega
  have f400 : (400 * n + 100 * c + 4 * q + k) / 400 = n := by omega
  rw [f4, f100, f400]
  refine ⟨by omega, hu1, ?_⟩
  intro h
  have := hu2 h
  refine ⟨by omega, ?_⟩
  by_cases hq24 : q = 24
  · right
    have : c = 3 := hs2 (by omega)
    omega
  · left; omega

/-- The day number of a date splits into year and day of the year. -/
theorem absYear_year {d : Nat} (h0 : absZeroYear ≤ (absYear d).1) :
    d = daysSinceEpoch ((absYear d).1 - absZeroYear) + (absYear d).2 ∧
    (absYear d).2 < yearLength ((absYear d).1 - absZeroYear) := by
  obtain ⟨h1, h2, h3⟩ := absYear_spec d
  have hc := daysSinceEpoch_closed ((absYear d).1 - absZeroYear)
  have hz : absZeroYear = 292277022399 := rfl
  have e : (absYear d).1 - absZeroYear + 292277022399 = (absYear d).1 := by omega
  rw [e] at hc
  refine ⟨by omega, ?_⟩
  unfold yearLength
  split_ifs with hl
  · omega
  · by_contra hcon
    have h5 := h3 (by omega)
    apply hl
    unfold leap
    omega

theorem daysSinceEpoch_mono {y z : Nat} (h : y ≤ z) : daysSinceEpoch y ≤ daysSinceEpoch z := by
  induction h with
  | refl => exact le_refl _
  | step _ ih => rw [daysSinceEpoch_succ]; omega

theorem absYear_range (d : Nat) : (absZeroYear ≤ (absYear d).1 ∧ (absYear d).1 < absZeroYear + 10000) ↔
    (daysSinceEpoch 0 ≤ d ∧ d < daysSinceEpoch 10000) := by
  have hz : absZeroYear = 292277022399 := rfl
  have c0 := daysSinceEpoch_closed 0
  have c1 := daysSinceEpoch_closed 10000
  obtain ⟨h1, h2, h3⟩ := absYear_spec d
  constructor
  · rintro ⟨h, h'⟩
    obtain ⟨e1, e2⟩ := absYear_year h
    have m1 := daysSinceEpoch_mono (y := 0) (z := (absYear d).1 - absZeroYear) (by omega)
    have m2 := daysSinceEpoch_mono (y := (absYear d).1 - absZeroYear + 1) (z := 10000) (by omega)
    rw [daysSinceEpoch_succ] at m2
    omega
  · rintro ⟨h, h'⟩
    constructor <;> by_contra hcon
    · have : (absYear d).1 + 1 ≤ 292277022399 := by omega
      generalize (absYear d).1 = Y at *
      generalize (absYear d).2 = r at *
      obtain ⟨a, k, rfl, hk⟩ : ∃ a k, Y = 4 * a + k ∧ k < 4 := ⟨Y / 4, Y % 4, by omega, by omega⟩
      have q4 : (4 * a + k) / 4 = a := by omega
      have q1 : (4 * a + k) / 100 = a / 25 := by omega
      have q2 : (4 * a + k) / 400 = a / 25 / 4 := by omega
      rw [q4, q1, q2] at h1
      have ha : a ≤ 73069255599 := by omega
      have hr : r = 365 → k = 3 := by intro h; have := (h3 h).1; omega
      obtain ⟨b, j, rfl, hj⟩ : ∃ b j, a = 25 * b + j ∧ j < 25 := ⟨a / 25, a % 25, by omega, by omega⟩
      have q3 : (25 * b + j) / 25 = b := by omega
      rw [q3] at h1
      omega
    · obtain ⟨e1, e2⟩ := absYear_year (d := d) (by omega)
      have m := daysSinceEpoch_mono (y := 10000) (z := (absYear d).1 - absZeroYear) (by omega)
      omega

theorem monthDay_leap : ∀ r < 366, 1 ≤ (monthDay true r).1 ∧ (monthDay true r).1 ≤ 12 ∧ 1 ≤ (monthDay true r).2 ∧
    (monthDay true r).2 ≤ monthLength 4 (monthDay true r).1 ∧
    ((List.range ((monthDay true r).1 - 1)).map fun j => monthLength 4 (j + 1)).sum + ((monthDay true r).2 - 1) = r := by
  decide +kernel

theorem monthDay_common : ∀ r < 365, 1 ≤ (monthDay false r).1 ∧ (monthDay false r).1 ≤ 12 ∧
    1 ≤ (monthDay false r).2 ∧ (monthDay false r).2 ≤ monthLength 1 (monthDay false r).1 ∧
    ((List.range ((monthDay false r).1 - 1)).map fun j => monthLength 1 (j + 1)).sum + ((monthDay false r).2 - 1) = r := by
  decide +kernel

theorem monthLength_congr {y z : Nat} (h : leap y ↔ leap z) (m : Nat) : monthLength y m = monthLength z m := by
  simp only [monthLength, h]

/-- Month and day found from the day of the year. -/
theorem monthDay_spec {y r : Nat} (h : r < yearLength y) :
    RealDate y (monthDay (isLeap y) r).1 (monthDay (isLeap y) r).2 ∧
    dayCount y (monthDay (isLeap y) r).1 (monthDay (isLeap y) r).2 = ((List.range y).map yearLength).sum + r := by
  by_cases hl : leap y
  · have e : isLeap y = true := (isLeap_iff y).2 hl
    rw [yearLength, if_pos hl] at h
    obtain ⟨h1, h2, h3, h4, h5⟩ := monthDay_leap r h
    have hc : ∀ m, monthLength y m = monthLength 4 m := monthLength_congr (by simp [hl]; decide)
    rw [e]
    exact ⟨⟨h1, h2, h3, by rw [hc]; exact h4⟩, by simp only [dayCount, hc]; omega⟩
  · have e : isLeap y = false := by rw [← Bool.not_eq_true]; exact fun h => hl ((isLeap_iff y).1 h)
    rw [yearLength, if_neg hl] at h
    obtain ⟨h1, h2, h3, h4, h5⟩ := monthDay_common r h
    have hc : ∀ m, monthLength y m = monthLength 1 m := monthLength_congr (by simp [hl]; decide)
    rw [e]
    exact ⟨⟨h1, h2, h3, by rw [hc]; exact h4⟩, by simp only [dayCount, hc]; omega⟩

/-! ## Digits -/

theorem padInt2 : ∀ n < 100, padInt 2 n = [dig (n / 10), dig n] := by decide +kernel

theorem toDigits_one {n : Nat} (h : n < 10) : Nat.toDigits 10 n = [dig n] := by
  have : ∀ n < 10, Nat.toDigits 10 n = [dig n] := by decide
  exact this n h

/-- Padded digits, from the last one. -/
theorem padInt_succ {w n : Nat} (hw : 1 ≤ w) (h : n < 10 ^ (w + 1)) : padInt (w + 1) n = padInt w (n / 10) ++ [dig n] := by
  by_cases hn : n < 10
  · have : n / 10 = 0 := by omega
    rw [this]
    simp only [padInt, toDigits_one hn, toDigits_one (show 0 < 10 by omega), List.length_singleton]
    obtain ⟨k, rfl⟩ : ∃ k, w = k + 1 := ⟨w - 1, by omega⟩
    have e : k + 1 + 1 - 1 = k + 1 := by omega
    have e' : k + 1 - 1 = k := by omega
    rw [e, e', List.replicate_succ']
    have : dig 0 = '0' := by decide
    rw [this]
  · have hd : Nat.toDigits 10 n = Nat.toDigits 10 (n / 10) ++ [dig n] := by
      rw [Nat.toDigits_of_base_le (by omega) (by omega)]
      congr 1
      have : ∀ k < 10, Nat.digitChar k = dig k := by decide
      rw [this _ (Nat.mod_lt _ (by omega))]
      simp [dig]
    simp only [padInt, hd, List.length_append, List.length_singleton]
    have : w + 1 - ((Nat.toDigits 10 (n / 10)).length + 1) = w - (Nat.toDigits 10 (n / 10)).length := by omega
    rw [this, List.append_assoc]

theorem dig_mod_eq (a b : Nat) (h : a % 10 = b % 10) : dig a = dig b := by simp [dig, h]

theorem padInt4 {n : Nat} (h : n < 10000) : padInt 4 n = [dig (n / 1000), dig (n / 100), dig (n / 10), dig n] := by
  rw [padInt_succ (by omega) (by omega), padInt_succ (by omega) (by omega), padInt2 _ (by omega)]
  have e1 : n / 10 / 10 / 10 = n / 1000 := by omega
  have e2 : n / 10 / 10 = n / 100 := by omega
  rw [e1, e2]
  simp

/-- The value of a list of digits. -/
theorem padInt_value {w n : Nat} (hw : 1 ≤ w) (h : n < 10 ^ w) :
    (padInt w n).length = w ∧ (∀ c ∈ padInt w n, digitChar c = true) ∧
    (padInt w n).foldl (fun n c => n * 10 + digitVal c) 0 = n := by
  induction w, hw using Nat.le_induction generalizing n with
  | base =>
    have h10 : n < 10 := by simpa using h
    have e : padInt 1 n = [dig n] := by simp [padInt, toDigits_one h10]
    rw [e]
    refine ⟨rfl, by simp [dig_digit], by simp [dig_val]; omega⟩
  | succ w hw ih =>
    rw [padInt_succ hw h]
    obtain ⟨h1, h2, h3⟩ := ih (n := n / 10) (by rw [pow_succ] at h; omega)
    refine ⟨by simp [h1], ?_, ?_⟩
    · intro c hc
      rcases List.mem_append.1 hc with hc | hc
      · exact h2 c hc
      · rw [List.mem_singleton.1 hc]; exact dig_digit n
    · rw [List.foldl_append, h3]
      simp only [List.foldl_cons, List.foldl_nil, dig_val]
      omega

/-- Cutting off trailing zeros. -/
theorem trim_zeros (l : List Char) : ∃ k, l = (l.reverse.dropWhile fun c => c == '0').reverse ++ List.replicate k '0' := by
  refine ⟨(l.reverse.takeWhile fun c => c == '0').length, ?_⟩
  have h := List.takeWhile_append_dropWhile (p := fun c => c == '0') (l := l.reverse)
  have h' : l = (l.reverse.dropWhile fun c => c == '0').reverse ++ (l.reverse.takeWhile fun c => c == '0').reverse := by
    rw [← List.reverse_append, h, List.reverse_reverse]
  have hall : ∀ c ∈ (l.reverse.takeWhile fun c => c == '0').reverse, c = '0' := by
    intro c hc
    have := List.all_eq_true.1 (List.all_takeWhile (p := fun c => c == '0') (l := l.reverse)) c (List.mem_reverse.1 hc)
    simpa using this
  have hr := List.eq_replicate_of_mem hall
  rw [List.length_reverse] at hr
  rw [← hr]
  exact h'

theorem trim_last (l : List Char) : ((l.reverse.dropWhile fun c => c == '0').reverse).getLast? ≠ some '0' := by
  rw [List.getLast?_reverse]
  intro h
  have := List.head?_dropWhile_not (fun c => c == '0') l.reverse
  rw [h] at this
  simp at this

end Finmod
