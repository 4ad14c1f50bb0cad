import Verif.Lemmas.TimeText
import Verif.Props.Json

/-!
# C167: times in JSON
-/

namespace Finmod

namespace Spec
open Go

/-- Nanoseconds of an instant since the beginning of its second. -/
def nanos (ns : Int) : Nat := (ns % 1000000000).toNat

/-- What a clock in a zone shows, in seconds since 1970-01-01 00:00:00 on that clock. -/
def clock (off ns : Int) : Int := ns / 1000000000 + off

/-- hh:mm:ss of a second of the day. -/
def clockText (s : Nat) : List Char :=
  [dig (s / 36000), dig (s / 3600 % 10), ':', dig (s / 600 % 6), dig (s / 60 % 10), ':', dig (s % 60 / 10), dig s]

/-- The text of a fraction of a second: nothing for zero, otherwise a point and up to nine digits, the
last of them not zero. -/
def FractionText (n : Nat) (f : List Char) : Prop :=
  (n = 0 ∧ f = []) ∨ ∃ ds, f = '.' :: ds ∧ ds ≠ [] ∧ ds.length ≤ 9 ∧ (∀ c ∈ ds, '0' ≤ c ∧ c ≤ '9') ∧
    ds.getLast? ≠ some '0' ∧ (ds.foldl (fun v c => v * 10 + (c.toNat - 48)) 0) * 10 ^ (9 - ds.length) = n

/-- The text of a zone: Z, or sign, hours and minutes; seconds are not shown. -/
def zoneText (off : Int) : List Char :=
  if off = 0 then ['Z']
  else (if off ≤ -60 then '-' else '+') ::
    [dig (off.natAbs / 36000), dig (off.natAbs / 3600), ':', dig (off.natAbs / 600 % 6), dig (off.natAbs / 60 % 10)]

/-- A `time.Time`: the seconds since year 1 fit 64 bits. -/
def IsTime (ns : Int) : Prop := -2 ^ 63 ≤ ns / 1000000000 + 62135596800 ∧ ns / 1000000000 + 62135596800 < 2 ^ 63

/-- Less than a day. -/
def IsOffset (off : Int) : Prop := -86400 < off ∧ off < 86400

/-- The year shown is between 0 and 9999. -/
def FourDigits (off ns : Int) : Prop := midnight 0 1 1 ≤ clock off ns ∧ clock off ns < midnight 9999 12 31 + 86400

end Spec
open Go Spec

theorem midnight_first : midnight 0 1 1 = -62167219200 := by decide +kernel

theorem dayCount_last {y : Nat} (hy : y = 9999) : dayCount y 12 31 = ((List.range y).map yearLength).sum + 364 := by
  have h := months_eq (y := y) (m := 12) (by omega) (by omega)
  have hl : ¬ (isLeap y = true ∧ 3 ≤ 12) := by rw [isLeap_iff]; unfold leap; omega
  rw [if_neg hl] at h
  simp only [dayCount]
  rw [← h]
  simp [daysBefore]

theorem midnight_last : midnight 9999 12 31 + 86400 = 253402300800 := by
  obtain ⟨y, hy⟩ : ∃ y, y = 9999 := ⟨_, rfl⟩
  have h := daysSinceEpoch_eq y
  have hc := daysSinceEpoch_closed y
  have hc0 := daysSinceEpoch_closed 0
  rw [← hy, midnight, dayCount_1970, dayCount_last hy]
  omega

theorem epoch_days : daysSinceEpoch 0 = 106751990353566 ∧ daysSinceEpoch 10000 = 106751994005991 := by decide +kernel

/-- The absolute seconds of a time with a year of four digits do not wrap. -/
theorem abs_range {off ns : Int} (ht : IsTime ns) (ho : IsOffset off) :
    FourDigits off ns ↔ daysSinceEpoch 0 ≤ absSeconds off ns / 86400 ∧ absSeconds off ns / 86400 < daysSinceEpoch 10000 := by
  unfold FourDigits IsTime IsOffset at *
  rw [midnight_first, midnight_last, epoch_days.1, epoch_days.2]
  unfold absSeconds clock
  generalize ns / 1000000000 = sec at *
  rcases lt_or_ge (sec + off + (62135596800 + 9223371966579724800)) 0 with h | h
  · rw [Int.emod_eq_add_self_emod, Int.emod_eq_of_lt (by omega) (by omega)]; omega
  · rw [Int.emod_eq_of_lt h (by omega)]; omega

theorem abs_clock {off ns : Int} (h : FourDigits off ns) :
    (absSeconds off ns : Int) = clock off ns + (62135596800 + 9223371966579724800) := by
  unfold FourDigits at h
  rw [midnight_first, midnight_last] at h
  unfold absSeconds
  unfold clock at *
  omega

/-- C167: a time can be written if and only if its year, as shown in its zone, is between 0 and 9999. -/
theorem C167_written {off ns : Int} (ht : IsTime ns) (ho : IsOffset off) :
    (writeTime off ns).isSome = true ↔ FourDigits off ns := by
  rw [abs_range ht ho, ← absYear_range]
  simp only [writeTime]
  split_ifs with h
  · simp only [Option.isSome_none, Bool.false_eq_true, false_iff]; omega
  · simp only [Option.isSome_some, true_iff]; omega

theorem fraction_text {n : Nat} (h : n < 1000000000) : FractionText n (fmtFraction n) := by
  obtain ⟨h1, h2, h3⟩ := padInt_value (w := 9) (n := n) (by omega) (by omega)
  obtain ⟨k, hk⟩ := trim_zeros (padInt 9 n)
  have hl := trim_last (padInt 9 n)
  unfold fmtFraction
  revert hk hl
  generalize ((padInt 9 n).reverse.dropWhile fun c => c == '0').reverse = T
  intro hk hl
  have hz : ∀ k v, (List.replicate k '0').foldl (fun n c => n * 10 + digitVal c) v = v * 10 ^ k := by
    intro k
    induction k with
    | zero => simp
    | succ k ih => intro v; rw [List.replicate_succ, List.foldl_cons, ih, pow_succ]; simp [digitVal]; ring
  rw [hk, List.foldl_append, hz] at h3
  rw [hk, List.length_append, List.length_replicate] at h1
  cases T with
  | nil => left; simp at h3; exact ⟨h3.symm, rfl⟩
  | cons a T =>
    right
    refine ⟨a :: T, rfl, by simp, by omega, ?_, hl, ?_⟩
    · intro c hc
      have := h2 c (by rw [hk]; exact List.mem_append_left _ hc)
      simp only [digitChar, decide_eq_true_eq] at this
      constructor
      · show '0'.val ≤ c.val
        rw [UInt32.le_iff_toNat_le]; exact this.1
      · show c.val ≤ '9'.val
        rw [UInt32.le_iff_toNat_le]; exact this.2
    · have : 9 - (a :: T).length = k := by omega
      rw [this]
      exact h3

theorem zone_text {off : Int} (ho : IsOffset off) : fmtZone off = zoneText off := by
  unfold IsOffset at ho
  unfold fmtZone zoneText
  by_cases h0 : off = 0
  · simp [h0]
  rw [if_neg h0, if_neg h0]
  have ez : (off.tdiv 60).natAbs = off.natAbs / 60 := by rw [Int.natAbs_tdiv]; rfl
  have es : off.tdiv 60 < 0 ↔ off ≤ -60 := by
    rcases Int.le_total 0 off with h | h
    · rw [Int.tdiv_eq_ediv_of_nonneg h]; omega
    · obtain ⟨m, rfl⟩ : ∃ m, off = -m := ⟨-off, by omega⟩
      rw [Int.neg_tdiv, Int.tdiv_eq_ediv_of_nonneg (by omega)]; omega
  simp only [ez, es]
  rw [padInt2 _ (by omega), padInt2 _ (by omega)]
  have e1 : off.natAbs / 60 / 60 / 10 = off.natAbs / 36000 := by omega
  have e2 : off.natAbs / 60 / 60 = off.natAbs / 3600 := by omega
  have e3 : off.natAbs / 60 % 60 / 10 = off.natAbs / 600 % 6 := by omega
  have e4 : dig (off.natAbs / 60 % 60) = dig (off.natAbs / 60 % 10) := dig_mod_eq _ _ (by omega)
  rw [e1, e2, e3, e4]
  rfl

/-- C167: the text shows date and time on the clock of the zone, the fraction and the zone. -/
theorem C167_text {off ns : Int} (ht : IsTime ns) (ho : IsOffset off) (h : FourDigits off ns) :
    ∃ (y m d s : Nat) (f : List Char), y < 10000 ∧ RealDate y m d ∧ s < 86400 ∧ clock off ns = midnight y m d + s ∧
      FractionText (nanos ns) f ∧ writeTime off ns = some (dateText y m d ++ 'T' :: (clockText s ++ (f ++ zoneText off))) := by
  have hr := (absYear_range _).2 ((abs_range ht ho).1 h)
  obtain ⟨e1, e2⟩ := absYear_year hr.1
  obtain ⟨r1, r2⟩ := monthDay_spec e2
  have ha := abs_clock h
  have hyear := daysSinceEpoch_eq ((absYear (absSeconds off ns / 86400)).1 - absZeroYear)
  refine ⟨_, _, _, absSeconds off ns % 86400, fmtFraction (nanos ns), ?_, r1, by omega, ?_, fraction_text (by unfold nanos; omega), ?_⟩
  · omega
  · rw [midnight, dayCount_1970, r2]
    have := epoch_days.1
    omega
  · simp only [writeTime]
    rw [if_neg (by omega)]
    obtain ⟨q1, q2, q3, q4⟩ := r1
    have h31 : ∀ y m, monthLength y m ≤ 31 := by intro y m; unfold monthLength; split_ifs <;> omega
    have h31 := le_trans q4 (h31 _ _)
    rw [padInt4 (by omega), padInt2 _ (by omega), padInt2 _ (by omega), padInt2 _ (by omega), padInt2 _ (by omega),
      padInt2 _ (by omega), zone_text ho]
    generalize absSeconds off ns % 86400 = s
    have c1 : s / 3600 / 10 = s / 36000 := by omega
    have c2 : dig (s / 3600) = dig (s / 3600 % 10) := dig_mod_eq _ _ (by omega)
    have c3 : s % 3600 / 60 / 10 = s / 600 % 6 := by omega
    have c4 : dig (s % 3600 / 60) = dig (s / 60 % 10) := dig_mod_eq _ _ (by omega)
    have c5 : dig (s % 60) = dig s := dig_mod_eq _ _ (by omega)
    rw [c1, c2, c3, c4, c5]
    rfl

/-! ## Reading -/

theorem goDate_clock {y m d hh mm ss n : Nat} (hy : y < 10000) (h : RealDate y m d) (h1 : hh < 24) (h2 : mm < 60)
    (h3 : ss < 60) :
    goDate y m d hh mm ss n = ⟨midnight y m d + (hh * 3600 + mm * 60 + ss) + unixToInternal, n, "UTC"⟩ := by
  obtain ⟨q1, q2, q3, q4⟩ := h
  have hm := months_eq (y := y) q1 q2
  have hl : d ≤ 31 := by
    refine le_trans q4 ?_
    unfold monthLength; split_ifs <;> omega
  have hye := daysSinceEpoch_eq y
  have hyl := years_le y
  have hml := months_le y (m - 1)
  have h0 : daysSinceEpoch 0 = 106751990353566 := epoch_days.1
  have hsum : (if isLeap y = true ∧ 3 ≤ m then daysSinceEpoch y + daysBefore.getD (m - 1) 0 + 1
      else daysSinceEpoch y + daysBefore.getD (m - 1) 0) + (d - 1)
      = daysSinceEpoch 0 + dayCount y m d := by
    unfold dayCount
    rw [hye]
    split_ifs at hm ⊢ <;> omega
  have hdc : dayCount y m d < 4000000 := by unfold dayCount; omega
  have hu : unixToInternal = 62135596800 := rfl
  unfold goDate
  simp only [hsum, h0, midnight, dayCount_1970]
  rw [wrap64_of_range (x := _ + (-9223371966579724800 + -62135596800)) (by push_cast; omega) (by push_cast; omega)]
  rw [wrap64_of_range (by push_cast; omega) (by push_cast; omega)]
  congr 1
  push_cast; omega

theorem zone_start (off : Int) : ∃ p r, zoneText off = p :: r ∧ p ≠ '.' ∧ p ≠ ',' ∧ digitChar p = false := by
  unfold zoneText
  split_ifs
  · exact ⟨_, _, rfl, by decide, by decide, by decide⟩
  · exact ⟨_, _, rfl, by decide, by decide, by decide⟩
  · exact ⟨_, _, rfl, by decide, by decide, by decide⟩

theorem getFraction_text {n : Nat} {f : List Char} (h : FractionText n f) (off : Int) :
    getFraction (f ++ zoneText off) = (n, zoneText off) := by
  obtain ⟨p, r, hz, hp1, hp2, hp3⟩ := zone_start off
  rcases h with ⟨rfl, rfl⟩ | ⟨ds, rfl, hne, hlen, hall, -, hval⟩
  · rw [List.nil_append, hz]
    cases r with
    | nil => rfl
    | cons a r => simp only [getFraction]; rw [if_neg (by simp [hp1, hp2])]
  · have hd : ∀ c ∈ ds, digitChar c = true := by
      intro c hc
      obtain ⟨h1, h2⟩ := hall c hc
      have h1 : '0'.val ≤ c.val := h1
      have h2 : c.val ≤ '9'.val := h2
      rw [UInt32.le_iff_toNat_le] at h1 h2
      simp only [digitChar, decide_eq_true_eq]
      exact ⟨h1, h2⟩
    cases ds with
    | nil => exact absurd rfl hne
    | cons a ds =>
      have ha := hd a (by simp)
      have htw : (ds ++ zoneText off).takeWhile digitChar = ds := by
        rw [List.takeWhile_append_of_pos (fun c hc => hd c (by simp [hc])), hz, List.takeWhile_cons_of_neg (by simp [hp3])]
        simp
      have hdw : (ds ++ zoneText off).dropWhile digitChar = zoneText off := by
        rw [List.dropWhile_append_of_pos (fun c hc => hd c (by simp [hc])), hz, List.dropWhile_cons_of_neg (by simp [hp3])]
      simp only [List.cons_append, getFraction]
      rw [if_pos (by simp [ha]), htw, hdw]
      simp only [Prod.mk.injEq, and_true]
      have e : ((a :: ds) ++ List.replicate 9 '0').take 9 = (a :: ds) ++ List.replicate (9 - (a :: ds).length) '0' := by
        rw [List.take_append, List.take_of_length_le hlen, List.take_replicate]
        congr 2
        omega
      have hzr : ∀ k v, (List.replicate k '0').foldl (fun n c => n * 10 + digitVal c) v = v * 10 ^ k := by
        intro k
        induction k with
        | zero => simp
        | succ k ih => intro v; rw [List.replicate_succ, List.foldl_cons, ih, pow_succ]; simp [digitVal]; ring
      have e' := congrArg (List.foldl (fun n c => n * 10 + digitVal c) 0) e
      rw [List.cons_append] at e'
      rw [e', List.foldl_append, hzr]
      exact hval

theorem getZone_sign {a b c d : Char} (ha : digitChar a = true) (hb : digitChar b = true) (hc : digitChar c = true)
    (hd : digitChar d = true) {v : Nat} (hv : (digitVal a * 10 + digitVal b) * 60 + (digitVal c * 10 + digitVal d) = v) :
    getZone ['+', a, b, ':', c, d] = some ((v : Int) * 60, []) ∧
    getZone ['-', a, b, ':', c, d] = some (-((v : Int) * 60), []) := by
  subst hv
  constructor <;> simp [getZone, ha, hb, hc, hd]

theorem getZone_text {off : Int} (ho : IsOffset off) : getZone (zoneText off) = some (off - off.tmod 60, []) := by
  unfold IsOffset at ho
  have ht : off.tmod 60 = off - 60 * off.tdiv 60 := by have := Int.mul_tdiv_add_tmod off 60; omega
  unfold zoneText
  by_cases h0 : off = 0
  · subst h0; rfl
  rw [if_neg h0]
  have ev : (digitVal (dig (off.natAbs / 36000)) * 10 + digitVal (dig (off.natAbs / 3600))) * 60 +
      (digitVal (dig (off.natAbs / 600 % 6)) * 10 + digitVal (dig (off.natAbs / 60 % 10))) = off.natAbs / 60 := by
    simp only [dig_val]; omega
  by_cases h : off ≤ -60
  · rw [if_pos h]
    rw [(getZone_sign (dig_digit _) (dig_digit _) (dig_digit _) (dig_digit _) ev).2]
    have : off.tdiv 60 = -((off.natAbs / 60 : Nat) : Int) := by
      obtain ⟨m, rfl⟩ : ∃ m : Nat, off = -(m : Int) := ⟨off.natAbs, by omega⟩
      rw [Int.neg_tdiv, Int.tdiv_eq_ediv_of_nonneg (by omega)]; simp
    rw [ht, this]
    simp only [Option.some.injEq, Prod.mk.injEq, and_true]
    omega
  · rw [if_neg h]
    rw [(getZone_sign (dig_digit _) (dig_digit _) (dig_digit _) (dig_digit _) ev).1]
    have : off.tdiv 60 = ((off.natAbs / 60 : Nat) : Int) := by
      rcases Int.le_total 0 off with h' | h'
      · rw [Int.tdiv_eq_ediv_of_nonneg h']; omega
      · obtain ⟨m, rfl⟩ : ∃ m : Nat, off = -(m : Int) := ⟨off.natAbs, by omega⟩
        rw [Int.neg_tdiv, Int.tdiv_eq_ediv_of_nonneg (by omega)]; omega
    rw [ht, this]
    simp only [Option.some.injEq, Prod.mk.injEq, and_true]
    omega

/-- Reading a text made of date, clock, fraction and zone. -/
theorem readTime_text {y m d s n : Nat} {f : List Char} {off : Int} (hy : y < 10000) (h : RealDate y m d) (hs : s < 86400)
    (hf : FractionText n f) (ho : IsOffset off) :
    readTime (dateText y m d ++ 'T' :: (clockText s ++ (f ++ zoneText off))) =
      some ((midnight y m d + s - (off - off.tmod 60)) * 1000000000 + n) := by
  have hr := h
  obtain ⟨q1, q2, q3, q4⟩ := h
  have h31 : monthLength y m ≤ 31 := by unfold monthLength; split_ifs <;> omega
  have ey : digitVal (dig (y / 1000)) * 1000 + digitVal (dig (y / 100)) * 100 + digitVal (dig (y / 10)) * 10
      + digitVal (dig y) = y := by simp only [dig_val]; omega
  have em : digitVal (dig (m / 10)) * 10 + digitVal (dig m) = m := by simp only [dig_val]; omega
  have ed : digitVal (dig (d / 10)) * 10 + digitVal (dig d) = d := by simp only [dig_val]; omega
  have e1 : digitVal (dig (s / 36000)) * 10 + digitVal (dig (s / 3600 % 10)) = s / 3600 := by simp only [dig_val]; omega
  have e2 : digitVal (dig (s / 600 % 6)) * 10 + digitVal (dig (s / 60 % 10)) = s / 60 % 60 := by simp only [dig_val]; omega
  have e3 : digitVal (dig (s % 60 / 10)) * 10 + digitVal (dig s) = s % 60 := by simp only [dig_val]; omega
  have hyl := years_le y
  have hml := months_le y (m - 1)
  have hdc : dayCount y m d < 4000000 := by unfold dayCount; omega
  have hu : unixToInternal = 62135596800 := rfl
  have hdi := daysIn_eq (y := y) q1 q2
  have hcl : parseClock (clockText s ++ (f ++ zoneText off)) =
      some (s / 3600, s / 60 % 60, s % 60, n, off - off.tmod 60) := by
    simp only [parseClock, clockText, List.cons_append, List.nil_append, getnum1, getnum2, skipChar, dig_digit,
      Bool.and_self, if_true, Option.bind_some, e1, e2, e3, getFraction_text hf, getZone_text ho]
    rw [if_neg (by omega), if_neg (by omega), if_neg (by omega)]
  have hoff : off - off.tmod 60 = 60 * off.tdiv 60 := by have := Int.mul_tdiv_add_tmod off 60; omega
  have hob : -86400 < off - off.tmod 60 ∧ off - off.tmod 60 < 86400 := by
    unfold IsOffset at ho
    rw [hoff]
    rcases Int.le_total 0 off with h' | h'
    · rw [Int.tdiv_eq_ediv_of_nonneg h']; omega
    · obtain ⟨k, rfl⟩ : ∃ k, off = -k := ⟨-off, by omega⟩
      rw [Int.neg_tdiv, Int.tdiv_eq_ediv_of_nonneg (by omega)]; omega
  simp only [readTime, parseRFC3339, dateText, List.cons_append, List.nil_append, getYear, getnum2,
    skipChar, dig_digit, Bool.and_self, if_true, Option.bind_some, ey, em, ed, hcl]
  rw [if_neg (by omega), if_neg (by omega), goDate_clock hy hr (by omega) (by omega) (by omega)]
  simp only [Option.map_some, Option.some.injEq]
  rw [wrap64_of_range]
  · push_cast
    omega
  · simp only [midnight, dayCount_1970]; push_cast; omega
  · simp only [midnight, dayCount_1970]; push_cast; omega

/-- C167: reading the text gives the instant, late by the seconds of the zone offset that the text
does not show. -/
theorem C167_back {off ns : Int} (ht : IsTime ns) (ho : IsOffset off) {s : List Char} (h : writeTime off ns = some s) :
    readTime s = some (ns + off.tmod 60 * 1000000000) := by
  have h4 : FourDigits off ns := (C167_written ht ho).1 (by rw [h]; rfl)
  obtain ⟨y, m, d, c, f, h1, h2, h3, h5, h6, h7⟩ := C167_text ht ho h4
  rw [h] at h7
  rw [Option.some.inj h7, readTime_text h1 h2 h3 h6 ho]
  unfold clock at h5
  unfold nanos
  rw [Option.some.injEq]
  omega

/-- C167: the same instant is read if and only if the zone is a whole number of minutes from UTC. -/
theorem C167_same_iff {off ns : Int} (ht : IsTime ns) (ho : IsOffset off) {s : List Char} (h : writeTime off ns = some s) :
    readTime s = some ns ↔ (60 : Int) ∣ off := by
  rw [C167_back ht ho h, Option.some.injEq, Int.dvd_iff_tmod_eq_zero]
  omega

theorem timeChar_unescaped {c : Char} (h : ('0' ≤ c ∧ c ≤ '9') ∨ c ∈ "-:.+TZ".toList) :
    32 ≤ c.toNat ∧ c ∉ "\"\\<>&".toList ∧ c.toNat ≠ 0x2028 ∧ c.toNat ≠ 0x2029 := by
  rcases h with ⟨h1, h2⟩ | h
  · have h1 : 48 ≤ c.toNat := h1
    have h2 : c.toNat ≤ 57 := h2
    obtain ⟨n, hn, rfl⟩ : ∃ n, n < 58 ∧ c = Char.ofNat n := ⟨c.toNat, by omega, by simp⟩
    have key : ∀ n < 58, 48 ≤ (Char.ofNat n).toNat → 32 ≤ (Char.ofNat n).toNat ∧ Char.ofNat n ∉ "\"\\<>&".toList ∧
      (Char.ofNat n).toNat ≠ 0x2028 ∧ (Char.ofNat n).toNat ≠ 0x2029 := by decide
    exact key n hn h1
  · revert c; decide

/-- C167: no character of a time needs an escape. -/
theorem C167_unescaped {off ns : Int} (ht : IsTime ns) (ho : IsOffset off) {s : List Char}
    (h : writeTime off ns = some s) : Json.Spec.Unescaped s := by
  have h4 : FourDigits off ns := (C167_written ht ho).1 (by rw [h]; rfl)
  obtain ⟨y, m, d, c, f, -, -, -, -, hf, h7⟩ := C167_text ht ho h4
  rw [h] at h7
  obtain rfl := Option.some.inj h7
  intro x hx
  apply timeChar_unescaped
  have hd : ∀ n, '0' ≤ dig n ∧ dig n ≤ '9' := by
    intro n
    have : n % 10 < 10 := by omega
    unfold dig
    generalize n % 10 = k at this
    interval_cases k <;> decide
  have hz : ∀ x ∈ zoneText off, ('0' ≤ x ∧ x ≤ '9') ∨ x ∈ "-:.+TZ".toList := by
    intro x hx
    unfold zoneText at hx
    split_ifs at hx <;> simp only [List.mem_cons, List.not_mem_nil, or_false] at hx
    · right; subst hx; decide
    all_goals
      rcases hx with rfl | rfl | rfl | rfl | rfl | rfl
      · right; decide
      · exact .inl (hd _)
      · exact .inl (hd _)
      · right; decide
      · exact .inl (hd _)
      · exact .inl (hd _)
  have hff : ∀ x ∈ f, ('0' ≤ x ∧ x ≤ '9') ∨ x ∈ "-:.+TZ".toList := by
    intro x hx
    rcases hf with ⟨-, rfl⟩ | ⟨ds, rfl, -, -, h, -⟩
    · simp at hx
    · rcases List.mem_cons.1 hx with rfl | hx
      · right; decide
      · exact .inl (h x hx)
  simp only [List.mem_append, List.mem_cons, dateText, clockText, List.not_mem_nil, or_false] at hx
  aesop (add norm simp hd) (add safe forward hz) (add safe forward hff)

/-- C167: in a JSON encoding that writes times this way (each instant in its zone) exactly the times
with a year of four digits and an offset of whole minutes survive. -/
theorem C167_times {E : Json.Env} {zone : Int → Int} (hz : ∀ t, IsOffset (zone t)) (hw : ∀ t, E.write t = writeTime (zone t) t)
    (hr : E.read = readTime) {t : Int} (ht : IsTime t) :
    Json.Spec.TimeOk E t ↔ FourDigits (zone t) t ∧ (60 : Int) ∣ zone t := by
  unfold Json.Spec.TimeOk
  rw [hw, hr]
  constructor
  · rintro ⟨s, h1, -, h2⟩
    exact ⟨(C167_written ht (hz t)).1 (by rw [h1]; rfl), (C167_same_iff ht (hz t) h1).1 h2⟩
  · rintro ⟨h1, h2⟩
    obtain ⟨s, hs⟩ := Option.isSome_iff_exists.1 ((C167_written ht (hz t)).2 h1)
    exact ⟨s, hs, C167_unescaped ht (hz t) hs, (C167_same_iff ht (hz t) hs).2 h2⟩

/-- C167: a trade at a time in UTC with a year of four digits survives JSON. -/
theorem C167_trade {E : Json.Env} (hE : Json.Spec.Good E) (hw : ∀ t, E.write t = writeTime 0 t) (hr : E.read = readTime)
    {r : Trade} (ht : IsTime r.executionTime) (h4 : FourDigits 0 r.executionTime)
    (hf : Json.Spec.Fin64 E r.price ∧ Json.Spec.Fin64 E r.quantity ∧ Json.Spec.Fin64 E r.fee ∧ Json.Spec.Fin64 E r.cost) :
    Json.Spec.Survives E.trade r :=
  (Json.C161_trade hE r).1 ⟨(C167_times (zone := fun _ => 0) (fun _ => by unfold IsOffset; omega) hw hr ht).2
    ⟨h4, by simp⟩, hf⟩

/-- C167: a date read by `RawDateToRFC3339` is written as the date with the time the function appends. -/
theorem C167_raw_date {s : List Char} {t : Time} (h : rawDateToRFC3339 s = .ok t) :
    writeTime 0 ((t.ext - unixToInternal) * 1000000000 + t.nsec) = some (s ++ "T00:00:00Z".toList) := by
  rw [show "T00:00:00Z".toList = midnightSuffix by decide]
  obtain ⟨y, m, d, hy, hr, rfl, rfl⟩ := (C96_accepts_exactly_dates s t).1 h
  have hs : (midnight y m d + unixToInternal - unixToInternal) * 1000000000 + (0 : Int) = midnight y m d * 1000000000 := by
    omega
  simp only [hs]
  have ho : IsOffset 0 := by unfold IsOffset; omega
  have hcl : clock 0 (midnight y m d * 1000000000) = midnight y m d := by unfold clock; omega
  have hyl := years_le y
  have hml := months_le y (m - 1)
  have hr' := hr
  obtain ⟨q1, q2, q3, q4⟩ := hr'
  have h31 : monthLength y m ≤ 31 := by unfold monthLength; split_ifs <;> omega
  have hdc : dayCount y m d < 4000000 := by unfold dayCount; omega
  have ht : IsTime (midnight y m d * 1000000000) := by
    unfold IsTime
    simp only [midnight, dayCount_1970]
    omega
  have h4 : FourDigits 0 (midnight y m d * 1000000000) := by
    unfold FourDigits
    rw [hcl, midnight_first]
    constructor
    · simp only [midnight, dayCount_1970]; omega
    · rcases Nat.lt_or_ge y 9999 with h' | h'
      · have := dayCount_lt hr (show RealDate 9999 12 31 by decide) (Or.inl h')
        unfold midnight; omega
      · have : y = 9999 := by omega
        by_cases hlt : m < 12 ∨ (m = 12 ∧ d < 31)
        · have := dayCount_lt hr (show RealDate 9999 12 31 by decide) (Or.inr ⟨this, hlt⟩)
          unfold midnight; omega
        · have hm : m = 12 := by omega
          have hd : d = 31 := by omega
          rw [this, hm, hd]; omega
  obtain ⟨y', m', d', c, f, h1, h2, h3, h5, h6, h7⟩ := C167_text ht ho h4
  rw [hcl] at h5
  have hc : c = 0 := by unfold midnight at h5; omega
  subst hc
  have hday : dayCount y m d = dayCount y' m' d' := by unfold midnight at h5; omega
  have he : y = y' ∧ m = m' ∧ d = d' := by
    by_contra hne
    rcases (show (y < y' ∨ (y = y' ∧ (m < m' ∨ (m = m' ∧ d < d')))) ∨ (y' < y ∨ (y' = y ∧ (m' < m ∨ (m' = m ∧ d' < d)))) by omega)
      with h' | h'
    · have := dayCount_lt hr h2 h'; omega
    · have := dayCount_lt h2 hr h'; omega
  obtain ⟨rfl, rfl, rfl⟩ := he
  rw [h7]
  have hn : nanos (midnight y m d * 1000000000) = 0 := by unfold nanos; omega
  rw [hn] at h6
  have hfe : f = [] := by
    rcases h6 with ⟨-, h⟩ | ⟨ds, rfl, hne, -, hall, hlast, hval⟩
    · exact h
    · exfalso
      have hval : ds.foldl (fun v c => v * 10 + (c.toNat - 48)) 0 = 0 := by
        rcases Nat.mul_eq_zero.1 hval with h | h
        · exact h
        · exact absurd h (by positivity)
      obtain ⟨l, a, rfl⟩ : ∃ l a, ds = l ++ [a] := ⟨ds.dropLast, ds.getLast hne, (List.dropLast_concat_getLast hne).symm⟩
      rw [List.foldl_append] at hval
      simp only [List.foldl_cons, List.foldl_nil] at hval
      obtain ⟨g1, -⟩ := hall a (by simp)
      have g1 : '0'.val ≤ a.val := g1
      rw [UInt32.le_iff_toNat_le] at g1
      have g2 : a.toNat = 48 := by have : '0'.val.toNat = 48 := rfl; have : a.val.toNat = a.toNat := rfl; omega
      apply hlast
      rw [List.getLast?_append]
      have : a = '0' := Char.ext (UInt32.ext g2)
      simp [this]
  rw [hfe]
  rfl

/-- C167: the zero time, which an open position has as its close time, survives in UTC. -/
theorem C167_zero : writeTime 0 (-62135596800 * 1000000000) = some "0001-01-01T00:00:00Z".toList ∧
    readTime "0001-01-01T00:00:00Z".toList = some (-62135596800 * 1000000000) := by decide +kernel

example : writeTime (-16200) 1614902400123450000 = some "2021-03-04T19:30:00.12345-04:30".toList ∧
    readTime "2021-03-04T19:30:00.12345-04:30".toList = some 1614902400123450000 := by decide +kernel

/-- Amsterdam in 1900 was 19 minutes and 32 seconds ahead. -/
example : writeTime 1172 (-2208988800 * 1000000000) = some "1900-01-01T00:19:32+00:19".toList ∧
    readTime "1900-01-01T00:19:32+00:19".toList = some (-2208988768 * 1000000000) := by decide +kernel

end Finmod
