import Verif.Props.JsonTime

/-!
# C206: which texts are read as times
-/

namespace Finmod
open Go Spec

namespace Spec

/-- An hour of one or two digits. -/
def HourText (h : Nat) (t : List Char) : Prop := (h < 10 ∧ t = [dig h]) ∨ (h < 100 ∧ t = [dig (h / 10), dig h])

/-- The number that digits show. -/
def number (ds : List Char) : Nat := ds.foldl (fun v c => v * 10 + (c.toNat - 48)) 0

/-- A fraction of a second with any number of digits, after a point or a comma; all but nine digits are dropped. -/
def ReadFraction (n : Nat) (f : List Char) : Prop :=
  (n = 0 ∧ f = []) ∨ ∃ p ds, (p = '.' ∨ p = ',') ∧ f = p :: ds ∧ ds ≠ [] ∧ (∀ c ∈ ds, '0' ≤ c ∧ c ≤ '9') ∧
    n = number ds * 10 ^ 9 / 10 ^ ds.length

/-- Z, or a sign, two digits for hours and two for minutes. -/
def ReadZone (off : Int) (z : List Char) : Prop :=
  (off = 0 ∧ z = ['Z']) ∨ ∃ h m : Nat, h < 100 ∧ m < 100 ∧
    ((z = ['+', dig (h / 10), dig h, ':', dig (m / 10), dig m] ∧ off = (h * 60 + m) * 60) ∨
     (z = ['-', dig (h / 10), dig h, ':', dig (m / 10), dig m] ∧ off = -((h * 60 + m) * 60)))

end Spec

theorem digitChar_iff (c : Char) : digitChar c = true ↔ '0' ≤ c ∧ c ≤ '9' := by
  unfold digitChar
  rw [decide_eq_true_iff]
  exact Iff.rfl

theorem number_foldl (ds : List Char) : ∀ v, ds.foldl (fun v c => v * 10 + (c.toNat - 48)) v = v * 10 ^ ds.length + number ds := by
  unfold number
  induction ds with
  | nil => intro v; simp
  | cons c ds ih =>
    intro v
    simp only [List.foldl_cons, List.length_cons]
    rw [ih, ih (0 * 10 + _)]
    ring

theorem number_append (a b : List Char) : number (a ++ b) = number a * 10 ^ b.length + number b := by
  conv_lhs => unfold number
  rw [List.foldl_append, number_foldl b]
  rfl

theorem number_zeros (k : Nat) : number (List.replicate k '0') = 0 := by
  induction k with
  | zero => rfl
  | succ k ih =>
    rw [List.replicate_succ, ← List.singleton_append, number_append, ih]
    simp [number]

theorem number_lt {ds : List Char} (h : ∀ c ∈ ds, digitChar c = true) : number ds < 10 ^ ds.length := by
  induction ds with
  | nil => simp [number]
  | cons c ds ih =>
    rw [← List.singleton_append, number_append]
    have h1 := ih fun x hx => h x (List.mem_cons_of_mem _ hx)
    have h2 := digitVal_lt (h c List.mem_cons_self)
    have h3 : number [c] = digitVal c := by simp [number, digitVal]
    rw [h3, List.length_append, List.length_singleton, pow_add, pow_one]
    have : digitVal c * 10 ^ ds.length ≤ 9 * 10 ^ ds.length := Nat.mul_le_mul_right _ (by omega)
    omega

/-- Nine digits of a fraction. -/
theorem nine_digits {ds : List Char} (h : ∀ c ∈ ds, digitChar c = true) :
    number ((ds ++ List.replicate 9 '0').take 9) = number ds * 10 ^ 9 / 10 ^ ds.length := by
  have hp : ∀ k : Nat, 0 < 10 ^ k := fun k => Nat.pow_pos (by omega)
  by_cases hl : ds.length ≤ 9
  · rw [List.take_append, List.take_of_length_le hl, List.take_replicate, min_eq_left (by omega), number_append,
      number_zeros, List.length_replicate, Nat.add_zero]
    symm
    apply Nat.div_eq_of_eq_mul_left (hp _)
    rw [mul_assoc, ← pow_add, Nat.sub_add_cancel hl]
  · rw [List.take_append_of_le_length (by omega)]
    have e := number_append (ds.take 9) (ds.drop 9)
    rw [List.take_append_drop] at e
    have h2 : number (ds.drop 9) < 10 ^ (ds.drop 9).length := number_lt fun c hc => h c (List.mem_of_mem_drop hc)
    have h3 : 10 ^ ds.length = 10 ^ (ds.drop 9).length * 10 ^ 9 := by
      rw [← pow_add, List.length_drop]; congr 1; omega
    rw [h3, Nat.mul_div_mul_right _ _ (hp 9), e, Nat.mul_comm, Nat.mul_add_div (hp _), Nat.div_eq_of_lt h2, Nat.add_zero]

theorem getFraction_read {v : List Char} : ∃ f, v = f ++ (getFraction v).2 ∧ ReadFraction (getFraction v).1 f := by
  match v with
  | [] => exact ⟨[], rfl, .inl ⟨rfl, rfl⟩⟩
  | [a] => exact ⟨[], rfl, .inl ⟨rfl, rfl⟩⟩
  | p :: a :: cs =>
    by_cases hc : (p = '.' ∨ p = ',') ∧ digitChar a = true
    · have hd : ∀ c ∈ a :: cs.takeWhile digitChar, digitChar c = true := by
        intro c hcc
        rcases List.mem_cons.1 hcc with rfl | hcc
        · exact hc.2
        · exact List.all_eq_true.1 List.all_takeWhile c hcc
      refine ⟨p :: a :: cs.takeWhile digitChar, ?_, .inr ⟨p, _, hc.1, rfl, by simp, fun c hcc => (digitChar_iff c).1 (hd c hcc), ?_⟩⟩
      · simp only [getFraction, if_pos hc, List.cons_append, List.takeWhile_append_dropWhile]
      · simp only [getFraction, if_pos hc]
        exact nine_digits hd
    · refine ⟨[], ?_, .inl ⟨?_, rfl⟩⟩ <;> simp only [getFraction, if_neg hc, List.nil_append]

theorem getZone_read {z : List Char} {off : Int} (h : getZone z = some (off, [])) : ReadZone off z := by
  unfold getZone at h
  split at h
  · simp only [Option.some.injEq, Prod.mk.injEq] at h
    exact .inl ⟨h.1.symm, by rw [h.2]⟩
  · rename_i s a b c d cs _
    split at h
    · rename_i hc
      simp only [Bool.and_eq_true] at hc
      obtain ⟨⟨⟨ha, hb⟩, hcc⟩, hd⟩ := hc
      have va := digitVal_lt ha
      have vb := digitVal_lt hb
      have vc := digitVal_lt hcc
      have vd := digitVal_lt hd
      refine .inr ⟨digitVal a * 10 + digitVal b, digitVal c * 10 + digitVal d, by omega, by omega, ?_⟩
      rw [← eq_dig ha (by omega), ← eq_dig hb (by omega), ← eq_dig hcc (by omega), ← eq_dig hd (by omega)]
      split at h
      · rename_i hs
        simp only [Option.some.injEq, Prod.mk.injEq] at h
        obtain ⟨rfl, rfl⟩ := h
        subst hs
        exact .inl ⟨rfl, by push_cast; ring⟩
      · split at h
        · rename_i hs
          simp only [Option.some.injEq, Prod.mk.injEq] at h
          obtain ⟨rfl, rfl⟩ := h
          subst hs
          exact .inr ⟨rfl, by push_cast; ring⟩
        · cases h
    · cases h
  · cases h

theorem getnum1_read {v w : List Char} {n : Nat} (h : getnum1 v = some (n, w)) : ∃ t, v = t ++ w ∧ HourText n t := by
  match v with
  | [] => cases h
  | [a] =>
    simp only [getnum1] at h
    split at h
    · rename_i ha
      have va := digitVal_lt ha
      simp only [Option.some.injEq, Prod.mk.injEq] at h
      obtain ⟨rfl, rfl⟩ := h
      exact ⟨[a], rfl, .inl ⟨va, by rw [← eq_dig ha (by omega)]⟩⟩
    · cases h
  | a :: b :: cs =>
    simp only [getnum1] at h
    split at h
    · rename_i ha
      have va := digitVal_lt ha
      split at h
      · rename_i hb
        have vb := digitVal_lt hb
        simp only [Option.some.injEq, Prod.mk.injEq] at h
        obtain ⟨rfl, rfl⟩ := h
        exact ⟨[a, b], rfl, .inr ⟨by omega, by rw [← eq_dig ha (by omega), ← eq_dig hb (by omega)]⟩⟩
      · simp only [Option.some.injEq, Prod.mk.injEq] at h
        obtain ⟨rfl, rfl⟩ := h
        exact ⟨[a], rfl, .inl ⟨va, by rw [← eq_dig ha (by omega)]⟩⟩
    · cases h

theorem getnum2_read {v w : List Char} {n : Nat} (h : getnum2 v = some (n, w)) : v = dig (n / 10) :: dig n :: w := by
  obtain ⟨a, b, rfl, ha, hb, rfl⟩ := getnum2_some.1 h
  have va := digitVal_lt ha
  have vb := digitVal_lt hb
  rw [← eq_dig ha (by omega), ← eq_dig hb (by omega)]

/-- **C206.** A text that is read as a time is a date of the calendar, T, an hour below 24, a minute and a second below 60,
maybe a fraction, and a zone; the instant read is what they say. All other texts are refused. -/
theorem C206_read {s : List Char} {n : Int} (h : readTime s = some n) :
    ∃ (y m d hh mi ss fr : Nat) (off : Int) (ht f z : List Char), y < 10000 ∧ RealDate y m d ∧ hh < 24 ∧ mi < 60 ∧ ss < 60 ∧
      HourText hh ht ∧ ReadFraction fr f ∧ ReadZone off z ∧
      s = dateText y m d ++ 'T' :: (ht ++ ':' :: dig (mi / 10) :: dig mi :: ':' :: dig (ss / 10) :: dig ss :: (f ++ z)) ∧
      n = (midnight y m d + (hh * 3600 + mi * 60 + ss : Nat) - off) * 1000000000 + fr := by
  unfold readTime at h
  rw [Option.map_eq_some_iff] at h
  obtain ⟨t, h, hn⟩ := h
  simp only [parseRFC3339, Option.bind_eq_some_iff, Prod.exists] at h
  obtain ⟨year, v1, h1, v2, h2, month, v3, h3, h⟩ := h
  split_ifs at h with c1
  simp only [Option.bind_eq_some_iff, Prod.exists] at h
  obtain ⟨v4, h4, day, v5, h5, v6, h6, hour, min, sec, nsec, off, h7, h⟩ := h
  split_ifs at h with c2
  simp only [parseClock, Option.bind_eq_some_iff, Prod.exists] at h7
  obtain ⟨hour', w1, k1, h7⟩ := h7
  split_ifs at h7 with c3
  simp only [Option.bind_eq_some_iff, Prod.exists] at h7
  obtain ⟨w2, k2, min', w3, k3, h7⟩ := h7
  split_ifs at h7 with c4
  simp only [Option.bind_eq_some_iff, Prod.exists] at h7
  obtain ⟨w4, k4, sec', w5, k5, h7⟩ := h7
  split_ifs at h7 with c5
  simp only [Option.bind_eq_some_iff, Prod.exists] at h7
  obtain ⟨off', w6, k6, h7⟩ := h7
  split_ifs at h7 with c6
  simp only [Option.some.injEq, Prod.mk.injEq] at h7
  obtain ⟨rfl, rfl, rfl, rfl, rfl⟩ := h7
  subst c6
  obtain ⟨a, b, c, d, e1, ha, hb, hc, hd, hyear⟩ := getYear_some.1 h1
  have va := digitVal_lt ha
  have vb := digitVal_lt hb
  have vc := digitVal_lt hc
  have vd := digitVal_lt hd
  have hy : year < 10000 := by omega
  have hr : RealDate year month day := by
    have := daysIn_eq (y := year) (m := month) (by omega) (by omega)
    exact ⟨by omega, by omega, by omega, by omega⟩
  obtain ⟨ht, et, ph⟩ := getnum1_read k1
  obtain ⟨f, ef, pf⟩ := getFraction_read (v := w5)
  have pz := getZone_read k6
  refine ⟨year, month, day, hour', min', sec', _, off', ht, f, _, hy, hr, by omega, by omega, by omega, ph, pf, pz, ?_, ?_⟩
  · rw [e1, skipChar_some.1 h2, getnum2_read h3, skipChar_some.1 h4, getnum2_read h5, skipChar_some.1 h6, et,
      skipChar_some.1 k2, getnum2_read k3, skipChar_some.1 k4, getnum2_read k5, ← ef]
    unfold dateText
    rw [← eq_dig (k := year / 1000) ha (by omega), ← eq_dig (k := year / 100) hb (by omega),
      ← eq_dig (k := year / 10) hc (by omega), ← eq_dig (k := year) hd (by omega)]
    rfl
  · rw [goDate_clock hy hr (by omega) (by omega) (by omega)] at h
    simp only [Option.some.injEq] at h
    subst h
    rw [← hn]
    simp only
    have hyl := years_le year
    have hml := months_le year (month - 1)
    obtain ⟨q1, q2, q3, q4⟩ := hr
    have h31 : monthLength year month ≤ 31 := by unfold monthLength; split_ifs <;> omega
    have hdc : dayCount year month day < 4000000 := by unfold dayCount; omega
    have hu : unixToInternal = 62135596800 := rfl
    have hob : -1000000 < off' ∧ off' < 1000000 := by
      rcases pz with ⟨rfl, -⟩ | ⟨p, q, hp, hq, ⟨-, rfl⟩ | ⟨-, rfl⟩⟩ <;> omega
    rw [wrap64_of_range]
    · push_cast; omega
    · simp only [midnight, dayCount_1970]; push_cast; omega
    · simp only [midnight, dayCount_1970]; push_cast; omega

/-- A zone of RFC 3339: below 24 hours. -/
def Spec.StrictZone (off : Int) (z : List Char) : Prop :=
  (off = 0 ∧ z = ['Z']) ∨ ∃ h m : Nat, h < 24 ∧ m < 60 ∧
    ((z = ['+', dig (h / 10), dig h, ':', dig (m / 10), dig m] ∧ off = (h * 60 + m) * 60) ∨
     (z = ['-', dig (h / 10), dig h, ':', dig (m / 10), dig m] ∧ off = -((h * 60 + m) * 60)))

theorem getZone_strict {off : Int} {z : List Char} (h : StrictZone off z) : getZone z = some (off, []) := by
  rcases h with ⟨rfl, rfl⟩ | ⟨p, q, hp, hq, ⟨rfl, rfl⟩ | ⟨rfl, rfl⟩⟩
  · rfl
  · rw [(getZone_sign (dig_digit _) (dig_digit _) (dig_digit _) (dig_digit _) (v := p * 60 + q) (by simp only [dig_val]; omega)).1]
    push_cast; rfl
  · rw [(getZone_sign (dig_digit _) (dig_digit _) (dig_digit _) (dig_digit _) (v := p * 60 + q) (by simp only [dig_val]; omega)).2]
    push_cast; rfl

theorem getFraction_all {n : Nat} {f z : List Char} {off : Int} (h : ReadFraction n f) (hz : StrictZone off z) :
    getFraction (f ++ z) = (n, z) := by
  obtain ⟨p, r, rfl, hp1, hp2, hp3⟩ : ∃ p r, z = p :: r ∧ p ≠ '.' ∧ p ≠ ',' ∧ digitChar p = false := by
    rcases hz with ⟨-, rfl⟩ | ⟨_, _, -, -, ⟨rfl, -⟩ | ⟨rfl, -⟩⟩
    · exact ⟨_, _, rfl, by decide, by decide, by decide⟩
    · exact ⟨_, _, rfl, by decide, by decide, by decide⟩
    · exact ⟨_, _, rfl, by decide, by decide, by decide⟩
  rcases h with ⟨rfl, rfl⟩ | ⟨q, ds, hq, rfl, hne, hd, rfl⟩
  · cases r with
    | nil => rfl
    | cons a r => simp only [List.nil_append, getFraction]; rw [if_neg (by simp [hp1, hp2])]
  · cases ds with
    | nil => exact absurd rfl hne
    | cons a cs =>
      have hdc : ∀ c ∈ a :: cs, digitChar c = true := fun c hc => (digitChar_iff c).2 (hd c hc)
      have ht : (cs ++ p :: r).takeWhile digitChar = cs := by
        rw [List.takeWhile_append_of_pos (fun c hc => hdc c (List.mem_cons_of_mem _ hc))]
        simp [List.takeWhile_cons, hp3]
      have hdr : (cs ++ p :: r).dropWhile digitChar = p :: r := by
        rw [List.dropWhile_append_of_pos (fun c hc => hdc c (List.mem_cons_of_mem _ hc))]
        simp [List.dropWhile_cons, hp3]
      simp only [List.cons_append, getFraction]
      rw [if_pos ⟨hq, hdc a List.mem_cons_self⟩, ht, hdr]
      exact congrArg (·, p :: r) (nine_digits hdc)

/-- **C206.** Every text in the form of RFC 3339, with a fraction of any length, is read as the instant it says; what
nine digits cannot show is dropped. -/
theorem C206_accepted {y m d s n : Nat} {f z : List Char} {off : Int} (hy : y < 10000) (h : RealDate y m d) (hs : s < 86400)
    (hf : ReadFraction n f) (hz : StrictZone off z) :
    readTime (dateText y m d ++ 'T' :: (clockText s ++ (f ++ z))) = some ((midnight y m d + s - off) * 1000000000 + n) := by
  have hr := h
  obtain ⟨q1, q2, q3, q4⟩ := h
  have h31 : monthLength y m ≤ 31 := by unfold monthLength; split_ifs <;> omega
  have ey : digitVal (dig (y / 1000)) * 1000 + digitVal (dig (y / 100)) * 100 + digitVal (dig (y / 10)) * 10
      + digitVal (dig y) = y := by simp only [dig_val]; omega
  have em : digitVal (dig (m / 10)) * 10 + digitVal (dig m) = m := by simp only [dig_val]; omega
  have ed : digitVal (dig (d / 10)) * 10 + digitVal (dig d) = d := by simp only [dig_val]; omega
  have e1 : digitVal (dig (s / 36000)) * 10 + digitVal (dig (s / 3600 % 10)) = s / 3600 := by simp only [dig_val]; omega
  have e2 : digitVal (dig (s / 600 % 6)) * 10 + digitVal (dig (s / 60 % 10)) = s / 60 % 60 := by simp only [dig_val]; omega
  have e3 : digitVal (dig (s % 60 / 10)) * 10 + digitVal (dig s) = s % 60 := by simp only [dig_val]; omega
  have hyl := years_le y
  have hml := months_le y (m - 1)
  have hdc : dayCount y m d < 4000000 := by unfold dayCount; omega
  have hu : unixToInternal = 62135596800 := rfl
  have hdi := daysIn_eq (y := y) q1 q2
  have hcl : parseClock (clockText s ++ (f ++ z)) = some (s / 3600, s / 60 % 60, s % 60, n, off) := by
    simp only [parseClock, clockText, List.cons_append, List.nil_append, getnum1, getnum2, skipChar, dig_digit,
      Bool.and_self, if_true, Option.bind_some, e1, e2, e3, getFraction_all hf hz, getZone_strict hz]
    rw [if_neg (by omega), if_neg (by omega), if_neg (by omega)]
  have hob : -86400 < off ∧ off < 86400 := by
    rcases hz with ⟨rfl, -⟩ | ⟨p, q, hp, hq, ⟨-, rfl⟩ | ⟨-, rfl⟩⟩ <;> omega
  simp only [readTime, parseRFC3339, dateText, List.cons_append, List.nil_append, getYear, getnum2,
    skipChar, dig_digit, Bool.and_self, if_true, Option.bind_some, ey, em, ed, hcl]
  rw [if_neg (by omega), if_neg (by omega), goDate_clock hy hr (by omega) (by omega) (by omega)]
  simp only [Option.map_some, Option.some.injEq]
  rw [wrap64_of_range]
  · push_cast
    omega
  · simp only [midnight, dayCount_1970]; push_cast; omega
  · simp only [midnight, dayCount_1970]; push_cast; omega

/-- C206: a leap day, with a fraction of eleven digits and a zone. -/
example : readTime "2024-02-29T23:59:59.12345678999-05:30".toList = some 1709270999123456789 := by decide +kernel
example : RealDate 2024 2 29 ∧ ReadFraction 123456789 ".12345678999".toList ∧ StrictZone (-19800) "-05:30".toList :=
  ⟨by decide +kernel, .inr ⟨'.', _, .inl rfl, rfl, by decide, by decide, by decide +kernel⟩,
    .inr ⟨5, 30, by decide, by decide, .inr ⟨by decide +kernel, by decide⟩⟩⟩
/-- C206: refused. -/
example : readTime "2023-02-29T00:00:00Z".toList = none ∧ readTime "2024-02-29T24:00:00Z".toList = none ∧
    readTime "2024-02-29T12:60:00Z".toList = none ∧ readTime "2024-02-29T12:00:60Z".toList = none ∧
    readTime "2024-02-29 12:00:00Z".toList = none ∧ readTime "2024-02-29T12:00:00".toList = none := by decide +kernel

end Finmod
