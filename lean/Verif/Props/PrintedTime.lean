import Verif.Model.TimeString
import Verif.Props.JsonTime
import Verif.Props.PrintedBook

/-!
# C175: printed times
-/

namespace Finmod
open Go

namespace Spec

/-- The text of an offset: sign, hours and minutes; seconds are not shown. -/
def offsetText (off : Int) : List Char :=
  (if off ≤ -60 then '-' else '+') ::
    [dig (off.natAbs / 36000), dig (off.natAbs / 3600), dig (off.natAbs / 600 % 6), dig (off.natAbs / 60 % 10)]

/-- The abbreviation of a zone, or its offset if it has none. -/
def abbrText (off : Int) (name : List Char) : List Char := if name = [] then offsetText off else name

/-- Whole minutes. -/
def Minutes (off : Int) : Prop := ∃ k : Int, off = 60 * k

/-- Two numbers that are equal up to `e`; NaN and infinities are equal only to themselves. -/
def WithinUnit (e : ℚ) : Fl → Fl → Prop
  | .fin a, .fin b => |a - b| ≤ e
  | .fin a, .negZero => |a| ≤ e
  | .negZero, .fin b => |b| ≤ e
  | .negZero, .negZero => True
  | .nan, .nan => True
  | .inf a, .inf b => a = b
  | _, _ => False

/-- The zone shows a year of four digits and an offset in whole minutes below a day, and its
abbreviation is without `|`. -/
def ZoneAt (z : Zone) (ns : Int) : Prop :=
  IsOffset (z ns).1 ∧ Minutes (z ns).1 ∧ FourDigits (z ns).1 ns ∧ '|' ∉ (z ns).2

end Spec
open Spec

theorem fourDigits_isTime {off ns : Int} (ho : IsOffset off) (h : FourDigits off ns) : IsTime ns := by
  unfold FourDigits at h
  rw [midnight_first, midnight_last] at h
  unfold clock IsOffset IsTime at *
  omega

theorem numZone_text {off : Int} (ho : IsOffset off) : fmtNumZone off = offsetText off := by
  unfold IsOffset at ho
  unfold fmtNumZone offsetText
  have ez : (off.tdiv 60).natAbs = off.natAbs / 60 := by rw [Int.natAbs_tdiv]; rfl
  have es : off.tdiv 60 < 0 ↔ off ≤ -60 := by
    rcases Int.le_total 0 off with h | h
    · rw [Int.tdiv_eq_ediv_of_nonneg h]; omega
    · obtain ⟨m, rfl⟩ : ∃ m, off = -m := ⟨-off, by omega⟩
      rw [Int.neg_tdiv, Int.tdiv_eq_ediv_of_nonneg (by omega)]; omega
  simp only [ez, es]
  rw [padInt2 _ (by omega), padInt2 _ (by omega)]
  have e1 : off.natAbs / 60 / 60 / 10 = off.natAbs / 36000 := by omega
  have e2 : off.natAbs / 60 / 60 = off.natAbs / 3600 := by omega
  have e3 : off.natAbs / 60 % 60 / 10 = off.natAbs / 600 % 6 := by omega
  have e4 : dig (off.natAbs / 60 % 60) = dig (off.natAbs / 60 % 10) := dig_mod_eq _ _ (by omega)
  rw [e1, e2, e3, e4]
  rfl

theorem fmtYear_nat (Y : Nat) : fmtYear (Y : Int) = padInt 4 Y := by
  unfold fmtYear
  rw [if_neg (by omega), Int.natAbs_natCast]

theorem timeString_year {off ns : Int} (name : List Char) {Y : Nat}
    (h : (absYear (absSeconds off ns / 86400)).1 = absZeroYear + Y) : timeString off name ns =
    padInt 4 Y ++ '-' :: (padInt 2 (monthDay (isLeap Y) (absYear (absSeconds off ns / 86400)).2).1 ++ '-' ::
      (padInt 2 (monthDay (isLeap Y) (absYear (absSeconds off ns / 86400)).2).2 ++ ' ' ::
      (padInt 2 (absSeconds off ns % 86400 / 3600) ++ ':' :: (padInt 2 (absSeconds off ns % 86400 % 3600 / 60) ++ ':' ::
      (padInt 2 (absSeconds off ns % 86400 % 60) ++ (fmtFraction (nanos ns) ++ ' ' ::
      (fmtNumZone off ++ ' ' :: fmtZoneName off name))))))) := by
  have e : ((absYear (absSeconds off ns / 86400)).1 : Int) - (absZeroYear : Int) = (Y : Int) := by
    rw [h]; generalize absZeroYear = Z; push_cast; ring
  unfold timeString nanos
  simp only [e, fmtYear_nat, Int.natAbs_natCast]

/-- **C175.** The text shows date and time on the clock of the zone, the fraction of the second, the
offset and the abbreviation. -/
theorem C175_text {off ns : Int} (ho : IsOffset off) (h : FourDigits off ns) (name : List Char) :
    ∃ (y m d s : Nat) (f : List Char), y < 10000 ∧ RealDate y m d ∧ s < 86400 ∧ clock off ns = midnight y m d + s ∧
      FractionText (nanos ns) f ∧ timeString off name ns =
        dateText y m d ++ ' ' :: (clockText s ++ (f ++ ' ' :: (offsetText off ++ ' ' :: abbrText off name))) := by
  have ht := fourDigits_isTime ho h
  have hr := (absYear_range _).2 ((abs_range ht ho).1 h)
  obtain ⟨e1, e2⟩ := absYear_year hr.1
  obtain ⟨r1, r2⟩ := monthDay_spec e2
  have ha := abs_clock h
  have hyear := daysSinceEpoch_eq ((absYear (absSeconds off ns / 86400)).1 - absZeroYear)
  refine ⟨_, _, _, absSeconds off ns % 86400, fmtFraction (nanos ns), ?_, r1, by omega, ?_, fraction_text (by unfold nanos; omega), ?_⟩
  · omega
  · rw [midnight, dayCount_1970, r2]
    have := epoch_days.1
    omega
  · rw [timeString_year name (Y := (absYear (absSeconds off ns / 86400)).1 - absZeroYear) (by omega), fmtZoneName]
    obtain ⟨q1, q2, q3, q4⟩ := r1
    have h31 : ∀ y m, monthLength y m ≤ 31 := by intro y m; unfold monthLength; split_ifs <;> omega
    have h31 := le_trans q4 (h31 _ _)
    rw [padInt4 (by omega), padInt2 _ (by omega), padInt2 _ (by omega), padInt2 _ (by omega), padInt2 _ (by omega),
      padInt2 _ (by omega), numZone_text ho]
    generalize absSeconds off ns % 86400 = s
    have c1 : s / 3600 / 10 = s / 36000 := by omega
    have c2 : dig (s / 3600) = dig (s / 3600 % 10) := dig_mod_eq _ _ (by omega)
    have c3 : s % 3600 / 60 / 10 = s / 600 % 6 := by omega
    have c4 : dig (s % 3600 / 60) = dig (s / 60 % 10) := dig_mod_eq _ _ (by omega)
    have c5 : dig (s % 60) = dig s := dig_mod_eq _ _ (by omega)
    rw [c1, c2, c3, c4, c5]
    rfl

/-- The first candle of the repository's data in UTC and half an hour off; a zone without name. -/
example : timeString 0 "UTC".toList 1592611200000000000 = "2020-06-20 00:00:00 +0000 UTC".toList ∧
    timeString (-12600) "NST".toList 1592611200500000000 = "2020-06-19 20:30:00.5 -0330 NST".toList ∧
    timeString 20700 [] (-1) = "1970-01-01 05:44:59.999999999 +0545 +0545".toList ∧
    IsOffset (-12600) ∧ FourDigits (-12600) 1592611200500000000 := by
  refine ⟨by decide +kernel, by decide +kernel, by decide +kernel, by unfold IsOffset; omega, ?_⟩
  unfold FourDigits
  rw [midnight_first, midnight_last]
  unfold clock
  omega

theorem fraction_no_space {n : Nat} {f : List Char} (h : FractionText n f) : ' ' ∉ f := by
  rcases h with ⟨-, rfl⟩ | ⟨ds, rfl, -, -, hd, -, -⟩
  · simp
  · intro hm
    rcases List.mem_cons.1 hm with h | h
    · revert h; decide
    · have := (hd _ h).1
      revert this; decide

theorem fraction_inj {n m : Nat} {f : List Char} (h : FractionText n f) (h' : FractionText m f) : n = m := by
  rcases h with ⟨rfl, rfl⟩ | ⟨ds, rfl, -, -, -, -, hv⟩
  · rcases h' with ⟨rfl, -⟩ | ⟨ds, hf, -⟩
    · rfl
    · cases hf
  · rcases h' with ⟨-, hf⟩ | ⟨ds', hf, -, -, -, -, hv'⟩
    · cases hf
    · cases hf
      exact hv.symm.trans hv'

theorem clockText_inj {s t : Nat} (hs : s < 86400) (ht : t < 86400) (h : clockText s = clockText t) : s = t := by
  simp only [clockText, List.cons.injEq, dig_eq, true_and, and_true] at h
  omega

theorem dateText_inj {y m d y' m' d' : Nat} (hy : y < 10000) (hy' : y' < 10000) (hr : RealDate y m d)
    (hr' : RealDate y' m' d') (h : dateText y m d = dateText y' m' d') : y = y' ∧ m = m' ∧ d = d' := by
  obtain ⟨q1, q2, q3, q4⟩ := hr
  obtain ⟨p1, p2, p3, p4⟩ := hr'
  have h31 : monthLength y m ≤ 31 := by unfold monthLength; split_ifs <;> omega
  have h31' : monthLength y' m' ≤ 31 := by unfold monthLength; split_ifs <;> omega
  simp only [dateText, List.cons.injEq, dig_eq, true_and, and_true] at h
  omega

theorem offsetText_inj {off off' : Int} (ho : IsOffset off) (ho' : IsOffset off') (hm : Minutes off) (hm' : Minutes off')
    (h : offsetText off = offsetText off') : off = off' := by
  obtain ⟨k, rfl⟩ := hm
  obtain ⟨k', rfl⟩ := hm'
  unfold IsOffset at ho ho'
  simp only [offsetText, List.cons.injEq, dig_eq, and_true] at h
  obtain ⟨h1, h2⟩ := h
  have : k < 0 ↔ k' < 0 := by
    split_ifs at h1 <;> first | omega | exact absurd h1 (by decide)
  omega

/-- What the text says, from the beginning of a longer text. -/
theorem timeString_prefix {off off' ns ns' : Int} (ho : IsOffset off) (ho' : IsOffset off') (h : FourDigits off ns)
    (h' : FourDigits off' ns') {name name' : List Char} {x y : List Char}
    (e : timeString off name ns ++ x = timeString off' name' ns' ++ y) :
    clock off ns = clock off' ns' ∧ nanos ns = nanos ns' ∧ offsetText off = offsetText off' ∧
      abbrText off name ++ x = abbrText off' name' ++ y := by
  obtain ⟨a, m, d, s, f, ha, hr, hs, hc, hf, ht⟩ := C175_text ho h name
  obtain ⟨a', m', d', s', f', ha', hr', hs', hc', hf', ht'⟩ := C175_text ho' h' name'
  rw [ht, ht'] at e
  simp only [List.append_assoc, List.cons_append] at e
  obtain ⟨e1, e⟩ := List.append_inj e rfl
  obtain ⟨e2, e⟩ := List.append_inj (List.cons.inj e).2 rfl
  obtain ⟨e3, e⟩ := sep_split (fraction_no_space hf) (fraction_no_space hf') e
  obtain ⟨e4, e⟩ := List.append_inj e rfl
  have e5 := (List.cons.inj e).2
  obtain ⟨rfl, rfl, rfl⟩ := dateText_inj ha ha' hr hr' e1
  obtain rfl := clockText_inj hs hs' e2
  subst e3
  exact ⟨hc.trans hc'.symm, fraction_inj hf hf', e4, e5⟩

theorem instant_of_clock {off ns ns' : Int} (h : clock off ns = clock off ns') (hn : nanos ns = nanos ns') : ns = ns' := by
  unfold clock nanos at *
  omega

/-- **C175.** Two times with the same text are the same instant, at the same offset, whatever the
zones are called. -/
theorem C175_instant {off off' ns ns' : Int} (ho : IsOffset off) (ho' : IsOffset off') (hm : Minutes off)
    (hm' : Minutes off') (h : FourDigits off ns) (h' : FourDigits off' ns') {name name' : List Char}
    (e : timeString off name ns = timeString off' name' ns') : ns = ns' ∧ off = off' := by
  obtain ⟨h1, h2, h3, -⟩ := timeString_prefix ho ho' h h' (x := []) (y := []) (by rw [e])
  obtain rfl := offsetText_inj ho ho' hm hm' h3
  exact ⟨instant_of_clock h1 h2, rfl⟩

/-- Seconds of the offset are not shown: two instants with the same text. -/
example : timeString 15 "LMT".toList 1000000000 = timeString 0 "LMT".toList 16000000000 ∧ ¬ Minutes 15 := by
  refine ⟨by decide +kernel, ?_⟩
  rintro ⟨k, hk⟩; omega

theorem lex_append {A B x y : List Char} (hl : A.length = B.length) (h : A < B) : A ++ x < B ++ y := by
  induction A generalizing B with
  | nil =>
    cases B with
    | nil => simp at h
    | cons b B => simp at hl
  | cons a A ih =>
    cases B with
    | nil => simp at hl
    | cons b B =>
      rw [List.cons_append, List.cons_append, List.cons_lt_cons_iff]
      rw [List.cons_lt_cons_iff] at h
      rcases h with h | ⟨rfl, h⟩
      · exact .inl h
      · exact .inr ⟨rfl, ih (by simpa using hl) h⟩

theorem lex_append_left (A : List Char) {x y : List Char} (h : x < y) : A ++ x < A ++ y := by
  induction A with
  | nil => exact h
  | cons a A ih => rw [List.cons_append, List.cons_append, List.cons_lt_cons_iff]; exact .inr ⟨rfl, ih⟩

theorem clockText_lt {s t : Nat} (ht : t < 86400) (h : s < t) : clockText s < clockText t := by
  have hc : ((':' : Char) < ':') = False := by simp
  have hnil : (([] : List Char) < []) = False := by simp
  simp only [clockText, List.cons_lt_cons_iff, dig_lt, dig_eq, hc, hnil, true_and, false_or, and_false, or_false]
  obtain ⟨a, b, c, d, e, f, rfl, h1, h2, h3, h4, h5, h6⟩ : ∃ a b c d e f, s = 36000 * a + 3600 * b + 600 * c + 60 * d + 10 * e + f ∧
      a < 3 ∧ b < 10 ∧ c < 6 ∧ d < 10 ∧ e < 6 ∧ f < 10 :=
    ⟨s / 36000, s / 3600 % 10, s / 600 % 6, s / 60 % 10, s / 10 % 6, s % 10, by omega, by omega, by omega, by omega, by omega,
      by omega, by omega⟩
  obtain ⟨a', b', c', d', e', f', rfl, h1', h2', h3', h4', h5', h6'⟩ : ∃ a b c d e f, t = 36000 * a + 3600 * b + 600 * c + 60 * d + 10 * e + f ∧
      a < 3 ∧ b < 10 ∧ c < 6 ∧ d < 10 ∧ e < 6 ∧ f < 10 :=
    ⟨t / 36000, t / 3600 % 10, t / 600 % 6, t / 60 % 10, t / 10 % 6, t % 10, by omega, by omega, by omega, by omega, by omega,
      by omega, by omega⟩
  have k1 : ∀ a b c d e f : Nat, a < 3 → b < 10 → c < 6 → d < 10 → e < 6 → f < 10 →
      (36000 * a + 3600 * b + 600 * c + 60 * d + 10 * e + f) / 36000 % 10 = a ∧
      (36000 * a + 3600 * b + 600 * c + 60 * d + 10 * e + f) / 3600 % 10 % 10 = b ∧
      (36000 * a + 3600 * b + 600 * c + 60 * d + 10 * e + f) / 600 % 6 % 10 = c ∧
      (36000 * a + 3600 * b + 600 * c + 60 * d + 10 * e + f) / 60 % 10 % 10 = d ∧
      (36000 * a + 3600 * b + 600 * c + 60 * d + 10 * e + f) % 60 / 10 % 10 = e ∧
      (36000 * a + 3600 * b + 600 * c + 60 * d + 10 * e + f) % 10 = f := by
    intro a b c d e f _ _ _ _ _ _
    refine ⟨?_, ?_, ?_, ?_, ?_, ?_⟩ <;> omega
  obtain ⟨u1, u2, u3, u4, u5, u6⟩ := k1 a b c d e f h1 h2 h3 h4 h5 h6
  obtain ⟨v1, v2, v3, v4, v5, v6⟩ := k1 a' b' c' d' e' f' h1' h2' h3' h4' h5' h6'
  rw [u1, u2, u3, u4, u5, u6, v1, v2, v3, v4, v5, v6]
  clear u1 u2 u3 u4 u5 u6 v1 v2 v3 v4 v5 v6 k1
  omega

/-- **C175.** Texts sort, byte by byte, like the seconds on the clock. -/
theorem C175_order {off off' ns ns' : Int} (ho : IsOffset off) (ho' : IsOffset off') (h : FourDigits off ns)
    (h' : FourDigits off' ns') (name name' : List Char) (hlt : clock off ns < clock off' ns') :
    timeString off name ns < timeString off' name' ns' := by
  obtain ⟨y, m, d, s, f, hy, hr, hs, hc, hf, ht⟩ := C175_text ho h name
  obtain ⟨y', m', d', s', f', hy', hr', hs', hc', hf', ht'⟩ := C175_text ho' h' name'
  rw [ht, ht']
  have hr1 := hr
  have hr1' := hr'
  obtain ⟨q1, q2, q3, q4⟩ := hr1
  obtain ⟨p1, p2, p3, p4⟩ := hr1'
  have h31 : monthLength y m ≤ 31 := by unfold monthLength; split_ifs <;> omega
  have h31' : monthLength y' m' ≤ 31 := by unfold monthLength; split_ifs <;> omega
  by_cases hd : y < y' ∨ (y = y' ∧ (m < m' ∨ (m = m' ∧ d < d')))
  · exact lex_append rfl ((dateText_lt hy hy' (by omega) (by omega) (by omega) (by omega)).2 hd)
  · have : (y' < y ∨ (y' = y ∧ (m' < m ∨ (m' = m ∧ d' < d)))) ∨ (y = y' ∧ m = m' ∧ d = d') := by omega
    rcases this with this | ⟨rfl, rfl, rfl⟩
    · have := dayCount_lt hr' hr this
      unfold midnight at hc hc'
      omega
    · refine lex_append_left _ ?_
      rw [List.cons_lt_cons_iff]
      exact .inr ⟨rfl, lex_append rfl (clockText_lt hs' (by omega))⟩

/-! ### Texts without line feeds and bars -/

theorem mem_padInt {w n : Nat} {c : Char} (h : c ∈ padInt w n) : digitC c = true := by
  unfold padInt at h
  rcases List.mem_append.1 h with h | h
  · rw [(List.mem_replicate.1 h).2]; decide
  · exact digitC_toDigits h

/-- A digit, one of `-+:. `, or a character of the abbreviation. -/
theorem mem_timeString {off ns : Int} {name : List Char} : ∀ c ∈ timeString off name ns,
    digitC c = true ∨ c ∈ ['-', '+', ':', '.', ' '] ∨ c ∈ name := by
  have happ : ∀ {l m : List Char}, (∀ x ∈ l, digitC x = true ∨ x ∈ ['-', '+', ':', '.', ' '] ∨ x ∈ name) →
      (∀ x ∈ m, digitC x = true ∨ x ∈ ['-', '+', ':', '.', ' '] ∨ x ∈ name) →
      ∀ x ∈ l ++ m, digitC x = true ∨ x ∈ ['-', '+', ':', '.', ' '] ∨ x ∈ name := by
    intro l m hl hm x hx
    rcases List.mem_append.1 hx with h | h
    exacts [hl x h, hm x h]
  have hcons : ∀ {a : Char} {m : List Char}, a ∈ ['-', '+', ':', '.', ' '] →
      (∀ x ∈ m, digitC x = true ∨ x ∈ ['-', '+', ':', '.', ' '] ∨ x ∈ name) →
      ∀ x ∈ a :: m, digitC x = true ∨ x ∈ ['-', '+', ':', '.', ' '] ∨ x ∈ name := by
    intro a m ha hm x hx
    rcases List.mem_cons.1 hx with rfl | h
    exacts [.inr (.inl ha), hm x h]
  have hp : ∀ w n, ∀ x ∈ padInt w n, digitC x = true ∨ x ∈ ['-', '+', ':', '.', ' '] ∨ x ∈ name :=
    fun w n x hx => .inl (mem_padInt hx)
  have hy : ∀ y, ∀ x ∈ fmtYear y, digitC x = true ∨ x ∈ ['-', '+', ':', '.', ' '] ∨ x ∈ name := by
    intro y
    unfold fmtYear
    split_ifs
    · exact hcons (by decide) (hp _ _)
    · exact hp _ _
  have hz : ∀ o, ∀ x ∈ fmtNumZone o, digitC x = true ∨ x ∈ ['-', '+', ':', '.', ' '] ∨ x ∈ name := by
    intro o
    unfold fmtNumZone
    exact hcons (by split_ifs <;> decide) (happ (hp _ _) (hp _ _))
  have hn : ∀ x ∈ fmtZoneName off name, digitC x = true ∨ x ∈ ['-', '+', ':', '.', ' '] ∨ x ∈ name := by
    unfold fmtZoneName
    split_ifs
    · exact hz _
    · exact fun x hx => .inr (.inr hx)
  have hf : ∀ n, ∀ x ∈ fmtFraction n, digitC x = true ∨ x ∈ ['-', '+', ':', '.', ' '] ∨ x ∈ name := by
    intro n
    obtain ⟨k, hk⟩ := trim_zeros (padInt 9 n)
    unfold fmtFraction
    revert hk
    generalize ((padInt 9 n).reverse.dropWhile fun c => c == '0').reverse = T
    intro hk
    cases T with
    | nil => simp
    | cons a T => exact hcons (by decide) fun x hx => hp 9 n x (by rw [hk]; exact List.mem_append_left _ hx)
  unfold timeString
  dsimp only
  exact happ (hy _) (hcons (by decide) (happ (hp _ _) (hcons (by decide) (happ (hp _ _) (hcons (by decide) (happ (hp _ _)
    (hcons (by decide) (happ (hp _ _) (hcons (by decide) (happ (hp _ _) (happ (hf _) (hcons (by decide) (happ (hz _)
      (hcons (by decide) hn))))))))))))))

theorem feed_byte {c : Char} (h : c ≠ '\n') : (10 : UInt8) ∉ String.utf8EncodeChar c := by
  have hv : c.val.toNat ≠ 10 := fun e => h (Char.ext (UInt32.toNat_inj.1 e))
  have key : ∀ n : Nat, (10 : UInt8) = UInt8.ofNat n → n % 256 = 10 := by
    intro n e
    have := congrArg UInt8.toNat e
    simpa using this.symm
  have hv' : c.val.toNat < 1114112 := by
    rcases c.valid with h | h
    · exact lt_trans h (by decide)
    · exact h.2
  unfold String.utf8EncodeChar
  dsimp only
  split_ifs with h1 h2 h3
  · intro hm
    rw [List.mem_singleton] at hm
    have := key _ hm
    omega
  · intro hm
    simp only [List.mem_cons, List.not_mem_nil, or_false] at hm
    rcases hm with hm | hm <;> have := key _ hm <;> omega
  · intro hm
    simp only [List.mem_cons, List.not_mem_nil, or_false] at hm
    rcases hm with hm | hm | hm <;> have := key _ hm <;> omega
  · intro hm
    simp only [List.mem_cons, List.not_mem_nil, or_false] at hm
    rcases hm with hm | hm | hm | hm <;> have := key _ hm <;> omega

/-- **C175.** Times are written without line feeds if the abbreviations are without line feeds. -/
theorem C175_flat {z : Zone} (hz : ∀ ns, '\n' ∉ (z ns).2) : (∀ ns, Flat (z.text ns)) ∧ ∀ sec, Flat (z.unixText sec) := by
  have key : ∀ ns, Flat (z.text ns) := by
    intro ns
    unfold Flat feeds Zone.text
    rw [bytes_ofList, List.count_eq_zero]
    intro hm
    obtain ⟨c, hc, hb⟩ := List.mem_flatMap.1 hm
    refine feed_byte ?_ hb
    rintro rfl
    rcases mem_timeString _ hc with h | h | h
    · revert h; decide
    · revert h; decide
    · exact hz ns h
  exact ⟨key, fun sec => key _⟩

/-! ### Candles -/

theorem fixed_abs {k : Nat} {q : ℚ} {n : Nat} (hn : NearestUnits k |q| n) :
    |(signed (decide (q < 0)) n : ℚ) / 10 ^ k - q| ≤ 1 / (2 * 10 ^ k) := by
  refine le_trans (le_of_eq ?_) hn.1
  unfold signed
  by_cases h : q < 0
  · simp only [h, decide_true, if_true, abs_of_neg h, Int.cast_neg, Int.cast_natCast]
    rw [← abs_neg]; congr 1; ring
  · simp only [h, decide_false, Bool.false_eq_true, if_false, abs_of_nonneg (not_lt.1 h), Int.cast_natCast]

theorem fixed_special {k : Nat} {neg : Bool} {n : Nat} {t : List Char} (h : Fixed k neg n t) :
    t ≠ ['N', 'a', 'N'] ∧ t ≠ ['+', 'I', 'n', 'f'] ∧ t ≠ ['-', 'I', 'n', 'f'] := by
  obtain ⟨A, B, rfl, -, -⟩ := h
  have hm : '.' ∈ (if neg then ['-'] else []) ++ (A ++ '.' :: B) := by simp
  refine ⟨?_, ?_, ?_⟩ <;> intro e <;> rw [e] at hm <;> revert hm <;> decide

/-- **C175.** Two numbers with the same text of `k` decimals differ by at most one unit of the last. -/
theorem C175_close {k : Nat} (hk : 1 ≤ k) {x y : Fl} (e : fmtFixed k x = fmtFixed k y) : WithinUnit (1 / 10 ^ k) x y := by
  have hp : (0 : ℚ) < 10 ^ k := by positivity
  have hu : (1 : ℚ) / 10 ^ k = 1 / (2 * 10 ^ k) + 1 / (2 * 10 ^ k) := by field_simp; norm_num
  have hpos : (0 : ℚ) < 1 / (2 * 10 ^ k) := by positivity
  have hfin : ∀ q : ℚ, ∃ neg n, Fixed k neg n (fmtFixed k (.fin q)) ∧ |(signed neg n : ℚ) / 10 ^ k - q| ≤ 1 / (2 * 10 ^ k) := by
    intro q
    obtain ⟨n, h1, h2⟩ := (C173_text hk q _).1 rfl
    exact ⟨_, n, h2, fixed_abs h1⟩
  have hzero := (C173_special k).2.2.2
  have hval : ∀ (q : ℚ), fmtFixed k (.fin q) = fmtFixed k .negZero → |q| ≤ 1 / 10 ^ k := by
    intro q hq
    obtain ⟨neg, n, h1, h2⟩ := hfin q
    obtain ⟨rfl, rfl⟩ := (C173_texts_unique h1 hzero).1 hq
    rw [hu]
    simp only [signed, Nat.cast_zero, neg_zero, if_true, Int.cast_zero, zero_div, zero_sub, abs_neg] at h2
    linarith
  have hsp : ∀ x : Fl, (∃ q, x = .fin q) ∨ x = .negZero → ∃ neg n, Fixed k neg n (fmtFixed k x) := by
    rintro x (⟨q, rfl⟩ | rfl)
    · obtain ⟨neg, n, h, -⟩ := hfin q; exact ⟨_, _, h⟩
    · exact ⟨_, _, hzero⟩
  have hne : ∀ x y : Fl, ((∃ q, x = .fin q) ∨ x = .negZero) → (y = .nan ∨ ∃ s, y = .inf s) → fmtFixed k x ≠ fmtFixed k y := by
    intro x y hx hy e
    obtain ⟨neg, n, h⟩ := hsp x hx
    obtain ⟨h1, h2, h3⟩ := fixed_special h
    rcases hy with rfl | ⟨s, rfl⟩
    · exact h1 e
    · cases s
      · exact h2 e
      · exact h3 e
  cases x with
  | nan =>
    cases y with
    | nan => trivial
    | inf s => cases s <;> exact absurd e (by simp [fmtFixed])
    | fin q => exact absurd e.symm (hne _ _ (.inl ⟨_, rfl⟩) (.inl rfl))
    | negZero => exact absurd e.symm (hne _ _ (.inr rfl) (.inl rfl))
  | inf s =>
    cases y with
    | nan => cases s <;> exact absurd e (by simp [fmtFixed])
    | inf s' => cases s <;> cases s' <;> first | rfl | exact absurd e (by simp [fmtFixed])
    | fin q => exact absurd e.symm (hne _ _ (.inl ⟨_, rfl⟩) (.inr ⟨_, rfl⟩))
    | negZero => exact absurd e.symm (hne _ _ (.inr rfl) (.inr ⟨_, rfl⟩))
  | fin q =>
    cases y with
    | nan => exact absurd e (hne _ _ (.inl ⟨_, rfl⟩) (.inl rfl))
    | inf s => exact absurd e (hne _ _ (.inl ⟨_, rfl⟩) (.inr ⟨_, rfl⟩))
    | negZero => exact hval q e
    | fin r =>
      obtain ⟨neg, n, h1, h2⟩ := hfin q
      obtain ⟨neg', n', g1, g2⟩ := hfin r
      obtain ⟨rfl, rfl⟩ := (C173_texts_unique h1 g1).1 e
      show |q - r| ≤ _
      rw [hu]
      have a := abs_le.1 h2
      have b := abs_le.1 g2
      rw [abs_le]
      constructor <;> linarith
  | negZero =>
    cases y with
    | nan => exact absurd e (hne _ _ (.inr rfl) (.inl rfl))
    | inf s => exact absurd e (hne _ _ (.inr rfl) (.inr ⟨_, rfl⟩))
    | negZero => trivial
    | fin r => exact hval r e.symm

theorem bar_split {a b x y : List Char} (ha : '|' ∉ a) (hb : '|' ∉ b) (h : a ++ ' ' :: '|' :: x = b ++ ' ' :: '|' :: y) :
    a = b ∧ x = y := by
  have h' : (a ++ [' ']) ++ '|' :: x = (b ++ [' ']) ++ '|' :: y := by simpa using h
  have hs : ∀ {l : List Char}, '|' ∉ l → '|' ∉ l ++ [' '] := by intro l hl; simp [hl]
  obtain ⟨h1, h2⟩ := sep_split (hs ha) (hs hb) h'
  exact ⟨List.append_cancel_right h1, h2⟩

/-- **C175.** Two candles with the same `String` have the same time, and prices and volumes that
differ by at most 0.0001. -/
theorem C175_candle {pick : ℚ → Nat × ℤ} {eprec : ℤ} {time : Int → String} {z : Zone} {c c' : Candle}
    (h : ZoneAt z (c.time * 1000000000)) (h' : ZoneAt z (c'.time * 1000000000))
    (e : c.string (Fmt.go pick eprec time z.unixText) = c'.string (Fmt.go pick eprec time z.unixText)) :
    c.time = c'.time ∧ WithinUnit (1 / 10 ^ 4) c.opn c'.opn ∧ WithinUnit (1 / 10 ^ 4) c.high c'.high ∧
      WithinUnit (1 / 10 ^ 4) c.low c'.low ∧ WithinUnit (1 / 10 ^ 4) c.close c'.close ∧
      WithinUnit (1 / 10 ^ 4) c.volume c'.volume := by
  obtain ⟨h1, h2, h3, h4⟩ := h
  obtain ⟨g1, g2, g3, g4⟩ := h'
  have e := congrArg String.toList (bytes_injective (Res.ok.inj e))
  simp only [String.toList_append, List.append_assoc, Fmt.go, Zone.unixText, Zone.text, String.toList_ofList] at e
  have e := List.append_cancel_left e
  have hbar : ∀ ns, '|' ∉ (z ns).2 → '|' ∉ timeString (z ns).1 (z ns).2 ns := by
    intro ns hz hm
    rcases mem_timeString _ hm with h | h | h
    · revert h; decide
    · revert h; decide
    · exact hz h
  have c1 : " | Open: ".toList = ' ' :: '|' :: " Open: ".toList := by decide +kernel
  have c2 : " | High: ".toList = ' ' :: "| High: ".toList := by decide +kernel
  have c3 : " | Low: ".toList = ' ' :: "| Low: ".toList := by decide +kernel
  have c4 : " | Close: ".toList = ' ' :: "| Close: ".toList := by decide +kernel
  have c5 : " | Volume: ".toList = ' ' :: "| Volume: ".toList := by decide +kernel
  have c6 : "\n".toList = ['\n'] := by decide +kernel
  rw [c1, c2, c3, c4, c5, c6] at e
  have hsp : ∀ k x, ' ' ∉ fmtFixed k x := fun k x hm => (numeral_fmtFixed k x _ hm).ne (d := ' ') (by decide) rfl
  have hnl : ∀ k x, '\n' ∉ fmtFixed k x := fun k x hm => (numeral_fmtFixed k x _ hm).ne (d := '\n') (by decide) rfl
  simp only [List.cons_append] at e
  obtain ⟨et, e⟩ := bar_split (hbar _ h4) (hbar _ g4) e
  have e := List.append_cancel_left e
  obtain ⟨e1, e⟩ := sep_split (hsp _ _) (hsp _ _) e
  have e := List.append_cancel_left e
  obtain ⟨e2, e⟩ := sep_split (hsp _ _) (hsp _ _) e
  have e := List.append_cancel_left e
  obtain ⟨e3, e⟩ := sep_split (hsp _ _) (hsp _ _) e
  have e := List.append_cancel_left e
  obtain ⟨e4, e⟩ := sep_split (hsp _ _) (hsp _ _) e
  have e := List.append_cancel_left e
  obtain ⟨e5, -⟩ := sep_split (hnl _ _) (hnl _ _) e
  obtain ⟨t1, -⟩ := C175_instant h1 g1 h2 g2 h3 g3 et
  exact ⟨by omega, C175_close (by norm_num) e1, C175_close (by norm_num) e2, C175_close (by norm_num) e3,
    C175_close (by norm_num) e4, C175_close (by norm_num) e5⟩

/-- A candle, printed in a zone west of Greenwich. -/
example : let z : Zone := fun _ => (-18000, "EST".toList)
    let c : Candle := ⟨1592611200, .fin 1, .fin (5 / 2), .fin (1 / 3), .fin 2, .fin 1000⟩
    ZoneAt z (c.time * 1000000000) ∧
    c.string (Fmt.go (shortest ieee) 21 z.text z.unixText) = .ok (bytes
      "Time: 2020-06-19 19:00:00 -0500 EST | Open: 1.0000 | High: 2.5000 | Low: 0.3333 | Close: 2.0000 | Volume: 1000.0000\n") := by
  refine ⟨⟨by unfold IsOffset; decide, ⟨-300, by decide⟩, ?_, by decide⟩, by decide +kernel⟩
  show FourDigits (-18000) 1592611200000000000
  unfold FourDigits
  rw [midnight_first, midnight_last]
  unfold clock
  omega

end Finmod
