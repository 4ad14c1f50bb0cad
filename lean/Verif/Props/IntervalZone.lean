import Verif.Props.CandleGroups

/-!
# `ModifyInterval` on machines in different time zones: C248
-/

namespace Finmod
open Go Spec

/-- The minute a clock shows that is `off t` seconds ahead of UTC at the time `t` (offsets change with summer time). -/
def Spec.minuteAt (off : Int → Int) (t : Int) : Int := (t + off t) / 60 % 60

/-- Full statement of C248: two machines, in whatever zones, resample alike. -/
def Spec.C248_claim (S : FloatSem) : Prop :=
  ∀ (off off' : Int → Int) (cs : List Candle) (interval : Int),
    modifyInterval S (minuteAt off) cs interval = modifyInterval S (minuteAt off') cs interval

/-- The zone matters only for which candles are aligned. -/
theorem modifyInterval_zone (S : FloatSem) {minute minute' : Int → Int} {cs : List Candle} {interval : Int}
    (h : ∀ c ∈ cs, Aligned minute interval c ↔ Aligned minute' interval c) :
    modifyInterval S minute cs interval = modifyInterval S minute' cs interval := by
  have e : findFirstIndex minute cs interval = findFirstIndex minute' cs interval := by
    unfold findFirstIndex
    rw [show cs.findIdx? (isAligned minute interval) = cs.findIdx? (isAligned minute' interval) from ?_]
    have : ∀ c ∈ cs, isAligned minute interval c = isAligned minute' interval c := fun c hc => by
      rw [Bool.eq_iff_iff, isAligned_iff, isAligned_iff]; exact h c hc
    clear h
    induction cs with
    | nil => rfl
    | cons c cs ih =>
      rw [List.findIdx?_cons, List.findIdx?_cons, this c (by simp), ih fun d hd => this d (by simp [hd])]
  unfold modifyInterval
  rw [e]

/-- **C248**, what holds: machines whose zones are whole hours apart resample alike, to any interval. -/
theorem C248_hours_partial (S : FloatSem) (off off' : Int → Int) (cs : List Candle) (interval : Int)
    (h : ∀ t, 3600 ∣ off t - off' t) :
    modifyInterval S (minuteAt off) cs interval = modifyInterval S (minuteAt off') cs interval := by
  have : minuteAt off = minuteAt off' := by
    funext t
    have := h t
    unfold minuteAt
    omega
  rw [this]

/-- **C248**, what holds: machines whose zones are a multiple of the interval apart resample alike, if the interval divides
the hour. So intervals of 1, 2, 3, 5, 6, 10, 15 and 30 minutes come out the same in zones half an hour apart. -/
theorem C248_divides_partial (S : FloatSem) (off off' : Int → Int) (cs : List Candle) (interval : Int)
    (h1 : 1 ≤ interval) (hd : interval ∣ 60) (h : ∀ t, 60 * interval ∣ off t - off' t) :
    modifyInterval S (minuteAt off) cs interval = modifyInterval S (minuteAt off') cs interval := by
  refine modifyInterval_zone S fun c _ => ?_
  have hle := Int.le_of_dvd (by norm_num) hd
  have hmp : minutePart interval = interval := by
    unfold minutePart
    rw [if_neg (by omega)]
    exact if_neg (by omega)
  have key : ∀ o, Aligned (minuteAt o) interval c ↔ interval ∣ (c.time + o c.time) / 60 := by
    intro o
    unfold Aligned minuteAt
    rw [hmp]
    generalize (c.time + o c.time) / 60 = m
    have hm := Int.mul_ediv_add_emod m 60
    constructor
    · intro hh
      have h2 : interval ∣ m % 60 := by
        rcases hh with hh | hh
        · rw [hh]; exact dvd_zero _
        · exact hh
      rw [← hm]
      exact dvd_add (dvd_mul_of_dvd_left hd _) h2
    · intro hh
      right
      rw [← hm] at hh
      exact (Int.dvd_add_right (dvd_mul_of_dvd_left hd _)).1 hh
  rw [key, key]
  obtain ⟨k, hk⟩ := h c.time
  rw [show c.time + off c.time = c.time + off' c.time + 60 * (interval * k) by rw [← mul_assoc, ← hk]; ring,
    Int.add_mul_ediv_left _ _ (by norm_num)]
  exact Int.dvd_add_left (dvd_mul_right _ _)

/-- **C248**: where the clock shows no full hour at the full hours of UTC, candles of full hours cannot be resampled to
any number of hours. -/
theorem C248_half_hours (S : FloatSem) (off : Int → Int) (c0 c1 : Candle) (cs : List Candle) (k : Int) (hk : 1 ≤ k)
    (hoff : ∀ t, 60 ≤ off t % 3600) (h0 : |c0.time| ≤ 2 ^ 62) (h1 : |c1.time| < 2 ^ 62) (hgap : 60 ≤ |c1.time - c0.time|)
    (hd : Int.tdiv (c1.time - c0.time) 60 ∣ 60 * k) (hours : ∀ c ∈ c0 :: c1 :: cs, 3600 ∣ c.time) :
    modifyInterval S (minuteAt off) (c0 :: c1 :: cs) (60 * k) = .err .einvalid [] := by
  refine (C30_rejects S (minuteAt off) c0 c1 cs (60 * k) h0 h1 hgap).2.2.1 hd (by omega) ?_
  intro c hc
  have h := hours c hc
  have hoff := hoff c.time
  have hmp : minutePart (60 * k) = 60 := by
    unfold minutePart
    by_cases h1 : 60 * k > 60
    · rw [if_pos h1]
      exact if_pos (by omega)
    · rw [if_neg h1]
      exact (if_neg (by omega)).trans (by omega)
  unfold Aligned minuteAt
  rw [hmp]
  omega

/-- Two hourly candles. -/
def twoHours : List Candle := [⟨0, .fin 1, .fin 2, .fin 1, .fin 2, .fin 1⟩, ⟨3600, .fin 2, .fin 5, .fin 2, .fin 3, .fin 1⟩]

/-- **C248** is false: what is one candle of two hours in UTC is an error five and a half hours further east. -/
theorem C248_zone_violated : ¬ Spec.C248_claim ieee := by
  intro h
  have := h (fun _ => 0) (fun _ => 19800) twoHours 120
  revert this
  decide +kernel

/-- **Example for C248.** -/
example : modifyInterval ieee (minuteAt fun _ => 0) twoHours 120 = .ok [⟨0, .fin 1, .fin 5, .fin 1, .fin 3, .fin 2⟩] ∧
    modifyInterval ieee (minuteAt fun _ => 7200) twoHours 120 = .ok [⟨0, .fin 1, .fin 5, .fin 1, .fin 3, .fin 2⟩] ∧
    modifyInterval ieee (minuteAt fun _ => 19800) twoHours 120 = .err .einvalid [] := by decide +kernel

/-- **Example for C248.** A quarter of an hour in a zone of half hours. -/
example :
    let cs : List Candle := [⟨300, .fin 1, .fin 2, .fin 1, .fin 2, .fin 1⟩, ⟨600, .fin 1, .fin 2, .fin 1, .fin 2, .fin 1⟩,
      ⟨900, .fin 2, .fin 5, .fin 2, .fin 3, .fin 1⟩, ⟨1200, .fin 2, .fin 5, .fin 2, .fin 3, .fin 1⟩]
    (60 * (15 : Int) ∣ 19800 - 0) ∧ modifyInterval ieee (minuteAt fun _ => 19800) cs 15 = .ok [⟨900, .fin 2, .fin 5, .fin 2, .fin 3, .fin 2⟩] := by
  decide +kernel

end Finmod
