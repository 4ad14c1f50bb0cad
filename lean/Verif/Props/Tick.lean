import Verif.Model.Tick

/-!
# C95: times of a tick
-/

namespace Finmod
open Go

theorem unix_timeUnix {s : Int} (h1 : -2 ^ 63 ≤ s) (h2 : s < 2 ^ 63) : (timeUnix s).unix = s := by
  have h : (timeUnix s).unix = Int.bmod s (2 ^ 64) := by
    simp only [timeUnix, Time.unix, wrap64]
    rw [Int.sub_eq_add_neg, Int.bmod_add_bmod, Int.add_assoc, Int.add_right_neg, Int.add_zero]
  rw [h]
  exact wrap64_of_range h1 h2

/-- C95: the local time of a tick is the candle's instant, for every int64 time. -/
theorem C95_local_time (c : Candle) (h1 : -2 ^ 63 ≤ c.time) (h2 : c.time < 2 ^ 63) :
    ∃ r, Tick.getLocalTime ⟨some c⟩ = .ok r ∧ r.unix = c.time ∧ r.nanos = c.time * 1000000000 ∧
      r.loc = "Local" := by
  refine ⟨_, rfl, unix_timeUnix h1 h2, ?_, rfl⟩
  simp only [Time.nanos, unix_timeUnix h1 h2]
  simp [timeUnix]

/-- C95: the time in a location is the same instant whatever the zone, displayed there; an unknown
location is an error and nothing is read. -/
theorem C95_location_time (zones : String → Bool) (c : Candle) (location : String)
    (h1 : -2 ^ 63 ≤ c.time) (h2 : c.time < 2 ^ 63) :
    (∀ loc, loadLocation zones location = some loc → ∃ r, Tick.getLocationTime zones ⟨some c⟩ location = .ok r ∧
      r.unix = c.time ∧ r.nanos = c.time * 1000000000 ∧ r.loc = loc ∧
      ∀ l, Tick.getLocalTime ⟨some c⟩ = .ok l → r.equal l = true) ∧
    (∀ t, loadLocation zones location = none → Tick.getLocationTime zones t location = .err .external zeroTime) := by
  refine ⟨fun loc h => ?_, fun t h => ?_⟩
  · have hu : ((timeUnix c.time).inLoc loc).unix = c.time := unix_timeUnix h1 h2
    refine ⟨(timeUnix c.time).inLoc loc, by simp only [Tick.getLocationTime, h], hu, ?_, rfl, ?_⟩
    · rw [Time.nanos, hu]
      simp [timeUnix, Time.inLoc]
    · intro l hl
      simp only [Tick.getLocalTime, Res.ok.injEq] at hl
      subst hl
      simp [Time.equal, Time.inLoc]
  · simp only [Tick.getLocationTime, h]

/-- Two dots in a row, as a sub-list. -/
theorem hasDotDot_iff (s : List Char) : hasDotDot s = true ↔ ['.', '.'] <:+: s := by
  induction s with
  | nil => simp [hasDotDot]
  | cons c s ih =>
    rw [List.infix_cons_iff, ← ih]
    by_cases h : ['.', '.'] <+: c :: s
    · obtain ⟨t, ht⟩ := h
      simp only [List.cons_append, List.nil_append] at ht
      rw [← ht]
      simp [hasDotDot]
    · have : hasDotDot (c :: s) = hasDotDot s := by
        rw [hasDotDot]
        intro t h1 h2
        exact h ⟨t, by simp [h1, h2]⟩
      simp [this, h]

/-- C95: which locations are known: UTC under two names, the local zone, and the names of the zone
database that do not try to leave it. -/
theorem C95_known_locations (zones : String → Bool) (t : Tick) (location : String) :
    (∃ v, Tick.getLocationTime zones t location = .err .external v) ↔
      location ≠ "" ∧ location ≠ "UTC" ∧ location ≠ "Local" ∧
      (['.', '.'] <:+: location.toList ∨ location.toList.head? = some '/' ∨
        location.toList.head? = some '\\' ∨ zones location = false) := by
  rw [← hasDotDot_iff]
  have key : (∃ v, Tick.getLocationTime zones t location = .err .external v) ↔
      loadLocation zones location = none := by
    constructor
    · rintro ⟨v, hv⟩
      cases h : loadLocation zones location with
      | none => rfl
      | some l =>
        cases hc : t.candle <;> simp [Tick.getLocationTime, h, hc] at hv
    · intro h
      exact ⟨zeroTime, by simp only [Tick.getLocationTime, h]⟩
  rw [key]
  unfold loadLocation
  split_ifs with h1 h2 h3 h4
  · simp only [false_iff]; tauto
  · simp only [false_iff]; tauto
  · simp only [true_iff]; tauto
  · simp only [false_iff]
    rintro ⟨_, _, _, h⟩
    rcases h with h | h | h | h
    · exact h3 (.inl h)
    · exact h3 (.inr (.inl h))
    · exact h3 (.inr (.inr h))
    · simp [h4] at h
  · simp only [true_iff]
    have : zones location = false := by simpa using h4
    tauto

/-- C95: within the years that do not overflow Go's internal seconds, tick times are ordered like
the candles. -/
theorem C95_order (c d : Candle) (hc1 : -2 ^ 63 ≤ c.time) (hc2 : c.time + unixToInternal < 2 ^ 63)
    (hd1 : -2 ^ 63 ≤ d.time) (hd2 : d.time + unixToInternal < 2 ^ 63) :
    (timeUnix c.time).before (timeUnix d.time) = true ↔ c.time < d.time := by
  have hu : unixToInternal = 62135596800 := rfl
  rw [Time.before, decide_eq_true_eq]
  simp only [timeUnix]
  rw [wrap64_of_range (by omega) hc2, wrap64_of_range (by omega) hd2]
  omega

/-- The bound is needed: past it the order of tick times turns around. -/
example : (timeUnix (2 ^ 63 - 1)).before (timeUnix 0) = true := by decide +kernel

/-- A candle of 2021 for the examples. -/
def tickCandle : Candle := ⟨1614920400, .fin 1, .fin 2, .fin 1, .fin 1, .fin 5⟩

example : -2 ^ 63 ≤ tickCandle.time ∧ tickCandle.time < 2 ^ 63 ∧
    loadLocation (fun z => z == "America/Mexico_City") "America/Mexico_City" = some "America/Mexico_City" ∧
    loadLocation (fun z => z == "America/Mexico_City") "Mars/Base" = none ∧
    loadLocation (fun _ => true) "../etc/passwd" = none := by decide +kernel

example : Tick.getLocationTime (fun _ => true) ⟨some tickCandle⟩ "Asia/Tokyo"
    = .ok ⟨1614920400 + 62135596800, 0, "Asia/Tokyo"⟩ := by decide +kernel

end Finmod
