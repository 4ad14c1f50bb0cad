import Verif.Props.CandleSpacing
import Verif.Props.CandleRegular

/-!
# Series with gaps and their smallest interval: C246
-/

namespace Finmod
open Go Spec

/-- Times rise by a minute or more from candle to candle. -/
def Spec.Rising (cs : List Candle) : Prop :=
  (∀ c ∈ cs, |c.time| ≤ 2 ^ 51) ∧ List.IsChain (fun a b : Candle => a.time + 60 ≤ b.time) cs

/-- Full statement of C246: a series can be resampled to the interval `GetMinInterval` reports. -/
def Spec.C246_claim (S : FloatSem) (minute : Int → Int) : Prop :=
  ∀ cs : List Candle, 2 ≤ cs.length → Rising cs → (∃ c ∈ cs, Aligned minute (getMinInterval S cs) c) →
    ∃ out, modifyInterval S minute cs (getMinInterval S cs) = .ok out

theorem gaps_rising : ∀ {cs : List Candle}, Rising cs → ∀ g ∈ gaps cs, 60 ≤ g ∧ g < 2 ^ 53
  | [], _, g, h => by simp [gaps] at h
  | [_], _, g, h => by simp [gaps] at h
  | a :: b :: cs, ⟨h1, h2⟩, g, h => by
    have e : gaps (a :: b :: cs) = |b.time - a.time| :: gaps (b :: cs) := by simp [gaps]
    rw [e] at h
    rw [List.isChain_cons_cons] at h2
    rcases List.mem_cons.1 h with rfl | h
    · have ha := abs_le.1 (h1 a (by simp))
      have hb := abs_le.1 (h1 b (by simp))
      rw [abs_of_nonneg (by omega)]
      omega
    · exact gaps_rising ⟨fun c hc => h1 c (by simp [hc]), h2.2⟩ g h

/-- The smallest interval, for rising times. -/
theorem minInterval_rising {S : FloatSem} (hS : Lawful S) {c0 c1 : Candle} {cs : List Candle} (h : Rising (c0 :: c1 :: cs)) :
    1 ≤ getMinInterval S (c0 :: c1 :: cs) ∧ getMinInterval S (c0 :: c1 :: cs) ≤ (c1.time - c0.time) / 60 ∧
    60 ≤ c1.time - c0.time := by
  obtain ⟨g, hg, hmin, e⟩ := C34_minInterval S hS _ (by simp) fun g hg => (gaps_rising h g hg).2
  have h60 := (gaps_rising h g hg).1
  have hc := (List.isChain_cons_cons.1 h.2).1
  have := hmin |c1.time - c0.time| (by simp [gaps])
  rw [abs_of_nonneg (by omega)] at this
  rw [e]
  refine ⟨by omega, Int.ediv_le_ediv (by norm_num) this, by omega⟩

/-- **C246**, what holds: with rising times, `ModifyInterval` to the interval `GetMinInterval` reports is refused if
the first two candles are further apart than that, and otherwise succeeds if some candle is aligned. -/
theorem C246_first_gap_partial {S : FloatSem} (hS : Lawful S) (hp : PrintSafe S) (minute : Int → Int) (c0 c1 : Candle)
    (cs : List Candle) (h : Rising (c0 :: c1 :: cs)) :
    let m := getMinInterval S (c0 :: c1 :: cs)
    ((c1.time - c0.time) / 60 ≠ m → modifyInterval S minute (c0 :: c1 :: cs) m = .err .econflict []) ∧
    ((c1.time - c0.time) / 60 = m → (∃ c ∈ c0 :: c1 :: cs, Aligned minute m c) →
      ∃ out, modifyInterval S minute (c0 :: c1 :: cs) m = .ok out) := by
  intro m
  obtain ⟨h1, h2, h3⟩ := minInterval_rising hS h
  have b0 : |c0.time| ≤ 2 ^ 51 := h.1 c0 (by simp)
  have b1 : |c1.time| ≤ 2 ^ 51 := h.1 c1 (by simp)
  have hgap : 60 ≤ |c1.time - c0.time| := by rw [abs_of_nonneg (by omega)]; exact h3
  have et : Int.tdiv (c1.time - c0.time) 60 = (c1.time - c0.time) / 60 := Int.tdiv_eq_ediv_of_nonneg (by omega)
  change 1 ≤ m at h1
  change m ≤ _ at h2
  constructor
  · intro hne
    refine (C30_rejects S minute c0 c1 cs m (by omega) (by omega) hgap).2.1 ?_
    rw [et]
    intro hd
    have := Int.le_of_dvd (by omega) hd
    omega
  · intro he hal
    refine C30_accepts S hS hp minute c0 c1 cs m (by omega) (by omega) hgap (by omega) ?_ ?_ hal
    · rw [et, he]
    · rw [et, he]; omega

theorem splitB_all (bd : Candle → Bool) : ∀ (vs : List Candle) (p : Candle), (∀ v ∈ vs, bd v = true) →
    splitB bd [p] vs = (p :: vs).map fun c => [c]
  | [], _, _ => rfl
  | v :: vs, p, h => by
    rw [splitB, if_pos (h v (by simp)), splitB_all bd vs v fun w hw => h w (by simp [hw])]
    rfl

/-- **C246**, the result: if moreover all times are a multiple of that interval apart, every candle from the first aligned one
on stays a candle of its own (its volume rounded to five decimals), and a gap stays a gap. -/
theorem C246_unchanged {S : FloatSem} (hS : Lawful S) (minute : Int → Int) (cs : List Candle) (hlen : 2 ≤ cs.length)
    (h : Rising cs) (hgrid : ∀ a ∈ cs, ∀ b ∈ cs, 60 * getMinInterval S cs ∣ a.time - b.time) (out : List Candle)
    (ho : modifyInterval S minute cs (getMinInterval S cs) = .ok out) :
    List.Forall₂ (fun c o => Summary S [c] o) (retained minute (getMinInterval S cs) cs) out := by
  obtain ⟨pre, p, rest, hs, hpre, hp, _, hm⟩ := modifyInterval_ok hlen ho
  have hpm : p ∈ cs := by rw [hs]; simp
  have hb : ∀ v ∈ rest, boundary S (getMinInterval S cs) p.time v = true := by
    intro v hv
    have hvm : v ∈ cs := by rw [hs]; simp [hv]
    have b0 : |p.time| ≤ 2 ^ 51 := h.1 p hpm
    have b1 : |v.time| ≤ 2 ^ 51 := h.1 v hvm
    rw [boundary_iff hS (by omega) (by omega)]
    obtain ⟨k, hk⟩ := hgrid v hvm p hpm
    rw [hk, mul_assoc, Int.mul_tdiv_cancel_left _ (by norm_num)]
    exact dvd_mul_right _ _
  rw [splitB_all _ _ _ hb] at hm
  have hr : retained minute (getMinInterval S cs) cs = p :: rest := by
    generalize getMinInterval S cs = m at *
    rw [hs, retained, List.dropWhile_append_of_pos]
    · rw [List.dropWhile_cons_of_neg]
      simp only [decide_not, Bool.not_eq_true', decide_eq_false_iff_not, not_not]
      exact (isAligned_iff _ _ _).1 hp
    · intro v hv
      have := hpre v hv
      simp only [decide_eq_true_eq]
      intro hc
      rw [(isAligned_iff _ _ _).2 hc] at this
      exact absurd this (by simp)
  rw [hr]
  have := (resMapL_ok hm).imp fun _ _ h => compressGroup_summary h
  rw [List.forall₂_map_left_iff] at this
  exact this

/-- Five-minute candles of which the second is missing. -/
def missingSecond : List Candle :=
  [⟨0, .fin 1, .fin 2, .fin 1, .fin 2, .fin 1⟩, ⟨600, .fin 2, .fin 5, .fin 2, .fin 3, .fin 1⟩,
   ⟨900, .fin 3, .fin 4, .fin 1, .fin 1, .fin 2⟩]

/-- **C246** is false: five-minute candles of which the second is missing are refused. -/
theorem C246_gap_violated : ¬ Spec.C246_claim ieee utcMinute := by
  intro h
  obtain ⟨out, e⟩ := h missingSecond (by decide) ⟨by decide, by decide +kernel⟩
    ⟨_, List.mem_cons_self .., by decide +kernel⟩
  have : modifyInterval ieee utcMinute missingSecond (getMinInterval ieee missingSecond) = .err .econflict [] := by
    decide +kernel
  rw [this] at e
  cases e

/-- Five-minute candles of which the third is missing. -/
def missingThird : List Candle :=
  [⟨0, .fin 1, .fin 2, .fin 1, .fin 2, .fin 1⟩, ⟨300, .fin 2, .fin 5, .fin 2, .fin 3, .fin 1⟩,
   ⟨900, .fin 3, .fin 4, .fin 1, .fin 1, .fin 2⟩]

/-- **Example for C246.** -/
example : Spec.Rising missingThird ∧ getMinInterval ieee missingThird = 5 ∧
    (∀ a ∈ missingThird, ∀ b ∈ missingThird, 60 * getMinInterval ieee missingThird ∣ a.time - b.time) ∧
    modifyInterval ieee utcMinute missingThird (getMinInterval ieee missingThird) = .ok missingThird :=
  ⟨⟨by decide, by decide +kernel⟩, by decide +kernel, by decide +kernel, by decide +kernel⟩

end Finmod
