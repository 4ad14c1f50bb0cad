import Verif.Lemmas.Sort
import Verif.Lemmas.Print5
import Verif.Props.CandleRegular

/-!
# C34, C35: `GetMinInterval`; success of `ModifyInterval` (more of C28 and C30)
-/

namespace Finmod
open Go Spec

/-- C28, success: the call does succeed on a regular series with an aligned candle. -/
theorem C28_succeeds (S : FloatSem) (hS : Lawful S) (hp : PrintSafe S) (minute : Int → Int) (d m : Nat)
    (hd : 1 ≤ d) (hm : 1 ≤ m) (candles : List Candle) (hlen : 2 ≤ candles.length)
    (hr : Regular d candles) (hal : ∃ c ∈ candles, Aligned minute (m * d : Nat) c) :
    ∃ out, modifyInterval S minute candles (m * d : Nat) = .ok out := by
  classical
  have hex : ∃ j, ∃ h : j < candles.length, Aligned minute (m * d : Nat) candles[j] := by
    obtain ⟨c, hc, ha⟩ := hal
    obtain ⟨j, hj, rfl⟩ := List.getElem_of_mem hc
    exact ⟨j, hj, ha⟩
  obtain ⟨hj, hja⟩ := Nat.find_spec hex
  obtain ⟨groups, he, hgl, hgi, _⟩ := regular_groups hS minute hd hm hlen hr hj hja
    (fun i hi ha => Nat.find_min hex hi ⟨by omega, ha⟩)
  rw [he]
  apply resMapL_total
  intro g hg
  apply compressGroup_ok hS hp
  obtain ⟨i, hi, rfl⟩ := List.getElem_of_mem hg
  rw [hgi i hi]
  have h1 : i < (candles.length - Nat.find hex + m - 1) / m := by omega
  have h2 := Nat.div_mul_le_self (candles.length - Nat.find hex + m - 1) m
  have h3 : (i + 1) * m ≤ (candles.length - Nat.find hex + m - 1) / m * m := Nat.mul_le_mul_right _ h1
  have h4 : (i + 1) * m = i * m + m := by ring
  simp only [ne_eq, List.take_eq_nil_iff, List.drop_eq_nil_iff, not_or, not_le]
  exact ⟨by omega, by omega⟩

example : PrintSafe ieee ∧ Lawful ieee := ⟨ieee_printSafe, ieee_lawful⟩

/-- C30, completeness: on the machine every other request succeeds — two or more candles, the
first two a minute or more apart, a non-zero multiple of their spacing, some aligned candle. -/
theorem C30_accepts (S : FloatSem) (hS : Lawful S) (hp : PrintSafe S) (minute : Int → Int)
    (c0 c1 : Candle) (cs : List Candle) (interval : Int) (h0 : |c0.time| ≤ 2 ^ 62)
    (h1 : |c1.time| < 2 ^ 62) (hgap : 60 ≤ |c1.time - c0.time|) (hi : interval ≠ 0)
    (hd : Int.tdiv (c1.time - c0.time) 60 ∣ interval)
    (hc : ¬ (interval = 1 ∧ Int.tdiv (c1.time - c0.time) 60 ≠ 1))
    (hal : ∃ c ∈ c0 :: c1 :: cs, Aligned minute interval c) :
    ∃ out, modifyInterval S minute (c0 :: c1 :: cs) interval = .ok out := by
  have hsp := spacing_eq h0 h1
  cases hidx : (c0 :: c1 :: cs).findIdx? (isAligned minute interval) with
  | none =>
    exfalso
    obtain ⟨c, hc, ha⟩ := hal
    have := findIdx?_none_all hidx c hc
    rw [(isAligned_iff _ _ _).2 ha] at this
    exact absurd this (by simp)
  | some i =>
    obtain ⟨pre, p, rest, hs, _, hpp, hpre⟩ := findIdx?_some_split hidx
    rw [modifyInterval_eq S minute c0 c1 cs interval (by rw [hsp]; exact fun h => hc ⟨h.2, h.1⟩)
      (by rw [hsp]; exact tdiv60_ne_zero hgap)
      (by rw [hsp]; exact Int.dvd_iff_tmod_eq_zero.1 hd) pre p rest hs hpre hpp hi]
    apply resMapL_total
    intro g hg
    exact compressGroup_ok hS hp (splitB_ne_nil _ _ _ (by simp) g hg)

example : (modifyInterval ieee utcMinute gapCandles 5).isOk = true := by decide +kernel

/-! ### GetMinInterval -/

/-- Absolute time differences between neighbours. -/
def Spec.gaps (cs : List Candle) : List Int := (cs.zip cs.tail).map (fun p => |p.2.time - p.1.time|)

theorem ofInt_abs {S : FloatSem} (hS : Lawful S) {x : Int} (h : |x| < 2 ^ 53) :
    Fl.abs (S.ofInt (wrap64 x)) = .fin ((|x| : Int) : ℚ) := by
  have hw : wrap64 x = x := by
    rw [abs_lt] at h; exact wrap64_of_range (by omega) (by omega)
  rw [hw, rnd_ofInt hS h.le]
  simp [Fl.abs]

theorem minDiffLoop_eq {S : FloatSem} (hS : Lawful S) (cs : List Candle)
    (hb : ∀ g ∈ gaps cs, g < 2 ^ 53) (acc : Int) :
    ∃ r : Int, minDiffLoop S cs (.fin acc) = .fin r ∧ (r = acc ∨ r ∈ gaps cs) ∧ r ≤ acc ∧
      ∀ g ∈ gaps cs, r ≤ g := by
  induction cs generalizing acc with
  | nil => exact ⟨acc, rfl, .inl rfl, le_refl _, by simp [gaps]⟩
  | cons a cs ih =>
    cases cs with
    | nil => exact ⟨acc, rfl, .inl rfl, le_refl _, by simp [gaps]⟩
    | cons b cs =>
      have hg : gaps (a :: b :: cs) = |b.time - a.time| :: gaps (b :: cs) := by simp [gaps]
      rw [hg] at hb ⊢
      simp only [minDiffLoop]
      rw [ofInt_abs hS (hb _ (by simp))]
      have e : (if Fl.lt (.fin ((|b.time - a.time| : Int) : ℚ)) (.fin (acc : ℚ)) = true
          then Fl.fin ((|b.time - a.time| : Int) : ℚ) else .fin (acc : ℚ)) =
          .fin ((min acc |b.time - a.time| : Int) : ℚ) := by
        rw [Fl.lt_fin]
        by_cases h : |b.time - a.time| < acc
        · rw [if_pos (by simpa using (by exact_mod_cast h)), min_eq_right h.le]
        · rw [if_neg (by simpa using (by exact_mod_cast not_lt.1 h)), min_eq_left (not_lt.1 h)]
      rw [e]
      obtain ⟨r, h1, h2, h3, h4⟩ := ih (fun g hg => hb g (by simp [hg])) (min acc |b.time - a.time|)
      refine ⟨r, h1, ?_, h3.trans (min_le_left _ _), ?_⟩
      · rcases h2 with h2 | h2
        · rcases min_choice acc |b.time - a.time| with h | h
          · left; rw [h2, h]
          · right; rw [h2, h]; simp
        · right; simp [h2]
      · intro g hg
        rcases List.mem_cons.1 hg with rfl | hg
        · exact h3.trans (min_le_right _ _)
        · exact h4 g hg

/-- C34: the smallest absolute difference between neighbouring times, in whole minutes. -/
theorem C34_minInterval (S : FloatSem) (hS : Lawful S) (cs : List Candle) (hlen : 2 ≤ cs.length)
    (hb : ∀ g ∈ gaps cs, g < 2 ^ 53) :
    ∃ g ∈ gaps cs, (∀ g' ∈ gaps cs, g ≤ g') ∧ getMinInterval S cs = g / 60 := by
  match cs, hlen with
  | a :: b :: cs, _ =>
  have hg : gaps (a :: b :: cs) = |b.time - a.time| :: gaps (b :: cs) := by simp [gaps]
  have hlt : |b.time - a.time| < 2 ^ 53 := hb _ (by rw [hg]; simp)
  have hstart : Fl.lt (.fin ((|b.time - a.time| : Int) : ℚ)) (S.const maxFloat64) = true := by
    have hm := hS.r64.mono ((2 ^ 53 : ℤ) : ℚ) maxFloat64 (by decide +kernel)
    rw [hS.r64.int _ (by norm_num)] at hm
    refine Fl.lt_iff.2 ⟨by simp, hS.r64.not_nan _, lt_of_lt_of_le ?_ hm⟩
    simp only [Fl.key, Ext.ofRat_lt]
    exact_mod_cast hlt
  have hfirst : minDiffLoop S (a :: b :: cs) (S.const maxFloat64) =
      minDiffLoop S (b :: cs) (.fin ((|b.time - a.time| : Int) : ℚ)) := by
    simp only [minDiffLoop]
    rw [ofInt_abs hS hlt, if_pos hstart]
  obtain ⟨r, h1, h2, h3, h4⟩ := minDiffLoop_eq hS (b :: cs)
    (fun g h => hb g (by rw [hg]; simp [h])) |b.time - a.time|
  have hmem : r ∈ gaps (a :: b :: cs) := by
    rw [hg]; rcases h2 with h | h <;> simp [h]
  have hnn : ∀ g ∈ gaps (a :: b :: cs), 0 ≤ g := by
    intro g hg
    obtain ⟨p, _, rfl⟩ := List.mem_map.1 hg
    exact abs_nonneg _
  refine ⟨r, hmem, ?_, ?_⟩
  · rw [hg]; intro g hg
    rcases List.mem_cons.1 hg with rfl | hg
    · exact h3
    · exact h4 g hg
  · unfold getMinInterval
    rw [hfirst, h1]
    have hr0 := hnn r hmem
    have : S.toInt (.fin (r : ℚ)) = r := by
      have hn : ¬ ((r : ℚ) < 0) := by rw [not_lt]; exact_mod_cast hr0
      have := hb r hmem
      simp only [FloatSem.toInt, if_neg hn, Int.floor_intCast]
      rw [if_pos ⟨by omega, by omega⟩]
    rw [this]
    exact Int.tdiv_eq_ediv_of_nonneg hr0

example : gaps gapCandles = [60, 360] ∧ getMinInterval ieee gapCandles = 1 := by decide +kernel

/-- Full claim of C35. -/
def Spec.C35_claim : Prop := ∀ cs : List Candle, 0 ≤ getMinInterval ieee cs

/-- C35 is false of the code: with no neighbours math.MaxFloat64 is converted to an integer,
which on amd64 gives the smallest int64 (market/candle.go:87-99). -/
theorem C35_minInterval_violated : ¬ C35_claim := by
  intro h
  have := h []
  revert this
  decide +kernel

/-- C35, the true part. (Missing: lists of fewer than two candles, for which it is false on
amd64, and neighbours 2^53 seconds or more apart.) -/
theorem C35_minInterval_partial (S : FloatSem) (hS : Lawful S) (cs : List Candle)
    (hlen : 2 ≤ cs.length) (hb : ∀ g ∈ gaps cs, g < 2 ^ 53) : 0 ≤ getMinInterval S cs := by
  obtain ⟨g, hg, _, h⟩ := C34_minInterval S hS cs hlen hb
  rw [h]
  obtain ⟨p, _, rfl⟩ := List.mem_map.1 hg
  exact Int.ediv_nonneg (abs_nonneg _) (by norm_num)

example : ∀ g ∈ gaps gapCandles, g < 2 ^ 53 := by decide +kernel

end Finmod
