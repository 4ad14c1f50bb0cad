import Verif.Lemmas.Candle
import Verif.Lemmas.FloatX

/-!
# C24–C27, C30, C31: what `ModifyInterval` returns, for any series
-/

namespace Finmod
open Go Spec

/-- The candles from the first aligned one on. -/
abbrev Spec.retained (minute : Int → Int) (interval : Int) (cs : List Candle) : List Candle :=
  cs.dropWhile (fun c => decide (¬ Aligned minute interval c))

theorem forall₂_mem_left {α β : Type} {R : α → β → Prop} {l : List α} {m : List β}
    (h : List.Forall₂ R l m) : ∀ a ∈ l, ∃ b ∈ m, R a b := by
  induction h with
  | nil => simp
  | cons h _ ih =>
    intro a ha
    rcases List.mem_cons.1 ha with rfl | ha
    · exact ⟨_, by simp, h⟩
    · obtain ⟨b, hb, hr⟩ := ih a ha; exact ⟨b, by simp [hb], hr⟩

theorem forall₂_mem_right {α β : Type} {R : α → β → Prop} {l : List α} {m : List β}
    (h : List.Forall₂ R l m) : ∀ b ∈ m, ∃ a ∈ l, R a b := by
  induction h with
  | nil => simp
  | cons h _ ih =>
    intro b hb
    rcases List.mem_cons.1 hb with rfl | hb
    · exact ⟨_, by simp, h⟩
    · obtain ⟨a, ha, hr⟩ := ih b hb; exact ⟨a, by simp [ha], hr⟩

/-- The dropped prefix and the groups of a successful call. -/
theorem modifyInterval_groups {S : FloatSem} {minute : Int → Int} {candles : List Candle}
    {interval : Int} {out : List Candle} (hlen : 2 ≤ candles.length)
    (h : modifyInterval S minute candles interval = .ok out) :
    ∃ groups : List (List Candle),
      retained minute interval candles = groups.flatten ∧ groups ≠ [] ∧
      (∀ g ∈ groups, g ≠ []) ∧ List.Forall₂ (Summary S) groups out := by
  obtain ⟨pre, p, rest, hs, hpre, hp, _, hm⟩ := modifyInterval_ok hlen h
  refine ⟨splitB (boundary S interval p.time) [p] rest, ?_, ?_, splitB_ne_nil _ _ _ (by simp), ?_⟩
  · rw [splitB_flatten, hs, retained, List.dropWhile_append_of_pos]
    · rw [List.dropWhile_cons_of_neg]
      · rfl
      · simp only [decide_not, Bool.not_eq_true', decide_eq_false_iff_not, not_not]
        exact (isAligned_iff _ _ _).1 hp
    · intro v hv
      have := hpre v hv
      simp only [decide_eq_true_eq]
      intro hc
      rw [(isAligned_iff _ _ _).2 hc] at this
      exact absurd this (by simp)
  · intro hc
    have := splitB_flatten (boundary S interval p.time) [p] rest
    rw [hc] at this; simp at this
  · exact (resMapL_ok hm).imp (fun _ _ h => compressGroup_summary h)

/-- C24: the output summarises consecutive non-empty groups of the input minus a prefix. -/
theorem C24_groups (S : FloatSem) (minute : Int → Int) (candles : List Candle) (interval : Int)
    (out : List Candle) (hlen : 2 ≤ candles.length)
    (h : modifyInterval S minute candles interval = .ok out) :
    ∃ (pre : List Candle) (groups : List (List Candle)), candles = pre ++ groups.flatten ∧
      groups ≠ [] ∧ (∀ g ∈ groups, g ≠ []) ∧ List.Forall₂ (Summary S) groups out := by
  obtain ⟨groups, h1, h2, h3, h4⟩ := modifyInterval_groups hlen h
  refine ⟨candles.takeWhile (fun c => decide (¬ Aligned minute interval c)), groups, ?_, h2, h3, h4⟩
  rw [← h1, retained, List.takeWhile_append_dropWhile]

/-- Three one-minute candles and one more, to 2 minutes, at UTC. -/
def demoCandles : List Candle :=
  [⟨60, .fin 1, .fin 2, .fin 1, .fin 2, .fin 1⟩, ⟨120, .fin 2, .fin 5, .fin 2, .fin 3, .fin (1/2)⟩,
   ⟨180, .fin 3, .fin 4, .fin 0, .fin 1, .fin 2⟩, ⟨240, .fin 1, .fin 2, .fin 1, .fin 2, .fin 1⟩]

def utcMinute (t : Int) : Int := t / 60 % 60

example : modifyInterval ieee utcMinute demoCandles 2 = .ok
    [⟨120, .fin 2, .fin 5, .fin 0, .fin 1, .fin (5/2)⟩, ⟨240, .fin 1, .fin 2, .fin 1, .fin 2, .fin 1⟩] := by
  decide +kernel

/-- C25: nothing after the first aligned candle is dropped, nothing before it is used. -/
theorem C25_retained (S : FloatSem) (minute : Int → Int) (candles : List Candle) (interval : Int)
    (out : List Candle) (hlen : 2 ≤ candles.length)
    (h : modifyInterval S minute candles interval = .ok out) :
    ∃ groups : List (List Candle),
      candles = candles.takeWhile (fun c => decide (¬ Aligned minute interval c)) ++ groups.flatten ∧
      groups ≠ [] ∧ (∀ g ∈ groups, g ≠ []) ∧ List.Forall₂ (Summary S) groups out ∧
      ∃ p ∈ (groups.flatten).head?, Aligned minute interval p := by
  obtain ⟨groups, h1, h2, h3, h4⟩ := modifyInterval_groups hlen h
  refine ⟨groups, ?_, h2, h3, h4, ?_⟩
  · rw [← h1, retained, List.takeWhile_append_dropWhile]
  · obtain ⟨pre, p, rest, hs, hpre, hp, _⟩ := modifyInterval_ok hlen h
    rw [← h1]
    have hne : retained minute interval candles ≠ [] := by
      rw [h1]
      obtain ⟨g, gs, rfl⟩ := List.exists_cons_of_ne_nil h2
      have := h3 g (by simp)
      simp [this]
    refine ⟨(retained minute interval candles).head hne, by simp [List.head?_eq_some_head hne], ?_⟩
    have := List.head_dropWhile_not (fun c => decide (¬ Aligned minute interval c)) hne
    exact not_not.1 (of_decide_eq_false this)

example : demoCandles.takeWhile (fun c => decide (¬ Aligned utcMinute 2 c)) =
    [⟨60, .fin 1, .fin 2, .fin 1, .fin 2, .fin 1⟩] := by decide +kernel

/-- `M` is the largest high of `l`. -/
def Spec.MaxHigh (l : List Candle) (M : Fl) : Prop :=
  (∃ c ∈ l, c.high = M) ∧ ∀ c ∈ l, Fl.le c.high M = true

/-- `M` is the smallest low of `l`. -/
def Spec.MinLow (l : List Candle) (M : Fl) : Prop :=
  (∃ c ∈ l, c.low = M) ∧ ∀ c ∈ l, Fl.le M c.low = true

/-- Total volume as a rational. -/
def Spec.totalVolume (l : List Candle) : ℚ := (l.map (fun c => c.volume.toRat)).sum

theorem rounded5_close {x y : Fl} (hx : x.isFinite = true) (h : Rounded5 FloatSem.exact x y) :
    |y.toRat - x.toRat| ≤ 1 / 200000 := by
  rcases h with ⟨h, _⟩ | ⟨_, n, hn, h⟩
  · rw [hx] at h; exact absurd h (by simp)
  · have hy : y.toRat = n / 100000 := by
      rcases h with h | ⟨h0, h⟩
      · rw [h]; rfl
      · rw [h.toRat, h0]; simp
    rw [hy]
    rw [abs_le] at *
    constructor <;> linarith [hn.1, hn.2]

/-- C26: volume and extremes are conserved (exact arithmetic). -/
theorem C26_conserved (minute : Int → Int) (candles : List Candle) (interval : Int)
    (out : List Candle) (hlen : 2 ≤ candles.length)
    (h : modifyInterval FloatSem.exact minute candles interval = .ok out)
    (hvol : ∀ c ∈ retained minute interval candles, c.volume.isFinite = true)
    (hhi : ∀ c ∈ retained minute interval candles, Fl.gt c.high (.fin (-10 ^ 308)) = true)
    (hlo : ∀ c ∈ retained minute interval candles, Fl.lt c.low (.fin (10 ^ 308)) = true) :
    |totalVolume out - totalVolume (retained minute interval candles)| ≤ out.length * (1 / 200000) ∧
    (∃ M, MaxHigh out M ∧ MaxHigh (retained minute interval candles) M) ∧
    (∃ M, MinLow out M ∧ MinLow (retained minute interval candles) M) := by
  obtain ⟨groups, h1, h2, h3, h4⟩ := modifyInterval_groups hlen h
  rw [h1] at hvol hhi hlo ⊢
  have emin : minHigh FloatSem.exact = .fin (-10 ^ 308) := rfl
  have emax : maxLow FloatSem.exact = .fin (10 ^ 308) := rfl
  have emin2 : FloatSem.exact.const (-10 ^ 308) = .fin (-10 ^ 308) := rfl
  have emax2 : FloatSem.exact.const (10 ^ 308) = .fin (10 ^ 308) := rfl
  refine ⟨?_, ?_, ?_⟩
  · clear h h2 h3 h1 hhi hlo
    induction h4 with
    | nil => simp [totalVolume]
    | @cons g c gs cs hg _ ih =>
      have hfin : ∀ x ∈ g.map (·.volume), x.isFinite = true := by
        intro x hx
        obtain ⟨v, hv, rfl⟩ := List.mem_map.1 hx
        exact hvol v (by simp [hv])
      have hsum := exact_foldl_add hfin (Fl.is_fin 0)
      have hc := rounded5_close (Fl.is_iff.1 hsum).1 hg.volume
      have e : (volumeSum FloatSem.exact g).toRat = totalVolume g := by
        rw [volumeSum, hsum.toRat]; simp [totalVolume, Function.comp_def]
      have ih' := ih (fun v hv => hvol v (by
        simp only [List.flatten_cons, List.mem_append]; exact Or.inr hv))
      change |c.volume.toRat - (volumeSum FloatSem.exact g).toRat| ≤ 1 / 200000 at hc
      rw [e] at hc
      simp only [totalVolume, List.map_cons, List.sum_cons, List.flatten_cons, List.map_append,
        List.sum_append, List.length_cons] at *
      rw [abs_le] at *
      push_cast
      constructor <;> linarith [hc.1, hc.2, ih'.1, ih'.2]
  · -- highs
    have hmem : ∀ c ∈ out, ∃ v ∈ groups.flatten, v.high = c.high := by
      intro c hc
      obtain ⟨g, hg, hs⟩ := forall₂_mem_right h4 c hc
      rcases hs.high_mem with ⟨v, hv, e⟩ | ⟨_, hno⟩
      · exact ⟨v, List.mem_flatten.2 ⟨g, hg, hv⟩, e⟩
      · obtain ⟨v, vs, rfl⟩ := List.exists_cons_of_ne_nil (h3 g hg)
        have a := hno v (by simp)
        have b := hhi v (List.mem_flatten.2 ⟨_, hg, List.mem_cons_self⟩)
        rw [emin2, b] at a; exact absurd a (by simp)
    have hgt : ∀ c ∈ out, Fl.gt c.high (.fin (-10 ^ 308)) = true := by
      intro c hc
      obtain ⟨v, hv, e⟩ := hmem c hc
      rw [← e]; exact hhi v hv
    have hne : out ≠ [] := by
      rintro rfl; cases h4; exact h2 rfl
    refine ⟨highLoop (minHigh FloatSem.exact) out, ⟨?_, ?_⟩, ?_, ?_⟩
    · rcases highLoop_mem (minHigh FloatSem.exact) out with hm | ⟨_, hno⟩
      · exact hm
      · obtain ⟨c, cs, rfl⟩ := List.exists_cons_of_ne_nil hne
        have a := hno c (by simp)
        rw [emin, hgt c (by simp)] at a; exact absurd a (by simp)
    · intro c hc
      have hb := highLoop_ge (minHigh FloatSem.exact) out (by simp [emin])
      have hn := (Fl.lt_iff.1 (hgt c hc)).2.1
      exact Fl.le_iff.2 ⟨hn, hb.1, hb.2.2 c hc hn⟩
    · rcases highLoop_mem (minHigh FloatSem.exact) out with ⟨c, hc, e⟩ | ⟨_, hno⟩
      · obtain ⟨v, hv, e'⟩ := hmem c hc
        exact ⟨v, hv, e'.trans e⟩
      · obtain ⟨c, cs, rfl⟩ := List.exists_cons_of_ne_nil hne
        have a := hno c (by simp)
        rw [emin, hgt c (by simp)] at a; exact absurd a (by simp)
    · intro v hv
      obtain ⟨g, hg, hvg⟩ := List.mem_flatten.1 hv
      obtain ⟨c, hc, hs⟩ := forall₂_mem_left h4 g hg
      have hn := (Fl.lt_iff.1 (hhi v hv)).2.1
      have hb := highLoop_ge (minHigh FloatSem.exact) out (by simp [emin])
      have hcn := (Fl.lt_iff.1 (hgt c hc)).2.1
      exact fl_le_trans (hs.high_ub v hvg hn (by simp [emin2]))
        (Fl.le_iff.2 ⟨hcn, hb.1, hb.2.2 c hc hcn⟩)
  · -- lows
    have hmem : ∀ c ∈ out, ∃ v ∈ groups.flatten, v.low = c.low := by
      intro c hc
      obtain ⟨g, hg, hs⟩ := forall₂_mem_right h4 c hc
      rcases hs.low_mem with ⟨v, hv, e⟩ | ⟨_, hno⟩
      · exact ⟨v, List.mem_flatten.2 ⟨g, hg, hv⟩, e⟩
      · obtain ⟨v, vs, rfl⟩ := List.exists_cons_of_ne_nil (h3 g hg)
        have a := hno v (by simp)
        have b := hlo v (List.mem_flatten.2 ⟨_, hg, List.mem_cons_self⟩)
        rw [emax2, b] at a; exact absurd a (by simp)
    have hgt : ∀ c ∈ out, Fl.lt c.low (.fin (10 ^ 308)) = true := by
      intro c hc
      obtain ⟨v, hv, e⟩ := hmem c hc
      rw [← e]; exact hlo v hv
    have hne : out ≠ [] := by
      rintro rfl; cases h4; exact h2 rfl
    refine ⟨lowLoop (maxLow FloatSem.exact) out, ⟨?_, ?_⟩, ?_, ?_⟩
    · rcases lowLoop_mem (maxLow FloatSem.exact) out with hm | ⟨_, hno⟩
      · exact hm
      · obtain ⟨c, cs, rfl⟩ := List.exists_cons_of_ne_nil hne
        have a := hno c (by simp)
        rw [emax, hgt c (by simp)] at a; exact absurd a (by simp)
    · intro c hc
      have hb := lowLoop_le (maxLow FloatSem.exact) out (by simp [emax])
      have hn := (Fl.lt_iff.1 (hgt c hc)).1
      exact Fl.le_iff.2 ⟨hb.1, hn, hb.2.2 c hc hn⟩
    · rcases lowLoop_mem (maxLow FloatSem.exact) out with ⟨c, hc, e⟩ | ⟨_, hno⟩
      · obtain ⟨v, hv, e'⟩ := hmem c hc
        exact ⟨v, hv, e'.trans e⟩
      · obtain ⟨c, cs, rfl⟩ := List.exists_cons_of_ne_nil hne
        have a := hno c (by simp)
        rw [emax, hgt c (by simp)] at a; exact absurd a (by simp)
    · intro v hv
      obtain ⟨g, hg, hvg⟩ := List.mem_flatten.1 hv
      obtain ⟨c, hc, hs⟩ := forall₂_mem_left h4 g hg
      have hn := (Fl.lt_iff.1 (hlo v hv)).1
      have hb := lowLoop_le (maxLow FloatSem.exact) out (by simp [emax])
      have hcn := (Fl.lt_iff.1 (hgt c hc)).1
      exact fl_le_trans (Fl.le_iff.2 ⟨hb.1, hcn, hb.2.2 c hc hcn⟩)
        (hs.low_lb v hvg hn (by simp [emax2]))

example : (modifyInterval FloatSem.exact utcMinute demoCandles 2).isOk = true ∧
    (∀ c ∈ retained utcMinute 2 demoCandles, c.volume.isFinite = true) ∧
    (∀ c ∈ retained utcMinute 2 demoCandles, Fl.gt c.high (.fin (-10 ^ 308)) = true) ∧
    (∀ c ∈ retained utcMinute 2 demoCandles, Fl.lt c.low (.fin (10 ^ 308)) = true) := by
  decide +kernel

/-- C27: well-formed in, well-formed out (any float semantics). -/
theorem C27_wellFormed (S : FloatSem) (minute : Int → Int) (candles : List Candle) (interval : Int)
    (out : List Candle) (h : modifyInterval S minute candles interval = .ok out)
    (hok : ∀ c ∈ candles, OkCandle S c) : ∀ c ∈ out, OkCandle S c := by
  by_cases h1 : candles.length = 1
  · unfold modifyInterval at h
    rw [if_pos h1] at h
    simp at h; subst h; exact hok
  have hlen : 2 ≤ candles.length := by
    by_contra hc
    have h0 : candles = [] := List.eq_nil_of_length_eq_zero (by omega)
    subst h0
    simp [modifyInterval] at h
  obtain ⟨pre, groups, hsplit, h2, h3, h4⟩ := C24_groups S minute candles interval out hlen h
  intro c hc
  obtain ⟨g, hg, hs⟩ := forall₂_mem_right h4 c hc
  have hg_ok : ∀ v ∈ g, OkCandle S v := fun v hv => hok v (by
    rw [hsplit]; exact List.mem_append_right _ (List.mem_flatten.2 ⟨g, hg, hv⟩))
  obtain ⟨f, t, rfl⟩ := List.exists_cons_of_ne_nil (h3 g hg)
  have hne : f :: t ≠ [] := by simp
  have hl := List.getLast?_eq_some_getLast hne
  generalize hlast : (f :: t).getLast hne = l at hl
  have hlm : l ∈ f :: t := by rw [← hlast]; exact List.getLast_mem hne
  have eo : c.opn = f.opn := by have := hs.opn; simpa using this.symm
  have ec : c.close = l.close := by have := hs.close; rw [hl] at this; simpa using this.symm
  have of := hg_ok f (by simp)
  have ol := hg_ok l hlm
  have hmn : S.const (-10 ^ 308) ≠ .nan := (Fl.lt_iff.1 of.high_range).1
  have hmx : S.const (10 ^ 308) ≠ .nan := (Fl.lt_iff.1 of.low_range).2.1
  have nh := fun v (hv : v ∈ f :: t) => (Fl.lt_iff.1 (hg_ok v hv).high_range).2.1
  have nl := fun v (hv : v ∈ f :: t) => (Fl.lt_iff.1 (hg_ok v hv).low_range).1
  constructor
  · rw [eo]; exact fl_le_trans (hs.low_lb f (by simp) (nl f (by simp)) hmx) of.low_open
  · rw [ec]; exact fl_le_trans (hs.low_lb l hlm (nl l hlm) hmx) ol.low_close
  · rw [eo]; exact fl_le_trans of.open_high (hs.high_ub f (by simp) (nh f (by simp)) hmn)
  · rw [ec]; exact fl_le_trans ol.close_high (hs.high_ub l hlm (nh l hlm) hmn)
  · exact fl_lt_of_lt_of_le of.high_range (hs.high_ub f (by simp) (nh f (by simp)) hmn)
  · exact fl_lt_of_le_of_lt (hs.low_lb f (by simp) (nl f (by simp)) hmx) of.low_range

example : ∀ c ∈ demoCandles, OkCandle ieee c := by
  intro c hc
  simp only [demoCandles, List.mem_cons, List.not_mem_nil, or_false] at hc
  rcases hc with rfl | rfl | rfl | rfl <;> constructor <;> decide +kernel

/-! ### errors and panics -/

theorem spacing_eq {c0 c1 : Candle} (h0 : |c0.time| ≤ 2 ^ 62) (h1 : |c1.time| < 2 ^ 62) :
    spacing c0 c1 = Int.tdiv (c1.time - c0.time) 60 := by
  rw [abs_le] at h0; rw [abs_lt] at h1
  rw [spacing, wrap64_of_range (by omega) (by omega)]; rfl

theorem tdiv60_ne_zero {x : Int} (h : 60 ≤ |x|) : Int.tdiv x 60 ≠ 0 := by
  rcases le_or_gt 0 x with hx | hx
  · rw [abs_of_nonneg hx] at h
    rw [Int.tdiv_eq_ediv_of_nonneg hx]; omega
  · rw [abs_of_neg hx] at h
    have : x = -(-x) := by ring
    rw [this, Int.neg_tdiv, Int.tdiv_eq_ediv_of_nonneg (by omega)]; omega

/-- C30: which requests are rejected, and how. -/
theorem C30_rejects (S : FloatSem) (minute : Int → Int) (c0 c1 : Candle) (cs : List Candle)
    (interval : Int) (h0 : |c0.time| ≤ 2 ^ 62) (h1 : |c1.time| < 2 ^ 62)
    (hgap : 60 ≤ |c1.time - c0.time|) :
    let spacing := Int.tdiv (c1.time - c0.time) 60
    (interval = 1 → spacing ≠ 1 →
      modifyInterval S minute (c0 :: c1 :: cs) interval = .err .econflict []) ∧
    (¬ spacing ∣ interval →
      modifyInterval S minute (c0 :: c1 :: cs) interval = .err .econflict []) ∧
    (spacing ∣ interval → ¬ (interval = 1 ∧ spacing ≠ 1) →
      (∀ c ∈ c0 :: c1 :: cs, ¬ Aligned minute interval c) →
      modifyInterval S minute (c0 :: c1 :: cs) interval = .err .einvalid []) ∧
    modifyInterval S minute [c0] interval = .ok [c0] := by
  intro sp
  have hsp : idiv (wrap64 (c1.time - c0.time)) 60 = sp := spacing_eq h0 h1
  have hne : sp ≠ 0 := tdiv60_ne_zero hgap
  refine ⟨?_, ?_, ?_, ?_⟩
  · intro hi hs
    simp [modifyInterval, hsp, hi, hs]
  · intro hd
    have : imod interval sp ≠ 0 := fun hc => hd (Int.dvd_iff_tmod_eq_zero.2 hc)
    simp only [modifyInterval, hsp]
    rw [if_neg (by simp)]
    rw [if_neg hne, if_pos this, ite_self]
  · intro hd hcond hal
    have hz : imod interval sp = 0 := Int.dvd_iff_tmod_eq_zero.1 hd
    have hf : findFirstIndex minute (c0 :: c1 :: cs) interval = .err .einvalid 0 := by
      have : (c0 :: c1 :: cs).findIdx? (isAligned minute interval) = none := by
        rw [List.findIdx?_eq_none_iff]
        intro c hc
        by_contra hcon
        exact hal c hc ((isAligned_iff _ _ _).1 (by simpa using hcon))
      simp only [findFirstIndex, this]
    simp only [modifyInterval, hsp]
    rw [if_neg (by simp), if_neg (fun hc => hcond ⟨hc.2, hc.1⟩), if_neg hne, if_neg (by simp [hz]), hf]
  · simp [modifyInterval]

example : modifyInterval ieee (fun _ => 0) demoCandles 0 = .panic ∧
    modifyInterval ieee (fun _ => 7) demoCandles 2 = .err .einvalid [] ∧
    modifyInterval ieee utcMinute [demoCandles[0], demoCandles[2]] 3 = .err .econflict [] ∧
    modifyInterval ieee utcMinute [demoCandles[0], demoCandles[2]] 1 = .err .econflict [] := by
  decide +kernel

/-- Full claim of C31. -/
def Spec.C31_claim : Prop :=
  ∀ (minute : Int → Int) (candles : List Candle) (interval : Int),
    modifyInterval ieee minute candles interval ≠ .panic

/-- C31 is false of the code: the empty list indexes past its end (market/candle.go:43). -/
theorem C31_panic_violated : ¬ C31_claim := by
  intro h
  exact h utcMinute [] 5 (by decide)

theorem compressGroup_no_panic (S : FloatSem) {g : List Candle} (h : g ≠ []) :
    compressGroup S g ≠ .panic := by
  unfold compressGroup
  rw [List.head?_eq_some_head h, List.getLast?_eq_some_getLast h]
  simp only
  split <;> simp

theorem resMapL_no_panic {α β : Type} {f : α → Res β} {l : List α}
    (h : ∀ a ∈ l, f a ≠ .panic) : resMapL f l ≠ .panic := by
  induction l with
  | nil => simp [resMapL]
  | cons a l ih =>
    unfold resMapL
    have h1 := h a (by simp)
    have h2 := ih (fun b hb => h b (by simp [hb]))
    cases ha : f a with
    | panic => exact absurd ha h1
    | err e w => simp
    | ok b =>
      cases hl : resMapL f l with
      | panic => exact absurd hl h2
      | err e w => simp
      | ok b => simp

/-- C31, the true part: one candle, or two or more whose first two are a minute or more apart
and a non-zero interval. (Missing: the empty list, an interval of 0, and two first candles
less than a minute apart, which can panic; C132 says exactly when.) -/
theorem C31_no_panic_partial (S : FloatSem) (minute : Int → Int) (candles : List Candle)
    (interval : Int)
    (h : candles.length = 1 ∨ ∃ c0 c1 cs, candles = c0 :: c1 :: cs ∧ interval ≠ 0 ∧
      |c0.time| ≤ 2 ^ 62 ∧ |c1.time| < 2 ^ 62 ∧ 60 ≤ |c1.time - c0.time|) :
    modifyInterval S minute candles interval ≠ .panic := by
  rcases h with h | ⟨c0, c1, cs, rfl, hi, h0, h1, hgap⟩
  · simp [modifyInterval, h]
  obtain ⟨e1, e2, e3, _⟩ := C30_rejects S minute c0 c1 cs interval h0 h1 hgap
  by_cases hd : Int.tdiv (c1.time - c0.time) 60 ∣ interval
  swap
  · rw [e2 hd]; simp
  by_cases hc : interval = 1 ∧ Int.tdiv (c1.time - c0.time) 60 ≠ 1
  · rw [e1 hc.1 hc.2]; simp
  by_cases ha : ∀ c ∈ c0 :: c1 :: cs, ¬ Aligned minute interval c
  · rw [e3 hd hc ha]; simp
  have hsp := spacing_eq h0 h1
  cases hidx : (c0 :: c1 :: cs).findIdx? (isAligned minute interval) with
  | none =>
    exfalso; apply ha
    intro c hc hal
    have := findIdx?_none_all hidx c hc
    rw [(isAligned_iff _ _ _).2 hal] at this
    exact absurd this (by simp)
  | some i =>
    obtain ⟨pre, p, rest, hs, _, hp, hpre⟩ := findIdx?_some_split hidx
    rw [modifyInterval_eq S minute c0 c1 cs interval (by rw [hsp]; exact fun h => hc ⟨h.2, h.1⟩)
      (by rw [hsp]; exact tdiv60_ne_zero hgap)
      (by rw [hsp]; exact Int.dvd_iff_tmod_eq_zero.1 hd) pre p rest hs hpre hp hi]
    apply resMapL_no_panic
    intro g hg
    exact compressGroup_no_panic S (splitB_ne_nil _ _ _ (by simp) g hg)

example : ∃ c0 c1 cs, demoCandles = c0 :: c1 :: cs ∧ (2 : Int) ≠ 0 ∧
    |c0.time| ≤ 2 ^ 62 ∧ |c1.time| < 2 ^ 62 ∧ 60 ≤ |c1.time - c0.time| :=
  ⟨_, _, _, rfl, by decide, by decide, by decide, by decide⟩

end Finmod
