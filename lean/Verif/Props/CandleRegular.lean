import Mathlib.Tactic.IntervalCases
import Verif.Lemmas.Sort
import Verif.Props.CandleGroups

/-!
# C28, C29, C32, C33: grouping by time
-/

namespace Finmod
open Go Spec

theorem abs_tdiv60 (x : Int) : |Int.tdiv x 60| = |x| / 60 := by
  rcases le_or_gt 0 x with hx | hx
  · rw [Int.tdiv_eq_ediv_of_nonneg hx, abs_of_nonneg hx, abs_of_nonneg (by omega)]
  · have e : x = -(-x) := by ring
    rw [e, Int.neg_tdiv, abs_neg, abs_neg, Int.tdiv_eq_ediv_of_nonneg (by omega),
      abs_of_nonneg (by omega), abs_of_nonneg (by omega)]

/-- The boundary test on times a float holds exactly. -/
theorem boundary_iff {S : FloatSem} (hS : Lawful S) {interval pivot : Int} {c : Candle}
    (hp : |pivot| ≤ 2 ^ 53) (hc : |c.time| ≤ 2 ^ 53) :
    boundary S interval pivot c = true ↔ interval ∣ Int.tdiv (c.time - pivot) 60 := by
  have hw : wrap64 (c.time - pivot) = c.time - pivot := by
    rw [abs_le] at *
    exact wrap64_of_range (by omega) (by omega)
  have hk : |Int.tdiv (c.time - pivot) 60| ≤ 2 ^ 53 := by
    rw [abs_tdiv60]
    have := abs_sub c.time pivot
    omega
  unfold boundary
  rw [hw]
  change imod (S.toInt (Fl.abs (S.ofInt (Int.tdiv (c.time - pivot) 60)))) interval == 0 ↔ _
  rw [rnd_ofInt hS hk]
  generalize Int.tdiv (c.time - pivot) 60 = k at hk
  have : S.toInt (Fl.abs (.fin (k : ℚ))) = |k| := by
    have e : |(k : ℚ)| = ((|k| : ℤ) : ℚ) := by push_cast; rfl
    simp only [Fl.abs, e, FloatSem.toInt]
    have hn : ¬ (((|k| : ℤ) : ℚ) < 0) := by
      rw [not_lt]; exact_mod_cast abs_nonneg k
    rw [if_neg hn, Int.floor_intCast, if_pos]
    exact ⟨by have := abs_nonneg k; omega, by omega⟩
  rw [this]
  simp only [imod, beq_iff_eq]
  rw [← Int.dvd_iff_tmod_eq_zero, dvd_abs]

theorem regular_boundary {S : FloatSem} (hS : Lawful S) {d m : Nat} (hd : 1 ≤ d)
    {l : List Candle} (hr : Regular d l) {j : Nat} (hj : j < l.length) :
    boundary S (m * d : Nat) (l[0]'(by omega)).time l[j] = true ↔ m ∣ j := by
  rw [boundary_iff hS (hr.1 _ (List.getElem_mem _)) (hr.1 _ (List.getElem_mem _)), hr.2 j hj]
  have e : (l[0]'(by omega)).time + (60 : Int) * (d : Int) * (j : Int) - (l[0]'(by omega)).time = 60 * ((d * j : Nat) : Int) := by
    push_cast; ring
  rw [e, Int.mul_tdiv_cancel_left _ (by norm_num), Int.natCast_dvd_natCast, Nat.mul_comm d j,
    Nat.mul_dvd_mul_iff_right (by omega)]

theorem Spec.Regular.drop {d : Nat} {l : List Candle} (h : Regular d l) (j : Nat) :
    Regular d (l.drop j) := by
  refine ⟨fun c hc => h.1 c (List.mem_of_mem_drop hc), ?_⟩
  intro i hi
  simp only [List.length_drop] at hi
  rw [List.getElem_drop, List.getElem_drop, h.2 (j + i) (by omega), h.2 (j + 0) (by omega)]
  push_cast; ring

theorem regular_spacing {d : Nat} {c0 c1 : Candle} {cs : List Candle}
    (h : Regular d (c0 :: c1 :: cs)) : spacing c0 c1 = d := by
  have h0 := h.1 c0 (by simp)
  have h1 := h.1 c1 (by simp)
  have e := h.2 1 (by simp)
  simp only [List.getElem_cons_succ, List.getElem_cons_zero] at e
  rw [spacing_eq (h0.trans (by norm_num)) (lt_of_le_of_lt h1 (by norm_num)), e]
  rw [show c0.time + 60 * (d : Int) * ((1 : Nat) : Int) - c0.time = 60 * d by push_cast; ring,
    Int.mul_tdiv_cancel_left _ (by norm_num)]

/-- The groups of a regular series. -/
theorem regular_groups {S : FloatSem} (hS : Lawful S) (minute : Int → Int) {d m : Nat}
    (hd : 1 ≤ d) (hm : 1 ≤ m) {candles : List Candle} (hlen : 2 ≤ candles.length)
    (hr : Regular d candles) {j : Nat} (hj : j < candles.length)
    (hal : Aligned minute (m * d : Nat) candles[j])
    (hna : ∀ i (h : i < j), ¬ Aligned minute (m * d : Nat) candles[i]) :
    ∃ groups : List (List Candle),
      modifyInterval S minute candles (m * d : Nat) = resMapL (compressGroup S) groups ∧
      groups.length = (candles.length - j + m - 1) / m ∧
      (∀ i (hi : i < groups.length), groups[i] = (candles.drop (j + i * m)).take m) ∧
      groups.flatten = candles.drop j := by
  match candles, hlen with
  | c0 :: c1 :: cs, _ =>
  have hsp := regular_spacing hr
  have hsplit : c0 :: c1 :: cs = (c0 :: c1 :: cs).take j ++ (c0 :: c1 :: cs)[j] ::
      (c0 :: c1 :: cs).drop (j + 1) := by
    rw [List.getElem_cons_drop, List.take_append_drop]
  generalize hp : (c0 :: c1 :: cs)[j] = p at hsplit hal
  generalize hrest : (c0 :: c1 :: cs).drop (j + 1) = rest at hsplit
  have hdrop : (c0 :: c1 :: cs).drop j = p :: rest := by
    rw [← hp, ← hrest, List.getElem_cons_drop]
  have heq := modifyInterval_eq S minute c0 c1 cs (m * d : Nat)
    (by
      rw [hsp]; rintro ⟨h1, h2⟩
      have : m * d = 1 := by exact_mod_cast h2
      have := Nat.eq_one_of_mul_eq_one_left this
      exact h1 (by exact_mod_cast this))
    (by rw [hsp]; omega)
    (by rw [hsp]; exact Int.dvd_iff_tmod_eq_zero.1 (by push_cast; exact dvd_mul_left _ _))
    _ p rest hsplit
    (by
      intro v hv
      obtain ⟨i, hi, rfl⟩ := List.getElem_of_mem hv
      simp only [List.length_take] at hi
      rw [List.getElem_take]
      have := hna i (by omega)
      by_contra hc
      exact this ((isAligned_iff _ _ _).1 (by simpa using hc)))
    ((isAligned_iff _ _ _).2 hal) (by have := Nat.mul_pos hm hd; omega)
  have hreg := hr.drop j
  rw [hdrop] at hreg
  have hch := splitB_chunks (boundary S (m * d : Nat) p.time) m hm p rest (by
    intro i hi _
    exact regular_boundary hS hd hreg hi)
  refine ⟨_, heq, ?_, ?_, ?_⟩
  · rw [hch.1, ← hdrop, List.length_drop]
  · intro i hi
    rw [hch.2 i hi, ← hdrop, List.drop_drop]
  · rw [splitB_flatten, hdrop]; rfl

/-- C28: on a regular series each output candle summarises `m` consecutive candles (the last
possibly fewer), outputs are `m * d` minutes apart, and there are `⌈n / m⌉` of them. -/
theorem C28_regular (S : FloatSem) (hS : Lawful S) (minute : Int → Int) (d m : Nat)
    (hd : 1 ≤ d) (hm : 1 ≤ m) (candles : List Candle) (hlen : 2 ≤ candles.length)
    (hr : Regular d candles) (j : Nat) (hj : j < candles.length)
    (hal : Aligned minute (m * d : Nat) candles[j])
    (hna : ∀ i (h : i < j), ¬ Aligned minute (m * d : Nat) candles[i])
    (out : List Candle) (h : modifyInterval S minute candles (m * d : Nat) = .ok out) :
    out.length = (candles.length - j + m - 1) / m ∧
    ∀ i (hi : i < out.length),
      Summary S ((candles.drop (j + i * m)).take m) out[i] ∧
      out[i].time = candles[j].time + 60 * (m * d : Nat) * i := by
  obtain ⟨groups, he, hgl, hgi, _⟩ := regular_groups hS minute hd hm hlen hr hj hal hna
  rw [he] at h
  have hf := resMapL_ok h
  have hl := hf.length_eq
  refine ⟨by omega, ?_⟩
  intro i hi
  have hi' : i < groups.length := by omega
  have hsum := compressGroup_summary ((List.forall₂_iff_get.1 hf).2 i hi' hi)
  simp only [List.get_eq_getElem] at hsum
  rw [hgi i hi'] at hsum
  refine ⟨hsum, ?_⟩
  have hlt : j + i * m < candles.length := by
    have h1 : i < (candles.length - j + m - 1) / m := by omega
    have : i * m ≤ candles.length - j - 1 := by
      have := Nat.div_mul_le_self (candles.length - j + m - 1) m
      have h4 : (i + 1) * m ≤ (candles.length - j + m - 1) / m * m := Nat.mul_le_mul_right _ h1
      have h5 : (i + 1) * m = i * m + m := by ring
      omega
    omega
  have ht := hsum.time
  have hhead : ((candles.drop (j + i * m)).take m).head? = some candles[j + i * m] := by
    rw [List.head?_take, if_neg (by omega), List.head?_drop, List.getElem?_eq_getElem hlt]
  rw [hhead] at ht
  simp only [Option.map_some, Option.some.injEq] at ht
  rw [← ht, hr.2 (j + i * m) hlt, hr.2 j hj]
  push_cast; ring

example : Regular 1 demoCandles ∧ Aligned utcMinute (2 * 1 : Nat) demoCandles[1] ∧
    (∀ i (h : i < 1), ¬ Aligned utcMinute (2 * 1 : Nat) (demoCandles[i]'(by simp [demoCandles]; omega))) := by
  refine ⟨⟨by decide, ?_⟩, by decide, by decide⟩
  intro i hi
  simp only [demoCandles, List.length_cons, List.length_nil] at hi
  interval_cases i <;> rfl

/-- Full claim of C29: every candle from the first aligned one on falls within the interval
that starts at some output candle. -/
def Spec.C29_claim : Prop :=
  ∀ (minute : Int → Int) (candles out : List Candle) (interval : Int),
    candles.Pairwise (fun a b => a.time < b.time) → 2 ≤ candles.length → 1 ≤ interval →
    modifyInterval ieee minute candles interval = .ok out →
    ∀ v ∈ retained minute interval candles, ∃ c ∈ out, c.time ≤ v.time ∧ v.time < c.time + 60 * interval

/-- A series with a hole at the group boundary. -/
def gapCandles : List Candle :=
  [⟨0, .fin 1, .fin 1, .fin 1, .fin 1, .fin 1⟩, ⟨60, .fin 1, .fin 1, .fin 1, .fin 1, .fin 1⟩,
   ⟨420, .fin 1, .fin 9, .fin 1, .fin 1, .fin 1⟩]

/-- C29 is false of the code: a hole over the boundary merges a candle from minute 7 into the
5-minute candle of minute 0 (market/candle.go:64). -/
theorem C29_span_violated : ¬ C29_claim := by
  intro h
  have h1 := h utcMinute gapCandles [⟨0, .fin 1, .fin 9, .fin 1, .fin 1, .fin 3⟩] 5
    (by decide) (by decide) (by decide) (by decide +kernel)
    ⟨420, .fin 1, .fin 9, .fin 1, .fin 1, .fin 1⟩ (by decide +kernel)
  obtain ⟨c, hc, h2, h3⟩ := h1
  simp only [List.mem_singleton] at hc
  subst hc
  simp at h3

/-- Whole intervals passed between the times `p` and `t`. -/
def Spec.bucket (interval p t : Int) : Int := (t - p) / 60 / interval

theorem span_aux {S : FloatSem} (hS : Lawful S) {interval pivot : Int} (hi : 1 ≤ interval)
    (hp : |pivot| ≤ 2 ^ 53) (B : Int) (cur : List Candle) (h0 : Candle) (hh : cur.head? = some h0)
    (hB : B * interval * 60 ≤ h0.time - pivot)
    (hcur : ∀ v ∈ cur, bucket interval pivot v.time = B ∧ h0.time ≤ v.time)
    (last : Candle) (hl : cur.getLast? = some last) (vs : List Candle)
    (hts : ∀ v ∈ vs, |v.time| ≤ 2 ^ 53)
    (hsorted : (last :: vs).Pairwise (fun a b => a.time ≤ b.time))
    (hpl : pivot ≤ last.time)
    (hstep : (last :: vs).IsChain (fun a b => bucket interval pivot b.time = bucket interval pivot a.time ∨
      interval ∣ (b.time - pivot) / 60)) :
    ∀ g ∈ splitB (boundary S interval pivot) cur vs, ∃ f, g.head? = some f ∧
      ∀ v ∈ g, f.time ≤ v.time ∧ v.time < f.time + 60 * interval := by
  induction vs generalizing B cur h0 last with
  | nil =>
    intro g hg
    simp only [splitB, List.mem_singleton] at hg
    subst hg
    refine ⟨h0, hh, ?_⟩
    intro v hv
    obtain ⟨h1, h2⟩ := hcur v hv
    refine ⟨h2, ?_⟩
    unfold bucket at h1
    have a := Int.lt_ediv_add_one_mul_self ((v.time - pivot) / 60) (b := interval) (by omega)
    rw [h1] at a
    have b := Int.lt_ediv_add_one_mul_self (v.time - pivot) (b := 60) (by norm_num)
    have e : (B + 1) * interval = B * interval + interval := by ring
    rw [e] at a
    have e2 : B * interval * 60 = 60 * (B * interval) := by ring
    rw [e2] at hB
    omega
  | cons w vs ih =>
    have hchain := hstep
    rw [List.isChain_cons_cons] at hchain
    rw [List.pairwise_cons] at hsorted
    have hlw := hsorted.1 w (by simp)
    have hpw : pivot ≤ w.time := by omega
    have hbw := boundary_iff hS (interval := interval) hp (hts w (by simp))
    rw [Int.tdiv_eq_ediv_of_nonneg (by omega)] at hbw
    have hfin : ∀ v ∈ cur, h0.time ≤ v.time ∧ v.time < h0.time + 60 * interval := by
      intro v hv
      obtain ⟨h1, h2⟩ := hcur v hv
      refine ⟨h2, ?_⟩
      unfold bucket at h1
      have a := Int.lt_ediv_add_one_mul_self ((v.time - pivot) / 60) (b := interval) (by omega)
      rw [h1] at a
      have b := Int.lt_ediv_add_one_mul_self (v.time - pivot) (b := 60) (by norm_num)
      have e : (B + 1) * interval = B * interval + interval := by ring
      rw [e] at a
      have e2 : B * interval * 60 = 60 * (B * interval) := by ring
      rw [e2] at hB
      omega
    unfold splitB
    by_cases hb : boundary S interval pivot w = true
    · rw [if_pos hb]
      intro g hg
      rcases List.mem_cons.1 hg with rfl | hg
      · exact ⟨h0, hh, hfin⟩
      · have hdvd := hbw.1 hb
        refine ih (bucket interval pivot w.time) [w] w rfl ?_ (by simp) w rfl
          (fun v hv => hts v (by simp [hv])) hsorted.2 hpw hchain.2 g hg
        unfold bucket
        rw [Int.ediv_mul_cancel hdvd]
        exact Int.ediv_mul_le _ (by norm_num)
    · rw [if_neg hb]
      have hnd : ¬ interval ∣ (w.time - pivot) / 60 := fun hc => hb (hbw.2 hc)
      have hsame := hchain.1.resolve_right hnd
      have hlm : last ∈ cur := List.mem_of_getLast? hl
      intro g hg
      refine ih B (cur ++ [w]) h0 (by
          rw [List.head?_append, hh]; rfl) hB ?_ w (by simp)
          (fun v hv => hts v (by simp [hv])) hsorted.2 hpw hchain.2 g hg
      intro v hv
      rcases List.mem_append.1 hv with hv | hv
      · exact hcur v hv
      · simp only [List.mem_singleton] at hv; subst hv
        exact ⟨hsame.trans (hcur last hlm).1, (hcur last hlm).2.trans hlw⟩

/-- C29, the true part: if no group start is missing — whenever the next candle begins a new
interval (counted from the first aligned candle) it lies in that interval's first minute — every
candle is within the interval of an output candle. (Missing: series with holes over a boundary,
where the claim is false.) -/
theorem C29_span_partial (S : FloatSem) (hS : Lawful S) (minute : Int → Int)
    (candles out : List Candle) (interval : Int) (p : Candle) (rest : List Candle)
    (hsorted : candles.Pairwise (fun a b => a.time ≤ b.time)) (hlen : 2 ≤ candles.length)
    (hi : 1 ≤ interval) (hts : ∀ c ∈ candles, |c.time| ≤ 2 ^ 53)
    (h : modifyInterval S minute candles interval = .ok out)
    (hret : retained minute interval candles = p :: rest)
    (hstep : (p :: rest).IsChain (fun a b =>
      bucket interval p.time b.time = bucket interval p.time a.time ∨
      interval ∣ (b.time - p.time) / 60)) :
    ∀ v ∈ p :: rest, ∃ c ∈ out, c.time ≤ v.time ∧ v.time < c.time + 60 * interval := by
  obtain ⟨pre, p', rest', hs, hpre, hp, _, hm⟩ := modifyInterval_ok hlen h
  have hret' : retained minute interval candles = p' :: rest' := by
    rw [hs, retained, List.dropWhile_append_of_pos]
    · rw [List.dropWhile_cons_of_neg]
      simp only [decide_not, Bool.not_eq_true', decide_eq_false_iff_not, not_not]
      exact (isAligned_iff _ _ _).1 hp
    · intro v hv
      have := hpre v hv
      simp only [decide_eq_true_eq]
      intro hc
      rw [(isAligned_iff _ _ _).2 hc] at this
      exact absurd this (by simp)
  rw [hret] at hret'
  obtain ⟨rfl, rfl⟩ := List.cons.inj hret'
  have hsub : ∀ v ∈ p :: rest, v ∈ candles := by
    intro v hv; rw [hs]; exact List.mem_append_right _ hv
  have hsp : (p :: rest).Pairwise (fun a b => a.time ≤ b.time) := by
    rw [hs] at hsorted; exact (List.pairwise_append.1 hsorted).2.1
  have hspan := span_aux hS hi (hts p (hsub p (by simp))) 0 [p] p rfl (by simp)
    (by intro v hv; simp only [List.mem_singleton] at hv; subst hv; simp [bucket])
    p rfl rest (fun v hv => hts v (hsub v (by simp [hv]))) hsp (le_refl _) hstep
  have hf := resMapL_ok hm
  intro v hv
  rw [← List.singleton_append, ← splitB_flatten (boundary S interval p.time) [p] rest] at hv
  obtain ⟨g, hg, hvg⟩ := List.mem_flatten.1 hv
  obtain ⟨c, hc, hcg⟩ := forall₂_mem_left hf g hg
  have hsum := compressGroup_summary hcg
  obtain ⟨f, hf1, hf2⟩ := hspan g hg
  have := hsum.time
  rw [hf1] at this
  simp only [Option.map_some, Option.some.injEq] at this
  exact ⟨c, hc, by rw [← this]; exact hf2 v hvg⟩

example : retained utcMinute 2 demoCandles = demoCandles[1] :: demoCandles.drop 2 ∧
    (demoCandles[1] :: demoCandles.drop 2).IsChain (fun a b =>
      bucket 2 (demoCandles[1]).time b.time = bucket 2 (demoCandles[1]).time a.time ∨
      (2 : Int) ∣ (b.time - (demoCandles[1]).time) / 60) := by
  decide +kernel

/-! ### exact grid volumes -/

theorem fixed5_grid (n : ℤ) : fixed5 FloatSem.exact (.fin ((n : ℚ) / 100000)) = some (.fin ((n : ℚ) / 100000)) := by
  have e : (n : ℚ) / 100000 * 100000 = n := by ring
  simp only [fixed5, e, roundInt_int]
  split
  · rename_i h; subst h; simp [Fl.zero]
  · rfl

theorem grid_sum {l : List Candle} (h : ∀ c ∈ l, OnGrid c) (n : ℤ) :
    ∃ k : ℤ, volumeLoop FloatSem.exact (.fin ((n : ℚ) / 100000)) l = .fin ((k : ℚ) / 100000) := by
  induction l generalizing n with
  | nil => exact ⟨n, rfl⟩
  | cons c l ih =>
    obtain ⟨k, hk⟩ := h c (by simp)
    simp only [volumeLoop, hk]
    have : FloatSem.exact.add (.fin ((n : ℚ) / 100000)) (.fin ((k : ℚ) / 100000)) =
        .fin (((n + k : ℤ) : ℚ) / 100000) := by
      simp only [FloatSem.add, Fl.toRat, FloatSem.exact, Fl.fin.injEq]; push_cast; ring
    rw [this]
    exact ih (fun c hc => h c (by simp [hc])) (n + k)

/-- C32: resampling an aligned regular series to its own spacing changes nothing. -/
theorem C32_identity (minute : Int → Int) (d : Nat) (hd : 1 ≤ d) (candles : List Candle)
    (hne : candles ≠ []) (hr : Regular d candles)
    (hal : Aligned minute d (candles.head hne)) (hgrid : ∀ c ∈ candles, OnGrid c)
    (hhi : ∀ c ∈ candles, Fl.gt c.high (.fin (-10 ^ 308)) = true)
    (hlo : ∀ c ∈ candles, Fl.lt c.low (.fin (10 ^ 308)) = true) :
    modifyInterval FloatSem.exact minute candles d = .ok candles := by
  by_cases h1 : candles.length = 1
  · simp [modifyInterval, h1]
  have hlen : 2 ≤ candles.length := by
    have := List.length_pos_iff.2 hne; omega
  have e0 : candles[0]'(by omega) = candles.head hne := (List.head_eq_getElem hne).symm
  obtain ⟨groups, he, hgl, hgi, _⟩ := regular_groups exact_lawful minute hd (le_refl 1) hlen hr
    (j := 0) (by omega) (by rw [e0]; simpa using hal) (by omega)
  simp only [Nat.one_mul] at he
  rw [he]
  apply resMapL_of_ok
  rw [List.forall₂_iff_get]
  have hl : groups.length = candles.length := by rw [hgl]; simp
  refine ⟨hl, ?_⟩
  intro i h1 h2
  simp only [List.get_eq_getElem]
  rw [hgi i h1]
  have : ((candles.drop (0 + i * 1)).take 1) = [candles[i]] := by
    rw [Nat.zero_add, Nat.mul_one, List.take_one, List.head?_drop, List.getElem?_eq_getElem h2]
    rfl
  rw [this]
  have hm := List.getElem_mem h2
  generalize candles[i] = c at hm
  obtain ⟨n, hn⟩ := hgrid c hm
  have hv : volumeLoop FloatSem.exact (.fin 0) [c] = .fin ((n : ℚ) / 100000) := by
    simp [volumeLoop, hn, FloatSem.add, FloatSem.exact, Fl.toRat]
  have a : highLoop (minHigh FloatSem.exact) [c] = c.high := by
    simp only [highLoop]; exact if_pos (hhi c hm)
  have b : lowLoop (maxLow FloatSem.exact) [c] = c.low := by
    simp only [lowLoop]; exact if_pos (hlo c hm)
  simp only [compressGroup, List.head?_cons, List.getLast?_singleton, hv, fixed5_grid, a, b]
  rw [← hn]

example : Aligned (fun t => utcMinute (t - 60)) (1 : Nat) (demoCandles.head (by decide)) ∧
    ∀ c ∈ demoCandles, OnGrid c := by
  refine ⟨by decide, ?_⟩
  intro c hc
  simp only [demoCandles, List.mem_cons, List.not_mem_nil, or_false] at hc
  rcases hc with rfl | rfl | rfl | rfl
  · exact ⟨100000, by norm_num⟩
  · exact ⟨50000, by norm_num⟩
  · exact ⟨200000, by norm_num⟩
  · exact ⟨100000, by norm_num⟩

end Finmod
