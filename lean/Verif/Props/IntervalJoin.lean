import Verif.Props.CandleStream
import Verif.Props.CandleRegular

/-!
# Resampling a series in two parts: C247
-/

namespace Finmod
open Go Spec

/-- Full statement of C247: a series can be cut before any aligned candle, the parts be resampled and the results joined. -/
def Spec.C247_claim (S : FloatSem) (minute : Int → Int) : Prop :=
  ∀ (a b : List Candle) (b0 : Candle) (interval : Int) (outA outB : List Candle), 2 ≤ a.length → 2 ≤ b.length →
    b.head? = some b0 → Aligned minute interval b0 →
    (∀ c ∈ a ++ b, |c.time| ≤ 2 ^ 51) → List.IsChain (fun a b : Candle => a.time < b.time) (a ++ b) →
    modifyInterval S minute a interval = .ok outA → modifyInterval S minute b interval = .ok outB →
    modifyInterval S minute (a ++ b) interval = .ok (outA ++ outB)

/-- The checks of the interval that a successful call has passed. -/
theorem spacing_ok {S : FloatSem} {minute : Int → Int} {c0 c1 : Candle} {cs : List Candle} {interval : Int}
    {out : List Candle} (h : modifyInterval S minute (c0 :: c1 :: cs) interval = .ok out) :
    ¬ (spacing c0 c1 ≠ 1 ∧ interval = 1) ∧ spacing c0 c1 ≠ 0 ∧ imod interval (spacing c0 c1) = 0 := by
  unfold modifyInterval at h
  rw [if_neg (by simp)] at h
  simp only at h
  split at h
  · simp at h
  split at h
  · simp at h
  split at h
  · simp at h
  rename_i h1 h2 h3
  exact ⟨h1, h2, not_not.1 h3⟩

theorem splitB_same {bd bd' : Candle → Bool} : ∀ (vs cur : List Candle), (∀ v ∈ vs, bd v = bd' v) →
    splitB bd cur vs = splitB bd' cur vs
  | [], _, _ => rfl
  | v :: vs, cur, h => by
    rw [splitB, splitB, h v (by simp), splitB_same vs _ fun w hw => h w (by simp [hw]),
      splitB_same vs _ fun w hw => h w (by simp [hw])]

theorem resMapL_append {α β : Type} {f : α → Res β} : ∀ {l m : List α} {o p : List β},
    resMapL f l = .ok o → resMapL f m = .ok p → resMapL f (l ++ m) = .ok (o ++ p)
  | [], m, o, p, h, h' => by
    simp only [resMapL, Res.ok.injEq] at h; subst h; exact h'
  | a :: l, m, o, p, h, h' => by
    rw [resMapL] at h
    rw [List.cons_append, resMapL]
    cases ha : f a with
    | ok b =>
      rw [ha] at h
      cases hl : resMapL f l with
      | ok bs =>
        simp only [hl, Res.ok.injEq] at h; subst h
        simp only [resMapL_append hl h']
        rfl
      | err e w => simp [hl] at h
      | panic => simp [hl] at h
    | err e w => simp [ha] at h
    | panic => simp [ha] at h

theorem boundary_shift {S : FloatSem} (hS : Lawful S) {interval p b : Int} {v : Candle} (hp : |p| ≤ 2 ^ 51) (hb : |b| ≤ 2 ^ 51)
    (hv : |v.time| ≤ 2 ^ 51) (hpb : p ≤ b) (hbv : b ≤ v.time) (hd : 60 * interval ∣ b - p) :
    boundary S interval p v = boundary S interval b v := by
  rw [Bool.eq_iff_iff, boundary_iff hS (by omega) (by omega), boundary_iff hS (by omega) (by omega),
    Int.tdiv_eq_ediv_of_nonneg (by omega), Int.tdiv_eq_ediv_of_nonneg (by omega)]
  obtain ⟨k, hk⟩ := hd
  rw [show v.time - p = v.time - b + 60 * (interval * k) by rw [← mul_assoc, ← hk]; ring,
    Int.add_mul_ediv_left _ _ (by norm_num)]
  exact (Int.dvd_add_left (dvd_mul_right _ _))

/-- **C247**, what holds: the results can be joined if the second part begins with an aligned candle that is a multiple of
the interval after the first candle of the first result, and no candle of the second part is earlier than its first. -/
theorem C247_join_partial {S : FloatSem} (hS : Lawful S) (minute : Int → Int) (a b : List Candle) (b0 o : Candle)
    (interval : Int) (outA outB : List Candle) (ha : 2 ≤ a.length) (hb : 2 ≤ b.length) (hb0 : b.head? = some b0)
    (hal : Aligned minute interval b0) (ht : ∀ c ∈ a ++ b, |c.time| ≤ 2 ^ 51) (hle : ∀ c ∈ b, b0.time ≤ c.time)
    (hA : modifyInterval S minute a interval = .ok outA) (hB : modifyInterval S minute b interval = .ok outB)
    (ho : outA.head? = some o) (hob : o.time ≤ b0.time) (hd : 60 * interval ∣ b0.time - o.time) :
    modifyInterval S minute (a ++ b) interval = .ok (outA ++ outB) := by
  obtain ⟨pre, p, rest, hs, hpre, hp, _, hm⟩ := modifyInterval_ok ha hA
  obtain ⟨pre', p', rest', hs', hpre', hp', hi, hm'⟩ := modifyInterval_ok hb hB
  -- the second part begins with its pivot
  have hpe : pre' = [] ∧ p' = b0 := by
    cases pre' with
    | nil => rw [hs'] at hb0; simp at hb0; exact ⟨rfl, hb0⟩
    | cons x xs =>
      rw [hs'] at hb0
      simp only [List.cons_append, List.head?_cons, Option.some.injEq] at hb0
      have := hpre' x (by simp)
      rw [hb0, (isAligned_iff _ _ _).2 hal] at this
      cases this
  obtain ⟨rfl, rfl⟩ := hpe
  rw [List.nil_append] at hs'
  have h0 : interval ≠ 0 := by
    rcases hi with ⟨_, e⟩ | h
    · rw [hs', e] at hb; simp at hb
    · exact h
  -- the pivot of the first part is the time of the first candle of its result
  have hop : o.time = p.time := by
    obtain ⟨g, tail, e⟩ := splitB_head (boundary S interval p.time) [p] rest
    have := resMapL_ok hm
    rw [e] at this
    cases this with
    | cons hc _ =>
      simp only [List.head?_cons, Option.some.injEq] at ho
      subst ho
      obtain ⟨f, hf, hft, _⟩ := compressGroup_parts hc
      simp at hf
      rw [hft, ← hf]
  rw [hop] at hob hd
  have bp : |p.time| ≤ 2 ^ 51 := ht p (by rw [hs]; simp)
  have bb : |p'.time| ≤ 2 ^ 51 := ht p' (by rw [hs']; simp)
  have hsame : ∀ v ∈ b, boundary S interval p.time v = boundary S interval p'.time v := fun v hv =>
    boundary_shift hS bp bb (ht v (by simp [hv])) hob (hle v hv) hd
  have hb' : boundary S interval p.time p' = true := by
    rw [boundary_iff hS (by omega) (by omega)]
    obtain ⟨k, hk⟩ := hd
    rw [hk, mul_assoc, Int.mul_tdiv_cancel_left _ (by norm_num)]
    exact dvd_mul_right _ _
  obtain ⟨front, last, e1, e2⟩ := splitB_append (boundary S interval p.time) [p] rest b
  have e3 : splitB (boundary S interval p.time) [p] (rest ++ b) =
      splitB (boundary S interval p.time) [p] rest ++ splitB (boundary S interval p'.time) [p'] rest' := by
    rw [e2, e1, hs', splitB, if_pos hb', splitB_same rest' [p'] fun v hv => hsame v (by rw [hs']; simp [hv])]
    simp
  have key := resMapL_append hm hm'
  rw [← e3] at key
  match a, ha with
  | c0 :: c1 :: cs, _ =>
    obtain ⟨h1, h2, h3⟩ := spacing_ok hA
    rw [List.cons_append, List.cons_append, modifyInterval_eq S minute c0 c1 (cs ++ b) interval h1 h2 h3 pre p (rest ++ b)
      (by rw [← List.cons_append, ← List.cons_append, hs]; simp) hpre hp h0]
    exact key

/-- The first candle of a result has the time of the first aligned candle. -/
theorem first_time {S : FloatSem} {minute : Int → Int} {a : List Candle} {interval : Int} {out : List Candle}
    (ha : 2 ≤ a.length) (h : modifyInterval S minute a interval = .ok out) :
    ∃ o p, out.head? = some o ∧ p ∈ a ∧ Aligned minute interval p ∧ o.time = p.time := by
  obtain ⟨pre, p, rest, hs, _, hp, _, hm⟩ := modifyInterval_ok ha h
  obtain ⟨g, tail, e⟩ := splitB_head (boundary S interval p.time) [p] rest
  have := resMapL_ok hm
  rw [e] at this
  cases this with
  | cons hc _ =>
    obtain ⟨f, hf, hft, _⟩ := compressGroup_parts hc
    simp at hf
    exact ⟨_, p, rfl, by rw [hs]; simp, (isAligned_iff _ _ _).1 hp, by rw [hft, ← hf]⟩

theorem aligned_utc {interval : Int} (h1 : 1 ≤ interval) (hd : interval ∣ 60) {c : Candle} (h60 : 60 ∣ c.time)
    (h : Aligned utcMinute interval c) : 60 * interval ∣ c.time := by
  obtain ⟨m, hm⟩ := h60
  have hle := Int.le_of_dvd (by norm_num) hd
  have hmp : minutePart interval = interval := by
    unfold minutePart
    rw [if_neg (by omega)]
    exact if_neg (by omega)
  unfold Aligned utcMinute at h
  rw [hmp, hm, Int.mul_ediv_cancel_left _ (by norm_num)] at h
  have hdm : interval ∣ m % 60 := by
    rcases h with h | h
    · rw [h]; exact dvd_zero _
    · exact h
  rw [hm]
  refine mul_dvd_mul_left 60 ?_
  have := dvd_add (dvd_mul_of_dvd_left hd (m / 60)) hdm
  rwa [Int.mul_ediv_add_emod] at this

/-- **C247**, for intervals that divide the hour: with times at whole minutes, in UTC, every cut before an aligned candle is
fine. -/
theorem C247_within_hour {S : FloatSem} (hS : Lawful S) (a b : List Candle) (b0 : Candle) (interval : Int)
    (outA outB : List Candle) (ha : 2 ≤ a.length) (hb : 2 ≤ b.length) (hb0 : b.head? = some b0)
    (h1 : 1 ≤ interval) (hd : interval ∣ 60) (hal : Aligned utcMinute interval b0)
    (ht : ∀ c ∈ a ++ b, |c.time| ≤ 2 ^ 51 ∧ 60 ∣ c.time) (hc : List.IsChain (fun a b : Candle => a.time < b.time) (a ++ b))
    (hA : modifyInterval S utcMinute a interval = .ok outA) (hB : modifyInterval S utcMinute b interval = .ok outB) :
    modifyInterval S utcMinute (a ++ b) interval = .ok (outA ++ outB) := by
  obtain ⟨o, p, ho, hp, hpa, e⟩ := first_time ha hA
  have hpw : (a ++ b).Pairwise fun a b : Candle => a.time < b.time := by
    have : IsTrans Candle fun a b => a.time < b.time := ⟨fun _ _ _ h k => lt_trans h k⟩
    exact List.isChain_iff_pairwise.1 hc
  rw [List.pairwise_append] at hpw
  have hbm : b0 ∈ b := List.mem_of_head? hb0
  refine C247_join_partial hS utcMinute a b b0 o interval outA outB ha hb hb0 hal (fun c hc => (ht c hc).1) ?_ hA hB ho ?_ ?_
  · obtain ⟨bs, rfl⟩ : ∃ bs, b = b0 :: bs := by
      cases b with
      | nil => cases hb0
      | cons x xs => simp at hb0; subst hb0; exact ⟨xs, rfl⟩
    intro c hcb
    rcases List.mem_cons.1 hcb with rfl | hcb
    · exact le_refl _
    · exact (List.rel_of_pairwise_cons hpw.2.1 hcb).le
  · rw [e]; exact (hpw.2.2 p hp b0 hbm).le
  · rw [e]
    exact dvd_sub (aligned_utc h1 hd (ht b0 (by simp [hbm])).2 hal) (aligned_utc h1 hd (ht p (by simp [hp])).2 hpa)

/-- Hourly candles from one o'clock on. -/
def hourly (n : Nat) : List Candle :=
  (List.range n).map fun i => ⟨3600 * (i + 1), .fin 1, .fin 2, .fin 1, .fin 2, .fin 1⟩

/-- **C247** is false: hourly candles of one to five o'clock, made into candles of two hours, cannot be cut at four o'clock. -/
theorem C247_cut_violated : ¬ Spec.C247_claim ieee utcMinute := by
  intro h
  have := h ((hourly 5).take 3) ((hourly 5).drop 3) ⟨3600 * 4, .fin 1, .fin 2, .fin 1, .fin 2, .fin 1⟩ 120
    [⟨3600, .fin 1, .fin 2, .fin 1, .fin 2, .fin 2⟩, ⟨3600 * 3, .fin 1, .fin 2, .fin 1, .fin 2, .fin 1⟩]
    [⟨3600 * 4, .fin 1, .fin 2, .fin 1, .fin 2, .fin 2⟩] (by decide) (by decide) (by decide +kernel) (by decide +kernel)
    (by decide +kernel) (by decide +kernel) (by decide +kernel) (by decide +kernel)
  revert this
  decide +kernel

/-- **Example for C247.** Cut at three o'clock, the parts can be joined. -/
example : modifyInterval ieee utcMinute ((hourly 5).take 2 ++ (hourly 5).drop 2) 120 = .ok
    ([⟨3600, .fin 1, .fin 2, .fin 1, .fin 2, .fin 2⟩] ++
     [⟨3600 * 3, .fin 1, .fin 2, .fin 1, .fin 2, .fin 2⟩, ⟨3600 * 5, .fin 1, .fin 2, .fin 1, .fin 2, .fin 1⟩]) :=
  C247_join_partial ieee_lawful utcMinute _ _ ⟨3600 * 3, .fin 1, .fin 2, .fin 1, .fin 2, .fin 1⟩
    ⟨3600, .fin 1, .fin 2, .fin 1, .fin 2, .fin 2⟩ 120 _ _ (by decide) (by decide) (by decide +kernel) (by decide +kernel)
    (by decide +kernel) (by decide +kernel) (by decide +kernel) (by decide +kernel) rfl (by decide) (by decide)

/-- **Example for C247.** Six five-minute candles, made into candles of ten minutes, can be cut after the fourth. -/
example :
    let cs : List Candle := (List.range 6).map fun i => ⟨300 * i, .fin 1, .fin 2, .fin 1, .fin 2, .fin 1⟩
    modifyInterval ieee utcMinute (cs.take 4 ++ cs.drop 4) 10 = .ok
      ([⟨0, .fin 1, .fin 2, .fin 1, .fin 2, .fin 2⟩, ⟨600, .fin 1, .fin 2, .fin 1, .fin 2, .fin 2⟩] ++
       [⟨1200, .fin 1, .fin 2, .fin 1, .fin 2, .fin 2⟩]) :=
  C247_within_hour ieee_lawful _ _ ⟨1200, .fin 1, .fin 2, .fin 1, .fin 2, .fin 1⟩ 10 _ _ (by decide) (by decide)
    (by decide +kernel) (by decide) (by decide) (by decide +kernel) (by decide +kernel) (by decide +kernel)
    (by decide +kernel) (by decide +kernel)

end Finmod
