import Mathlib.Data.List.Flatten
import Verif.Lemmas.FloatX
import Verif.Lemmas.GoSort
import Verif.Spec.Fractals
import Verif.Go.IEEE

/-!
# Williams fractals (C83–C88)
-/

namespace Finmod
open Go Spec

/-! ### One position -/

theorem drop_five {cs : List Candle} {i : Nat} (h : i + 4 < cs.length) :
    cs.drop i = cs[i] :: cs[i + 1] :: cs[i + 2] :: cs[i + 3] :: cs[i + 4] :: cs.drop (i + 5) := by
  rw [List.drop_eq_getElem_cons (by omega), List.drop_eq_getElem_cons (by omega),
    List.drop_eq_getElem_cons (by omega), List.drop_eq_getElem_cons (by omega),
    List.drop_eq_getElem_cons (by omega)]

theorem beats_asymm {t : FractalType} {a b : Fl} (h : beats t a b = true) : beats t b a = false := by
  have key : ∀ x y : Fl, Fl.lt x y = true → Fl.lt y x = false := by
    intro x y h
    rw [Bool.eq_false_iff]
    intro h'
    exact absurd (Fl.lt_iff.1 h).2.2 (not_lt.2 (le_of_lt (Fl.lt_iff.1 h').2.2))
  cases t <;> exact key _ _ h

theorem rightScan_cons (t : FractalType) (third c : Candle) (k : Nat) (cs : List Candle) :
    rightScan t third k (c :: cs) =
      if k = 2 then true
      else if beats t (price t c) (price t third) then false
      else if beats t (price t third) (price t c) then rightScan t third (k + 1) cs
      else rightScan t third k cs := by
  cases t <;> rfl

/-- The scan on the right accepts iff no candle beats the third before two weaker ones were seen. -/
theorem rightScan_iff (t : FractalType) (third : Candle) (cs : List Candle) : ∀ k, k ≤ 2 →
    (rightScan t third k cs = true ↔ ∀ (j : Nat) (e : Candle), cs[j]? = some e →
      k + ((cs.take j).countP fun e => beats t (price t third) (price t e)) < 2 →
      beats t (price t e) (price t third) = false) := by
  induction cs with
  | nil => intro k _; simp [rightScan]
  | cons c cs ih =>
    intro k hk
    rw [rightScan_cons]
    by_cases hk2 : k = 2
    · subst hk2
      rw [if_pos rfl]
      simp only [true_iff]
      intro j e _ h
      omega
    · rw [if_neg hk2]
      by_cases hb : beats t (price t c) (price t third) = true
      · rw [if_pos hb]
        constructor
        · intro h; cases h
        · intro h
          have := h 0 c rfl (by simp; omega)
          rw [hb] at this; cases this
      · rw [if_neg hb]
        have hb : beats t (price t c) (price t third) = false := by simpa using hb
        by_cases hw : beats t (price t third) (price t c) = true
        · rw [if_pos hw, ih (k + 1) (by omega)]
          constructor
          · intro h j e hj hc
            cases j with
            | zero => cases hj; exact hb
            | succ j =>
              refine h j e hj ?_
              rw [List.take_succ_cons, List.countP_cons_of_pos (p := fun e => beats t (price t third) (price t e)) hw] at hc
              omega
          · intro h j e hj hc
            refine h (j + 1) e hj ?_
            rw [List.take_succ_cons, List.countP_cons_of_pos (p := fun e => beats t (price t third) (price t e)) hw]
            omega
        · rw [if_neg hw, ih k hk]
          constructor
          · intro h j e hj hc
            cases j with
            | zero => cases hj; exact hb
            | succ j =>
              refine h j e hj ?_
              rw [List.take_succ_cons, List.countP_cons_of_neg (p := fun e => beats t (price t third) (price t e)) (by simpa using hw)] at hc
              exact hc
          · intro h j e hj hc
            refine h (j + 1) e hj ?_
            rw [List.take_succ_cons, List.countP_cons_of_neg (p := fun e => beats t (price t third) (price t e)) (by simpa using hw)]
            exact hc

theorem leftFails_eq {t : FractalType} {third c : Candle} (h1 : price t third ≠ .nan)
    (h2 : price t c ≠ .nan) : leftFails t third c = !beats t (price t third) (price t c) := by
  cases t
  · simp only [leftFails, beats, price, Fl.ge] at *
    rw [Fl.le_of_num h1 h2, Fl.lt_of_num h2 h1]
    by_cases h : third.high.key ≤ c.high.key
    · simp [h, not_lt.2 h]
    · simp [h, not_le.1 h]
  · simp only [leftFails, beats, price] at *
    rw [Fl.le_of_num h2 h1, Fl.lt_of_num h1 h2]
    by_cases h : c.low.key ≤ third.low.key
    · simp [h, not_lt.2 h]
    · simp [h, not_le.1 h]

theorem findFractal_eq {cs : List Candle} {i : Nat} (h : i + 4 < cs.length) (t : FractalType) :
    findFractal cs i t =
      if leftFails t cs[i + 2] cs[i] || leftFails t cs[i + 2] cs[i + 1] then none
      else if rightScan t cs[i + 2] 0 (cs.drop (i + 3)) then
        some ⟨cs[i + 2].time, price t cs[i + 2], t⟩ else none := by
  have hd : cs.drop i = cs[i] :: cs[i + 1] :: cs[i + 2] :: cs.drop (i + 3) := by
    rw [List.drop_eq_getElem_cons (by omega), List.drop_eq_getElem_cons (by omega),
      List.drop_eq_getElem_cons (by omega)]
  unfold findFractal
  rw [hd]
  cases t <;> rfl

theorem findFractals_eq (cs : List Candle) (i : Nat) :
    findFractals cs i = (findFractal cs i .up).toList ++ (findFractal cs i .down).toList := by
  have ht : ∀ (t : FractalType) (f : WilliamFractal), findFractal cs i t = some f →
      some f.time = (cs[i + 2]?).map Candle.time := by
    intro t f h
    unfold findFractal at h
    have hd : cs[i + 2]? = (cs.drop i)[2]? := by rw [List.getElem?_drop]
    rw [hd]
    split at h
    · rename_i e
      simp only at h
      rw [e]
      split_ifs at h
      cases h
      rfl
    · cases h
  unfold findFractals
  cases hu : findFractal cs i .up with
  | none =>
    cases findFractal cs i .down <;> rfl
  | some f =>
    cases hd : findFractal cs i .down with
    | none => rfl
    | some g =>
      have h1 := ht _ _ hu
      have h2 := ht _ _ hd
      rw [← h1] at h2
      have e : g.time = f.time := by simpa using h2
      have el : decide (g.time < f.time) = false := by simp [e]
      simp [sortByTime, Go.Sort.sliceStable, Go.Sort.sortBlocks, Go.Sort.insertionSort, Go.Sort.insertionLoop, Go.Sort.sink,
        Go.Sort.less?, Go.Sort.mergeLoop, el]

theorem mem_sortByTime {f : WilliamFractal} {l : List WilliamFractal} : f ∈ sortByTime l ↔ f ∈ l := by
  unfold sortByTime
  obtain ⟨c, e, h⟩ := Go.Sort.sliceStable_at (fun a b : WilliamFractal => decide (a.time < b.time)) (fun _ => (0 : Nat)) l
  rw [e]; exact h.1.mem_iff

theorem mem_williamFractals {cs : List Candle} {f : WilliamFractal} :
    f ∈ williamFractals cs ↔ ∃ i, i + 4 < cs.length ∧ findFractal cs i f.ftype = some f := by
  have hty : ∀ i t g, findFractal cs i t = some g → g.ftype = t := by
    intro i t g h
    unfold findFractal at h
    split at h
    · simp only at h
      split_ifs at h
      cases h
      rfl
    · cases h
  unfold williamFractals
  constructor
  · intro h
    split at h
    · cases h
    · rename_i hl
      rw [List.mem_flatMap] at h
      obtain ⟨i, hi, h⟩ := h
      rw [List.mem_range] at hi
      rw [findFractals_eq, List.mem_append, Option.mem_toList, Option.mem_toList] at h
      refine ⟨i, by omega, ?_⟩
      rcases h with h | h
      · rw [hty _ _ _ h]; exact h
      · rw [hty _ _ _ h]; exact h
  · rintro ⟨i, hi, h⟩
    rw [if_neg (by omega), List.mem_flatMap]
    refine ⟨i, List.mem_range.2 (by omega), ?_⟩
    rw [findFractals_eq, List.mem_append, Option.mem_toList, Option.mem_toList]
    cases hf : f.ftype
    · left; rw [hf] at h; exact h
    · right; rw [hf] at h; exact h

theorem noNaN_price {cs : List Candle} (h : NoNaN cs) {i : Nat} (hi : i < cs.length) (t : FractalType) :
    price t cs[i] ≠ .nan := by
  have := h cs[i] (List.getElem_mem hi)
  cases t
  · exact this.1
  · exact this.2

theorem beats_total {t : FractalType} {a b : Fl} (ha : a ≠ .nan) (hb : b ≠ .nan)
    (hne : Fl.eq a b = false) : beats t b a = !beats t a b := by
  have key : ∀ x y : Fl, x ≠ .nan → y ≠ .nan → Fl.eq x y = false → Fl.lt y x = !Fl.lt x y := by
    intro x y hx hy h
    rw [Fl.eq_of_num hx hy] at h
    rw [Fl.lt_of_num hy hx, Fl.lt_of_num hx hy]
    have hne : x.key ≠ y.key := by simpa using h
    rcases lt_or_gt_of_ne hne with h | h
    · simp [h, not_lt.2 h.le]
    · simp [h, not_lt.2 h.le]
  cases t
  · have := key a b ha hb hne
    simp only [beats, this, Bool.not_not]
  · exact key a b ha hb hne

theorem localExtreme_eq {cs : List Candle} {i : Nat} (h : i + 4 < cs.length) (t : FractalType) :
    localExtreme t cs (i + 2) =
      (beats t (price t cs[i + 2]) (price t cs[i]) && beats t (price t cs[i + 2]) (price t cs[i + 1]) &&
      beats t (price t cs[i + 2]) (price t cs[i + 3]) && beats t (price t cs[i + 2]) (price t cs[i + 4])) := by
  unfold localExtreme
  simp only [Nat.add_sub_cancel, show i + 2 - 1 = i + 1 by omega, Nat.add_assoc, Nat.reduceAdd]
  rw [List.getElem?_eq_getElem (by omega), List.getElem?_eq_getElem (by omega),
    List.getElem?_eq_getElem (by omega), List.getElem?_eq_getElem (by omega),
    List.getElem?_eq_getElem (by omega)]

/-- One position without ties: a fractal iff a strict local extreme. -/
theorem findFractal_local {cs : List Candle} {i : Nat} (h : i + 4 < cs.length) (t : FractalType)
    (h0 : price t cs[i] ≠ .nan) (h1 : price t cs[i + 1] ≠ .nan) (h2 : price t cs[i + 2] ≠ .nan)
    (h3 : price t cs[i + 3] ≠ .nan) (h4 : price t cs[i + 4] ≠ .nan)
    (t3 : Fl.eq (price t cs[i + 2]) (price t cs[i + 3]) = false)
    (t4 : Fl.eq (price t cs[i + 2]) (price t cs[i + 4]) = false) :
    findFractal cs i t =
      if localExtreme t cs (i + 2) then some ⟨cs[i + 2].time, price t cs[i + 2], t⟩ else none := by
  rw [findFractal_eq h, localExtreme_eq h, leftFails_eq h2 h0, leftFails_eq h2 h1]
  have hd : cs.drop (i + 3) = cs[i + 3] :: cs[i + 4] :: cs.drop (i + 5) := by
    rw [List.drop_eq_getElem_cons (by omega), List.drop_eq_getElem_cons (by omega)]
  have hr : rightScan t cs[i + 2] 0 (cs.drop (i + 3)) =
      (beats t (price t cs[i + 2]) (price t cs[i + 3]) && beats t (price t cs[i + 2]) (price t cs[i + 4])) := by
    have hend : ∀ l, rightScan t cs[i + 2] 2 l = true := by
      intro l; cases l with
      | nil => rfl
      | cons c l => rw [rightScan_cons, if_pos rfl]
    rw [hd, rightScan_cons, rightScan_cons, rightScan_cons, beats_total h2 h3 t3, beats_total h2 h4 t4]
    cases beats t (price t cs[i + 2]) (price t cs[i + 3]) <;>
      cases beats t (price t cs[i + 2]) (price t cs[i + 4]) <;> simp [hend]
  rw [hr]
  cases beats t (price t cs[i + 2]) (price t cs[i]) <;>
    cases beats t (price t cs[i + 2]) (price t cs[i + 1]) <;>
    cases beats t (price t cs[i + 2]) (price t cs[i + 3]) <;>
    cases beats t (price t cs[i + 2]) (price t cs[i + 4]) <;> rfl

theorem noTies_price {cs : List Candle} (h : NoTies cs) {m d : Nat} (hd : d = 1 ∨ d = 2)
    (hm : m + d < cs.length) (t : FractalType) :
    Fl.eq (price t (cs[m]'(by omega))) (price t cs[m + d]) = false := by
  have := h m d _ _ (List.getElem?_eq_getElem (by omega)) hd (List.getElem?_eq_getElem hm)
  cases t
  · exact this.1
  · exact this.2

theorem findFractals_local {cs : List Candle} (hn : NoNaN cs) (ht : NoTies cs) {i : Nat}
    (h : i + 4 < cs.length) : findFractals cs i = fractalsAt cs (i + 2) := by
  have hrow : ∀ t, findFractal cs i t =
      if localExtreme t cs (i + 2) then some ⟨cs[i + 2].time, price t cs[i + 2], t⟩ else none := by
    intro t
    exact findFractal_local h t (noNaN_price hn _ t) (noNaN_price hn _ t) (noNaN_price hn _ t)
      (noNaN_price hn _ t) (noNaN_price hn _ t) (noTies_price ht (m := i + 2) (.inl rfl) (by omega) t)
      (noTies_price ht (m := i + 2) (.inr rfl) (by omega) t)
  rw [findFractals_eq, hrow, hrow]
  unfold fractalsAt
  rw [List.getElem?_eq_getElem (by omega)]
  simp only [price]
  congr 1 <;> split <;> rfl

/-! ### C83 -/

/-- **C83.** For candles without NaN and without ties among neighbours, the result lists, for
every candle `m` with two candles on each side, in order, an up fractal (its time and high) iff its
high is strictly above the highs of the two candles on each side, then a down fractal (its time and
low) iff its low is strictly below theirs. -/
theorem C83_local_extremes {cs : List Candle} (hn : NoNaN cs) (ht : NoTies cs) :
    williamFractals cs = (List.range (cs.length - 4)).flatMap fun i => fractalsAt cs (i + 2) := by
  unfold williamFractals
  split
  · rename_i h
    rw [show cs.length - 4 = 0 by omega]
    rfl
  · apply List.flatMap_congr
    intro i hi
    rw [List.mem_range] at hi
    exact findFractals_local hn ht (by omega)

/-- **C83.** For one fractal: with no NaN, and no tie of candle `m` with the two candles after it,
a fractal of type `t` is found at candle `m` iff it is a strict local extreme. -/
theorem C83_local_extreme_at {cs : List Candle} (hn : NoNaN cs) {m : Nat} (h2 : 2 ≤ m)
    (hm : m + 2 < cs.length) (t : FractalType)
    (t1 : Fl.eq (price t cs[m]) (price t cs[m + 1]) = false)
    (t2 : Fl.eq (price t cs[m]) (price t cs[m + 2]) = false) :
    (findFractal cs (m - 2) t = some ⟨cs[m].time, price t cs[m], t⟩ ↔
      beats t (price t cs[m]) (price t cs[m - 2]) ∧ beats t (price t cs[m]) (price t cs[m - 1]) ∧
      beats t (price t cs[m]) (price t cs[m + 1]) ∧ beats t (price t cs[m]) (price t cs[m + 2])) := by
  obtain ⟨i, rfl⟩ : ∃ i, m = i + 2 := ⟨m - 2, by omega⟩
  simp only [Nat.add_sub_cancel]
  have hl : i + 4 < cs.length := by omega
  rw [findFractal_local hl t (noNaN_price hn _ t) (noNaN_price hn _ t) (noNaN_price hn _ t)
    (noNaN_price hn _ t) (noNaN_price hn _ t) t1 t2, localExtreme_eq hl]
  simp only [show i + 2 - 1 = i + 1 by omega]
  split
  · rename_i h
    simp only [Bool.and_eq_true] at h
    simp only [true_iff]
    exact ⟨h.1.1.1, h.1.1.2, h.1.2, h.2⟩
  · rename_i h
    simp only [Bool.and_eq_true] at h
    constructor
    · intro h'; cases h'
    · rintro ⟨a, b, c, d⟩; exact absurd ⟨⟨⟨a, b⟩, c⟩, d⟩ h

/-- A candle with time, high and low. -/
def exHL (t : Int) (h l : ℚ) : Candle := ⟨t, .fin l, .fin h, .fin l, .fin h, .fin 0⟩

/-- Seven candles without ties. -/
def exFractals : List Candle :=
  [exHL 1 10 5, exHL 2 12 6, exHL 3 15 7, exHL 4 13 2, exHL 5 11 3, exHL 6 9 4, exHL 7 16 1]

instance (cs : List Candle) : Decidable (NoNaN cs) :=
  decidable_of_iff (∀ c ∈ cs, c.high ≠ .nan ∧ c.low ≠ .nan) Iff.rfl

/-- `NoTies` as a check over positions. -/
theorem noTies_of_check {cs : List Candle} (h : (List.range cs.length).all (fun m =>
    [1, 2].all fun d => match cs[m]?, cs[m + d]? with
      | some c, some e => !Fl.eq c.high e.high && !Fl.eq c.low e.low
      | _, _ => true) = true) : NoTies cs := by
  intro m d c e hm hd he
  rw [List.all_eq_true] at h
  have hlt : m < cs.length := by
    by_contra hc; rw [List.getElem?_eq_none (by omega)] at hm; cases hm
  have := h m (List.mem_range.2 hlt)
  rw [List.all_eq_true] at this
  have := this d (by rcases hd with rfl | rfl <;> simp)
  rw [hm, he] at this
  simpa using this

example : NoNaN exFractals ∧ NoTies exFractals ∧
    williamFractals exFractals = [⟨3, .fin 15, .up⟩, ⟨4, .fin 2, .down⟩] :=
  ⟨by decide +kernel, noTies_of_check (by decide +kernel), by decide +kernel⟩

/-! ### C84 -/

/-- **C84.** Without NaN, ties allowed: exactly when a fractal is reported. Candle `m` beats the two
candles before it, and no later candle beats it before two strictly weaker ones have come. -/
theorem C84_reported_iff {cs : List Candle} (hn : NoNaN cs) (f : WilliamFractal) :
    f ∈ williamFractals cs ↔ ∃ m, ∃ (h2 : 2 ≤ m) (hm : m + 2 < cs.length),
      f = ⟨cs[m].time, price f.ftype cs[m], f.ftype⟩ ∧
      beats f.ftype (price f.ftype cs[m]) (price f.ftype cs[m - 2]) = true ∧
      beats f.ftype (price f.ftype cs[m]) (price f.ftype cs[m - 1]) = true ∧
      ∀ (j : Nat) (hj : j < cs.length), m < j → weaker f.ftype cs m j cs[m] < 2 →
        beats f.ftype (price f.ftype cs[j]) (price f.ftype cs[m]) = false := by
  have hscan : ∀ (t : FractalType) (i : Nat) (h : i + 4 < cs.length),
      (rightScan t cs[i + 2] 0 (cs.drop (i + 3)) = true ↔
        ∀ (j : Nat) (hj : j < cs.length), i + 2 < j → weaker t cs (i + 2) j cs[i + 2] < 2 →
          beats t (price t cs[j]) (price t cs[i + 2]) = false) := by
    intro t i h
    rw [rightScan_iff t _ _ 0 (by omega)]
    constructor
    · intro hs j hj hij hw
      refine hs (j - (i + 3)) cs[j] ?_ ?_
      · rw [List.getElem?_drop, show i + 3 + (j - (i + 3)) = j by omega, List.getElem?_eq_getElem hj]
      · rw [zero_add]; exact hw
    · intro hs j e hj hw
      rw [List.getElem?_drop] at hj
      have hlt : i + 3 + j < cs.length := by
        by_contra hc; rw [List.getElem?_eq_none (by omega)] at hj; cases hj
      rw [List.getElem?_eq_getElem hlt] at hj
      cases hj
      refine hs (i + 3 + j) hlt (by omega) ?_
      unfold weaker
      rw [show i + 3 + j - (i + 2 + 1) = j by omega]
      rw [zero_add] at hw
      exact hw
  rw [mem_williamFractals]
  constructor
  · rintro ⟨i, hi, hf⟩
    rw [findFractal_eq hi, leftFails_eq (noNaN_price hn _ _) (noNaN_price hn _ _),
      leftFails_eq (noNaN_price hn _ _) (noNaN_price hn _ _)] at hf
    split_ifs at hf with h1 h3
    · refine ⟨i + 2, by omega, by omega, (Option.some.inj hf).symm, ?_, ?_, (hscan _ i hi).1 h3⟩
      · simp only [show i + 2 - 2 = i by omega]
        simp only [Bool.or_eq_true, Bool.not_eq_true', not_or, Bool.not_eq_false] at h1
        exact h1.1
      · simp only [show i + 2 - 1 = i + 1 by omega]
        simp only [Bool.or_eq_true, Bool.not_eq_true', not_or, Bool.not_eq_false] at h1
        exact h1.2
  · rintro ⟨m, h2, hm, hf, hl1, hl2, hr⟩
    obtain ⟨i, rfl⟩ : ∃ i, m = i + 2 := ⟨m - 2, by omega⟩
    refine ⟨i, by omega, ?_⟩
    have hi : i + 4 < cs.length := by omega
    simp only [show i + 2 - 2 = i by omega] at hl1
    simp only [show i + 2 - 1 = i + 1 by omega] at hl2
    rw [findFractal_eq hi, leftFails_eq (noNaN_price hn _ _) (noNaN_price hn _ _),
      leftFails_eq (noNaN_price hn _ _) (noNaN_price hn _ _), hl1, hl2]
    simp only [Bool.not_true, Bool.or_self, Bool.false_eq_true, if_false]
    rw [if_pos ((hscan _ i hi).2 hr)]
    rw [← hf]

example : NoNaN exFractals ∧ (⟨3, .fin 15, .up⟩ : WilliamFractal) ∈ williamFractals exFractals := by
  decide +kernel

/-! ### C85 -/

/-- The full claim of C85: every reported fractal comes from a candle with at least two strictly
weaker candles after it. -/
def Spec.C85_claim : Prop :=
  ∀ (cs : List Candle), NoNaN cs → ∀ f ∈ williamFractals cs, ∃ m c, cs[m]? = some c ∧
    f = ⟨c.time, price f.ftype c, f.ftype⟩ ∧ 2 ≤ weaker f.ftype cs m cs.length c

/-- Highs 1, 1, 5, 5, 5: the two candles after the third tie with it. -/
def exTies : List Candle := [exHL 1 1 0, exHL 2 1 0, exHL 3 5 0, exHL 4 5 0, exHL 5 5 0]

/-- **C85 is false of the code**: the scan accepts at the end of the data whatever its count, so a
plateau at the end is reported as a fractal with no weaker candle after it. -/
theorem C85_two_after_violated : ¬ Spec.C85_claim := by
  intro h
  obtain ⟨m, c, hm, hf, hw⟩ := h exTies (by decide +kernel) ⟨3, .fin 5, .up⟩ (by decide +kernel)
  have hlt : m < 5 := by
    by_contra hc; rw [List.getElem?_eq_none (by simp [exTies]; omega)] at hm; cases hm
  revert hm hf hw
  obtain rfl | rfl | rfl | rfl | rfl : m = 0 ∨ m = 1 ∨ m = 2 ∨ m = 3 ∨ m = 4 := by omega
  all_goals
    intro hm hf hw
    simp [exTies] at hm
    subst hm
    revert hw hf
    decide +kernel

/-- **C85 (partial).** Every reported fractal comes from a candle that has two strictly weaker
candles after it, or that no candle up to the end of the data beats. Missing: two weaker candles
when the data ends first. -/
theorem C85_two_after_partial {cs : List Candle} (hn : NoNaN cs) {f : WilliamFractal}
    (hf : f ∈ williamFractals cs) :
    ∃ m c, cs[m]? = some c ∧ f = ⟨c.time, price f.ftype c, f.ftype⟩ ∧
      (2 ≤ weaker f.ftype cs m cs.length c ∨
        ∀ j e, m < j → cs[j]? = some e → beats f.ftype (price f.ftype e) (price f.ftype c) = false) := by
  obtain ⟨m, h2, hm, he, _, _, hr⟩ := (C84_reported_iff hn f).1 hf
  refine ⟨m, cs[m], List.getElem?_eq_getElem (by omega), he, ?_⟩
  by_cases hw : 2 ≤ weaker f.ftype cs m cs.length cs[m]
  · exact .inl hw
  · right
    intro j e hj hje
    have hlt : j < cs.length := by
      by_contra hc; rw [List.getElem?_eq_none (by omega)] at hje; cases hje
    rw [List.getElem?_eq_getElem hlt] at hje
    cases hje
    refine hr j hlt hj (lt_of_le_of_lt ?_ (not_le.1 hw))
    unfold weaker
    apply List.Sublist.countP_le
    exact List.take_sublist_take_left (by omega)

/-- **C85 (partial).** Without ties every reported fractal has its two weaker candles right after
it. -/
theorem C85_no_ties_partial {cs : List Candle} (hn : NoNaN cs) (ht : NoTies cs) {f : WilliamFractal}
    (hf : f ∈ williamFractals cs) :
    ∃ m c d e, cs[m]? = some c ∧ cs[m + 1]? = some d ∧ cs[m + 2]? = some e ∧
      f = ⟨c.time, price f.ftype c, f.ftype⟩ ∧
      beats f.ftype (price f.ftype c) (price f.ftype d) = true ∧
      beats f.ftype (price f.ftype c) (price f.ftype e) = true := by
  obtain ⟨i, hi, h⟩ := mem_williamFractals.1 hf
  rw [findFractal_local hi _ (noNaN_price hn _ _) (noNaN_price hn _ _) (noNaN_price hn _ _)
    (noNaN_price hn _ _) (noNaN_price hn _ _) (noTies_price ht (m := i + 2) (.inl rfl) (by omega) _)
    (noTies_price ht (m := i + 2) (.inr rfl) (by omega) _), localExtreme_eq hi] at h
  split_ifs at h with hc
  simp only [Bool.and_eq_true] at hc
  exact ⟨i + 2, cs[i + 2], cs[i + 3], cs[i + 4], List.getElem?_eq_getElem _, List.getElem?_eq_getElem _,
    List.getElem?_eq_getElem _, (Option.some.inj h).symm, hc.1.2, hc.2⟩

/-- C85: a plateau at the end of the data, which no candle beats, and a series without ties. -/
example : NoNaN exTies ∧ (⟨3, .fin 5, .up⟩ : WilliamFractal) ∈ williamFractals exTies ∧
    NoNaN exFractals ∧ NoTies exFractals ∧ (⟨3, .fin 15, .up⟩ : WilliamFractal) ∈ williamFractals exFractals :=
  ⟨by decide +kernel, by decide +kernel, by decide +kernel, noTies_of_check (by decide +kernel), by decide +kernel⟩

/-! ### C86 -/

/-- The full claim of C86. -/
def Spec.C86_claim : Prop :=
  ∀ (cs ext : List Candle), NoNaN (cs ++ ext) → ∀ f ∈ williamFractals cs, f ∈ williamFractals (cs ++ ext)

/-- **C86 is false of the code**: the plateau's fractal disappears when a higher candle arrives. -/
theorem C86_repaint_violated : ¬ Spec.C86_claim := by
  intro h
  have := h exTies [exHL 6 6 0] (by decide +kernel) ⟨3, .fin 5, .up⟩ (by decide +kernel)
  revert this
  decide +kernel

theorem rightScan_append (t : FractalType) (third : Candle) (cs ext : List Candle) : ∀ k, k ≤ 2 →
    2 ≤ k + cs.countP (fun e => beats t (price t third) (price t e)) →
    rightScan t third k (cs ++ ext) = rightScan t third k cs := by
  induction cs with
  | nil =>
    intro k hk h
    have : k = 2 := by simp at h; omega
    subst this
    cases ext with
    | nil => rfl
    | cons c ext => rw [List.nil_append, rightScan_cons, if_pos rfl]; rfl
  | cons c cs ih =>
    intro k hk h
    rw [List.cons_append, rightScan_cons, rightScan_cons]
    by_cases hk2 : k = 2
    · rw [if_pos hk2, if_pos hk2]
    · rw [if_neg hk2, if_neg hk2]
      by_cases hw : beats t (price t third) (price t c) = true
      · rw [List.countP_cons_of_pos (p := fun e => beats t (price t third) (price t e)) hw] at h
        rw [ih (k + 1) (by omega) (by omega)]
        simp only [hw, if_true]
      · rw [List.countP_cons_of_neg (p := fun e => beats t (price t third) (price t e)) (by simpa using hw)] at h
        rw [ih k hk h]
        simp only [hw]
        rfl

/-- **C86 (partial).** A position whose candle has two strictly weaker candles after it in the data
keeps its verdict when candles are appended: the fractal is found there before iff it is found
there after. No condition on ties or NaN. Missing: positions where the data ends before two weaker
candles. -/
theorem C86_confirmed_partial (cs ext : List Candle) {i : Nat} (hi : i + 4 < cs.length)
    (t : FractalType) (hw : 2 ≤ weaker t cs (i + 2) cs.length cs[i + 2]) :
    findFractal (cs ++ ext) i t = findFractal cs i t := by
  have hi' : i + 4 < (cs ++ ext).length := by simp; omega
  have hg : ∀ k (hk : k < cs.length), (cs ++ ext)[k]'(by simp; omega) = cs[k] := by
    intro k hk; exact List.getElem_append_left hk
  rw [findFractal_eq hi, findFractal_eq hi']
  rw [hg i (by omega), hg (i + 1) (by omega), hg (i + 2) (by omega),
    List.drop_append_of_le_length (by omega)]
  have hc : 2 ≤ 0 + (cs.drop (i + 3)).countP (fun e => beats t (price t cs[i + 2]) (price t e)) := by
    unfold weaker at hw
    rw [List.take_of_length_le (by simp)] at hw
    rw [zero_add]
    exact hw
  rw [rightScan_append _ _ _ _ 0 (by omega) hc]

/-- Without ties, what is found at `i` does not change when candles arrive. -/
theorem findFractals_noTies {cs ext : List Candle} (hn : NoNaN cs) (ht : NoTies cs) :
    ∀ i, i + 4 < cs.length → findFractals (cs ++ ext) i = findFractals cs i := by
  intro i hi
  have hi' : i + 4 < (cs ++ ext).length := by simp; omega
  have hg : ∀ k (hk : k < cs.length), (cs ++ ext)[k]'(by simp; omega) = cs[k] := by
    intro k hk; exact List.getElem_append_left hk
  rw [findFractals_eq, findFractals_eq]
  have : ∀ t, findFractal (cs ++ ext) i t = findFractal cs i t := by
    intro t
    have n : ∀ k (hk : k < cs.length), price t cs[k] ≠ .nan := fun k hk => noNaN_price hn hk t
    rw [findFractal_local hi t (n _ _) (n _ _) (n _ _) (n _ _) (n _ _)
        (noTies_price ht (m := i + 2) (.inl rfl) (by omega) t)
        (noTies_price ht (m := i + 2) (.inr rfl) (by omega) t),
      findFractal_local hi' t (by rw [hg i (by omega)]; exact n _ _)
        (by rw [hg (i + 1) (by omega)]; exact n _ _) (by rw [hg (i + 2) (by omega)]; exact n _ _)
        (by rw [hg (i + 3) (by omega)]; exact n _ _) (by rw [hg (i + 4) (by omega)]; exact n _ _)
        (by
          rw [hg (i + 2) (by omega), hg (i + 3) (by omega)]
          exact noTies_price ht (m := i + 2) (.inl rfl) (by omega) t)
        (by
          rw [hg (i + 2) (by omega), hg (i + 4) (by omega)]
          exact noTies_price ht (m := i + 2) (.inr rfl) (by omega) t),
      localExtreme_eq hi, localExtreme_eq hi']
    rw [hg i (by omega), hg (i + 1) (by omega), hg (i + 2) (by omega), hg (i + 3) (by omega),
      hg (i + 4) (by omega)]
  rw [this, this]

/-- **C86 (partial).** Without NaN and ties the whole result only grows at the end. -/
theorem C86_no_ties_partial {cs ext : List Candle} (hn : NoNaN cs) (ht : NoTies cs) :
    williamFractals cs <+: williamFractals (cs ++ ext) := by
  by_cases hl : cs.length < 5
  · unfold williamFractals
    rw [if_pos hl]
    exact List.nil_prefix
  · have hrow := findFractals_noTies (ext := ext) hn ht
    unfold williamFractals
    rw [if_neg hl, if_neg (by simp; omega)]
    rw [show (cs ++ ext).length - 4 = (cs.length - 4) + ext.length by simp; omega, List.range_add,
      List.flatMap_append]
    refine ⟨_, congrArg (fun l => l ++ _) ?_⟩
    apply List.flatMap_congr
    intro i hi
    rw [List.mem_range] at hi
    exact (hrow i (by omega)).symm

example : ∃ i, ∃ h : i + 4 < exFractals.length,
    2 ≤ weaker .up exFractals (i + 2) exFractals.length exFractals[i + 2] :=
  ⟨0, by decide, by decide +kernel⟩

/-! ### C87 -/

/-- **C87.** The result is one block per position, in order; each block is a sub-list of the up and
the down fractal of its candle, in this order. -/
theorem C87_blocks (cs : List Candle) :
    ∃ block : Nat → List WilliamFractal,
      williamFractals cs = (List.range (cs.length - 4)).flatMap block ∧
      ∀ i (h : i + 4 < cs.length), (block i).Sublist
        [⟨cs[i + 2].time, cs[i + 2].high, .up⟩, ⟨cs[i + 2].time, cs[i + 2].low, .down⟩] := by
  refine ⟨findFractals cs, ?_, ?_⟩
  · unfold williamFractals
    split
    · rw [show cs.length - 4 = 0 by omega]; rfl
    · rfl
  · intro i h
    rw [findFractals_eq]
    have key : ∀ t, (findFractal cs i t).toList.Sublist [⟨cs[i + 2].time, price t cs[i + 2], t⟩] := by
      intro t
      rw [findFractal_eq h]
      split_ifs <;> simp
    exact (key .up).append (key .down)

/-- **C87.** If candle times never decrease, neither do the times of the fractals. -/
theorem C87_time_order {cs : List Candle} (h : cs.Pairwise fun a b => a.time ≤ b.time) :
    (williamFractals cs).Pairwise fun f g => f.time ≤ g.time := by
  obtain ⟨block, e, hb⟩ := C87_blocks cs
  rw [e, List.pairwise_flatMap]
  have ht : ∀ i (hi : i + 4 < cs.length), ∀ f ∈ block i, f.time = cs[i + 2].time := by
    intro i hi f hf
    have := (hb i hi).subset hf
    simp only [List.mem_cons, List.not_mem_nil, or_false] at this
    rcases this with rfl | rfl <;> rfl
  constructor
  · intro i hi
    rw [List.mem_range] at hi
    rw [List.pairwise_iff_forall_sublist]
    intro f g hs
    have h1 := ht i (by omega) f (hs.subset (by simp))
    have h2 := ht i (by omega) g (hs.subset (by simp))
    rw [h1, h2]
  · refine List.Pairwise.imp_of_mem ?_ List.pairwise_lt_range
    intro i j hi hj hij f hf g hg
    rw [List.mem_range] at hi hj
    rw [ht i (by omega) f hf, ht j (by omega) g hg]
    exact List.pairwise_iff_getElem.1 h _ _ _ _ (by omega)

example : exFractals.Pairwise (fun a b => a.time ≤ b.time) ∧
    williamFractals exFractals = [⟨3, .fin 15, .up⟩, ⟨4, .fin 2, .down⟩] := by decide +kernel

/-! ### C88 -/

/-- Prices negated, highs and lows swapped. -/
def Spec.mirror (c : Candle) : Candle := { c with high := Fl.neg c.low, low := Fl.neg c.high }

/-- The other type. -/
def Spec.flipType : FractalType → FractalType
  | .up => .down
  | .down => .up

/-- The mirrored fractal. -/
def Spec.mirrorFractal (f : WilliamFractal) : WilliamFractal := ⟨f.time, Fl.neg f.price, flipType f.ftype⟩

theorem key_lt_neg {x y : Fl} : Fl.lt (Fl.neg x) (Fl.neg y) = Fl.lt y x := by
  have aux : ∀ q : ℚ, (Fl.neg (.fin q)).key = Ext.ofRat (-q) ∧ (Fl.neg (.fin q)).isNaN = false := by
    intro q; by_cases hq : q = 0 <;> simp [Fl.neg, Fl.key, hq, Fl.isNaN]
  unfold Fl.lt
  rcases x with _ | (_ | _) | a | _ <;> rcases y with _ | (_ | _) | b | _ <;>
    (try simp only [(aux _).1, (aux _).2]) <;> (try rfl) <;> simp [Fl.neg, Fl.key, Fl.isNaN]

theorem key_le_neg {x y : Fl} : Fl.le (Fl.neg x) (Fl.neg y) = Fl.le y x := by
  have aux : ∀ q : ℚ, (Fl.neg (.fin q)).key = Ext.ofRat (-q) ∧ (Fl.neg (.fin q)).isNaN = false := by
    intro q; by_cases hq : q = 0 <;> simp [Fl.neg, Fl.key, hq, Fl.isNaN]
  unfold Fl.le
  rcases x with _ | (_ | _) | a | _ <;> rcases y with _ | (_ | _) | b | _ <;>
    (try simp only [(aux _).1, (aux _).2]) <;> (try rfl) <;> simp [Fl.neg, Fl.key, Fl.isNaN]

theorem leftFails_mirror (t : FractalType) (third c : Candle) :
    leftFails (flipType t) (mirror third) (mirror c) = leftFails t third c := by
  cases t <;> simp [leftFails, flipType, mirror, key_le_neg]

theorem beats_mirror (t : FractalType) (c e : Candle) :
    beats (flipType t) (price (flipType t) (mirror c)) (price (flipType t) (mirror e)) =
      beats t (price t c) (price t e) := by
  cases t <;> simp [beats, flipType, mirror, price, key_lt_neg]

theorem rightScan_mirror (t : FractalType) (third : Candle) (cs : List Candle) : ∀ k,
    rightScan (flipType t) (mirror third) k (cs.map mirror) = rightScan t third k cs := by
  induction cs with
  | nil => intro k; rfl
  | cons c cs ih =>
    intro k
    rw [List.map_cons, rightScan_cons, rightScan_cons, beats_mirror, beats_mirror, ih, ih]

theorem findFractal_mirror (cs : List Candle) (i : Nat) (t : FractalType) :
    findFractal (cs.map mirror) i (flipType t) = (findFractal cs i t).map mirrorFractal := by
  unfold findFractal
  rw [← List.map_drop]
  match cs.drop i with
  | [] => rfl
  | [_] => rfl
  | [_, _] => rfl
  | c0 :: c1 :: third :: rest =>
    simp only [List.map_cons]
    rw [leftFails_mirror, leftFails_mirror, rightScan_mirror]
    cases t <;> (split_ifs <;> rfl)

/-- **C88.** Mirroring all candles turns the up fractals, in order, into the down fractals at
negated prices, and the other way round. -/
theorem C88_mirror (cs : List Candle) (t : FractalType) :
    (williamFractals (cs.map mirror)).filter (fun f => f.ftype = flipType t) =
      ((williamFractals cs).filter (fun f => f.ftype = t)).map mirrorFractal := by
  have hty : ∀ (cs : List Candle) i t g, findFractal cs i t = some g → g.ftype = t := by
    intro cs i t g h
    unfold findFractal at h
    split at h
    · simp only at h
      split_ifs at h
      cases h
      rfl
    · cases h
  have hrow : ∀ (cs : List Candle) i t, (findFractals cs i).filter (fun f => f.ftype = t) =
      (findFractal cs i t).toList := by
    intro cs i t
    rw [findFractals_eq, List.filter_append]
    have key : ∀ s, (findFractal cs i s).toList.filter (fun f => f.ftype = t) =
        if s = t then (findFractal cs i s).toList else [] := by
      intro s
      cases h : findFractal cs i s with
      | none => simp
      | some g =>
        have := hty _ _ _ _ h
        by_cases hs : s = t <;> simp [this, hs]
    rw [key, key]
    cases t <;> simp
  unfold williamFractals
  rw [List.length_map]
  split
  · rfl
  · rw [List.filter_flatMap, List.filter_flatMap, List.map_flatMap]
    apply List.flatMap_congr
    intro i _
    rw [hrow, hrow, findFractal_mirror]
    cases findFractal cs i t <;> rfl

example : williamFractals (exFractals.map mirror) =
    [⟨3, .fin (-15), .down⟩, ⟨4, .fin (-2), .up⟩] := by decide +kernel

end Finmod
