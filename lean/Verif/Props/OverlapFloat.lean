import Verif.Lemmas.OverlapErr
import Verif.Props.OverlapExact

/-!
# `CalculateOverlap` in float64 (C159)

How far the computed overlap is from the value of C135, whatever the compiler fuses.
-/

namespace Finmod
open Go Spec FloatSem

/-- Without fusing, the compiled functions are the ones of `Model/OrderBook.lean`. -/
theorem C159_unfused (S : FloatSem) (x y : Book) :
    calculateOverlapF S (fun _ => false) (fun _ => false) x y = calculateOverlap S x y := by
  have h1 : ∀ (t : Fl) (rows : List Row) (i : Nat) (v r : Fl),
      overlapFillF S (fun _ => false) t rows i v r = overlapFill S t rows v r := by
    intro t rows
    induction rows with
    | nil => intros; rfl
    | cons a l ih =>
      intro i v r
      unfold overlapFillF overlapFill
      rw [ih]; rfl
  have h2 : ∀ (rows : List Row) (i : Nat) (r : Fl),
      overlapCostF S (fun _ => false) rows i r = overlapCost S rows r := by
    intro rows
    induction rows with
    | nil => intros; rfl
    | cons a l ih => intro i r; exact ih _ _
  have h3 : ∀ x y, overlapCalculationF S (fun _ => false) (fun _ => false) x y = overlapCalculation S x y := by
    intro x y
    unfold overlapCalculationF overlapCalculation
    simp only [h1, h2]
    cases x.asks <;> cases y.bids <;> rfl
  unfold calculateOverlapF calculateOverlap
  simp only [h3]
  cases x.asks <;> cases y.bids <;> first | rfl | (cases x.bids <;> cases y.asks <;> rfl)

/-- Which calculation is done does not depend on what is fused. -/
theorem calculateOverlapF_cases (S : FloatSem) (fA fB : Nat → Bool) (x y : Book) (h : FourSides x y) :
    (Overlaps x y → calculateOverlapF S fA fB x y = overlapCalculationF S fA fB x y) ∧
    (¬ Overlaps x y → Overlaps y x → calculateOverlapF S fA fB x y = overlapCalculationF S fA fB y x) ∧
    (¬ Overlaps x y → ¬ Overlaps y x → calculateOverlapF S fA fB x y = .err .enotfound (S.const (-1))) := by
  obtain ⟨h1, h2, h3, h4⟩ := h
  obtain ⟨xa, xas, hxa⟩ := List.exists_cons_of_ne_nil h1
  obtain ⟨xb, xbs, hxb⟩ := List.exists_cons_of_ne_nil h2
  obtain ⟨ya, yas, hya⟩ := List.exists_cons_of_ne_nil h3
  obtain ⟨yb, ybs, hyb⟩ := List.exists_cons_of_ne_nil h4
  have o1 : Overlaps x y ↔ Fl.lt xa.price yb.price = true := by
    simp [Overlaps, hxa, hyb]
  have o2 : Overlaps y x ↔ Fl.gt xb.price ya.price = true := by
    simp [Overlaps, hxb, hya, Fl.gt]
  rw [o1, o2]
  unfold calculateOverlapF
  rw [hxa, hyb]
  simp only
  refine ⟨fun h => by rw [if_pos h], fun h h' => ?_, fun h h' => ?_⟩
  · rw [if_neg h, hxb, hya]; simp only; rw [if_pos h']
  · rw [if_neg h, hxb, hya]; simp only; rw [if_neg h']

theorem le_of_lt_fl {x y : Fl} (h : Fl.lt x y = true) : Fl.le x y = true := by
  rw [Fl.lt_iff] at h
  rw [Fl.le_iff]
  exact ⟨h.1, h.2.1, h.2.2.le⟩

theorem overlapCalculationF_near (fA fB : Nat → Bool) (x y : Book) (a b : Row) (hx : WellFormed x) (hy : WellFormed y)
    (f1 : ∀ r ∈ x.asks, FloatRow r) (f2 : ∀ r ∈ y.bids, FloatRow r)
    (ha : x.asks.head? = some a) (hb : y.bids.head? = some b) (hlt : Fl.lt a.price b.price = true) :
    let asks := x.asks.filter (fun r => Fl.le r.price b.price)
    let bids := y.bids.filter (fun r => Fl.ge r.price a.price)
    let n := asks.length + bids.length
    let volume := volumes asks + volumes bids
    n ≤ 2 ^ 40 → volume ≤ 2 ^ (900 : ℤ) → b.price.toRat * volume ≤ 2 ^ (900 : ℤ) →
    ∃ v, overlapCalculationF ieee fA fB x y = .ok v ∧ v.isFinite = true ∧
      |v.toRat - overlapComputed x y a.price b.price| ≤
        32 * n * (2 ^ (-53 : ℤ) * (b.price.toRat * volume) + 2 ^ (-1075 : ℤ)) := by
  intro A B n W hn hW hPW
  have ham := List.mem_of_head? ha
  have hbm := List.mem_of_head? hb
  have han := hx.asks_num a ham
  have hbn := hy.bids_num b hbm
  obtain ⟨as, hxa⟩ : ∃ as, x.asks = a :: as := by
    cases hh : x.asks with
    | nil => rw [hh] at ha; simp at ha
    | cons c cs => rw [hh] at ha; simp only [List.head?_cons, Option.some.injEq] at ha; exact ⟨cs, by rw [ha]⟩
  obtain ⟨bs, hyb⟩ : ∃ bs, y.bids = b :: bs := by
    cases hh : y.bids with
    | nil => rw [hh] at hb; simp at hb
    | cons c cs => rw [hh] at hb; simp only [List.head?_cons, Option.some.injEq] at hb; exact ⟨cs, by rw [hb]⟩
  have eA : x.asks.takeWhile (fun r => !(Fl.gt r.price b.price)) = A := by
    rw [show x.asks.takeWhile (fun r => !(Fl.gt r.price b.price)) =
      x.asks.filter (fun r => !(Fl.lt b.price r.price)) from
        takeWhile_eq_filter askOrd hx.asks_num hbn hx.askSorted]
    apply List.filter_congr
    intro r hr
    have hrn := hx.asks_num r hr
    rw [Bool.eq_iff_iff, le_key hrn hbn, Bool.not_eq_true', askOrd.lt_false_iff hbn hrn]
  have eB : y.bids.takeWhile (fun r => !(Fl.lt r.price a.price)) = B := by
    rw [show y.bids.takeWhile (fun r => !(Fl.lt r.price a.price)) =
      y.bids.filter (fun r => !((fun p q => Fl.lt q p) a.price r.price)) from
        takeWhile_eq_filter bidOrd hy.bids_num han hy.bidSorted]
    apply List.filter_congr
    intro r hr
    have hrn := hy.bids_num r hr
    rw [Bool.eq_iff_iff, le_key han hrn, Bool.not_eq_true', bidOrd.lt_false_iff han hrn]
    exact Iff.rfl
  have tA : x.asks.take A.length = A := by rw [← eA]; exact take_takeWhile _ _
  have tB : y.bids.take B.length = B := by rw [← eB]; exact take_takeWhile _ _
  set A' := if x.asks.any (fun r => Fl.gt r.price b.price) then A else [] with hA'
  set B' := if y.bids.any (fun r => Fl.lt r.price a.price) then B else [] with hB'
  have hcalc : overlapCalculationF ieee fA fB x y = .ok (Fl.abs (ieee.sub (overlapCostF ieee fA A' 0 (.fin 0))
      (overlapFillF ieee fB ((A.map (·.volume)).foldl ieee.add (.fin 0)) B'.reverse 0 (.fin 0) (.fin 0)))) := by
    unfold overlapCalculationF
    rw [hxa, hyb]
    simp only [← hxa, ← hyb, overlapScan_eq, eA, eB, zero_add]
    have z1 : (List.take (if x.asks.any (fun r => Fl.gt r.price b.price) then A.length else 0) x.asks) = A' := by
      rw [hA']
      split_ifs
      · exact tA
      · exact List.take_zero
    have z2 : (List.take (if y.bids.any (fun r => Fl.lt r.price a.price) then B.length else 0) y.bids) = B' := by
      rw [hB']
      split_ifs
      · exact tB
      · exact List.take_zero
    rw [z1, z2]
  -- the rows
  have hAr : ∀ r ∈ A, FloatRow r := fun r hr => f1 r (List.mem_of_mem_filter hr)
  have hBr : ∀ r ∈ B, FloatRow r := fun r hr => f2 r (List.mem_of_mem_filter hr)
  have sA : ∀ r ∈ A', r ∈ A := by
    intro r hr; rw [hA'] at hr; split_ifs at hr
    · exact hr
    · simp at hr
  have sB : ∀ r ∈ B'.reverse, r ∈ B := by
    intro r hr; rw [List.mem_reverse, hB'] at hr; split_ifs at hr
    · exact hr
    · simp at hr
  have vA := volumes_nonneg hAr
  have vB := volumes_nonneg hBr
  have lA : A'.length ≤ A.length := by rw [hA']; split_ifs <;> simp
  have lB : B'.reverse.length ≤ B.length := by rw [List.length_reverse, hB']; split_ifs <;> simp
  have wB : volumes B'.reverse ≤ volumes B := by
    have : volumes B'.reverse = volumes B' := by simp [volumes, List.sum_reverse]
    rw [this, hB']; split_ifs
    · exact le_rfl
    · simpa [volumes] using vB
  have wA : volumes A' ≤ volumes A := by
    rw [hA']; split_ifs
    · exact le_rfl
    · simpa [volumes] using vA
  have hbF := f2 b hbm
  set P := b.price.toRat with hPdef
  have hP0 : 0 ≤ P := hbF.price_nonneg
  have pA : ∀ r ∈ A, r.price.toRat ≤ P := by
    intro r hr
    have h1 : Fl.le r.price b.price = true := (List.mem_filter.1 hr).2
    rw [(Fl.isFinite_is (hAr r hr).price).le (Fl.isFinite_is hbF.price)] at h1
    simpa using h1
  have pB : ∀ r ∈ B, r.price.toRat ≤ P := by
    intro r hr
    have hm := List.mem_of_mem_filter hr
    rw [hyb] at hm
    rcases List.mem_cons.1 hm with rfl | hm
    · exact le_rfl
    · have hs := hy.bidSorted
      rw [hyb] at hs
      have h1 := (List.pairwise_cons.1 hs).1 r hm
      change Fl.lt r.price b.price = true at h1
      rw [(Fl.isFinite_is (hBr r hr).price).lt (Fl.isFinite_is hbF.price)] at h1
      exact le_of_lt (by simpa using h1)
  have hnA : 1 ≤ A.length := by
    have : a ∈ A := List.mem_filter.2 ⟨ham, le_of_lt_fl hlt⟩
    exact List.length_pos_of_mem this
  have hnB : 1 ≤ B.length := by
    have : b ∈ B := List.mem_filter.2 ⟨hbm, le_of_lt_fl hlt⟩
    exact List.length_pos_of_mem this
  have hu := uR_nonneg
  have hti := tiny_nonneg
  have h900 : 16 * (2 : ℚ) ^ (900 : ℤ) + 16 ≤ huge := by
    rw [huge_eq]
    have e : (2 : ℚ) ^ (1023 : ℤ) = 2 ^ (123 : ℤ) * 2 ^ (900 : ℤ) := by
      rw [← zpow_add₀ (by norm_num)]; norm_num
    have e1 : (1 : ℚ) ≤ 2 ^ (900 : ℤ) := one_le_zpow₀ (by norm_num) (by norm_num)
    have e2 : (32 : ℚ) ≤ 2 ^ (123 : ℤ) := by norm_num
    rw [e]
    generalize (2 : ℚ) ^ (900 : ℤ) = Z at *
    generalize (2 : ℚ) ^ (123 : ℤ) = Y at *
    have := mul_le_mul_of_nonneg_right e2 (by linarith only [e1] : 0 ≤ Z)
    linarith only [this, e1]
  have hnq : ((A.length : ℚ) + B.length) ≤ 2 ^ 40 := by
    have : ((A.length + B.length : ℕ) : ℚ) ≤ ((2 ^ 40 : ℕ) : ℚ) := by exact_mod_cast hn
    push_cast at this; linarith
  have hqA : (1 : ℚ) ≤ A.length := by exact_mod_cast hnA
  have hqB : (1 : ℚ) ≤ B.length := by exact_mod_cast hnB
  have hlA : (A'.length : ℚ) ≤ A.length := by exact_mod_cast lA
  have hlB : (B'.reverse.length : ℚ) ≤ B.length := by exact_mod_cast lB
  have hnn : ((n : ℕ) : ℚ) = A.length + B.length := by simp only [n]; push_cast; ring
  have eW : W = volumes A + volumes B := rfl
  have W0 : 0 ≤ W := by linarith
  have PW0 : 0 ≤ P * W := mul_nonneg hP0 W0
  rw [hnn, ← uR_eq, ← tiny_eq]
  generalize (2 : ℚ) ^ (900 : ℤ) = Z at *
  obtain ⟨t, ht, hte⟩ := volumes_near hAr (by linarith) (by linarith)
  have cA : cost A' ≤ P * W := (cost_le (fun r hr => hAr r (sA r hr)) (fun r hr => pA r (sA r hr))).trans
    (mul_le_mul_of_nonneg_left (by linarith) hP0)
  have cA0 : 0 ≤ cost A' := cost_nonneg (fun r hr => hAr r (sA r hr))
  obtain ⟨c, hc, hce⟩ := costF_near fA (fun r hr => hAr r (sA r hr)) 0 (by linarith) (by linarith)
  have t0 : 0 ≤ t := by
    have := (abs_le.1 hte).1
    have c := count_uR (k := A.length) (by linarith)
    have := mul_le_mul_of_nonneg_right c vA
    linarith
  obtain ⟨s, hs, hse⟩ := fillF_near fB (rows := B'.reverse) (n := A.length + B.length) (P := P) (W := W)
    (fun r hr => hBr r (sB r hr)) (fun r hr => pB r (sB r hr)) hP0 ht t0 vA (by linarith) hte hnq (by linarith)
    (by linarith) (by
      have q0 : (0 : ℚ) ≤ B'.reverse.length := Nat.cast_nonneg _
      have w0 : 0 ≤ volumes B'.reverse := volumes_nonneg (fun r hr => hBr r (sB r hr))
      have q1 : 2 * (B'.reverse.length : ℚ) * uR * volumes B'.reverse ≤ 2 * B.length * uR * volumes B :=
        mul_le_mul (mul_le_mul_of_nonneg_right (by linarith) hu) wB w0 (mul_nonneg (by linarith) hu)
      have q2 : 0 ≤ A.length * uR * volumes B := mul_nonneg (mul_nonneg (by linarith) hu) vB
      have q3 : 0 ≤ B.length * uR * volumes A := mul_nonneg (mul_nonneg (by linarith) hu) vA
      rw [eW]
      linarith) (by linarith) (by linarith)
  set n' : ℚ := A.length + B.length
  have hn1 : 2 ≤ n' := by simp only [n']; linarith
  have hn0 : 0 ≤ n' := by linarith
  have uPW := mul_nonneg hu PW0
  have nG : 0 ≤ n' * (uR * (P * W)) := mul_nonneg hn0 uPW
  have nt : 0 ≤ n' * tiny := mul_nonneg hn0 hti
  have hce' : |c - cost A'| ≤ 4 * (n' * (uR * (P * W))) + 4 * (n' * tiny) := by
    refine hce.trans ?_
    have q0 : (0 : ℚ) ≤ A'.length := Nat.cast_nonneg _
    have := mul_le_mul (c := uR * cost A' + tiny) (d := uR * (P * W) + tiny)
      (by simp only [n']; linarith : 4 * (A'.length : ℚ) ≤ 4 * n')
      (by linarith [mul_le_mul_of_nonneg_left cA hu]) (by linarith [mul_nonneg hu cA0]) (by linarith)
    linarith
  have pr := proceeds_bounds (fun r hr => hBr r (sB r hr)) (fun r hr => pB r (sB r hr)) hP0 (volumes A)
  rw [max_eq_right vA] at pr
  have prW : P * volumes A ≤ P * W := mul_le_mul_of_nonneg_left (by linarith) hP0
  have es : (10 * n' + 16) * (uR * (P * W) + tiny) =
    10 * (n' * (uR * (P * W))) + 16 * (uR * (P * W)) + 10 * (n' * tiny) + 16 * tiny := by ring
  rw [es] at hse
  have cn := count_uR hnq
  have cnt := count_tiny hnq
  have nu : n' * (uR * (P * W)) ≤ 1 / 4000 * (P * W) := by
    have := mul_le_mul_of_nonneg_right cn PW0
    linarith
  have hus : uR * (P * W) ≤ 1 / 1000000000000000 * (P * W) := mul_le_mul_of_nonneg_right uR_small PW0
  have c' := abs_le.1 hce'
  have s' := abs_le.1 hse
  have t1 : tiny ≤ n' * tiny := le_mul_of_one_le_left hti (by linarith)
  have g1 : 2 * (uR * (P * W)) ≤ n' * (uR * (P * W)) := mul_le_mul_of_nonneg_right hn1 uPW
  have t2 : 2 * tiny ≤ n' * tiny := mul_le_mul_of_nonneg_right hn1 hti
  have hcs : |c - s| ≤ 2 * (P * W) + 22 * (n' * tiny) := by
    rw [abs_le]; exact ⟨by linarith, by linarith⟩
  obtain ⟨d, hd, hde⟩ := sub_near hc hs (by linarith)
  refine ⟨_, hcalc, (Fl.is_iff.1 (Fl.Is.abs hd.1)).1, ?_⟩
  rw [(Fl.Is.abs hd.1).toRat]
  have eo : overlapComputed x y a.price b.price = |cost A' - proceeds (volumes A) B'.reverse| := rfl
  rw [eo]
  refine (abs_abs_sub_abs_le _ _).trans ?_
  have k1 := mul_le_mul_of_nonneg_left hcs hu
  have k2 : uR * (2 * (P * W) + 22 * (n' * tiny)) = 2 * (uR * (P * W)) + 22 * (n' * uR * tiny) := by ring
  have k3 : n' * uR * tiny ≤ 1 / 4000 * tiny := mul_le_mul_of_nonneg_right (by linarith) hti
  have hde' := abs_le.1 hde
  rw [show 32 * n' * (uR * (P * W) + tiny) = 32 * (n' * (uR * (P * W))) + 32 * (n' * tiny) by ring, abs_le]
  exact ⟨by linarith, by linarith⟩

/-- **C159.** In float64, whatever is fused: the value of `CalculateOverlap` is within
`32 n 2^-53` of the best bid times the crossed volume from the value of C135, `n` being the number of
crossed rows. -/
theorem C159_overlap_accurate (fA fB : Nat → Bool) (x y : Book) (a b : Row) (hx : WellFormed x) (hy : WellFormed y)
    (h : FourSides x y) (f1 : ∀ r ∈ x.asks, FloatRow r) (f2 : ∀ r ∈ y.bids, FloatRow r)
    (ha : x.asks.head? = some a) (hb : y.bids.head? = some b) (hlt : Fl.lt a.price b.price = true) :
    let asks := x.asks.filter (fun r => Fl.le r.price b.price)
    let bids := y.bids.filter (fun r => Fl.ge r.price a.price)
    let n := asks.length + bids.length
    let volume := (asks.map (·.volume.toRat)).sum + (bids.map (·.volume.toRat)).sum
    n ≤ 2 ^ 40 → volume ≤ 2 ^ (900 : ℤ) → b.price.toRat * volume ≤ 2 ^ (900 : ℤ) →
    ∃ v, calculateOverlapF ieee fA fB x y = .ok v ∧ v.isFinite = true ∧
      |v.toRat - overlapComputed x y a.price b.price| ≤
        32 * n * (2 ^ (-53 : ℤ) * (b.price.toRat * volume) + 2 ^ (-1075 : ℤ)) := by
  rw [(calculateOverlapF_cases ieee fA fB x y h).1 ⟨a, b, ha, hb, hlt⟩]
  exact overlapCalculationF_near fA fB x y a b hx hy f1 f2 ha hb hlt

/-- **C159** for the program without fusing. -/
theorem C159_overlap_accurate_plain (x y : Book) (a b : Row) (hx : WellFormed x) (hy : WellFormed y)
    (h : FourSides x y) (f1 : ∀ r ∈ x.asks, FloatRow r) (f2 : ∀ r ∈ y.bids, FloatRow r)
    (ha : x.asks.head? = some a) (hb : y.bids.head? = some b) (hlt : Fl.lt a.price b.price = true) :
    let asks := x.asks.filter (fun r => Fl.le r.price b.price)
    let bids := y.bids.filter (fun r => Fl.ge r.price a.price)
    let n := asks.length + bids.length
    let volume := (asks.map (·.volume.toRat)).sum + (bids.map (·.volume.toRat)).sum
    n ≤ 2 ^ 40 → volume ≤ 2 ^ (900 : ℤ) → b.price.toRat * volume ≤ 2 ^ (900 : ℤ) →
    ∃ v, calculateOverlap ieee x y = .ok v ∧ v.isFinite = true ∧
      |v.toRat - overlapComputed x y a.price b.price| ≤
        32 * n * (2 ^ (-53 : ℤ) * (b.price.toRat * volume) + 2 ^ (-1075 : ℤ)) := by
  have := C159_overlap_accurate (fun _ => false) (fun _ => false) x y a b hx hy h f1 f2 ha hb hlt
  rwa [C159_unfused] at this

/-- **C159**: for books that are not themselves crossed the order of the arguments does not matter,
whatever is fused. -/
theorem C159_symmetric (S : FloatSem) (fA fB : Nat → Bool) (x y : Book) (h : FourSides x y)
    (hx : Uncrossed x) (hy : Uncrossed y) :
    calculateOverlapF S fA fB x y = calculateOverlapF S fA fB y x := by
  obtain ⟨c1, c2, c3⟩ := calculateOverlapF_cases S fA fB x y h
  obtain ⟨d1, d2, d3⟩ := calculateOverlapF_cases S fA fB y x ⟨h.2.2.1, h.2.2.2, h.1, h.2.1⟩
  by_cases o1 : Overlaps x y
  · by_cases o2 : Overlaps y x
    · exfalso
      obtain ⟨xa, yb, e1, e2, e3⟩ := o1
      obtain ⟨ya, xb, e4, e5, e6⟩ := o2
      have u1 := hx xb (List.mem_of_head? e5) xa (List.mem_of_head? e1)
      have u2 := hy yb (List.mem_of_head? e2) ya (List.mem_of_head? e4)
      rw [Fl.le_iff] at u1 u2
      rw [Fl.lt_iff] at e3 e6
      exact absurd (e3.2.2.trans_le (u2.2.2.trans (e6.2.2.le.trans u1.2.2))) (lt_irrefl _)
    · rw [c1 o1, d2 o2 o1]
  · by_cases o2 : Overlaps y x
    · rw [c2 o1 o2, d1 o2]
    · rw [c3 o1 o2, d3 o2 o1]

/-- **C159** when it is the second book that is asked below the bid of the first. -/
theorem C159_overlap_accurate_reversed (fA fB : Nat → Bool) (x y : Book) (a b : Row) (hx : WellFormed x)
    (hy : WellFormed y) (h : FourSides x y) (f1 : ∀ r ∈ y.asks, FloatRow r) (f2 : ∀ r ∈ x.bids, FloatRow r)
    (ha : y.asks.head? = some a) (hb : x.bids.head? = some b) (hlt : Fl.lt a.price b.price = true)
    (hno : ¬ Overlaps x y) :
    let asks := y.asks.filter (fun r => Fl.le r.price b.price)
    let bids := x.bids.filter (fun r => Fl.ge r.price a.price)
    let n := asks.length + bids.length
    let volume := (asks.map (·.volume.toRat)).sum + (bids.map (·.volume.toRat)).sum
    n ≤ 2 ^ 40 → volume ≤ 2 ^ (900 : ℤ) → b.price.toRat * volume ≤ 2 ^ (900 : ℤ) →
    ∃ v, calculateOverlapF ieee fA fB x y = .ok v ∧ v.isFinite = true ∧
      |v.toRat - overlapComputed y x a.price b.price| ≤
        32 * n * (2 ^ (-53 : ℤ) * (b.price.toRat * volume) + 2 ^ (-1075 : ℤ)) := by
  rw [(calculateOverlapF_cases ieee fA fB x y h).2.1 hno ⟨a, b, ha, hb, hlt⟩]
  exact overlapCalculationF_near fA fB y x a b hy hx f1 f2 ha hb hlt

/-- **C159**: whatever is fused, there is a value if one book is asked below the bid of the other, and
otherwise ENOTFOUND with -1. -/
theorem C159_found_iff (S : FloatSem) (fA fB : Nat → Bool) (x y : Book) (h : FourSides x y) :
    ((∃ v, calculateOverlapF S fA fB x y = .ok v) ↔ Overlaps x y ∨ Overlaps y x) ∧
    (calculateOverlapF S fA fB x y = .err .enotfound (S.const (-1)) ↔ ¬ (Overlaps x y ∨ Overlaps y x)) := by
  obtain ⟨c1, c2, c3⟩ := calculateOverlapF_cases S fA fB x y h
  have hok : ∀ u w : Book, u.asks ≠ [] → w.bids ≠ [] → ∃ v, overlapCalculationF S fA fB u w = .ok v := by
    intro u w hu hw
    obtain ⟨a, as, ea⟩ := List.exists_cons_of_ne_nil hu
    obtain ⟨b, bs, eb⟩ := List.exists_cons_of_ne_nil hw
    unfold overlapCalculationF
    rw [ea, eb]
    exact ⟨_, rfl⟩
  obtain ⟨v, hv⟩ := hok x y h.1 h.2.2.2
  obtain ⟨w, hw⟩ := hok y x h.2.2.1 h.2.1
  by_cases o1 : Overlaps x y
  · rw [c1 o1, hv]; simp [o1]
  · by_cases o2 : Overlaps y x
    · rw [c2 o1 o2, hw]; simp [o2]
    · rw [c3 o1 o2]; simp [o1, o2]

/-- Overlapping sample books, and a book against itself. -/
example : (∃ v, calculateOverlapF ieee (fun _ => true) (fun _ => false) Ex.book Ex.book2 = .ok v) ∧
    calculateOverlapF ieee (fun _ => true) (fun _ => false) Ex.book Ex.book = .err .enotfound (ieee.const (-1)) :=
  ⟨(C159_found_iff ieee _ _ Ex.book Ex.book2 ⟨by decide, by decide, by decide, by decide⟩).1.2
      (Or.inl ⟨_, _, rfl, rfl, by decide +kernel⟩), by decide +kernel⟩

theorem floatRow_fin {p v a : ℚ} (hv : ieee.rnd v = .fin v) (h : 0 ≤ p ∧ 0 ≤ v) :
    FloatRow ⟨.fin p, .fin v, .fin a⟩ :=
  ⟨rfl, rfl, (by intro q e; cases e; exact hv), h.1, h.2⟩

/-- The crossed rows of the sample books: value 12, four rows. -/
example := C159_overlap_accurate (fun i => i == 1) (fun _ => true) Ex.book Ex.book2 _ _ (by decide +kernel)
  (by decide +kernel) ⟨by decide, by decide, by decide, by decide⟩
  (by
    intro r hr
    simp only [Ex.book, List.mem_cons, List.not_mem_nil, or_false] at hr
    rcases hr with rfl | rfl | rfl <;> exact floatRow_fin (by decide +kernel) (by decide +kernel))
  (by
    intro r hr
    simp only [Ex.book2, List.mem_cons, List.not_mem_nil, or_false] at hr
    rcases hr with rfl | rfl | rfl <;> exact floatRow_fin (by decide +kernel) (by decide +kernel))
  rfl rfl (by decide +kernel)

/-- The same rows with the books exchanged. -/
example := C159_overlap_accurate_reversed (fun i => i == 1) (fun _ => true) Ex.book2 Ex.book _ _ (by decide +kernel)
  (by decide +kernel) ⟨by decide, by decide, by decide, by decide⟩
  (by
    intro r hr
    simp only [Ex.book, List.mem_cons, List.not_mem_nil, or_false] at hr
    rcases hr with rfl | rfl | rfl <;> exact floatRow_fin (by decide +kernel) (by decide +kernel))
  (by
    intro r hr
    simp only [Ex.book2, List.mem_cons, List.not_mem_nil, or_false] at hr
    rcases hr with rfl | rfl | rfl <;> exact floatRow_fin (by decide +kernel) (by decide +kernel))
  rfl rfl (by decide +kernel)
  (by
    rintro ⟨c, d, hc, hd, hlt⟩
    simp only [Ex.book2, Ex.book, List.head?_cons, Option.some.injEq] at hc hd
    subst hc hd
    exact absurd hlt (by decide +kernel))

/-- Fusing can change the value. -/
example :
    let r (p v : ℚ) : Row := ⟨ieee.rnd p, ieee.rnd v, .fin 0⟩
    let x : Book := { time := 0, maxDepth := 5, asks := [r (1/10) (1/10), r (3/10) (7/10), r 9 1], bids := [r (1/100) 1] }
    let y : Book := { time := 0, maxDepth := 5, asks := [r 10 1], bids := [r (4/10) (1/10), r (2/10) (1/3), r (1/20) 1] }
    calculateOverlapF ieee (fun _ => true) (fun _ => true) x y ≠ calculateOverlap ieee x y := by
  decide +kernel

end Finmod
