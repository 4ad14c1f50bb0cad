import Verif.Lemmas.Err
import Verif.Lemmas.FloatX
import Verif.Lemmas.Gradual
import Verif.Props.Orders
import Verif.Props.IEEE

/-!
# Mark to market, fees and completed requests in float64 (C121–C123)
-/

namespace Finmod
open Go Spec

/-! ### Keys of differences and products -/

theorem rnd_zero {S : FloatSem} (hS : Lawful S) : S.rnd 0 = .fin 0 := by
  have : S.rnd ((0 : ℤ) : ℚ) = .fin ((0 : ℤ) : ℚ) := hS.r64.int 0 (by norm_num)
  simpa using this

theorem add_key {S : FloatSem} (hS : Lawful S) {x y : Fl} {a b : ℚ} (hx : x.Is a) (hy : y.Is b) :
    S.add x y ≠ .nan ∧ (S.add x y).key = (S.rnd (a + b)).key := by
  rcases FloatSem.add_is (S := S) hx hy with e | ⟨e, rfl, rfl⟩
  · rw [e]; exact ⟨hS.r64.not_nan _, rfl⟩
  · rw [e, add_zero, rnd_zero hS]; exact ⟨by simp, rfl⟩

theorem sub_key {S : FloatSem} (hS : Lawful S) {x y : Fl} {a b : ℚ} (hx : x.Is a) (hy : y.Is b) :
    S.sub x y ≠ .nan ∧ (S.sub x y).key = (S.rnd (a - b)).key := by
  rw [sub_eq_add_neg]
  exact add_key hS hx hy.neg

theorem mul_key {S : FloatSem} (hS : Lawful S) {x y : Fl} {a b : ℚ} (hx : x.Is a) (hy : y.Is b) :
    S.mul x y ≠ .nan ∧ (S.mul x y).key = (S.rnd (a * b)).key := by
  rcases FloatSem.mul_is (S := S) hx hy with ⟨_, e⟩ | ⟨h0, e⟩
  · rw [e]; exact ⟨hS.r64.not_nan _, rfl⟩
  · rw [h0, rnd_zero hS]; exact ⟨e.ne_nan, by rw [e.key]; rfl⟩

theorem fl_cases {x : Fl} (h : x ≠ .nan) : x = .inf true ∨ x = .inf false ∨ ∃ a, x.Is a := by
  rcases x with _ | (_ | _) | a | _
  · exact absurd rfl h
  · simp
  · simp
  · exact .inr (.inr ⟨a, Fl.is_fin a⟩)
  · exact .inr (.inr ⟨0, Fl.is_negZero⟩)

theorem mul_inf_pos {S : FloatSem} {y : Fl} {q : ℚ} (hy : y.Is q) (hq : 0 < q) (b : Bool) :
    S.mul (.inf b) y = .inf b := by
  rcases hy with rfl | ⟨_, rfl⟩
  · simp [FloatSem.mul, Fl.isZero, Fl.sgn, hq.ne', not_lt.2 hq.le]
  · exact absurd hq (lt_irrefl _)

/-- Multiplying by a positive finite number keeps the order. -/
theorem mul_mono {S : FloatSem} (hS : Lawful S) {x x' y : Fl} {q : ℚ} (hy : y.Is q) (hq : 0 < q)
    (h : Fl.le x x' = true) : Fl.le (S.mul x y) (S.mul x' y) = true := by
  obtain ⟨n1, n2, hk⟩ := Fl.le_iff.1 h
  rcases fl_cases n1 with rfl | rfl | ⟨a, ha⟩ <;> rcases fl_cases n2 with rfl | rfl | ⟨b, hb⟩
  · rw [mul_inf_pos hy hq]; decide +kernel
  · rw [mul_inf_pos hy hq, mul_inf_pos hy hq]; decide +kernel
  · rw [mul_inf_pos hy hq]
    exact Fl.le_iff.2 ⟨by simp, (mul_key hS hb hy).1, by simp [Fl.key]⟩
  · simp [Fl.key] at hk
  · rw [mul_inf_pos hy hq]; decide +kernel
  · rw [hb.key] at hk; simp [Fl.key] at hk
  · rw [ha.key] at hk; simp [Fl.key] at hk
  · rw [mul_inf_pos hy hq]
    exact Fl.le_iff.2 ⟨(mul_key hS ha hy).1, by simp, by simp [Fl.key]⟩
  · rw [ha.key, hb.key, Ext.ofRat_le] at hk
    obtain ⟨m1, k1⟩ := mul_key hS ha hy
    obtain ⟨m2, k2⟩ := mul_key hS hb hy
    refine Fl.le_iff.2 ⟨m1, m2, ?_⟩
    rw [k1, k2]
    exact hS.r64.mono _ _ (mul_le_mul_of_nonneg_right hk hq.le)

/-! ### C121 -/

/-- A position with a finite open price and a positive finite quantity. -/
def Spec.Holding (p : Position) : Prop :=
  p.openPrice.isFinite = true ∧ p.quantity.isFinite = true ∧ 0 < p.quantity.toRat

instance (p) : Decidable (Holding p) := by unfold Holding; infer_instance

/-- **C121** The mark-to-market profit grows with the price for a long position and falls with it
for any other, whatever the rounding; it is a number (possibly infinite). -/
theorem C121_monotone {S : FloatSem} (hS : Lawful S) (p : Position) (hp : Holding p) (x y : Fl)
    (hx : x.isFinite = true) (hy : y.isFinite = true) (h : Fl.le x y = true) :
    (p.type = "long" → Fl.le (unrealizedProfit S p x) (unrealizedProfit S p y) = true) ∧
    (p.type ≠ "long" → Fl.le (unrealizedProfit S p y) (unrealizedProfit S p x) = true) := by
  obtain ⟨h1, h2, h3⟩ := hp
  have hx := Fl.isFinite_is hx
  have hy := Fl.isFinite_is hy
  have ho := Fl.isFinite_is h1
  rw [hx.le hy, decide_eq_true_eq] at h
  constructor <;> intro ht <;> unfold unrealizedProfit longPosition
  · rw [if_pos ht, if_pos ht]
    apply mul_mono hS (Fl.isFinite_is h2) h3
    obtain ⟨n1, k1⟩ := sub_key hS hx ho
    obtain ⟨n2, k2⟩ := sub_key hS hy ho
    refine Fl.le_iff.2 ⟨n1, n2, ?_⟩
    rw [k1, k2]
    exact hS.r64.mono _ _ (by linarith)
  · rw [if_neg ht, if_neg ht]
    apply mul_mono hS (Fl.isFinite_is h2) h3
    obtain ⟨n1, k1⟩ := sub_key hS ho hy
    obtain ⟨n2, k2⟩ := sub_key hS ho hx
    refine Fl.le_iff.2 ⟨n1, n2, ?_⟩
    rw [k1, k2]
    exact hS.r64.mono _ _ (by linarith)

theorem profit_at_open {S : FloatSem} (hS : Lawful S) (p : Position) (hp : Holding p) :
    (unrealizedProfit S p p.openPrice).Is 0 := by
  obtain ⟨h1, h2, h3⟩ := hp
  have ho := Fl.isFinite_is h1
  have hz : (S.sub p.openPrice p.openPrice).Is 0 := by
    have := FloatSem.add_is (S := S) ho ho.neg
    rw [add_neg_cancel, rnd_zero hS] at this
    rcases this with e | ⟨e, _, _⟩ <;> unfold FloatSem.sub <;> rw [e]
    · exact Fl.is_fin 0
    · exact Fl.is_negZero
  have hm : (S.mul (S.sub p.openPrice p.openPrice) p.quantity).Is 0 := by
    rcases FloatSem.mul_is (S := S) hz (Fl.isFinite_is h2) with ⟨h0, _⟩ | ⟨_, e⟩
    · simp at h0
    · exact e
  unfold unrealizedProfit
  split_ifs <;> exact hm

theorem mul_pos_of_ge_one {S : FloatSem} (hS : Lawful S) {x y : Fl} {q : ℚ} (hr : S.Rep x)
    (hx : Fl.lt (.fin 0) x = true) (hy : y.Is q) (hq : 1 ≤ q) : Fl.lt (.fin 0) (S.mul x y) = true := by
  obtain ⟨_, n, hk⟩ := Fl.lt_iff.1 hx
  rcases fl_cases n with rfl | rfl | ⟨a, ha⟩
  · simp [Fl.key] at hk
  · rw [mul_inf_pos hy (by linarith)]; decide +kernel
  · rw [ha.key] at hk
    have ha0 : 0 < a := by simpa [Fl.key] using hk
    obtain ⟨m, k⟩ := mul_key hS ha hy
    refine Fl.lt_iff.2 ⟨by simp, m, ?_⟩
    rw [k]
    have ex : x = .fin a := by
      rcases ha with h | ⟨_, rfl⟩
      · exact h
      · exact absurd ha0 (lt_irrefl _)
    have e : S.rnd a = .fin a := hr a ex
    refine lt_of_lt_of_le ?_ (hS.r64.mono a (a * q) (by nlinarith))
    rw [e]
    simpa [Fl.key] using ha0

theorem rep_sub {S : FloatSem} (hS : Lawful S) {x y : Fl} {a b : ℚ} (hx : x.Is a) (hy : y.Is b) :
    S.Rep (S.sub x y) := by
  intro r hr
  unfold FloatSem.sub at hr
  rcases FloatSem.add_is (S := S) hx hy.neg with e | ⟨e, _, _⟩
  · rw [e] at hr; exact hS.r64.idem _ _ hr
  · rw [e] at hr; cases hr

theorem mul_neg_of_ge_one {S : FloatSem} (hS : Lawful S) {x y : Fl} {q : ℚ} (hr : S.Rep x)
    (hx : Fl.lt x (.fin 0) = true) (hy : y.Is q) (hq : 1 ≤ q) : Fl.lt (S.mul x y) (.fin 0) = true := by
  obtain ⟨n, _, hk⟩ := Fl.lt_iff.1 hx
  rcases fl_cases n with rfl | rfl | ⟨a, ha⟩
  · rw [mul_inf_pos hy (by linarith)]; decide +kernel
  · simp [Fl.key] at hk
  · rw [ha.key] at hk
    have ha0 : a < 0 := by simpa [Fl.key] using hk
    obtain ⟨m, k⟩ := mul_key hS ha hy
    refine Fl.lt_iff.2 ⟨m, by simp, ?_⟩
    rw [k]
    have ex : x = .fin a := by
      rcases ha with h | ⟨_, rfl⟩
      · exact h
      · exact absurd ha0 (lt_irrefl _)
    have e : S.rnd a = .fin a := hr a ex
    refine lt_of_le_of_lt (hS.r64.mono (a * q) a (by nlinarith)) ?_
    rw [e]
    simpa [Fl.key] using ha0

theorem sub_lt_neg {S : FloatSem} (hS : Lawful S) (hG : Gradual S) {x y : Fl} {a b : ℚ} (hx : x.Is a)
    (hy : y.Is b) (hrx : S.Rep x) (hry : S.Rep y) (h : Fl.lt x y = true) : Fl.lt (S.sub x y) (.fin 0) = true := by
  have hp := sub_gt_pos hS hG hry hrx h
  rw [hx.lt hy, decide_eq_true_eq] at h
  obtain ⟨n1, k1⟩ := sub_key hS hx hy
  obtain ⟨n2, k2⟩ := sub_key hS hy hx
  obtain ⟨_, _, hk⟩ := Fl.lt_iff.1 hp
  refine Fl.lt_iff.2 ⟨n1, by simp, ?_⟩
  rw [k2] at hk
  rw [k1]
  have := hS.r64.odd (b - a) (sub_pos.2 h).ne'
  rw [neg_sub] at this
  rw [this]
  revert hk
  generalize S.rnd (b - a) = z
  rcases z with _ | (_ | _) | c | _ <;> simp [Fl.key, Fl.neg]
  intro hc
  rw [if_neg hc.ne']
  simpa using hc

theorem mul_zero_is {S : FloatSem} {y : Fl} {q : ℚ} (hy : y.Is q) : (S.mul (.fin 0) y).Is 0 := by
  rcases FloatSem.mul_is (S := S) (Fl.is_fin 0) hy with ⟨h0, _⟩ | ⟨_, e⟩
  · simp at h0
  · exact e

/-- The sign of a difference times a positive quantity. -/
theorem mark_sign {S : FloatSem} (hS : Lawful S) (hG : Gradual S) {x y z : Fl} {a b q : ℚ} (hx : x.Is a)
    (hy : y.Is b) (hz : z.Is q) (hq : 0 < q) (hrx : S.Rep x) (hry : S.Rep y) :
    (Fl.eq x y = true → Fl.eq (S.mul (S.sub x y) z) (.fin 0) = true) ∧
    (Fl.lt y x = true → Fl.le (.fin 0) (S.mul (S.sub x y) z) = true ∧
      (1 ≤ q → Fl.lt (.fin 0) (S.mul (S.sub x y) z) = true)) ∧
    (Fl.lt x y = true → Fl.le (S.mul (S.sub x y) z) (.fin 0) = true ∧
      (1 ≤ q → Fl.lt (S.mul (S.sub x y) z) (.fin 0) = true)) := by
  have hmz := mul_zero_is (S := S) hz
  refine ⟨fun h => ?_, fun h => ⟨?_, fun h1 => ?_⟩, fun h => ⟨?_, fun h1 => ?_⟩⟩
  · rw [hx.eq hy, decide_eq_true_eq] at h
    subst h
    have hs : (S.sub x y).Is 0 := by
      have := FloatSem.add_is (S := S) hx hy.neg
      rw [add_neg_cancel, rnd_zero hS] at this
      rcases this with e | ⟨e, _, _⟩ <;> unfold FloatSem.sub <;> rw [e]
      · exact Fl.is_fin 0
      · exact Fl.is_negZero
    have hm : (S.mul (S.sub x y) z).Is 0 := by
      rcases FloatSem.mul_is (S := S) hs hz with ⟨h0, _⟩ | ⟨_, e⟩
      · simp at h0
      · exact e
    rw [hm.eq (Fl.is_fin 0)]; simp
  · have := mul_mono hS hz hq (fl_le_of_lt (sub_gt_pos hS hG hrx hry h))
    obtain ⟨_, n, k⟩ := Fl.le_iff.1 this
    refine Fl.le_iff.2 ⟨by simp, n, ?_⟩
    rw [hmz.key] at k
    exact k
  · exact mul_pos_of_ge_one hS (rep_sub hS hx hy) (sub_gt_pos hS hG hrx hry h) hz h1
  · have := mul_mono hS hz hq (fl_le_of_lt (sub_lt_neg hS hG hx hy hrx hry h))
    obtain ⟨n, _, k⟩ := Fl.le_iff.1 this
    refine Fl.le_iff.2 ⟨n, by simp, ?_⟩
    rw [hmz.key] at k
    exact k
  · exact mul_neg_of_ge_one hS (rep_sub hS hx hy) (sub_lt_neg hS hG hx hy hrx hry h) hz h1

/-- **C121**, second part: the profit is zero at the open price; on the winning side it is not
negative, and positive if the position has at least one unit; on the losing side it is not positive,
and negative if the position has at least one unit. -/
theorem C121_sign {S : FloatSem} (hS : Lawful S) (hG : Gradual S) (p : Position) (hp : Holding p) (x : Fl)
    (hx : x.isFinite = true) (hrx : S.Rep x) (hro : S.Rep p.openPrice) :
    let win := if p.type = "long" then Fl.lt p.openPrice x else Fl.lt x p.openPrice
    let lose := if p.type = "long" then Fl.lt x p.openPrice else Fl.lt p.openPrice x
    (Fl.eq x p.openPrice = true → Fl.eq (unrealizedProfit S p x) (.fin 0) = true) ∧
    (win = true → Fl.le (.fin 0) (unrealizedProfit S p x) = true ∧
      (1 ≤ p.quantity.toRat → Fl.lt (.fin 0) (unrealizedProfit S p x) = true)) ∧
    (lose = true → Fl.le (unrealizedProfit S p x) (.fin 0) = true ∧
      (1 ≤ p.quantity.toRat → Fl.lt (unrealizedProfit S p x) (.fin 0) = true)) := by
  obtain ⟨h1, h2, h3⟩ := hp
  have hx := Fl.isFinite_is hx
  have ho := Fl.isFinite_is h1
  have hq := Fl.isFinite_is h2
  unfold unrealizedProfit longPosition
  split_ifs with ht
  · exact mark_sign hS hG hx ho hq h3 hrx hro
  · obtain ⟨m1, m2, m3⟩ := mark_sign hS hG ho hx hq h3 hro hrx
    refine ⟨fun h => m1 ?_, m2, m3⟩
    rw [hx.eq ho, decide_eq_true_eq] at h
    rw [ho.eq hx, decide_eq_true_eq]
    exact h.symm

theorem two900 : 4 * (2 : ℚ) ^ (900 : ℤ) ≤ huge := by
  have h : (4 : ℚ) = pow2 2 := by rw [pow2_eq]; norm_num
  rw [h, huge_eq, ← pow2_eq, ← pow2_eq, ← pow2_add]
  exact pow2_le (by norm_num)

/-- Difference times quantity, in float64. -/
theorem gain_near {y z q : Fl} {a b Q W : ℚ} (hy : IsF y a) (hz : IsF z b) (hq : q.Is Q)
    (H : 4 * W ≤ huge) (hab : |a - b| ≤ W) (hprod : |(a - b) * Q| ≤ W) :
    (ieee.mul (ieee.sub y z) q).isFinite = true ∧
    |(ieee.mul (ieee.sub y z) q).toRat - (a - b) * Q| ≤ 3 * uR * |(a - b) * Q| + tiny := by
  have H0 := huge_pos
  obtain ⟨d, hd, ed⟩ := sub_near hy hz (by linarith [abs_nonneg (a - b)])
  have e1 : |d * Q - (a - b) * Q| ≤ uR * |(a - b) * Q| := by
    rw [← sub_mul, abs_mul, abs_mul, ← mul_assoc]
    exact mul_le_mul_of_nonneg_right ed (abs_nonneg _)
  have hu0 := uR_nonneg
  have hu1 := uR_small
  have n0 := abs_nonneg ((a - b) * Q)
  have e2 : |d * Q| ≤ (1 + uR) * |(a - b) * Q| := by
    have := abs_add_le (d * Q - (a - b) * Q) ((a - b) * Q)
    rw [sub_add_cancel] at this
    linarith
  have e3 : uR * |(a - b) * Q| ≤ 1 / 1000000000000000 * |(a - b) * Q| :=
    mul_le_mul_of_nonneg_right hu1 n0
  obtain ⟨r, hr, er⟩ := mul_near hd.1 hq (by linarith)
  refine ⟨(Fl.is_iff.1 hr.1).1, ?_⟩
  rw [hr.1.toRat]
  have := abs_add_le (r - d * Q) (d * Q - (a - b) * Q)
  rw [sub_add_sub_cancel] at this
  have e4 : uR * |d * Q| ≤ uR * ((1 + uR) * |(a - b) * Q|) := mul_le_mul_of_nonneg_left e2 hu0
  have e5 : uR * (uR * |(a - b) * Q|) ≤ uR * |(a - b) * Q| :=
    mul_le_mul_of_nonneg_left (by linarith) hu0
  linarith

/-- **C121**, third part: in float64 the profit is within 3 parts in 2^53 of price difference times
quantity (and 2^-1075). -/
theorem C121_accurate (p : Position) (hp : Holding p) (x : Fl) (hx : x.isFinite = true)
    (hrx : ieee.Rep x) (hro : ieee.Rep p.openPrice)
    (hb : |x.toRat - p.openPrice.toRat| ≤ 2 ^ (900 : ℤ))
    (hm : |(x.toRat - p.openPrice.toRat) * p.quantity.toRat| ≤ 2 ^ (900 : ℤ)) :
    let gain := (if p.type = "long" then 1 else -1) * ((x.toRat - p.openPrice.toRat) * p.quantity.toRat)
    (unrealizedProfit ieee p x).isFinite = true ∧
    |(unrealizedProfit ieee p x).toRat - gain| ≤ 3 * 2 ^ (-53 : ℤ) * |gain| + 2 ^ (-1075 : ℤ) := by
  obtain ⟨h1, h2, h3⟩ := hp
  have hx := Fl.isFinite_is hx
  have ho := Fl.isFinite_is h1
  have hq := Fl.isFinite_is h2
  rw [← uR_eq, ← tiny_eq]
  unfold unrealizedProfit longPosition
  split_ifs with ht
  · rw [one_mul]
    exact gain_near (isF_of_rep hx hrx) (isF_of_rep ho hro) hq two900 hb hm
  · have e : (-1 : ℚ) * ((x.toRat - p.openPrice.toRat) * p.quantity.toRat) =
        (p.openPrice.toRat - x.toRat) * p.quantity.toRat := by ring
    rw [e]
    refine gain_near (isF_of_rep ho hro) (isF_of_rep hx hrx) hq two900 (by rw [abs_sub_comm]; exact hb) ?_
    rw [← e, neg_one_mul, abs_neg]
    exact hm

/-- A position of 3 units opened at the float64 0.1, marked at the float64 0.3. -/
example :
    let p : Position := { newPosition "p" 0 (exTrade "a" "buy" 10 3) with openPrice := ieee.rnd (1 / 10) }
    Holding p ∧ ieee.Rep p.openPrice ∧ ieee.Rep (ieee.rnd (3 / 10)) ∧
    Fl.lt p.openPrice (ieee.rnd (3 / 10)) = true ∧
    Fl.lt (.fin 0) (unrealizedProfit ieee p (ieee.rnd (3 / 10))) = true ∧
    |(ieee.rnd (3 / 10)).toRat - p.openPrice.toRat| ≤ 2 ^ (900 : ℤ) := by
  refine ⟨by decide +kernel, ?_, ?_, by decide +kernel, by decide +kernel, ?_⟩
  · intro q h; exact ieee_lawful.r64.idem _ _ h
  · intro q h; exact ieee_lawful.r64.idem _ _ h
  · refine le_trans (b := 1) (by decide +kernel) ?_
    exact one_le_zpow₀ (by norm_num) (by norm_num)

/-- Less than one unit: the profit of a tiny position may vanish. -/
example :
    let p : Position := { newPosition "p" 0 (exTrade "a" "buy" 10 3) with
      openPrice := .fin 1, quantity := .fin (pow2 (-1074)) }
    Fl.lt p.openPrice (ieee.rnd (5 / 4)) = true ∧
    unrealizedProfit ieee p (ieee.rnd (5 / 4)) = .fin 0 := by
  decide +kernel

/-! ### C122 -/

/-- **C122** The fee `NewTrade` computes in float64 is within the stated bound of the difference between
cost and price times quantity. -/
theorem C122_fee_accurate (id : String) (time : Int) (action orderType : String) (pair : Pair)
    (price quantity cost : Fl) (hp : price.isFinite = true) (hq : quantity.isFinite = true)
    (hc : cost.isFinite = true) (hrc : ieee.Rep cost) (hb : |price.toRat * quantity.toRat| ≤ 2 ^ (900 : ℤ))
    (hcb : |cost.toRat| ≤ 2 ^ (900 : ℤ)) :
    let t := newTrade ieee id time action orderType pair price quantity cost
    let amount := price.toRat * quantity.toRat
    let fee := if action = "buy" then cost.toRat - amount else amount - cost.toRat
    t.fee.isFinite = true ∧
    |t.fee.toRat - fee| ≤ 2 ^ (-53 : ℤ) * |fee| + 2 * 2 ^ (-53 : ℤ) * |amount| + 2 * 2 ^ (-1075 : ℤ) := by
  intro t amount fee
  have hp := Fl.isFinite_is hp
  have hq := Fl.isFinite_is hq
  have hc := isF_of_rep (Fl.isFinite_is hc) hrc
  have H := two900
  have H0 := huge_pos
  have hu0 := uR_nonneg
  have hu1 := uR_small
  have ht0 := tiny_nonneg
  have ht1 : tiny ≤ 2 ^ (900 : ℤ) := by
    rw [tiny_eq]; exact zpow_le_zpow_right₀ (by norm_num) (by norm_num)
  rw [← uR_eq, ← tiny_eq]
  change |amount| ≤ _ at hb
  generalize (2 : ℚ) ^ (900 : ℤ) = W at *
  have n0 := abs_nonneg amount
  have e3 : uR * |amount| ≤ 1 / 1000000000000000 * |amount| := mul_le_mul_of_nonneg_right hu1 n0
  have e6 : uR * tiny ≤ 1 / 1000000000000000 * tiny := mul_le_mul_of_nonneg_right hu1 ht0
  obtain ⟨m, hm, em⟩ := mul_near hp hq (by change |amount| ≤ huge; linarith)
  change |m - amount| ≤ uR * |amount| + tiny at em
  have key : ∀ (y z : Fl) (a b f : ℚ), IsF y a → IsF z b → |a - b| ≤ 4 * W →
      |a - b - f| ≤ uR * |amount| + tiny → (ieee.sub y z).isFinite = true ∧
      |(ieee.sub y z).toRat - f| ≤ uR * |f| + 2 * uR * |amount| + 2 * tiny := by
    intro y z a b f hy hz hab hf
    obtain ⟨d, hd, ed⟩ := sub_near hy hz (hab.trans H)
    refine ⟨(Fl.is_iff.1 hd.1).1, ?_⟩
    rw [hd.1.toRat]
    have t1 := abs_add_le (d - (a - b)) (a - b - f)
    rw [sub_add_sub_cancel] at t1
    have t2 := abs_add_le (a - b - f) f
    rw [sub_add_cancel] at t2
    have t3 : uR * |a - b| ≤ uR * (uR * |amount| + tiny + |f|) := mul_le_mul_of_nonneg_left (by linarith) hu0
    have t4 : uR * (uR * |amount|) ≤ uR * |amount| := mul_le_mul_of_nonneg_left (by linarith) hu0
    have : uR * (uR * |amount| + tiny + |f|) = uR * (uR * |amount|) + uR * tiny + uR * |f| := by ring
    linarith
  have hmb : |m| ≤ 3 * W := by
    have := abs_add_le (m - amount) amount
    rw [sub_add_cancel] at this
    linarith
  by_cases ha : action = "buy"
  · have et : t.fee = ieee.sub cost (ieee.mul price quantity) := by simp [t, newTrade, ha, buyAction]
    have ef : fee = cost.toRat - amount := by simp [fee, ha]
    rw [et, ef]
    refine key _ _ _ _ _ hc hm ?_ ?_
    · have := abs_sub cost.toRat m
      linarith
    · rw [sub_sub_sub_cancel_left, abs_sub_comm]; exact em
  · have et : t.fee = ieee.sub (ieee.mul price quantity) cost := by simp [t, newTrade, ha, buyAction]
    have ef : fee = amount - cost.toRat := by simp [fee, ha]
    rw [et, ef]
    refine key _ _ _ _ _ hm hc ?_ ?_
    · have := abs_sub m cost.toRat
      linarith
    · rw [sub_sub_sub_cancel_right]; exact em

/-- **C122**, second part: a trade whose cost is the computed price times quantity has no fee, in any
lawful float arithmetic. -/
theorem C122_no_fee {S : FloatSem} (hS : Lawful S) (id : String) (time : Int) (action orderType : String)
    (pair : Pair) (price quantity : Fl) (h : (S.mul price quantity).isFinite = true) :
    (newTrade S id time action orderType pair price quantity (S.mul price quantity)).fee.Is 0 := by
  have hi := Fl.isFinite_is h
  have hz : (S.sub (S.mul price quantity) (S.mul price quantity)).Is 0 := by
    have := FloatSem.add_is (S := S) hi hi.neg
    rw [add_neg_cancel, rnd_zero hS] at this
    rcases this with e | ⟨e, _, _⟩ <;> unfold FloatSem.sub <;> rw [e]
    · exact Fl.is_fin 0
    · exact Fl.is_negZero
  unfold newTrade
  simp only [ite_self]
  exact hz

example :
    let t := newTrade ieee "t" 0 "buy" "limit" exPair (ieee.rnd (1 / 10)) (.fin 3) (ieee.rnd (4 / 10))
    t.fee.isFinite = true ∧ t.fee.toRat ≠ 1 / 10 ∧ |t.fee.toRat - 1 / 10| ≤ 2 ^ (-53 : ℤ) := by
  decide +kernel

/-! ### C123 -/

/-- `x` is the float64 nearest to `q`, or infinite because `q` is out of range. -/
def Spec.Rounds (x : Fl) (q : ℚ) : Prop :=
  x ≠ .nan ∧ (x.isFinite = true ↔ |q| < 2 ^ (1024 : ℤ) - 2 ^ (970 : ℤ)) ∧
  (x.isFinite = true → IsFloat64 x.toRat ∧ ∀ s, IsFloat64 s → |x.toRat - q| ≤ |s - q|)

theorem rounds_rnd (q : ℚ) : Rounds (ieee.rnd q) q := by
  have h := C102_nearest_even.1
  have hinf := h.infinite q
  refine ⟨h.num q, ?_, ?_⟩
  · have e : (2 : ℚ) ^ (((1024 : ℕ) : ℤ)) - 2 ^ (((1024 : ℕ) : ℤ) - (53 : ℕ) - 1) = 2 ^ (1024 : ℤ) - 2 ^ (970 : ℤ) := rfl
    rw [e] at hinf
    constructor
    · intro hf
      by_contra hn
      have := (hinf (decide (q < 0))).2 ⟨not_lt.1 hn, rfl⟩
      rw [this] at hf
      cases hf
    · intro hlt
      have n1 := mt (hinf true).1 (fun h => absurd h.1 (not_le.2 hlt))
      have n2 := mt (hinf false).1 (fun h => absurd h.1 (not_le.2 hlt))
      have n3 := h.num q
      revert n1 n2 n3
      generalize ieee.rnd q = x
      rcases x with _ | (_ | _) | _ | _ <;> simp [Fl.isFinite]
  · intro hf
    cases hx : ieee.rnd q with
    | nan => rw [hx] at hf; cases hf
    | inf b => rw [hx] at hf; cases hf
    | fin r => exact ⟨(h.finite q r hx).1, (h.finite q r hx).2.1⟩
    | negZero =>
      obtain ⟨_, h2⟩ := h.negZero q hx
      refine ⟨⟨0, -1074, by norm_num, le_rfl, by norm_num, by simp [Fl.toRat]⟩, fun s hs => ?_⟩
      simpa [Fl.toRat] using h2 s hs

theorem rounds_zero {x : Fl} (h : x.Is 0) : Rounds x 0 := by
  refine ⟨h.ne_nan, ?_, fun _ => ?_⟩
  · simp only [(Fl.is_iff.1 h).1, true_iff, abs_zero, sub_pos]
    exact zpow_lt_zpow_right₀ (by norm_num) (by norm_num)
  · rw [h.toRat]
    exact ⟨⟨0, -1074, by norm_num, le_rfl, by norm_num, by simp⟩, fun s _ => by simp⟩

/-- **C123** The field `CalculateFields` fills in is the float64 nearest to the exact value: quantity
times price for the total, total over price for the quantity. The other fields are kept. -/
theorem C123_nearest (o : OrderRequest) (current : Fl) (h : OneGiven o) (ht : o.total.isFinite = true)
    (hq : o.quantity.isFinite = true) :
    let price := if o.type = "market" then current else o.price
    price.isFinite = true → price.toRat ≠ 0 →
    ∃ r, (calculateFields ieee o current).2 = .ok (some r) ∧
      (o.quantity.toRat ≠ 0 → r = { o with total := r.total } ∧
        Rounds r.total (o.quantity.toRat * price.toRat)) ∧
      (o.quantity.toRat = 0 → r = { o with quantity := r.quantity } ∧
        Rounds r.quantity (o.total.toRat / price.toRat)) := by
  intro price hp hp0
  have ht := Fl.isFinite_is ht
  have hq := Fl.isFinite_is hq
  have hp := Fl.isFinite_is hp
  have he : effectivePrice o current = price := rfl
  refine ⟨_, by rw [calculateFields_ok h], fun h0 => ?_, fun h0 => ?_⟩
  · rw [if_pos (by rw [hq.isZero]; simpa using h0), he]
    refine ⟨rfl, ?_⟩
    rcases FloatSem.mul_is (S := ieee) hq hp with ⟨_, e⟩ | ⟨e0, e⟩
    · change Rounds (ieee.mul _ _) _
      rw [e]; exact rounds_rnd _
    · rw [e0]; exact rounds_zero e
  · rw [if_neg (by rw [hq.isZero]; simpa using h0), he]
    refine ⟨rfl, ?_⟩
    rcases FloatSem.div_is (S := ieee) ht hp hp0 with ⟨_, e⟩ | ⟨e0, e⟩
    · change Rounds (ieee.div _ _) _
      rw [e]; exact rounds_rnd _
    · rw [e0, zero_div]; exact rounds_zero e

/-- 100 units of money at the price 3: the quantity is the float64 nearest to 100/3. -/
example :
    let o : OrderRequest := ⟨"buy", "limit", exPair, .fin 3, .fin 0, .fin 0, .fin 0, .fin 100⟩
    OneGiven o ∧ o.price.isFinite = true ∧ o.price.toRat ≠ 0 ∧
    ∃ r, (calculateFields ieee o (.fin 7)).2 = .ok (some r) ∧ r.total = .fin 100 ∧
      r.quantity.toRat ≠ 100 / 3 ∧ |r.quantity.toRat - 100 / 3| ≤ 2 ^ (-48 : ℤ) := by
  refine ⟨by unfold OneGiven; decide +kernel, by decide +kernel, by decide +kernel, _, rfl, by decide +kernel, by decide +kernel, by decide +kernel⟩

end Finmod
