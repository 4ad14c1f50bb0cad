import Verif.Props.PositionAccuracy
import Verif.Props.Orders
import Verif.Props.Overflow

/-!
# C212: from a request for a total to the profit of the closed position

`NewOrderRequest`, `CalculateFields`, `NewTrade`, `NewPosition` and `Modify` one after the other.
-/

namespace Finmod
open Go Spec

/-- The other action. -/
def Spec.Opposite (a b : String) : Prop := (a = "buy" ∧ b = "sell") ∨ (a = "sell" ∧ b = "buy")

/-- The profit of a round trip: `total` bought at `p` and sold at `p'`, or the other way round. -/
def Spec.tripProfit (action : String) (total p p' : ℚ) : ℚ :=
  if action = "buy" then total / p * (p' - p) else total / p * (p - p')

theorem sub_self_is (S : FloatSem) (hS : Lawful S) {x : Fl} (h : x.isFinite = true) : (S.sub x x).Is 0 := by
  unfold FloatSem.sub
  rcases FloatSem.add_is (S := S) (Fl.isFinite_is h) (Fl.isFinite_is h).neg with e | ⟨e, -, -⟩
  · rw [e, show x.toRat + -x.toRat = 0 by ring, rnd_zero hS]; exact Fl.is_fin 0
  · rw [e]; exact Fl.is_negZero

/-- **C212** The steps of a round trip, in any lawful arithmetic; the profit does not mention the costs. -/
theorem C212_steps {S : FloatSem} (hS : Lawful S) {pair : Pair} {action other kind : String} {own current total p p' : Fl}
    (hb : pair.base.symbol ≠ "") (hk : kind ≠ "") (ho : Opposite action other)
    (he : p = if kind = "market" then current else own) (ht : total.isFinite = true) (ht0 : total.toRat ≠ 0)
    (hp : p.isFinite = true) (hp0 : p.toRat ≠ 0) (hq : (S.div total p).isFinite = true)
    (xid i1 i2 : String) (z t1 t2 : Int) (c1 c2 : Fl) :
    ∃ r q pos, newOrderRequest pair action kind (.fin 0) own total = .ok (some r) ∧
      (calculateFields S r current).2 = .ok (some q) ∧ q.quantity = S.div total p ∧
      modify S (newPosition xid z (newTrade S i1 t1 action kind pair p q.quantity c1))
        (newTrade S i2 t2 other kind pair p' q.quantity c2) = .ok pos ∧
      pos.opened = false ∧ pos.openPrice = p ∧ pos.closePrice = p' ∧ pos.quantity = q.quantity ∧ pos.openTime = t1 ∧
      pos.closeTime = t2 ∧ pos.trades = [i1, i2] ∧
      pos.profit = if action = "buy" then S.mul (S.sub p' p) (S.div total p) else S.mul (S.sub p p') (S.div total p) := by
  have ha : action ≠ "" := by rcases ho with ⟨rfl, -⟩ | ⟨rfl, -⟩ <;> decide
  have hlim : ¬ (kind = limitOrder ∧ Fl.eq own (.fin 0) = true) := by
    rintro ⟨h1, h2⟩
    have hm : kind ≠ "market" := by rw [h1]; decide
    rw [if_neg hm] at he
    rw [← he, (Fl.isFinite_is hp).eq (Fl.is_fin 0)] at h2
    exact hp0 (by simpa using h2)
  have htz : Fl.eq total (.fin 0) = false := by
    rw [(Fl.isFinite_is ht).eq (Fl.is_fin 0)]; simpa using ht0
  have hzz : Fl.eq (.fin 0) (.fin 0) = true := by simp
  have e0 : (S.sub (S.div total p) (S.div total p)).Is 0 := sub_self_is S hS hq
  have e1 : Fl.lt (S.sub (S.div total p) (S.div total p)) (.fin 0) = false := by
    rw [e0.lt (Fl.is_fin 0)]; simp
  have e2 : Fl.le (S.sub (S.div total p) (S.div total p)) (.fin 0) = true := by
    rw [e0.le (Fl.is_fin 0)]; simp
  have hnew : newOrderRequest pair action kind (.fin 0) own total = .ok (some
      { action := action, type := kind, pair := pair, price := own, takeProfit := .fin 0, stopLoss := .fin 0,
        quantity := .fin 0, total := total }) := by
    unfold newOrderRequest
    rw [if_neg hb, if_neg (by tauto), if_neg hlim, if_neg (by rw [htz]; simp)]
  let q : OrderRequest :=
    { action := action, type := kind, pair := pair, price := own, takeProfit := .fin 0, stopLoss := .fin 0,
      quantity := S.div total p, total := total }
  refine ⟨_, q, posSubstract' S (newPosition xid z (newTrade S i1 t1 action kind pair p (S.div total p) c1))
    (newTrade S i2 t2 other kind pair p' (S.div total p) c2), hnew, ?_, rfl, ?_⟩
  · simp only [calculateFields, htz, hzz, Fl.ne, Bool.false_and, Bool.not_true, Bool.and_false, Bool.false_eq_true, if_false]
    by_cases hm : kind = "market"
    · rw [if_pos hm] at he
      rw [if_pos (show kind = marketOrder from hm), ← he]
    · rw [if_neg hm] at he
      rw [if_neg (show ¬ kind = marketOrder from hm), show S.div total own = S.div total p by rw [he]]
  · rcases ho with ⟨rfl, rfl⟩ | ⟨rfl, rfl⟩
    · have hm : modify S (newPosition xid z (newTrade S i1 t1 "buy" kind pair p (S.div total p) c1))
          (newTrade S i2 t2 "sell" kind pair p' (S.div total p) c2) =
          .ok (posSubstract' S (newPosition xid z (newTrade S i1 t1 "buy" kind pair p (S.div total p) c1))
            (newTrade S i2 t2 "sell" kind pair p' (S.div total p) c2)) := by
        simp [modify, newPosition, newTrade, longPosition, buyAction, sellAction]
      refine ⟨hm, ?_⟩
      simp [posSubstract', posSubstract, newPosition, newTrade, e1, e2, longPosition, buyAction, q]
    · have hm : modify S (newPosition xid z (newTrade S i1 t1 "sell" kind pair p (S.div total p) c1))
          (newTrade S i2 t2 "buy" kind pair p' (S.div total p) c2) =
          .ok (posSubstract' S (newPosition xid z (newTrade S i1 t1 "sell" kind pair p (S.div total p) c1))
            (newTrade S i2 t2 "buy" kind pair p' (S.div total p) c2)) := by
        simp [modify, newPosition, newTrade, longPosition, shortPosition, buyAction, sellAction]
      refine ⟨hm, ?_⟩
      simp [posSubstract', posSubstract, newPosition, newTrade, e1, e2, longPosition, shortPosition, buyAction, sellAction, q]

/-- **C212** In exact arithmetic the profit is the total times the change of the price, whatever the trades cost. -/
theorem C212_exact {pair : Pair} {action other kind : String} {own current total p p' : Fl}
    (hb : pair.base.symbol ≠ "") (hk : kind ≠ "") (ho : Opposite action other)
    (he : p = if kind = "market" then current else own) (ht : total.isFinite = true) (ht0 : total.toRat ≠ 0)
    (hp : p.isFinite = true) (hp0 : p.toRat ≠ 0) (hp' : p'.isFinite = true)
    (xid i1 i2 : String) (z t1 t2 : Int) (c1 c2 : Fl) :
    ∃ r q pos, newOrderRequest pair action kind (.fin 0) own total = .ok (some r) ∧
      (calculateFields FloatSem.exact r current).2 = .ok (some q) ∧
      modify FloatSem.exact
        (newPosition xid z (newTrade FloatSem.exact i1 t1 action kind pair p q.quantity c1))
        (newTrade FloatSem.exact i2 t2 other kind pair p' q.quantity c2) = .ok pos ∧
      pos.opened = false ∧ pos.openPrice = p ∧ pos.closePrice = p' ∧ pos.quantity = q.quantity ∧ pos.openTime = t1 ∧
      pos.closeTime = t2 ∧ pos.trades = [i1, i2] ∧ pos.profit.Is (tripProfit action total.toRat p.toRat p'.toRat) := by
  have hq := FloatSem.exact_div (Fl.isFinite_is ht) (Fl.isFinite_is hp) hp0
  obtain ⟨r, q, pos, h1, h2, h3, h4, h5, h6, h7, h8, h9, h10, h11, h12⟩ := C212_steps exact_lawful hb hk ho he ht ht0 hp hp0
    (isFinite_of_is hq) (p' := p') xid i1 i2 z t1 t2 c1 c2
  refine ⟨r, q, pos, h1, h2, h4, h5, h6, h7, h8, h9, h10, h11, ?_⟩
  rw [h12]
  unfold tripProfit
  split_ifs
  · rw [mul_comm]
    exact FloatSem.exact_mul (FloatSem.exact_sub (Fl.isFinite_is hp') (Fl.isFinite_is hp)) hq
  · rw [mul_comm]
    exact FloatSem.exact_mul (FloatSem.exact_sub (Fl.isFinite_is hp) (Fl.isFinite_is hp')) hq

/-- A float64 amount between 2^-100 and 2^100. -/
structure Spec.Usual (x : Fl) : Prop where
  finite : x.isFinite = true
  rep : ieee.Rep x
  low : (2 : ℚ) ^ (-100 : ℤ) ≤ x.toRat
  high : x.toRat ≤ (2 : ℚ) ^ (100 : ℤ)

theorem uR_tiny {q : ℚ} (h : pow2 (-900) ≤ q) : tiny ≤ uR / 1000 * q := by
  have h1 : tiny ≤ uR / 1000 * pow2 (-900) := by
    have e : tiny = pow2 (-53) * pow2 (-122) * pow2 (-900) := by
      rw [← pow2_add, ← pow2_add, tiny_eq, pow2_eq]; norm_num only
    have e3 : pow2 (-122) ≤ 1 / 1000 := by rw [pow2_eq]; norm_num
    rw [e, uR_eq, ← pow2_eq]
    have : pow2 (-53) * pow2 (-122) ≤ pow2 (-53) / 1000 := by
      have := mul_le_mul_of_nonneg_left e3 (pow2_pos (-53)).le
      linarith
    exact mul_le_mul_of_nonneg_right this (pow2_pos _).le
  have : uR / 1000 * pow2 (-900) ≤ uR / 1000 * q := mul_le_mul_of_nonneg_left h (by have := uR_pos; positivity)
  linarith

/-- Product of a difference and a quotient, each step rounded to nearest. -/
theorem trip_error {total a b : Fl} {t x y d : ℚ} (hT : Usual total) (ha : Usual a) (hb : Usual b) (c : Fl) (hc : c = a ∨ c = b)
    (ht : t = total.toRat) (hx : x = a.toRat) (hy : y = b.toRat) (hd : d = c.toRat) :
    (ieee.div total c).isFinite = true ∧
    ∃ r, (ieee.mul (ieee.sub a b) (ieee.div total c)).Is r ∧
      |r - t / d * (x - y)| ≤ 2 ^ (-51 : ℤ) * |t / d * (x - y)| := by
  have hC : Usual c := by rcases hc with rfl | rfl <;> assumption
  subst ht hx hy hd
  have e100 : ∀ {q : ℚ}, (2 : ℚ) ^ (-100 : ℤ) ≤ q → pow2 (-100) ≤ q := fun h => by rw [pow2_eq]; exact h
  have pos : ∀ {z : Fl}, Usual z → 0 < z.toRat := fun h => lt_of_lt_of_le (by positivity) h.low
  set t := total.toRat
  set d := c.toRat
  have hd0 := pos hC
  have ht0 := pos hT
  have hlow : pow2 (-200) ≤ t / d := by
    rw [pow2_eq, le_div_iff₀ hd0]
    calc (2 : ℚ) ^ (-200 : ℤ) * d ≤ 2 ^ (-200 : ℤ) * 2 ^ (100 : ℤ) := mul_le_mul_of_nonneg_left hC.high (by positivity)
      _ = 2 ^ (-100 : ℤ) := by rw [← zpow_add₀ (by norm_num)]; norm_num
      _ ≤ t := hT.low
  have hhigh : t / d ≤ pow2 200 := by
    rw [pow2_eq, div_le_iff₀ hd0]
    calc t ≤ 2 ^ (100 : ℤ) := hT.high
      _ = 2 ^ (200 : ℤ) * 2 ^ (-100 : ℤ) := by rw [← zpow_add₀ (by norm_num)]; norm_num
      _ ≤ 2 ^ (200 : ℤ) * d := mul_le_mul_of_nonneg_left hC.low (by positivity)
  have hq0 : 0 < t / d := div_pos ht0 hd0
  have big : pow2 400 ≤ huge := by unfold huge; exact pow2_le (by norm_num)
  have b200 : pow2 200 ≤ huge := by unfold huge; exact pow2_le (by norm_num)
  obtain ⟨Q, hQ, hQe⟩ := div_near (Fl.isFinite_is hT.finite) (Fl.isFinite_is hC.finite) hd0.ne' (by
    rw [abs_of_pos hq0]; exact hhigh.trans b200)
  rw [abs_of_pos hq0] at hQe
  have hu := uR_pos
  have hus := uR_small
  have t1 := uR_tiny ((pow2_le (a := -900) (b := -200) (by norm_num)).trans hlow)
  have hQe' : |Q - t / d| ≤ (1001 / 1000) * uR * (t / d) := by linarith
  refine ⟨isFinite_of_is hQ.1, ?_⟩
  by_cases h0 : a.toRat - b.toRat = 0
  · have hz : (ieee.sub a b).Is 0 := by
      rcases FloatSem.add_is (S := ieee) (Fl.isFinite_is ha.finite) (Fl.isFinite_is hb.finite).neg with e | ⟨e, -, -⟩
      · unfold FloatSem.sub
        rw [e, ← sub_eq_add_neg, h0, rnd_zero ieee_lawful]; exact Fl.is_fin 0
      · unfold FloatSem.sub
        rw [e]; exact Fl.is_negZero
    refine ⟨0, ?_, by rw [h0]; simp⟩
    rcases FloatSem.mul_is (S := ieee) hz hQ.1 with ⟨h, -⟩ | ⟨-, h⟩
    · simp at h
    · exact h
  have hxy : |a.toRat - b.toRat| ≤ pow2 100 := by
    rw [pow2_eq, abs_le]
    have := pos ha; have := pos hb; have := ha.high; have := hb.high
    constructor <;> linarith
  have b100 : pow2 100 ≤ huge := by unfold huge; exact pow2_le (by norm_num)
  obtain ⟨D, hD, hDe⟩ := sub_near (isF_of_rep (Fl.isFinite_is ha.finite) ha.rep) (isF_of_rep (Fl.isFinite_is hb.finite) hb.rep)
    (hxy.trans b100)
  have hdl : pow2 (-152) ≤ |a.toRat - b.toRat| := by
    have m := (float_mulOf (Fl.isFinite_is ha.finite) ha.rep (e100 ha.low)).sub (float_mulOf (Fl.isFinite_is hb.finite) hb.rep (e100 hb.low))
    rcases lt_or_gt_of_ne h0 with h | h
    · rw [abs_of_neg h]; exact m.neg.le (by linarith)
    · rw [abs_of_pos h]; exact m.le h
  set e := a.toRat - b.toRat
  have hepos : 0 < |e| := abs_pos.2 h0
  -- sizes of the rounded factors
  have hQl : (t / d) / 2 ≤ Q := by
    have := (abs_le.1 hQe').1
    nlinarith
  have hQh : Q ≤ 2 * (t / d) := by
    have := (abs_le.1 hQe').2
    nlinarith
  have hQpos : 0 < Q := by linarith
  have hDabs : |D| ≤ 2 * |e| := by
    have : |D| ≤ |e| + |D - e| := by
      have h := abs_add_le e (D - e)
      rwa [add_sub_cancel] at h
    nlinarith
  have hDlow : |e| / 2 ≤ |D| := by
    have : |e| ≤ |D| + |D - e| := by
      have h := abs_add_le D (e - D)
      rwa [add_sub_cancel, abs_sub_comm e D] at h
    nlinarith
  have hprod : |D * Q| ≤ huge := by
    rw [abs_mul, abs_of_pos hQpos]
    have h1 : |D| * Q ≤ (2 * |e|) * (2 * (t / d)) := mul_le_mul hDabs hQh hQpos.le (by positivity)
    have h2 : |e| * (t / d) ≤ pow2 100 * pow2 200 := mul_le_mul hxy hhigh hq0.le (pow2_pos _).le
    rw [← pow2_add] at h2
    have h3 : 4 * pow2 (100 + 200) ≤ pow2 400 := by
      have k1 : pow2 400 = pow2 100 * pow2 (100 + 200) := by rw [← pow2_add]; rfl
      have k2 : (4 : ℚ) ≤ pow2 100 := by rw [pow2_eq]; norm_num
      rw [k1]
      exact mul_le_mul_of_nonneg_right k2 (pow2_pos _).le
    have : |D| * Q ≤ 4 * (|e| * (t / d)) := by linarith
    exact this.trans ((mul_le_mul_of_nonneg_left h2 (by norm_num)).trans (h3.trans big))
  obtain ⟨r, hr, hre⟩ := mul_near hD.1 hQ.1 hprod
  refine ⟨r, hr.1, ?_⟩
  have hDQ : |D * Q| = |D| * Q := by rw [abs_mul, abs_of_pos hQpos]
  have hsmall : pow2 (-900) ≤ |D * Q| := by
    rw [hDQ]
    have h1 : |e| / 2 * ((t / d) / 2) ≤ |D| * Q := mul_le_mul hDlow hQl (by positivity) (abs_nonneg _)
    have h2 : pow2 (-152) * pow2 (-200) ≤ |e| * (t / d) := mul_le_mul hdl hlow (pow2_pos _).le (abs_nonneg _)
    rw [← pow2_add] at h2
    have h3 : pow2 (-900) ≤ pow2 (-152 + -200) / 4 := by
      have k1 : pow2 (-900) = pow2 (-548) * pow2 (-152 + -200) := by rw [← pow2_add]; rfl
      have k2 : pow2 (-548) ≤ pow2 (-2) := pow2_le (by norm_num)
      have k3 : pow2 (-2) = 1 / 4 := by rw [pow2_eq]; norm_num
      rw [k1]
      have := mul_le_mul_of_nonneg_right (k2.trans k3.le) (pow2_pos (-152 + -200)).le
      linarith
    linarith
  have t2 := uR_tiny hsmall
  set X := t / d
  have hDX : |D * Q - e * X| ≤ (21 / 10) * uR * (|e| * X) := by
    have s : D * Q - e * X = (D - e) * Q + e * (Q - X) := by ring
    rw [s]
    have k1 : |(D - e) * Q| ≤ uR * |e| * Q := by
      rw [abs_mul, abs_of_pos hQpos]; exact mul_le_mul_of_nonneg_right hDe hQpos.le
    have k2 : |e * (Q - X)| ≤ |e| * ((1001 / 1000) * uR * X) := by
      rw [abs_mul]; exact mul_le_mul_of_nonneg_left hQe' (abs_nonneg _)
    have k3 : Q ≤ X * (1001 / 1000) := by
      have := (abs_le.1 hQe').2
      nlinarith
    have k4 : uR * |e| * Q ≤ uR * |e| * (X * (1001 / 1000)) := mul_le_mul_of_nonneg_left k3 (by positivity)
    have k5 : 0 ≤ uR * (|e| * X) := by positivity
    refine (abs_add_le _ _).trans ?_
    nlinarith
  have hsize : |D * Q| ≤ |e| * X * (1001 / 1000) := by
    have h1 : |D * Q| ≤ |e * X| + |D * Q - e * X| := by
      have h := abs_add_le (e * X) (D * Q - e * X)
      rwa [add_sub_cancel] at h
    have h2 : |e * X| = |e| * X := by rw [abs_mul, abs_of_pos hq0]
    have h3 : 0 ≤ |e| * X := by positivity
    nlinarith
  have hfin : |r - X * e| ≤ 4 * uR * (|e| * X) := by
    have s : r - X * e = (r - D * Q) + (D * Q - e * X) := by ring
    rw [s]
    have k5 : 0 ≤ uR * (|e| * X) := by positivity
    have k6 : uR * |D * Q| ≤ uR * (|e| * X * (1001 / 1000)) := mul_le_mul_of_nonneg_left hsize hu.le
    refine (abs_add_le _ _).trans ?_
    nlinarith
  have hX : |X * e| = |e| * X := by rw [abs_mul, abs_of_pos hq0, mul_comm]
  rw [hX]
  have : (2 : ℚ) ^ (-51 : ℤ) = 4 * uR := by norm_num [uR]
  rw [this]
  exact hfin

/-- **C212** In float64, for amounts between 2^-100 and 2^100, the booked profit is off by at most 2^-51 of itself. -/
theorem C212_float64 {pair : Pair} {action other kind : String} {own current total p p' : Fl}
    (hb : pair.base.symbol ≠ "") (hk : kind ≠ "") (ho : Opposite action other)
    (he : p = if kind = "market" then current else own) (ht : Usual total) (hp : Usual p) (hp' : Usual p')
    (xid i1 i2 : String) (z t1 t2 : Int) (c1 c2 : Fl) :
    ∃ r q pos, newOrderRequest pair action kind (.fin 0) own total = .ok (some r) ∧
      (calculateFields ieee r current).2 = .ok (some q) ∧
      modify ieee (newPosition xid z (newTrade ieee i1 t1 action kind pair p q.quantity c1))
        (newTrade ieee i2 t2 other kind pair p' q.quantity c2) = .ok pos ∧
      pos.opened = false ∧ pos.openPrice = p ∧ pos.closePrice = p' ∧ pos.quantity = q.quantity ∧ pos.openTime = t1 ∧
      pos.closeTime = t2 ∧ pos.trades = [i1, i2] ∧ pos.profit.isFinite = true ∧
      |pos.profit.toRat - tripProfit action total.toRat p.toRat p'.toRat| ≤
        2 ^ (-51 : ℤ) * |tripProfit action total.toRat p.toRat p'.toRat| := by
  have pos0 : ∀ {z : Fl}, Usual z → z.toRat ≠ 0 := fun h => (lt_of_lt_of_le (by positivity) h.low : (0 : ℚ) < _).ne'
  obtain ⟨hq, r1, hr1, hr1e⟩ := trip_error ht hp' hp p (.inr rfl) rfl rfl rfl rfl
  obtain ⟨-, r2, hr2, hr2e⟩ := trip_error ht hp hp' p (.inl rfl) rfl rfl rfl rfl
  obtain ⟨r, q, pos, h1, h2, h3, h4, h5, h6, h7, h8, h9, h10, h11, h12⟩ := C212_steps ieee_lawful hb hk ho he ht.finite (pos0 ht)
    hp.finite (pos0 hp) hq (p' := p') xid i1 i2 z t1 t2 c1 c2
  refine ⟨r, q, pos, h1, h2, h4, h5, h6, h7, h8, h9, h10, h11, ?_⟩
  rw [h12]
  unfold tripProfit
  split_ifs
  · exact ⟨isFinite_of_is hr1, by rw [(Fl.is_iff.1 hr1).2]; exact hr1e⟩
  · exact ⟨isFinite_of_is hr2, by rw [(Fl.is_iff.1 hr2).2]; exact hr2e⟩

/-- Numbers the theorems apply to: 1000 of the quote currency sold at 3 and bought back at 2.5. -/
example : Usual (.fin 1000) ∧ Usual (.fin 3) ∧ Usual (.fin (5 / 2)) ∧ Opposite "sell" "buy" ∧
    tripProfit "sell" 1000 3 (5 / 2) = 500 / 3 ∧ tripProfit "buy" 1000 3 (5 / 2) = -(500 / 3) := by
  have hr : ∀ q : ℚ, ieee.rnd q = .fin q → ieee.Rep (.fin q) := by intro q h x hx; cases hx; exact h
  refine ⟨⟨rfl, hr _ (by decide +kernel), ?_, ?_⟩, ⟨rfl, hr _ (by decide +kernel), ?_, ?_⟩,
    ⟨rfl, hr _ (by decide +kernel), ?_, ?_⟩, .inr ⟨rfl, rfl⟩, ?_, ?_⟩
  iterate 6 (simp only [Fl.toRat]; norm_num)
  · rw [tripProfit, if_neg (by decide)]; norm_num
  · rw [tripProfit, if_pos rfl]; norm_num

/-- The rounding shows: 1000 sold at 3 and bought back at 2.5 is not booked as 500/3. -/
example : ieee.mul (ieee.sub (.fin 3) (.fin (5 / 2))) (ieee.div (.fin 1000) (.fin 3)) ≠ .fin (500 / 3) := by decide +kernel

end Finmod
