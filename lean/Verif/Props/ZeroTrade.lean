import Verif.Props.MarkFloat
import Verif.Props.PositionAccuracy

/-!
# A trade of quantity zero: C265
-/

namespace Finmod
open Go Spec

theorem plus_zero {S : FloatSem} (hS : Lawful S) {x z : Fl} {a : ℚ} (hx : x.Is a) (hr : S.Rep x) (hz : z.Is 0) :
    (S.add x z).Is a := by
  rcases FloatSem.add_is (S := S) hx hz with e | ⟨e, rfl, _⟩
  · rw [e, add_zero]
    rcases hx with rfl | ⟨_, rfl⟩
    · rw [hr a rfl]; exact Fl.is_fin a
    · rw [rnd_zero hS]; exact Fl.is_fin 0
  · rw [e]; exact Fl.is_negZero

theorem less_zero {S : FloatSem} (hS : Lawful S) {x z : Fl} {a : ℚ} (hx : x.Is a) (hr : S.Rep x) (hz : z.Is 0) :
    (S.sub x z).Is a := plus_zero hS hx hr (by simpa using hz.neg)

/-- A zero times or divided by a number. -/
theorem times_zero {S : FloatSem} {x z : Fl} {a : ℚ} (hx : x.Is a) (hz : z.Is 0) : (S.mul x z).Is 0 := by
  rcases FloatSem.mul_is (S := S) hx hz with ⟨h, _⟩ | ⟨_, h⟩
  · simp at h
  · exact h

theorem zero_over {S : FloatSem} {z y : Fl} {b : ℚ} (hz : z.Is 0) (hy : y.Is b) (hb : b ≠ 0) : (S.div z y).Is 0 := by
  rcases FloatSem.div_is (S := S) hz hy hb with ⟨h, _⟩ | ⟨_, h⟩
  · exact absurd rfl h
  · exact h

theorem is_pos_eq {x : Fl} {a : ℚ} (h : x.Is a) (ha : 0 < a) : x = .fin a := by
  rcases h with h | ⟨_, rfl⟩
  · exact h
  · exact absurd ha (lt_irrefl _)

/-- A trade that `Modify` takes as an addition or a reduction. -/
def Spec.Takes (p : Position) (t : Trade) : Prop :=
  p.pair = t.pair ∧ (p.type = "long" ∨ p.type = "short") ∧ (t.action = "buy" ∨ t.action = "sell")

/-- What the open price becomes: the old one times the quantity, divided by the quantity. -/
def Spec.There (S : FloatSem) (a : ℚ) (q o' : Fl) : Prop :=
  ∃ o1 z : Fl, o1.Is a ∧ z.Is 0 ∧ (o' = S.add (S.div (S.mul o1 q) q) z ∨ o' = S.div (S.mul o1 q) q)

/-- **C265** A trade of quantity zero is logged, and changes at most the open price. -/
theorem C265_logged {S : FloatSem} (hS : Lawful S) (p : Position) (t : Trade) (hp : Holding p) (h1 : S.Rep p.openPrice)
    (h2 : S.Rep p.quantity) (ht : Takes p t) (hq : t.quantity.Is 0) (hx : t.price.isFinite = true) :
    ∃ o', modify S p t = .ok { p with openPrice := o', trades := p.trades ++ [t.id] } ∧
      There S p.openPrice.toRat p.quantity o' := by
  obtain ⟨ho, hq', hpos⟩ := hp
  have ho := Fl.isFinite_is ho
  have hQ := Fl.isFinite_is hq'
  have hX := Fl.isFinite_is hx
  have ea : S.add p.quantity t.quantity = p.quantity := by
    rw [is_pos_eq (plus_zero hS hQ h2 hq) hpos]; exact (is_pos_eq hQ hpos).symm
  have es : S.sub p.quantity t.quantity = p.quantity := by
    rw [is_pos_eq (less_zero hS hQ h2 hq) hpos]; exact (is_pos_eq hQ hpos).symm
  have add : ∃ o', posAdd S p t = { p with openPrice := o', trades := p.trades ++ [t.id] } ∧
      There S p.openPrice.toRat p.quantity o' := by
    refine ⟨_, ?_, p.openPrice, S.div (S.mul t.price t.quantity) p.quantity, ho,
      zero_over (times_zero hX hq) hQ hpos.ne', .inl rfl⟩
    simp only [posAdd, ea]
  have sub : ∃ o', posSubstract' S p t = { p with openPrice := o', trades := p.trades ++ [t.id] } ∧
      There S p.openPrice.toRat p.quantity o' := by
    refine ⟨_, ?_, S.sub p.openPrice (S.mul t.price (S.div t.quantity p.quantity)), .fin 0,
      less_zero hS ho h1 (times_zero hX (zero_over hq hQ hpos.ne')), Fl.is_fin 0, .inr rfl⟩
    have l1 : Fl.lt p.quantity (.fin 0) = false := by rw [hQ.lt (Fl.is_fin 0)]; simpa using hpos.le
    have l2 : Fl.le p.quantity (.fin 0) = false := by rw [hQ.le (Fl.is_fin 0)]; simpa using hpos
    simp only [posSubstract', posSubstract, es, l1, l2, Bool.false_and, Bool.false_eq_true, if_false]
  obtain ⟨hpair, hty, hac⟩ := ht
  unfold modify
  rw [if_neg (by simpa using hpair)]
  obtain ⟨o1, e1, t1⟩ := add
  obtain ⟨o2, e2, t2⟩ := sub
  rcases hty with hty | hty <;> rcases hac with hac | hac
  · exact ⟨o1, by simp [hty, hac, longPosition, buyAction, e1], t1⟩
  · exact ⟨o2, by simp [hty, hac, longPosition, buyAction, sellAction, e2], t2⟩
  · exact ⟨o2, by simp [hty, hac, longPosition, shortPosition, buyAction, e2], t2⟩
  · exact ⟨o1, by simp [hty, hac, longPosition, shortPosition, buyAction, sellAction, e1], t1⟩

/-- **C265** as one would like it: a trade of quantity zero leaves the open price as it is. -/
def Spec.C265_claim (S : FloatSem) : Prop :=
  ∀ (p : Position) (t : Trade), Holding p → S.Rep p.openPrice → S.Rep p.quantity → Takes p t → t.quantity.Is 0 →
    t.price.isFinite = true → ∃ p', modify S p t = .ok p' ∧ p'.openPrice.toRat = p.openPrice.toRat

/-- **C265** holds without rounding. -/
theorem C265_exact_partial : Spec.C265_claim FloatSem.exact := by
  intro p t hp h1 h2 ht hq hx
  obtain ⟨o', e, o1, z, i1, iz, ho⟩ := C265_logged exact_lawful p t hp h1 h2 ht hq hx
  refine ⟨_, e, ?_⟩
  have hQ := Fl.isFinite_is hp.2.1
  have hpos := hp.2.2
  have hm : (FloatSem.exact.mul o1 p.quantity).Is (p.openPrice.toRat * p.quantity.toRat) := by
    rcases FloatSem.mul_is (S := FloatSem.exact) i1 hQ with ⟨_, h⟩ | ⟨h0, h⟩
    · rw [h]; exact Fl.is_fin _
    · rw [h0]; exact h
  have hd : (FloatSem.exact.div (FloatSem.exact.mul o1 p.quantity) p.quantity).Is p.openPrice.toRat := by
    rcases FloatSem.div_is (S := FloatSem.exact) hm hQ hpos.ne' with ⟨_, h⟩ | ⟨h0, h⟩
    · rw [h, mul_div_cancel_right₀ _ hpos.ne']; exact Fl.is_fin _
    · rcases mul_eq_zero.1 h0 with h0 | h0
      · rw [h0]; exact h
      · exact absurd h0 hpos.ne'
  have : o'.Is p.openPrice.toRat := by
    rcases ho with rfl | rfl
    · exact plus_zero exact_lawful hd (fun _ _ => rfl) iz
    · exact hd
  exact (Fl.is_iff.1 this).2

/-- **C265** In float64 the open price changes by at most three roundings. -/
theorem C265_near_partial (p : Position) (t : Trade) (hp : Holding p) (h1 : ieee.Rep p.openPrice) (h2 : ieee.Rep p.quantity)
    (ht : Takes p t) (hq : t.quantity.Is 0) (hx : t.price.isFinite = true)
    (b1 : |p.openPrice.toRat| ≤ 2 ^ (900 : ℤ)) (b2 : |p.openPrice.toRat * p.quantity.toRat| ≤ 2 ^ (900 : ℤ))
    (b3 : 2 ^ (-1000 : ℤ) ≤ p.quantity.toRat) :
    ∃ (o' : Fl) (r : ℚ), modify ieee p t = .ok { p with openPrice := o', trades := p.trades ++ [t.id] } ∧ o'.Is r ∧
      |r - p.openPrice.toRat| ≤ 3 * 2 ^ (-53 : ℤ) * |p.openPrice.toRat| + 2 ^ (-1075 : ℤ) * (1 + 2 / p.quantity.toRat) := by
  obtain ⟨o', e, o1, z, i1, iz, ho⟩ := C265_logged ieee_lawful p t hp h1 h2 ht hq hx
  have hQ := Fl.isFinite_is hp.2.1
  have hpos := hp.2.2
  rw [← uR_eq, ← tiny_eq]
  have hu := uR_pos
  have ht0 := tiny_pos
  have h900 := two900
  have p900 : (0 : ℚ) < 2 ^ (900 : ℤ) := zpow_pos (by norm_num) _
  have hu1 : uR ≤ 1 := by rw [uR_eq]; norm_num
  have hone : (1 : ℚ) ≤ 2 ^ (900 : ℤ) := one_le_zpow₀ (by norm_num) (by norm_num)
  have htq : tiny / p.quantity.toRat ≤ 1 := by
    rw [div_le_one hpos, tiny_eq]
    exact le_trans (zpow_le_zpow_right₀ (by norm_num) (by norm_num)) b3
  generalize p.openPrice.toRat = a at *
  generalize p.quantity.toRat = q at *
  generalize (2 : ℚ) ^ (900 : ℤ) = B at b1 b2 h900 p900 hone
  obtain ⟨m, im, nm⟩ := mul_near i1 hQ (b2.trans (by linarith))
  have hmq : |m / q - a| ≤ uR * |a| + tiny / q := by
    have e : m / q - a = (m - a * q) / q := by field_simp
    rw [e, abs_div, abs_of_pos hpos, div_le_iff₀ hpos]
    have e2 : (uR * |a| + tiny / q) * q = uR * |a * q| + tiny := by
      rw [abs_mul, abs_of_pos hpos]; field_simp
    rw [e2]; exact nm
  have ha := abs_nonneg a
  have hmq' : |m / q| ≤ 2 * |a| + tiny / q := by
    have e : m / q = (m / q - a) + a := by ring
    rw [e]
    refine (abs_add_le _ _).trans ?_
    have := mul_le_mul_of_nonneg_right hu1 ha
    linarith
  obtain ⟨d, id, nd⟩ := div_near im.1 hQ hpos.ne' (hmq'.trans (by linarith))
  have hrep : ieee.Rep (ieee.div (ieee.mul o1 p.quantity) p.quantity) := by
    intro r hr
    rcases FloatSem.div_is (S := ieee) im.1 hQ hpos.ne' with ⟨_, h⟩ | ⟨_, h⟩
    · rw [h] at hr; exact ieee_lawful.r64.idem _ _ hr
    · rw [hr] at h
      have : r = 0 := Fl.Is.unique (Fl.is_fin r) h
      rw [this]; exact rnd_zero ieee_lawful
  refine ⟨o', d, e, ?_, ?_⟩
  · rcases ho with rfl | rfl
    · exact plus_zero ieee_lawful id.1 hrep iz
    · exact id.1
  · have e : d - a = (d - m / q) + (m / q - a) := by ring
    rw [e]
    refine (abs_add_le _ _).trans ?_
    have h1 : uR * |m / q| ≤ uR * (|a| + (uR * |a| + tiny / q)) := by
      refine mul_le_mul_of_nonneg_left ?_ hu.le
      have e : m / q = a + (m / q - a) := by ring
      rw [e]
      exact (abs_add_le _ _).trans (by linarith)
    have hqt : 0 ≤ tiny / q := (div_pos ht0 hpos).le
    have h2 : uR * (uR * |a|) ≤ uR * |a| := by
      have := mul_le_mul_of_nonneg_right hu1 (mul_nonneg hu.le ha)
      linarith
    have h3 : uR * (tiny / q) ≤ tiny / q := by
      have := mul_le_mul_of_nonneg_right hu1 hqt
      linarith
    have e2 : tiny * (1 + 2 / q) = tiny + 2 * (tiny / q) := by ring
    rw [e2]
    nlinarith

/-- A long position of three units opened at a tenth. -/
def tenthPosition : Position := newPosition "p" 0 (exTrade "a" "buy" tenth 3)

/-- **C265** is false in float64: a tenth times three, divided by three, is more than a tenth. -/
theorem C265_zero_violated : ¬ Spec.C265_claim ieee := by
  intro h
  obtain ⟨p', e, h'⟩ := h tenthPosition (exTrade "b" "buy" 5 0) (by decide +kernel)
    (fun q hq => by cases hq; decide +kernel) (fun q hq => by cases hq; decide +kernel) ⟨rfl, .inl rfl, .inl rfl⟩
    (Fl.is_fin 0) rfl
  have hp : (modify ieee tenthPosition (exTrade "b" "buy" 5 0)) = .ok p' := e
  have : (match modify ieee tenthPosition (exTrade "b" "buy" 5 0) with
    | .ok p => p.openPrice.toRat
    | _ => 0) ≠ tenth := by decide +kernel
  rw [hp] at this
  exact this h'

/-- **Example for C265.** The position above and a sale of nothing meet the hypotheses. -/
example : Holding tenthPosition ∧ Takes tenthPosition (exTrade "b" "sell" 5 0) ∧
    |tenthPosition.openPrice.toRat| ≤ 2 ∧ |tenthPosition.openPrice.toRat * tenthPosition.quantity.toRat| ≤ 2 ∧
    1 ≤ tenthPosition.quantity.toRat := by
  refine ⟨by decide +kernel, ⟨rfl, .inl rfl, .inr rfl⟩, by decide +kernel, by decide +kernel, by decide +kernel⟩

end Finmod
