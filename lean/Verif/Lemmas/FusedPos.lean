import Verif.Lemmas.FusedErr
import Verif.Lemmas.PosErr

/-!
# Positions with fused multiply-add

`Modify` with the subtraction of position.go:179 fused or not: the same case analysis as without,
and the same error bounds.
-/

namespace Finmod
open Go Spec FloatSem

/-- The position after shrinking by the trade. -/
def shrunkByF (S : FloatSem) (k : Bool) (p : Position) (trade : Trade) : Position :=
  { p with
      openPrice := S.div (S.mul (S.subMul k p.openPrice trade.price
        (S.div trade.quantity p.quantity)) p.quantity) (S.sub p.quantity trade.quantity)
      quantity := S.sub p.quantity trade.quantity
      trades := p.trades ++ [trade.id] }

theorem posSubstractF'_cases (S : FloatSem) (k : Bool) (p : Position) (t : Trade) :
    (Oversized S p t ∧ posSubstractF' S k p t = p) ∨
    (¬ Oversized S p t ∧ Fl.le (S.sub p.quantity t.quantity) (.fin 0) = true ∧
      posSubstractF' S k p t = closedBy S p t) ∨
    (¬ Oversized S p t ∧ Fl.le (S.sub p.quantity t.quantity) (.fin 0) = false ∧
      posSubstractF' S k p t = shrunkByF S k p t) := by
  unfold posSubstractF' posSubstractF Oversized
  by_cases h1 : Fl.lt (S.sub p.quantity t.quantity) (.fin 0) = true ∧
      Fl.lt (S.sub p.quantity t.quantity) (S.const (-1 / 10000)) = true
  · left
    refine ⟨h1, ?_⟩
    simp only [h1.1, h1.2, Bool.and_self, if_true]
  · right
    have h1' : ¬ ((Fl.lt (S.sub p.quantity t.quantity) (.fin 0) &&
        Fl.lt (S.sub p.quantity t.quantity) (S.const (-1 / 10000))) = true) := by
      simpa using h1
    by_cases h2 : Fl.le (S.sub p.quantity t.quantity) (.fin 0) = true
    · left
      refine ⟨h1, h2, ?_⟩
      simp only [h1', h2, if_true]
      rfl
    · right
      refine ⟨h1, by simpa using h2, ?_⟩
      simp only [h1', h2]
      rfl

/-- All outcomes of a `Modify` call. -/
theorem modifiedF_cases (S : FloatSem) (k : Bool) (p : Position) (t : Trade) :
    (¬ Accepts S p t ∧ modifiedF S k p t = p) ∨
    (Accepts S p t ∧ Adds p t ∧ modifiedF S k p t = posAdd S p t) ∨
    (Accepts S p t ∧ Reduces p t ∧ Fl.le (S.sub p.quantity t.quantity) (.fin 0) = true ∧
      modifiedF S k p t = closedBy S p t) ∨
    (Accepts S p t ∧ Reduces p t ∧ Fl.le (S.sub p.quantity t.quantity) (.fin 0) = false ∧
      modifiedF S k p t = shrunkByF S k p t) := by
  by_cases hp : p.pair = t.pair
  swap
  · left; unfold modifiedF modifyF; rw [if_pos hp]; exact ⟨fun h => hp h.1, rfl⟩
  by_cases ha : Adds p t
  · right; left
    refine ⟨⟨hp, .inl ha⟩, ha, ?_⟩
    unfold modifiedF modifyF
    rw [if_neg (by simpa using hp)]
    rcases ha with ⟨h1, h2⟩ | ⟨h1, h2⟩ <;>
      simp [h1, h2, longPosition, shortPosition, buyAction, sellAction]
  by_cases hr : Reduces p t
  · have e : modifiedF S k p t = posSubstractF' S k p t := by
      unfold modifiedF modifyF
      rw [if_neg (by simpa using hp)]
      rcases hr with ⟨h1, h2⟩ | ⟨h1, h2⟩ <;>
        simp [h1, h2, longPosition, shortPosition, buyAction, sellAction]
    rw [e]
    rcases posSubstractF'_cases S k p t with ⟨h1, h2⟩ | ⟨h1, h2, h3⟩ | ⟨h1, h2, h3⟩
    · left
      refine ⟨?_, h2⟩
      rintro ⟨_, h | ⟨_, h⟩⟩
      · exact ha h
      · exact h h1
    · right; right; left; exact ⟨⟨hp, .inr ⟨hr, h1⟩⟩, hr, h2, h3⟩
    · right; right; right; exact ⟨⟨hp, .inr ⟨hr, h1⟩⟩, hr, h2, h3⟩
  · left
    refine ⟨by rintro ⟨_, h | ⟨h, _⟩⟩ <;> contradiction, ?_⟩
    unfold modifiedF modifyF
    rw [if_neg (by simpa using hp)]
    unfold Adds at ha
    unfold Reduces at hr
    push Not at ha hr
    have a := ha.1; have b := ha.2; have c := hr.1; have d := hr.2
    rw [if_neg, if_neg, if_neg, if_neg]
    · rintro ⟨x, y⟩; exact b x y
    · rintro ⟨x, y⟩; exact d x y
    · rintro ⟨x, y⟩; exact c x y
    · rintro ⟨x, y⟩; exact a x y

/-- Two positions that agree in everything but open price and profit. -/
def Spec.SameBooks (p p' : Position) : Prop :=
  p' = { p with openPrice := p'.openPrice, profit := p'.profit }

theorem Spec.SameBooks.refl (p : Position) : SameBooks p p := rfl

theorem same_accepts {S : FloatSem} {p p' : Position} (h : SameBooks p p') (t : Trade) :
    Accepts S p' t ↔ Accepts S p t := by
  rw [h]; rfl

theorem same_step {S : FloatSem} (k : Bool) {p p' : Position} (h : SameBooks p p') (t : Trade) :
    SameBooks (modified S p t) (modifiedF S k p' t) := by
  have hacc := same_accepts (S := S) h t
  have hadd : Adds p' t ↔ Adds p t := by rw [h]; rfl
  have hred : Reduces p' t ↔ Reduces p t := by rw [h]; rfl
  have hq : p'.quantity = p.quantity := by rw [h]
  rcases modified_cases S p t with ⟨c, e⟩ | ⟨c, d, e⟩ | ⟨c, d, g, e⟩ | ⟨c, d, g, e⟩ <;>
  rcases modifiedF_cases S k p' t with ⟨c', e'⟩ | ⟨c', d', e'⟩ | ⟨c', d', g', e'⟩ | ⟨c', d', g', e'⟩ <;>
  first
  | exact absurd (hacc.1 c') c
  | exact absurd (hacc.2 c) c'
  | exact absurd d (not_adds_and_reduces (hadd.1 d'))
  | exact absurd (hred.1 d') (not_adds_and_reduces d)
  | (rw [hq] at g'; exact absurd (g'.symm.trans g) (by decide))
  | (rw [e, e']; rw [h]; rfl)

theorem applied_same {S : FloatSem} {p p' : Position} {hist : List Trade} (h : SameBooks p p') :
    applied S p hist = applied S p' hist := by
  induction hist generalizing p p' with
  | nil => rfl
  | cons t ts ih =>
    have hs : SameBooks (modified S p t) (modified S p' t) := same_step false h t
    have e1 : ((modified S p t).trades = p.trades) ↔ ((modified S p' t).trades = p'.trades) := by
      rw [applied_log, applied_log, same_accepts h]
    unfold applied
    by_cases c : (modified S p t).trades = p.trades
    · rw [if_pos c, if_pos (e1.1 c)]; exact ih hs
    · rw [if_neg c, if_neg (fun x => c (e1.2 x)), ih hs]

theorem opened_of_modifiedAllF {S : FloatSem} {p : Position} {hist : List (Bool × Trade)}
    (h : (modifiedAllF S p hist).opened = true) : p.opened = true := by
  induction hist generalizing p with
  | nil => exact h
  | cons kt ts ih =>
    have := ih (p := modifiedF S kt.1 p kt.2) h
    rcases modifiedF_cases S kt.1 p kt.2 with ⟨_, e⟩ | ⟨_, _, e⟩ | ⟨_, _, _, e⟩ | ⟨_, _, _, e⟩ <;> rw [e] at this
    · exact this
    · exact this
    · cases this
    · exact this

/-- The cost basis after a reducing trade, the subtraction fused. -/
theorem sub_basis_errF {u t b q p c R D e O Q Q' : ℚ} (hu0 : 0 ≤ u) (hu1 : u ≤ 1 / 1000) (ht : 0 ≤ t)
    (hQ : 0 ≤ Q) (hQ' : 0 ≤ Q') (hp : 0 ≤ p) (hc : c = p * q)
    (h1 : |R - q| ≤ u * |q| + t * Q)
    (h3 : |D - (b - p * R)| ≤ u * |b - p * R| + t * Q) (h4 : |e - D| ≤ u * |D| + t) (h5 : |O - e| ≤ u * |e| + t * Q') :
    |O - (b - c)| ≤ 10 * (u * (|b| + |c|)) + 10 * (t * (1 + Q + Q' + p * Q)) := by
  have hb := abs_nonneg b
  have hc0 := abs_nonneg c
  have ub : 0 ≤ u * |b| := mul_nonneg hu0 hb
  have uc : 0 ≤ u * |c| := mul_nonneg hu0 hc0
  have tq : 0 ≤ t * Q := mul_nonneg ht hQ
  have tq' : 0 ≤ t * Q' := mul_nonneg ht hQ'
  have tpq : 0 ≤ t * (p * Q) := mul_nonneg ht (mul_nonneg hp hQ)
  have small : ∀ X, 0 ≤ X → u * X ≤ X / 1000 := fun X hX => by
    have := mul_le_mul_of_nonneg_right hu1 hX; linarith
  have r1 : |p * R - c| ≤ u * |c| + t * (p * Q) := by
    have e1 : p * R - c = p * (R - q) := by rw [hc]; ring
    rw [e1, abs_mul, abs_of_nonneg hp]
    have := mul_le_mul_of_nonneg_left h1 hp
    have e2 : |c| = p * |q| := by rw [hc, abs_mul, abs_of_nonneg hp]
    rw [e2]
    calc p * |R - q| ≤ p * (u * |q| + t * Q) := this
      _ = _ := by ring
  have r3 : |(b - p * R) - (b - c)| ≤ u * |c| + t * (p * Q) := by
    have e1 : (b - p * R) - (b - c) = -(p * R - c) := by ring
    rw [e1, abs_neg]; exact r1
  have s2 := err_step hu0 r3 h3
  have k2 := small (u * |c| + t * (p * Q)) (by linarith)
  have hbc : u * |b - c| ≤ u * |b| + u * |c| := by
    rw [← mul_add]; exact mul_le_mul_of_nonneg_left (abs_sub _ _) hu0
  have r4 : |D - (b - c)| ≤ 5 * (u * |c|) + u * |b| + 3 * (t * (p * Q)) + 2 * (t * Q) := by
    have : u * (|b - c| + (u * |c| + t * (p * Q))) = u * |b - c| + u * (u * |c| + t * (p * Q)) := by ring
    linarith
  have s3 := err_step hu0 r4 h4
  have k3 := small (5 * (u * |c|) + u * |b| + 3 * (t * (p * Q)) + 2 * (t * Q)) (by linarith)
  have r5 : |e - (b - c)| ≤ 7 * (u * |c|) + 3 * (u * |b|) + 4 * (t * (p * Q)) + 3 * (t * Q) + t := by
    have : u * (|b - c| + (5 * (u * |c|) + u * |b| + 3 * (t * (p * Q)) + 2 * (t * Q))) =
      u * |b - c| + u * (5 * (u * |c|) + u * |b| + 3 * (t * (p * Q)) + 2 * (t * Q)) := by ring
    linarith
  have s4 := err_step hu0 r5 h5
  have k4 := small (7 * (u * |c|) + 3 * (u * |b|) + 4 * (t * (p * Q)) + 3 * (t * Q) + t) (by linarith)
  have k5 : u * (|b - c| + (7 * (u * |c|) + 3 * (u * |b|) + 4 * (t * (p * Q)) + 3 * (t * Q) + t)) =
      u * |b - c| + u * (7 * (u * |c|) + 3 * (u * |b|) + 4 * (t * (p * Q)) + 3 * (t * Q) + t) := by ring
  have k6 : u * (|b| + |c|) = u * |b| + u * |c| := by ring
  have k7 : t * (1 + Q + Q' + p * Q) = t + t * Q + t * Q' + t * (p * Q) := by ring
  rw [k6, k7]
  linarith

theorem PosErr.shrinkF {p : Position} {t : Trade} {n Q V B T : ℚ} (h : PosErr p n Q V B T) (ht : FloatTrade t)
    (hn1 : 1 ≤ n) (hn : n ≤ 2 ^ 40) (hle : Fl.le (ieee.sub p.quantity t.quantity) (.fin 0) = false) :
    PosErr (shrunkByF ieee true p t) (n + 1) (Q - t.quantity.toRat) (V + t.quantity.toRat)
      (B - t.price.toRat * t.quantity.toRat) (T + t.price.toRat * t.quantity.toRat) := by
  obtain ⟨tp, tq, tpos, tgrid, tp2, tq2⟩ := ht.facts
  obtain ⟨b1, b2, b3, b4, b5⟩ := h.bounds hn
  have hpos := h.pos
  have hV0 : 0 ≤ V := (abs_nonneg _).trans h.absQ
  have hT0 : 0 ≤ T := (abs_nonneg _).trans h.absB
  have hus : uR ≤ 1 / 1000 := by rw [uR_eq]; norm_num
  set x := p.quantity.toRat
  set o := p.openPrice.toRat
  set q := t.quantity.toRat
  set r := t.price.toRat
  have hr0 : 0 ≤ r := ht.price_nonneg
  have hrq : r * q ≤ 2 ^ 200 := by
    have : r * q ≤ 2 ^ 100 * 2 ^ 100 := mul_le_mul tp2 tq2 tpos.le (by norm_num)
    have e : (2 : ℚ) ^ 100 * 2 ^ 100 = 2 ^ 200 := by norm_num
    linarith
  have hrq0 : 0 ≤ r * q := mul_nonneg hr0 tpos.le
  have hx1 := h.grid.le hpos
  rw [pow2_eq] at hx1
  have hxqb : |x - q| ≤ 2 ^ 141 + 2 ^ 100 := (abs_sub _ _).trans (by
    rw [abs_of_pos hpos, abs_of_pos tpos]; linarith)
  obtain ⟨Q', hQ', hQe⟩ := sub_near h.qF tq (le_huge (by
    have : (2 : ℚ) ^ 141 + 2 ^ 100 ≤ 2 ^ 250 * 2 ^ 250 := by norm_num
    linarith))
  have hQpos : 0 < Q' := by
    rw [hQ'.1.le (Fl.is_fin 0)] at hle
    simpa using hle
  have hQgrid : MulOf (-152) Q' := by
    have := hQ'.1
    unfold FloatSem.sub at this
    exact add_mulOf h.qF.1 (isF_neg tq).1 h.grid tgrid.neg this
  have hQ1 := hQgrid.le hQpos
  rw [pow2_eq] at hQ1
  have hQb : Q' ≤ 2 ^ 142 := by
    have k := (abs_le.1 hQe).2
    have k2 : uR * |x - q| ≤ 1 / 1000 * |x - q| := mul_le_mul_of_nonneg_right hus (abs_nonneg _)
    have k3 := (abs_le.1 hxqb).2
    have e : ((2 : ℚ) ^ 141 + 2 ^ 100) * (1001 / 1000) ≤ 2 ^ 142 := by norm_num
    linarith
  have small : ∀ {y z : ℚ}, |y - z| ≤ uR * |z| + tiny → |y| ≤ 2 * |z| + 1 := by
    intro y z hyz
    have e : y = z + (y - z) := by ring
    rw [e]; refine (abs_add_le _ _).trans ?_
    have := mul_le_mul_of_nonneg_right hus (abs_nonneg z)
    have h2 : tiny ≤ 1 := by rw [tiny_eq]; exact zpow_le_one_of_nonpos₀ (by norm_num) (by norm_num)
    linarith [abs_nonneg z]
  -- q / x
  have hqx : |q / x| ≤ 2 ^ 252 := by
    rw [abs_div, abs_of_pos tpos, abs_of_pos hpos, div_le_iff₀ hpos]
    have : (2 : ℚ) ^ 252 * 2 ^ (-152 : ℤ) ≤ 2 ^ 252 * x := mul_le_mul_of_nonneg_left hx1 (by norm_num)
    have e : (2 : ℚ) ^ 100 ≤ 2 ^ 252 * 2 ^ (-152 : ℤ) := by norm_num
    linarith
  obtain ⟨ρ, hρ, hρe⟩ := div_near tq.1 h.qF.1 hpos.ne' (le_huge (by
    have : (2 : ℚ) ^ 252 ≤ 2 ^ 250 * 2 ^ 250 := by norm_num
    linarith))
  have hρb : |ρ| ≤ 2 ^ 254 := by
    have := small hρe
    have e : 2 * (2 : ℚ) ^ 252 + 1 ≤ 2 ^ 254 := by norm_num
    linarith
  have hrρ : |r * ρ| ≤ 2 ^ 100 * 2 ^ 254 := by
    rw [abs_mul, abs_of_nonneg hr0]; exact mul_le_mul tp2 hρb (abs_nonneg _) (by norm_num)
  have horρ : |-r * ρ + o| ≤ 2 ^ 200 * 2 ^ 201 := (abs_add_le _ _).trans (by
    rw [neg_mul, abs_neg]
    have e : (2 : ℚ) ^ 200 * 2 ^ 200 + 2 ^ 100 * 2 ^ 254 ≤ 2 ^ 200 * 2 ^ 201 := by norm_num
    linarith)
  obtain ⟨d, hd, hde⟩ := fma_near tp.1.neg hρ.1 h.oF.1 (le_huge (by
    have : (2 : ℚ) ^ 200 * 2 ^ 201 ≤ 2 ^ 250 * 2 ^ 250 := by norm_num
    linarith))
  have hR : |ρ * x - q| ≤ uR * |q| + tiny * x := scaled_div hpos hρe
  have hD : |d * x - (o * x - r * (ρ * x))| ≤ uR * |o * x - r * (ρ * x)| + tiny * x := by
    have := scaled_mul hpos hde
    have e : (-r * ρ + o) * x = o * x - r * (ρ * x) := by ring
    rwa [e] at this
  -- sizes of d * x
  have tx : tiny * x ≤ 1 := by
    have h1 : tiny * x ≤ tiny * 2 ^ 250 := mul_le_mul_of_nonneg_left (by
      have : (2 : ℚ) ^ 141 ≤ 2 ^ 250 := by norm_num
      linarith) tiny_nonneg
    have h2 := tiny_mul (x := 2 ^ 250) le_rfl
    have h3 : eta ≤ 1 := by rw [eta_eq]; exact zpow_le_one_of_nonpos₀ (by norm_num) (by norm_num)
    have := mul_nonneg tiny_nonneg (by norm_num : (0 : ℚ) ≤ 2 ^ 250)
    linarith
  have grow : ∀ {y z : ℚ}, |y - z| ≤ uR * |z| + tiny * x → |y| ≤ 2 * |z| + 1 := by
    intro y z hyz
    have e : y = z + (y - z) := by ring
    rw [e]; refine (abs_add_le _ _).trans ?_
    have := mul_le_mul_of_nonneg_right hus (abs_nonneg z)
    linarith [abs_nonneg z]
  have hRb : |ρ * x| ≤ 2 * q + 1 := by have := grow hR; rwa [abs_of_pos tpos] at this
  have hMb : |r * (ρ * x)| ≤ 2 ^ 204 := by
    have k2 : |r * (ρ * x)| ≤ 2 ^ 100 * (2 * 2 ^ 100 + 1) := by
      rw [abs_mul, abs_of_nonneg hr0]
      exact mul_le_mul tp2 (by linarith) (abs_nonneg _) (by norm_num)
    have e : ((2 : ℚ) ^ 100 * (2 * 2 ^ 100 + 1)) ≤ 2 ^ 204 := by norm_num
    linarith
  have hoxm : |o * x - r * (ρ * x)| ≤ 2 ^ 243 := (abs_sub _ _).trans (by
    have e : (2 : ℚ) ^ 242 + 2 ^ 204 ≤ 2 ^ 243 := by norm_num
    linarith)
  have hDb : |d * x| ≤ 2 ^ 245 := by
    have := grow hD
    have e : 2 * (2 : ℚ) ^ 243 + 1 ≤ 2 ^ 245 := by norm_num
    linarith
  obtain ⟨e', he', he'e⟩ := mul_near hd.1 h.qF.1 (le_huge (by
    have : (2 : ℚ) ^ 245 ≤ 2 ^ 250 * 2 ^ 250 := by norm_num
    linarith))
  have heb : |e'| ≤ 2 ^ 247 := by
    have := small he'e
    have e : 2 * (2 : ℚ) ^ 245 + 1 ≤ 2 ^ 247 := by norm_num
    linarith
  obtain ⟨o', ho', ho'e⟩ := div_near he'.1 hQ'.1 hQpos.ne' (le_huge (by
    rw [abs_div, abs_of_pos hQpos, div_le_iff₀ hQpos]
    have : (2 : ℚ) ^ 250 * 2 ^ 250 * 2 ^ (-152 : ℤ) ≤ 2 ^ 250 * 2 ^ 250 * Q' :=
      mul_le_mul_of_nonneg_left hQ1 (by norm_num)
    have e : (2 : ℚ) ^ 247 ≤ 2 ^ 250 * 2 ^ 250 * 2 ^ (-152 : ℤ) := by norm_num
    linarith))
  have eqQ : (shrunkByF ieee true p t).quantity.toRat = Q' := hQ'.1.toRat
  have eqO : (shrunkByF ieee true p t).openPrice.toRat = o' := ho'.1.toRat
  have hO := sub_basis_errF uR_nonneg hus tiny_nonneg hpos.le hQpos.le hr0 (c := r * q) rfl hR hD he'e
    (scaled_div hQpos ho'e)
  have hrx : r * x ≤ 2 ^ 100 * 2 ^ 141 := mul_le_mul tp2 b2 hpos.le (by norm_num)
  have hrx0 : 0 ≤ r * x := mul_nonneg hr0 hpos.le
  have htin := tiny_mul (x := 1 + x + Q' + r * x) (by
    have : (1 : ℚ) + 2 ^ 141 + 2 ^ 142 + 2 ^ 100 * 2 ^ 141 ≤ 2 ^ 250 := by norm_num
    linarith)
  refine ⟨by rw [eqQ]; exact hQ', by rw [eqO]; exact ho', by rw [eqQ]; exact hQpos, by rw [eqQ]; exact hQgrid,
    ?_, ?_, ?_, ?_, ?_, ?_⟩
  · rw [eqQ, sub_eq_add_neg Q q]
    exact q_accum (by linarith) hn tpos.le hV0 (by rw [abs_neg, abs_of_pos tpos]) h.q_err h.absQ
      (sub_eq_add_neg x q) hQe
  · exact (abs_sub _ _).trans (by rw [abs_of_pos tpos]; linarith [h.absQ])
  · linarith [h.V_le]
  · rw [eqO, eqQ]
    refine basis_accum (by linarith) hn hrq0 hT0 h.b_err b3 (o := o * x - r * q) ?_ ?_ (by linarith)
    · have e : o' * Q' - (B - r * q) = (o * x - r * q - (B - r * q)) + (o' * Q' - (o * x - r * q)) := by ring
      rw [e]; exact abs_add_le _ _
    · congr 1; ring
  · exact (abs_sub _ _).trans (by rw [abs_of_nonneg hrq0]; linarith [h.absB])
  · linarith [h.T_le]

theorem posErrF_step (k : Bool) {p : Position} {t : Trade} {n Q V B T : ℚ} (h : PosErr p n Q V B T) (ht : FloatTrade t)
    (hn1 : 1 ≤ n) (hn : n ≤ 2 ^ 40) (hopen : (modifiedF ieee k p t).opened = true) (hacc : Accepts ieee p t) :
    PosErr (modifiedF ieee k p t) (n + 1) (Q + posSign p * units t) (V + |units t|)
      (B - posSign p * cash t) (T + |cash t|) ∧ posSign (modifiedF ieee k p t) = posSign p := by
  rw [ht.abs_units, ht.abs_cash]
  rcases modifiedF_cases ieee k p t with ⟨h', e⟩ | ⟨_, ha, e⟩ | ⟨_, _, _, e⟩ | ⟨_, hr, hle, e⟩
  · exact absurd hacc h'
  · rw [e, (adds_signed ha).1, (adds_signed ha).2, sub_neg_eq_add]
    exact ⟨h.add ht hn1 hn, rfl⟩
  · rw [e] at hopen; simp [closedBy] at hopen
  · rw [e, (reduces_signed hr).1, (reduces_signed hr).2, ← sub_eq_add_neg]
    refine ⟨?_, rfl⟩
    cases k with
    | false => exact h.shrink ht hn1 hn hle
    | true => exact h.shrinkF ht hn1 hn hle

theorem posErrF_history {p : Position} {hist : List (Bool × Trade)} {n Q V B T : ℚ} (h : PosErr p n Q V B T)
    (ht : ∀ kt ∈ hist, FloatTrade kt.2) (hn1 : 1 ≤ n) (hn : n + (applied ieee p (hist.map Prod.snd)).length ≤ 2 ^ 40)
    (hopen : (modifiedAllF ieee p hist).opened = true) :
    PosErr (modifiedAllF ieee p hist) (n + (applied ieee p (hist.map Prod.snd)).length)
      (Q + posSign p * ((applied ieee p (hist.map Prod.snd)).map units).sum)
      (V + ((applied ieee p (hist.map Prod.snd)).map fun t => |units t|).sum)
      (B - posSign p * ((applied ieee p (hist.map Prod.snd)).map cash).sum)
      (T + ((applied ieee p (hist.map Prod.snd)).map fun t => |cash t|).sum) ∧
    posSign (modifiedAllF ieee p hist) = posSign p := by
  induction hist generalizing p n Q V B T with
  | nil => simpa [modifiedAllF, applied] using h
  | cons kt ts ih =>
    obtain ⟨k, t⟩ := kt
    have ho1 : (modifiedF ieee k p t).opened = true := opened_of_modifiedAllF (hist := ts) hopen
    have hsame := same_step (S := ieee) k (SameBooks.refl p) t
    simp only [List.map_cons] at hn ⊢
    by_cases hacc : Accepts ieee p t
    · have hlog : ¬ (modified ieee p t).trades = p.trades := by rw [applied_log]; simpa using hacc
      simp only [applied, if_neg hlog] at hn ⊢
      rw [applied_same hsame] at hn ⊢
      have hlen : (0 : ℚ) ≤ (applied ieee (modifiedF ieee k p t) (ts.map Prod.snd)).length := Nat.cast_nonneg _
      simp only [List.length_cons] at hn
      push_cast at hn
      obtain ⟨s1, s2⟩ := posErrF_step k h (ht (k, t) (by simp)) hn1 (by linarith) ho1 hacc
      obtain ⟨i1, i2⟩ := ih s1 (fun t h => ht t (by simp [h])) (by linarith) (by linarith) hopen
      refine ⟨?_, i2.trans s2⟩
      rw [s2] at i1
      simp only [List.map_cons, List.sum_cons, List.length_cons]
      push_cast
      convert i1 using 1 <;> first | rfl | ring1
    · have hlog : (modified ieee p t).trades = p.trades := by rw [applied_log]; exact hacc
      have e : modifiedF ieee k p t = p := by
        rcases modifiedF_cases ieee k p t with ⟨_, e⟩ | ⟨h', _⟩ | ⟨h', _⟩ | ⟨h', _⟩
        · exact e
        all_goals exact absurd h' hacc
      simp only [applied, if_pos hlog] at hn ⊢
      rw [applied_same hsame, e] at hn ⊢
      have e2 : modifiedAllF ieee p ((k, t) :: ts) = modifiedAllF ieee p ts := by
        change modifiedAllF ieee (modifiedF ieee k p t) ts = _
        rw [e]
      rw [e2] at hopen ⊢
      exact ih h (fun t h => ht t (by simp [h])) hn1 hn hopen

end Finmod
