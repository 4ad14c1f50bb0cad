import Verif.Props.Overflow
import Verif.Props.Orders
import Verif.Props.IEEE
import Verif.Props.NaNBook

/-!
# C200, C201: amounts too small or too large for a float64

What an underflow does to `CalculateFields`, and what an overflow does to a position.
-/

namespace Finmod.Spec
open Go

/-- A finite trade: a price from 0 on, a positive quantity, the price a float can hold. -/
structure FiniteTrade (S : FloatSem) (t : Trade) : Prop where
  price : t.price.isFinite = true
  notNeg : 0 ≤ t.price.toRat
  rep : S.Rep t.price
  qty : t.quantity.isFinite = true
  pos : 0 < t.quantity.toRat

/-- The amount `CalculateFields` fills in, before rounding. -/
def exactAmount (o : OrderRequest) (price : Fl) : ℚ :=
  if o.quantity.toRat = 0 then o.total.toRat / price.toRat else o.quantity.toRat * price.toRat

end Finmod.Spec

namespace Finmod
open Go Spec

/-! ### C200 -/

/-- A float64 result is zero exactly when the exact one is at most half the smallest float64. -/
theorem rnd_isZero {q : ℚ} : (ieee.rnd q).isZero = true ↔ |q| ≤ 2 ^ (-1075 : ℤ) := by
  have hS := ieee_lawful
  have half : ieee.rnd (1 / 2 ^ 1075) = .fin 0 := by decide +kernel
  have e : (2 : ℚ) ^ (-1075 : ℤ) = 1 / 2 ^ 1075 := by
    rw [zpow_neg, one_div]; rfl
  have key : ∀ q : ℚ, 0 < q → ((ieee.rnd q).isZero = true ↔ q ≤ 2 ^ (-1075 : ℤ)) := by
    intro q hq
    constructor
    · intro h
      have hp := hS.r64.pos q hq
      have hz : ieee.rnd q = .fin 0 := by
        cases hx : ieee.rnd q with
        | fin r => rw [hx] at h; simpa [Fl.isZero] using h
        | negZero => exact absurd hx hp
        | nan => rw [hx] at h; simp [Fl.isZero] at h
        | inf b => rw [hx] at h; simp [Fl.isZero] at h
      have := C102_error hz
      rw [zero_sub, abs_neg, abs_of_pos hq] at this
      rcases le_max_iff.1 this with h' | h'
      · exfalso
        have : (2 : ℚ) ^ (-53 : ℤ) < 1 := by norm_num
        nlinarith
      · exact h'
    · intro h
      have m1 := hS.r64.mono 0 q hq.le
      have m2 := hS.r64.mono q _ h
      rw [e, half] at m2
      rw [rnd_zero hS] at m1
      obtain ⟨x, hx, h0, h1⟩ := is_of_between (hS.r64.not_nan q) m1 m2
      rw [hx.isZero]
      simpa using le_antisymm h1 h0
  rcases lt_trichotomy q 0 with h | rfl | h
  · have hn : ieee.rnd q = Fl.neg (ieee.rnd (-q)) := by
      rw [← hS.r64.odd (-q) (by linarith), neg_neg]
    have hz : ∀ x : Fl, x.neg.isZero = x.isZero := by
      intro x
      cases x with
      | fin r => by_cases hr : r = 0 <;> simp [Fl.neg, Fl.isZero, hr]
      | _ => simp [Fl.neg, Fl.isZero]
    rw [hn, hz, key (-q) (by linarith), abs_of_neg h]
  · rw [rnd_zero hS]
    simp only [Fl.isZero, decide_true, abs_zero, true_iff]
    exact zpow_nonneg (by norm_num) _
  · rw [key q h, abs_of_pos h]

/-- **C200.** `CalculateFields` in float64 fills in zero exactly when the exact amount is at most half the smallest
float64. Then, and only then, the completed request is accepted by `CalculateFields` once more, and with the same
price it comes back as it is. -/
theorem C200_underflow (o : OrderRequest) (current : Fl) (h : OneGiven o) (ht : o.total.isFinite = true)
    (hq : o.quantity.isFinite = true) :
    let price := if o.type = "market" then current else o.price
    price.isFinite = true → price.toRat ≠ 0 →
    ∃ r, (calculateFields ieee o current).2 = .ok (some r) ∧
      (r.total.isZero = true ∨ r.quantity.isZero = true ↔ |exactAmount o price| ≤ 2 ^ (-1075 : ℤ)) ∧
      (∀ c, (calculateFields ieee r c).2 = .err .einvalid none ↔ 2 ^ (-1075 : ℤ) < |exactAmount o price|) ∧
      (|exactAmount o price| ≤ 2 ^ (-1075 : ℤ) → (calculateFields ieee r current).2 = .ok (some r)) := by
  intro price hp hp0
  have he : effectivePrice o current = price := rfl
  have hqi := Fl.isFinite_is hq
  have hti := Fl.isFinite_is ht
  have hpi := Fl.isFinite_is hp
  refine ⟨_, by rw [calculateFields_ok h], ?_⟩
  rw [he]
  rcases h with ⟨h1, h2⟩ | ⟨h1, h2⟩
  · have hq0 : o.quantity.toRat ≠ 0 := by rw [hqi.isZero] at h2; simpa using h2
    have hx : exactAmount o price = o.quantity.toRat * price.toRat := by unfold exactAmount; rw [if_neg hq0]
    have hm : ieee.mul o.quantity price = ieee.rnd (o.quantity.toRat * price.toRat) := by
      rcases FloatSem.mul_is (S := ieee) hqi hpi with ⟨-, e⟩ | ⟨e, -⟩
      · exact e
      · exact absurd e (mul_ne_zero hq0 hp0)
    rw [if_pos h2, hx]
    have hz : (ieee.mul o.quantity price).isZero = true ↔ |o.quantity.toRat * price.toRat| ≤ 2 ^ (-1075 : ℤ) := by
      rw [hm]; exact rnd_isZero
    refine ⟨by simpa [h2] using hz, fun c => ?_, fun hs => ?_⟩
    · by_cases hc : OneGiven { o with total := ieee.mul o.quantity price }
      · rw [calculateFields_ok hc]
        have : (ieee.mul o.quantity price).isZero = true := by
          rcases hc with ⟨a, -⟩ | ⟨-, b⟩
          · exact a
          · exact absurd b (by simp [h2])
        exact iff_of_false (by simp) (not_lt.2 (hz.1 this))
      · rw [calculateFields_err hc]
        simp only [true_iff]
        by_contra hl
        exact hc (.inl ⟨hz.2 (not_lt.1 hl), h2⟩)
    · rw [calculateFields_ok (o := { o with total := ieee.mul o.quantity price }) (.inl ⟨hz.2 hs, h2⟩)]
      show Res.ok (some (if o.quantity.isZero = false then _ else _)) = _
      rw [if_pos h2]
      rfl
  · have hq0 : o.quantity.toRat = 0 := by rw [hqi.isZero] at h2; simpa using h2
    have ht0 : o.total.toRat ≠ 0 := by rw [hti.isZero] at h1; simpa using h1
    have hx : exactAmount o price = o.total.toRat / price.toRat := by unfold exactAmount; rw [if_pos hq0]
    have hm : ieee.div o.total price = ieee.rnd (o.total.toRat / price.toRat) := by
      rcases FloatSem.div_is (S := ieee) hti hpi hp0 with ⟨-, e⟩ | ⟨e, -⟩
      · exact e
      · exact absurd e ht0
    rw [if_neg (by simp [h2]), hx]
    have hz : (ieee.div o.total price).isZero = true ↔ |o.total.toRat / price.toRat| ≤ 2 ^ (-1075 : ℤ) := by
      rw [hm]; exact rnd_isZero
    refine ⟨by simpa [h1] using hz, fun c => ?_, fun hs => ?_⟩
    · by_cases hc : OneGiven { o with quantity := ieee.div o.total price }
      · rw [calculateFields_ok hc]
        have : (ieee.div o.total price).isZero = true := by
          rcases hc with ⟨a, -⟩ | ⟨-, b⟩
          · exact absurd a (by simp [h1])
          · exact b
        exact iff_of_false (by simp) (not_lt.2 (hz.1 this))
      · rw [calculateFields_err hc]
        simp only [true_iff]
        by_contra hl
        exact hc (.inr ⟨h1, hz.2 (not_lt.1 hl)⟩)
    · have hz' := hz.2 hs
      rw [calculateFields_ok (o := { o with quantity := ieee.div o.total price }) (.inr ⟨h1, hz'⟩)]
      show Res.ok (some (if (ieee.div o.total price).isZero = false then _ else _)) = _
      rw [if_neg (by simp [hz'])]
      rfl

/-- Half a unit at the smallest price a float64 can hold: half of that price is rounded to zero. -/
def tinyRequest : OrderRequest :=
  ⟨"buy", "limit", ⟨⟨"", "A", ""⟩, ⟨"", "B", ""⟩⟩, .fin (1 / 2 ^ 1074), .fin 0, .fin 0, .fin (1 / 2), .fin 0⟩

example : OneGiven tinyRequest ∧ tinyRequest.quantity.isFinite = true ∧ |exactAmount tinyRequest tinyRequest.price| ≤ 2 ^ (-1075 : ℤ) ∧
    (calculateFields ieee tinyRequest (.fin 1)).2 = .ok (some tinyRequest) := by
  refine ⟨.inl ⟨by decide +kernel, by decide +kernel⟩, rfl, ?_, by decide +kernel⟩
  unfold exactAmount tinyRequest
  have e : (2 : ℚ) ^ (-1075 : ℤ) = 1 / 2 * (1 / 2 ^ 1074) := by
    rw [zpow_neg, show (1075 : ℤ) = ((1074 + 1 : ℕ) : ℤ) from rfl, zpow_natCast, pow_succ]; ring
  rw [if_neg (by norm_num [Fl.toRat]), e, abs_of_nonneg (by simp only [Fl.toRat]; positivity)]
  exact le_rfl

/-! ### C201 -/

section
variable {S : FloatSem}

theorem mul_by_inf {x : Fl} : S.mul x (.inf false) = .nan ∨ ∃ b, S.mul x (.inf false) = .inf b := by
  cases x with
  | nan => exact .inl rfl
  | inf a => exact .inr ⟨_, rfl⟩
  | fin q => by_cases h : (Fl.fin q).isZero = true <;> simp [FloatSem.mul, h]
  | negZero => exact .inl rfl

theorem mul_inf_div_inf (x : Fl) : S.div (S.mul x (.inf false)) (.inf false) = .nan := by
  rcases mul_by_inf (S := S) (x := x) with h | ⟨b, h⟩ <;> rw [h] <;> rfl

theorem inf_sub_finite {b : Bool} {y : Fl} (hy : y.isFinite = true) : S.sub (.inf b) y = .inf b :=
  add_inf_finite (neg_finite hy)

/-- One finite trade on an infinite quantity. -/
theorem inf_step (p : Position) (t : Trade) (hp : p.quantity = .inf false) (ht : t.quantity.isFinite = true) :
    let r := modified S p t
    r.quantity = .inf false ∧ r.opened = p.opened ∧ r.profit = p.profit ∧ r.closePrice = p.closePrice ∧
      r.closeTime = p.closeTime ∧ (r = p ∨ r.openPrice = .nan) := by
  intro r
  rcases modified_cases S p t with ⟨-, e⟩ | ⟨-, -, e⟩ | ⟨-, -, h, e⟩ | ⟨-, -, -, e⟩
  · rw [show r = p from e]; exact ⟨hp, rfl, rfl, rfl, rfl, .inl rfl⟩
  · rw [show r = posAdd S p t from e]
    refine ⟨?_, rfl, rfl, rfl, rfl, .inr ?_⟩
    · show S.add p.quantity t.quantity = _
      rw [hp, add_inf_finite ht]
    · show S.add (S.div (S.mul p.openPrice p.quantity) (S.add p.quantity t.quantity)) _ = _
      rw [hp, add_inf_finite ht, mul_inf_div_inf]
      rfl
  · rw [hp, inf_sub_finite ht] at h
    simp [Fl.le, Fl.key] at h
  · rw [show r = shrunkBy S p t from e]
    refine ⟨?_, rfl, rfl, rfl, rfl, .inr ?_⟩
    · show S.sub p.quantity t.quantity = _
      rw [hp, inf_sub_finite ht]
    · show S.div (S.mul (S.sub p.openPrice _) p.quantity) (S.sub p.quantity t.quantity) = _
      rw [hp, inf_sub_finite ht, mul_inf_div_inf]

/-- **C201.** A position whose quantity has overflowed can no longer be reduced or closed by finite trades: its
quantity stays infinite, and it stays open. The first trade that is applied makes its open price NaN. In any float
arithmetic. -/
theorem C201_infinite_quantity (S : FloatSem) (p : Position) (hp : p.quantity = .inf false) (history : List Trade)
    (hh : ∀ t ∈ history, t.quantity.isFinite = true) :
    let r := modifiedAll S p history
    r.quantity = .inf false ∧ r.opened = p.opened ∧ r.profit = p.profit ∧ r.closePrice = p.closePrice ∧
      r.closeTime = p.closeTime ∧ (r = p ∨ r.openPrice = .nan) := by
  induction history generalizing p with
  | nil => exact ⟨hp, rfl, rfl, rfl, rfl, .inl rfl⟩
  | cons t ts ih =>
    obtain ⟨a, b, c, d, e, f⟩ := inf_step (S := S) p t hp (hh t List.mem_cons_self)
    obtain ⟨a', b', c', d', e', f'⟩ := ih (modified S p t) a (fun t ht => hh t (List.mem_cons_of_mem _ ht))
    refine ⟨a', b'.trans b, c'.trans c, d'.trans d, e'.trans e, ?_⟩
    rcases f' with f' | f'
    · rcases f with f | f
      · exact .inl (f'.trans f)
      · exact .inr ((congrArg Position.openPrice f').trans f)
    · exact .inr f'

/-- A rounded non-negative number is finite and at least 0, or `+Inf`. -/
theorem rnd_nonneg_cases (hS : Lawful S) {q : ℚ} (hq : 0 ≤ q) : S.rnd q = .inf false ∨ ∃ x, (S.rnd q).Is x ∧ 0 ≤ x := by
  have m := hS.r64.mono 0 q hq
  rw [rnd_zero hS] at m
  rcases fl_cases (hS.r64.not_nan q) with h | h | ⟨x, hx⟩
  · rw [h] at m; simp [Fl.key] at m
  · exact .inl h
  · rw [hx.key] at m
    exact .inr ⟨x, hx, by simpa [Fl.key] using m⟩

theorem mul_nonneg_cases (hS : Lawful S) {x y : Fl} {a b : ℚ} (hx : x.Is a) (hy : y.Is b) (ha : 0 ≤ a) (hb : 0 ≤ b) :
    S.mul x y = .inf false ∨ ∃ c, (S.mul x y).Is c ∧ 0 ≤ c := by
  rcases FloatSem.mul_is (S := S) hx hy with ⟨-, h⟩ | ⟨-, h⟩
  · rw [h]; exact rnd_nonneg_cases hS (mul_nonneg ha hb)
  · exact .inr ⟨0, h, le_rfl⟩

theorem add_nonneg_cases (hS : Lawful S) {x y : Fl} {a b : ℚ} (hx : x.Is a) (hy : y.Is b) (ha : 0 ≤ a) (hb : 0 ≤ b) :
    S.add x y = .inf false ∨ ∃ c, (S.add x y).Is c ∧ 0 ≤ c := by
  rcases FloatSem.add_is (S := S) hx hy with h | ⟨h, -, -⟩
  · rw [h]; exact rnd_nonneg_cases hS (add_nonneg ha hb)
  · rw [h]; exact .inr ⟨0, Fl.is_negZero, le_rfl⟩

theorem div_nonneg_cases (hS : Lawful S) {x y : Fl} {a b : ℚ} (hx : x.Is a) (hy : y.Is b) (ha : 0 ≤ a) (hb : 0 < b) :
    S.div x y = .inf false ∨ ∃ c, (S.div x y).Is c ∧ 0 ≤ c := by
  rcases FloatSem.div_is (S := S) hx hy hb.ne' with ⟨-, h⟩ | ⟨-, h⟩
  · rw [h]; exact rnd_nonneg_cases hS (div_nonneg ha hb.le)
  · exact .inr ⟨0, h, le_rfl⟩

theorem finite_div_inf {x : Fl} {a : ℚ} (hx : x.Is a) : (S.div x (.inf false)).Is 0 := by
  have hz : ∀ b, (Fl.zero b).Is 0 := by intro b; cases b <;> simp [Fl.zero]
  cases x with
  | fin q => exact hz _
  | negZero => exact hz _
  | _ => simp at hx

theorem add_zeros (hS : Lawful S) {x y : Fl} (hx : x.Is 0) (hy : y.Is 0) : (S.add x y).Is 0 := by
  rcases FloatSem.add_is (S := S) hx hy with h | ⟨h, -, -⟩
  · rw [h, add_zero, rnd_zero hS]; exact Fl.is_fin 0
  · rw [h]; exact Fl.is_negZero

/-- Adding a positive quantity to a positive quantity a float can hold. -/
theorem quantity_grows (hS : Lawful S) {x y : Fl} {a b : ℚ} (hx : x.Is a) (hr : S.Rep x) (ha : 0 < a) (hy : y.Is b) (hb : 0 < b) :
    S.add x y = .inf false ∨ ∃ c, (S.add x y).Is c ∧ 0 < c ∧ S.Rep (S.add x y) := by
  have hxa : x = .fin a := by
    rcases hx with h | ⟨-, h⟩
    · exact h
    · exact absurd h ha.ne'
  have hra := hr a hxa
  rcases FloatSem.add_is (S := S) hx hy with h | ⟨-, -, h⟩
  · rw [h]
    have m := hS.r64.mono a (a + b) (by linarith)
    rw [hra] at m
    rcases fl_cases (hS.r64.not_nan (a + b)) with h | h | ⟨c, hc⟩
    · rw [h] at m; simp [Fl.key] at m
    · exact .inl h
    · rw [hc.key] at m
      refine .inr ⟨c, hc, lt_of_lt_of_le ha (by simpa [Fl.key] using m), fun q hq => hS.r64.idem _ _ hq⟩
  · linarith

end

/-- **C201.** A trade that adds to a position, all amounts finite and no price negative: the quantity may overflow to
`+Inf`. Then the open price is 0 if the two products of price and quantity are finite, and NaN otherwise. If the
quantity does not overflow the open price is not NaN, and it is `+Inf` if one of the products is. In any lawful float
arithmetic. -/
theorem C201_add {S : FloatSem} (hS : Lawful S) (p : Position) (t : Trade) (he : p.pair = t.pair) (h : Adds p t)
    (ho : p.openPrice.isFinite = true) (ho0 : 0 ≤ p.openPrice.toRat) (hq : p.quantity.isFinite = true)
    (hq0 : 0 < p.quantity.toRat) (hqr : S.Rep p.quantity) (ht : FiniteTrade S t) :
    let r := modified S p t
    let held := S.mul p.openPrice p.quantity
    let added := S.mul t.price t.quantity
    (r.quantity = .inf false ∨ r.quantity.isFinite = true) ∧
    (r.quantity = .inf false → held.isFinite = true → added.isFinite = true → r.openPrice.Is 0) ∧
    (r.quantity = .inf false → held = .inf false ∨ added = .inf false → r.openPrice = .nan) ∧
    (r.quantity.isFinite = true → r.openPrice ≠ .nan) ∧
    (r.quantity.isFinite = true → held = .inf false ∨ added = .inf false → r.openPrice = .inf false) := by
  intro r held added
  have hoi := Fl.isFinite_is ho
  have hqi := Fl.isFinite_is hq
  have hpi := Fl.isFinite_is ht.price
  have hti := Fl.isFinite_is ht.qty
  have hr : r = posAdd S p t := modified_adds he h
  have hh := mul_nonneg_cases hS hoi hqi ho0 hq0.le
  have ha := mul_nonneg_cases hS hpi hti ht.notNeg ht.pos.le
  have hrq : r.quantity = S.add p.quantity t.quantity := by rw [hr]; rfl
  have hro : r.openPrice = S.add (S.div held (S.add p.quantity t.quantity)) (S.div added (S.add p.quantity t.quantity)) := by
    rw [hr]; rfl
  rw [hrq, hro]
  change held = .inf false ∨ ∃ c, held.Is c ∧ 0 ≤ c at hh
  change added = .inf false ∨ ∃ c, added.Is c ∧ 0 ≤ c at ha
  clear_value held added
  have infdiv : S.div (.inf false) (.inf false) = .nan := rfl
  rcases quantity_grows hS hqi hqr hq0 hti ht.pos with g | ⟨c, hc, hc0, -⟩
  · rw [g]
    refine ⟨.inl rfl, fun _ f1 f2 => ?_, fun _ f => ?_, (fun f => by cases f), fun f => by cases f⟩
    · exact add_zeros hS (finite_div_inf (Fl.isFinite_is f1)) (finite_div_inf (Fl.isFinite_is f2))
    · rcases f with rfl | rfl
      · rw [infdiv]; rfl
      · rw [infdiv]
        cases S.div held (.inf false) <;> rfl
  · have hf := isFinite_of_is hc
    have hne : S.add p.quantity t.quantity ≠ .inf false := by intro e; rw [e] at hf; cases hf
    have part : ∀ x : Fl, (x = .inf false ∨ ∃ c, x.Is c ∧ 0 ≤ c) →
        (x = .inf false → S.div x (S.add p.quantity t.quantity) = .inf false) ∧
        (S.div x (S.add p.quantity t.quantity) = .inf false ∨
          ∃ c, (S.div x (S.add p.quantity t.quantity)).Is c ∧ 0 ≤ c) := by
      rintro x (rfl | ⟨d, hd, hd0⟩)
      · exact ⟨fun _ => div_inf_by_pos hc hc0, .inl (div_inf_by_pos hc hc0)⟩
      · exact ⟨fun e => by rw [e] at hd; simp at hd, div_nonneg_cases hS hd hc hd0 hc0⟩
    obtain ⟨p1, p2⟩ := part held hh
    obtain ⟨p3, p4⟩ := part added ha
    refine ⟨.inr hf, fun e => absurd e hne, fun e => absurd e hne, fun _ => ?_, fun _ f => ?_⟩
    · rcases p2 with e1 | ⟨x, hx, hx0⟩ <;> rcases p4 with e2 | ⟨y, hy, hy0⟩
      · rw [e1, e2]; simp [FloatSem.add]
      · rw [e1, add_inf_finite (isFinite_of_is hy)]; simp
      · rw [e2, add_finite_inf (isFinite_of_is hx)]; simp
      · exact add_fin_num hS (isFinite_of_is hx) (isFinite_of_is hy)
    · rcases f with f | f
      · rw [p1 f]
        rcases p4 with e2 | ⟨y, hy, -⟩
        · rw [e2]; rfl
        · exact add_inf_finite (isFinite_of_is hy)
      · rw [p3 f]
        rcases p2 with e1 | ⟨x, hx, -⟩
        · rw [e1]; rfl
        · exact add_finite_inf (isFinite_of_is hx)

/-- Open price infinite, quantity finite, positive and a float. -/
structure InfPrice (S : FloatSem) (p : Position) : Prop where
  price : p.openPrice = .inf false
  qty : p.quantity.isFinite = true
  pos : 0 < p.quantity.toRat
  rep : S.Rep p.quantity

/-- What became of the profit. -/
def Lost (p r : Position) : Prop :=
  r.type = p.type ∧ (r.opened = p.opened ∧ r.profit = p.profit ∨
    r.opened = false ∧ r.profit = .inf (decide (p.type = "long")))

theorem infPrice_step {S : FloatSem} (hS : Lawful S) {p : Position} {t : Trade} (hp : InfPrice S p) (ht : FiniteTrade S t) :
    (modified S p t).quantity = .inf false ∨ InfPrice S (modified S p t) ∧ Lost p (modified S p t) := by
  have hqi := Fl.isFinite_is hp.qty
  have hpi := Fl.isFinite_is ht.price
  have hti := Fl.isFinite_is ht.qty
  rcases modified_cases S p t with ⟨-, e⟩ | ⟨-, -, e⟩ | ⟨-, -, h, e⟩ | ⟨-, -, h, e⟩ <;> rw [e]
  · exact .inr ⟨hp, rfl, .inl ⟨rfl, rfl⟩⟩
  · rcases quantity_grows hS hqi hp.rep hp.pos hti ht.pos with g | ⟨c, hc, hc0, hcr⟩
    · exact .inl g
    · refine .inr ⟨⟨?_, isFinite_of_is hc, ?_, hcr⟩, rfl, .inl ⟨rfl, rfl⟩⟩
      · show S.add (S.div (S.mul p.openPrice p.quantity) (S.add p.quantity t.quantity))
          (S.div (S.mul t.price t.quantity) (S.add p.quantity t.quantity)) = _
        rw [hp.price, mul_inf_by_pos hqi hp.pos, div_inf_by_pos hc hc0]
        rcases mul_nonneg_cases hS hpi hti ht.notNeg ht.pos.le with g | ⟨d, hd, hd0⟩
        · rw [g, div_inf_by_pos hc hc0]; rfl
        · rcases div_nonneg_cases hS hd hc hd0 hc0 with g | ⟨y, hy, -⟩
          · rw [g]; rfl
          · exact add_inf_finite (isFinite_of_is hy)
      · show 0 < (S.add p.quantity t.quantity).toRat
        rw [hc.toRat]; exact hc0
  · refine .inr ⟨⟨hp.price, hp.qty, hp.pos, hp.rep⟩, rfl, .inr ⟨rfl, ?_⟩⟩
    show (if p.type = longPosition then S.mul (S.sub t.price p.openPrice) p.quantity
        else S.mul (S.sub p.openPrice t.price) p.quantity) = _
    rw [hp.price]
    by_cases hl : p.type = "long"
    · rw [if_pos (show p.type = longPosition from hl)]
      have : S.sub t.price (.inf false) = .inf true := add_finite_inf ht.price
      rw [this, mul_inf_by_pos hqi hp.pos, decide_eq_true hl]
    · rw [if_neg (show ¬ p.type = longPosition from hl), inf_sub_finite ht.price, mul_inf_by_pos hqi hp.pos, decide_eq_false hl]
  · -- the remaining quantity is positive
    have hsub := FloatSem.add_is (S := S) hqi hti.neg
    have hrest : ∃ q, q = p.quantity.toRat - t.quantity.toRat ∧ (S.sub p.quantity t.quantity = S.rnd q ∨
        S.sub p.quantity t.quantity = .negZero) := by
      refine ⟨_, rfl, ?_⟩
      rcases hsub with e | ⟨e, -, -⟩
      · left; show S.add _ _ = _; rw [e]; congr 1; ring
      · right; exact e
    obtain ⟨q, hqd, hs | hs⟩ := hrest
    swap
    · rw [hs] at h; exact absurd h (by decide)
    have hq0 : 0 < q := by
      by_contra hn
      have m := hS.r64.mono q 0 (not_lt.1 hn)
      rw [rnd_zero hS] at m
      rw [hs] at h
      rw [Fl.le_of_num (hS.r64.not_nan q) (by simp)] at h
      simp only [decide_eq_false_iff_not] at h
      exact h m
    rcases rnd_nonneg_cases hS hq0.le with g | ⟨c, hc, hc0⟩
    · left; show S.sub p.quantity t.quantity = _; rw [hs, g]
    · right
      have hcp : 0 < c := by
        rw [hs, hc.le (Fl.is_fin 0)] at h
        simpa using h
      refine ⟨⟨?_, ?_, ?_, ?_⟩, rfl, .inl ⟨rfl, rfl⟩⟩
      · show S.div (S.mul (S.sub p.openPrice (S.mul t.price (S.div t.quantity p.quantity))) p.quantity)
          (S.sub p.quantity t.quantity) = _
        have hle : t.quantity.toRat / p.quantity.toRat ≤ 1 := by
          rw [div_le_one hp.pos]; linarith
        have h01 : ∃ y, (S.div t.quantity p.quantity).Is y ∧ 0 ≤ y ∧ y ≤ 1 := by
          rcases FloatSem.div_is (S := S) hti hqi hp.pos.ne' with ⟨-, e⟩ | ⟨-, e⟩
          · rw [e]
            have m1 := hS.r64.mono 0 _ (div_nonneg ht.pos.le hp.pos.le)
            have m2 := hS.r64.mono _ 1 hle
            rw [rnd_zero hS] at m1
            rw [rnd_one hS] at m2
            exact is_of_between (hS.r64.not_nan _) m1 m2
          · exact ⟨0, e, le_rfl, by norm_num⟩
        obtain ⟨y, hy, hy0, hy1⟩ := h01
        rw [hp.price, inf_sub_finite (mul_unit_finite hS ht.price ht.rep hy hy0 hy1), mul_inf_by_pos hqi hp.pos, hs,
          div_inf_by_pos hc hcp]
      · show (S.sub p.quantity t.quantity).isFinite = true
        rw [hs]; exact isFinite_of_is hc
      · show 0 < (S.sub p.quantity t.quantity).toRat
        rw [hs, hc.toRat]; exact hcp
      · show S.Rep (S.sub p.quantity t.quantity)
        rw [hs]; exact fun q hq => hS.r64.idem _ _ hq

/-- **C201.** A position whose open price has overflowed: whatever finite trades follow, as long as its quantity is
finite its open price stays `+Inf`, and if it is closed the profit booked is `-Inf` for a long and `+Inf` for a short
position. In any lawful float arithmetic. -/
theorem C201_infinite_price {S : FloatSem} (hS : Lawful S) (p : Position) (ho : p.openPrice = .inf false)
    (hq : p.quantity.isFinite = true) (hq0 : 0 < p.quantity.toRat) (hqr : S.Rep p.quantity) (history : List Trade)
    (hh : ∀ t ∈ history, FiniteTrade S t) :
    let r := modifiedAll S p history
    r.quantity.isFinite = true → r.openPrice = .inf false ∧ 0 < r.quantity.toRat ∧
      (r.opened = p.opened ∧ r.profit = p.profit ∨ r.opened = false ∧ r.profit = .inf (decide (p.type = "long"))) := by
  have key : ∀ (history : List Trade) (p : Position), InfPrice S p → (∀ t ∈ history, FiniteTrade S t) →
      (modifiedAll S p history).quantity.isFinite = true → InfPrice S (modifiedAll S p history) ∧ Lost p (modifiedAll S p history) := by
    intro history
    induction history with
    | nil => exact fun p hp _ _ => ⟨hp, rfl, .inl ⟨rfl, rfl⟩⟩
    | cons t ts ih =>
      intro p hp hh hf
      rcases infPrice_step hS hp (hh t List.mem_cons_self) with g | ⟨g1, g2, g3⟩
      · have := (C201_infinite_quantity S (modified S p t) g ts (fun t ht => (hh t (List.mem_cons_of_mem _ ht)).qty)).1
        rw [show modifiedAll S p (t :: ts) = modifiedAll S (modified S p t) ts from rfl, this] at hf
        cases hf
      · obtain ⟨k1, k2, k3⟩ := ih (modified S p t) g1 (fun t ht => hh t (List.mem_cons_of_mem _ ht)) hf
        refine ⟨k1, k2.trans g2, ?_⟩
        show (modifiedAll S (modified S p t) ts).opened = _ ∧ (modifiedAll S (modified S p t) ts).profit = _ ∨ _
        rcases k3 with ⟨a, b⟩ | ⟨a, b⟩
        · rcases g3 with ⟨a', b'⟩ | ⟨a', b'⟩
          · exact .inl ⟨a.trans a', b.trans b'⟩
          · exact .inr ⟨a.trans a', b.trans b'⟩
        · rw [g2] at b; exact .inr ⟨a, b⟩
  intro r hf
  obtain ⟨k1, -, k3⟩ := key history p ⟨ho, hq, hq0, hqr⟩ hh hf
  exact ⟨k1.price, k1.pos, k3⟩

/-- A long position of 2 units bought at 2^1023 (their cost overflows); 2 more bought at 1; then all are sold at 1. -/
def bigTrade (id action : String) (price quantity : Fl) : Trade :=
  ⟨id, 0, action, "limit", ⟨⟨"", "A", ""⟩, ⟨"", "B", ""⟩⟩, price, quantity, .fin 0, .fin 0, ""⟩

def bigPosition : Position := newPosition "p" 0 (bigTrade "1" "buy" (.fin (2 ^ 1023)) (.fin 2))

example : Adds bigPosition (bigTrade "2" "buy" (.fin 1) (.fin 2)) ∧
    (modified ieee bigPosition (bigTrade "2" "buy" (.fin 1) (.fin 2))).openPrice = .inf false ∧
    (modifiedAll ieee bigPosition [bigTrade "2" "buy" (.fin 1) (.fin 2), bigTrade "3" "sell" (.fin 1) (.fin 4)]).profit = .inf true := by
  refine ⟨.inl ⟨rfl, rfl⟩, by decide +kernel, by decide +kernel⟩

/-- Quantities that overflow when added: the open price is 0. -/
example : let p := newPosition "p" 0 (bigTrade "1" "buy" (.fin 1) (.fin (2 ^ 1023)))
    let r := modified ieee p (bigTrade "2" "buy" (.fin 1) (.fin (2 ^ 1023)))
    r.quantity = .inf false ∧ r.openPrice = .fin 0 := by decide +kernel

end Finmod
