import Verif.Props.Accuracy
import Verif.Props.AvgMono
import Verif.Props.NaNSpread

/-!
# C199: averages of finite prices

What a sum too large for a float64 does to the averages and to the volatility.
-/

namespace Finmod.Spec
open Go

/-- All closes are finite. -/
def FiniteCloses (cs : List Candle) : Prop := ∀ c ∈ cs, c.close.isFinite = true

/-- Once infinite, always the same infinity. -/
def InfinityStays (out : List Fl) : Prop := ∀ k b, out[k]? = some (.inf b) → ∀ j, k ≤ j → j < out.length → out[j]? = some (.inf b)

end Finmod.Spec

namespace Finmod
open Go Spec

section
variable {S : FloatSem}

theorem fin_of_finite {x : Fl} (h : x.isFinite = true) : ∃ a, x.Is a := ⟨_, Fl.isFinite_is h⟩

theorem isFinite_of_is {x : Fl} {a : ℚ} (h : x.Is a) : x.isFinite = true := (Fl.is_iff.1 h).1

/-- A float is NaN, infinite or finite. -/
theorem three_cases (x : Fl) : x = .nan ∨ (∃ b, x = .inf b) ∨ x.isFinite = true := by
  cases x <;> simp [Fl.isFinite]

theorem add_inf_finite {b : Bool} {y : Fl} (hy : y.isFinite = true) : S.add (.inf b) y = .inf b := by
  cases y <;> simp_all [FloatSem.add, Fl.isFinite]

theorem add_finite_inf {b : Bool} {x : Fl} (hx : x.isFinite = true) : S.add x (.inf b) = .inf b := by
  cases x <;> simp_all [FloatSem.add, Fl.isFinite]

theorem add_fin_num (hS : Lawful S) {x y : Fl} (hx : x.isFinite = true) (hy : y.isFinite = true) : S.add x y ≠ .nan := by
  obtain ⟨a, ha⟩ := fin_of_finite hx
  obtain ⟨b, hb⟩ := fin_of_finite hy
  rcases FloatSem.add_is (S := S) ha hb with h | ⟨h, -, -⟩
  · rw [h]; exact hS.r64.not_nan _
  · rw [h]; simp

theorem add_fin_right_num (hS : Lawful S) {x y : Fl} (hx : x ≠ .nan) (hy : y.isFinite = true) : S.add x y ≠ .nan := by
  rcases three_cases x with h | ⟨b, rfl⟩ | h
  · exact absurd h hx
  · rw [add_inf_finite hy]; simp
  · exact add_fin_num hS h hy

theorem add_fin_right_num' (hS : Lawful S) {x y : Fl} (hx : x.isFinite = true) (hy : y ≠ .nan) : S.add x y ≠ .nan := by
  rcases three_cases y with h | ⟨b, rfl⟩ | h
  · exact absurd h hy
  · rw [add_finite_inf hx]; simp
  · exact add_fin_num hS hx h

theorem neg_finite {x : Fl} (h : x.isFinite = true) : x.neg.isFinite = true := by
  obtain ⟨a, ha⟩ := fin_of_finite h
  exact isFinite_of_is ha.neg

theorem sub_fin_num (hS : Lawful S) {x y : Fl} (hx : x ≠ .nan) (hy : y.isFinite = true) : S.sub x y ≠ .nan :=
  add_fin_right_num hS hx (neg_finite hy)

/-- Times a positive number. -/
theorem mul_inf_by_pos {b : Bool} {y : Fl} {q : ℚ} (hy : y.Is q) (hq : 0 < q) : S.mul (.inf b) y = .inf b := by
  cases y with
  | fin r =>
    rw [Fl.is_fin_iff] at hy; subst hy
    simp [FloatSem.mul, Fl.isZero, hq.ne', Fl.sgn, not_lt.2 hq.le]
  | negZero => rw [Fl.is_negZero_iff] at hy; exact absurd hy hq.ne'
  | _ => simp at hy

theorem mul_fin_num (hS : Lawful S) {x y : Fl} (hx : x.isFinite = true) (hy : y.isFinite = true) : S.mul x y ≠ .nan := by
  obtain ⟨a, ha⟩ := fin_of_finite hx
  obtain ⟨b, hb⟩ := fin_of_finite hy
  rcases FloatSem.mul_is (S := S) ha hb with ⟨-, h⟩ | ⟨-, h⟩
  · rw [h]; exact hS.r64.not_nan _
  · exact h.ne_nan

theorem mul_pos_num (hS : Lawful S) {x y : Fl} {q : ℚ} (hx : x ≠ .nan) (hy : y.Is q) (hq : 0 < q) : S.mul x y ≠ .nan := by
  rcases three_cases x with h | ⟨b, rfl⟩ | h
  · exact absurd h hx
  · rw [mul_inf_by_pos hy hq]; simp
  · exact mul_fin_num hS h (isFinite_of_is hy)

theorem div_inf_by_pos {b : Bool} {y : Fl} {q : ℚ} (hy : y.Is q) (hq : 0 < q) : S.div (.inf b) y = .inf b := by
  cases y with
  | fin r =>
    rw [Fl.is_fin_iff] at hy; subst hy
    simp [FloatSem.div, Fl.sgn, not_lt.2 hq.le]
  | negZero => rw [Fl.is_negZero_iff] at hy; exact absurd hy hq.ne'
  | _ => simp at hy

theorem div_pos_num (hS : Lawful S) {x y : Fl} {q : ℚ} (hx : x ≠ .nan) (hy : y.Is q) (hq : 0 < q) : S.div x y ≠ .nan := by
  rcases three_cases x with h | ⟨b, rfl⟩ | h
  · exact absurd h hx
  · rw [div_inf_by_pos hy hq]; simp
  · obtain ⟨a, ha⟩ := fin_of_finite h
    rcases FloatSem.div_is (S := S) ha hy hq.ne' with ⟨-, h⟩ | ⟨-, h⟩
    · rw [h]; exact hS.r64.not_nan _
    · exact h.ne_nan

theorem sum_num (hS : Lawful S) {l : List Fl} (h : ∀ x ∈ l, x.isFinite = true) {a : Fl} (ha : a ≠ .nan) :
    l.foldl S.add a ≠ .nan := by
  induction l generalizing a with
  | nil => exact ha
  | cons x l ih => exact ih (fun y hy => h y (List.mem_cons_of_mem _ hy)) (add_fin_right_num hS ha (h x List.mem_cons_self))

/-- A product with a factor between 0 and 1 is finite. -/
theorem mul_unit_finite (hS : Lawful S) {x y : Fl} {q : ℚ} (hx : x.isFinite = true) (hr : S.Rep x) (hy : y.Is q)
    (h0 : 0 ≤ q) (h1 : q ≤ 1) : (S.mul x y).isFinite = true := by
  obtain ⟨a, ha⟩ := fin_of_finite hx
  rcases FloatSem.mul_is (S := S) ha hy with ⟨hne, h⟩ | ⟨-, h⟩
  · have hxa : x = .fin a := by
      rcases ha with rfl | ⟨-, rfl⟩
      · rfl
      · simp at hne
    have hra : S.rnd a = .fin a := hr a hxa
    have ha0 : a ≠ 0 := left_ne_zero_of_mul hne
    have hneg : S.rnd (-a) = .fin (-a) := by
      rw [hS.r64.odd a ha0, hra]; simp [Fl.neg, ha0]
    rw [h]
    have hb : -|a| ≤ a * q ∧ a * q ≤ |a| := by
      have : |a * q| ≤ |a| := by
        rw [abs_mul, abs_of_nonneg h0]; exact mul_le_of_le_one_right (abs_nonneg a) h1
      exact abs_le.1 this
    have habs : S.rnd |a| = .fin |a| ∧ S.rnd (-|a|) = .fin (-|a|) := by
      rcases abs_choice a with e | e <;> rw [e]
      · exact ⟨hra, hneg⟩
      · rw [neg_neg]; exact ⟨hneg, hra⟩
    have k1 := hS.r64.mono _ _ hb.1
    have k2 := hS.r64.mono _ _ hb.2
    rw [habs.2] at k1
    rw [habs.1] at k2
    have kn := hS.r64.not_nan (a * q)
    generalize S.rnd (a * q) = z at *
    cases z with
    | nan => exact absurd rfl kn
    | inf b => cases b <;> simp [Fl.key] at k1 k2
    | _ => rfl
  · exact isFinite_of_is h

end

/-- **C199.** No moving average of finite closes is NaN, in any lawful float arithmetic. -/
theorem C199_moving_average {S : FloatSem} (hS : Lawful S) (cs : List Candle) (hc : FiniteCloses cs) (n : Nat)
    (h1 : 1 ≤ n) (h2 : n ≤ cs.length) (h3 : n ≤ 2 ^ 53) :
    ∃ out, movingAverage S (some cs) n = .ok out ∧ .nan ∉ out := by
  obtain ⟨out, e, -, hv⟩ := C65_moving_average S cs n h1 h2
  refine ⟨out, e, fun hn => ?_⟩
  obtain ⟨k, hk, hkn⟩ := List.getElem_of_mem hn
  have := hv k hk
  rw [List.getElem?_eq_getElem hk, hkn, Option.some.injEq] at this
  obtain ⟨hi, hp⟩ := ofInt_pos hS h1 h3
  refine div_pos_num hS (sum_num hS ?_ ?_) hi hp this.symm
  · intro x hx
    obtain ⟨c, hcm, rfl⟩ := List.mem_map.1 hx
    exact hc c (List.mem_of_mem_drop (List.mem_of_mem_take hcm))
  · rw [const_zero hS]; simp

theorem stays_of_step {out : List Fl} (h : ∀ k b, out[k]? = some (.inf b) → k + 1 < out.length → out[k + 1]? = some (.inf b)) :
    InfinityStays out := by
  intro k b hk j hj hl
  induction j, hj using Nat.le_induction with
  | base => exact hk
  | succ j hj ih => exact h j b (ih (by omega)) hl

theorem num_of_step {out : List Fl} (h0 : out[0]? ≠ some .nan)
    (h : ∀ k x, out[k]? = some x → x ≠ .nan → k + 1 < out.length → out[k + 1]? ≠ some .nan) : .nan ∉ out := by
  have key : ∀ k, k < out.length → out[k]? ≠ some .nan := by
    intro k
    induction k with
    | zero => exact fun _ => h0
    | succ k ih =>
      intro hk
      have hk' : k < out.length := by omega
      refine h k out[k] (List.getElem?_eq_getElem hk') ?_ hk
      intro e
      exact ih hk' (by rw [List.getElem?_eq_getElem hk', e])
  intro hn
  obtain ⟨k, hk, hkn⟩ := List.getElem_of_mem hn
  exact key k hk (by rw [List.getElem?_eq_getElem hk, hkn])

/-- The weight of the exponential average is a rounded quotient. -/
theorem emaWeight_rnd {S : FloatSem} (hS : Lawful S) {n : Nat} (h1 : 1 ≤ n) (h3 : n < 2 ^ 53) :
    emaWeight S n = S.rnd (2 / ((n : ℚ) + 1)) := by
  obtain ⟨hi, hp⟩ := ofInt_pos hS h1 h3.le
  have c1 : S.const 1 = .fin 1 := rnd_one hS
  have c2 : S.const 2 = .fin 2 := by
    have : S.rnd ((2 : ℤ) : ℚ) = .fin ((2 : ℤ) : ℚ) := hS.r64.int 2 (by norm_num)
    unfold FloatSem.const
    simpa using this
  have hadd : (S.add (S.ofInt n) (S.const 1)).Is ((n : ℚ) + 1) := by
    rcases FloatSem.add_is (S := S) hi (Fl.is_fin 1) with e | ⟨_, _, h0⟩
    · have : S.rnd (((n + 1 : ℕ) : ℤ) : ℚ) = .fin (((n + 1 : ℕ) : ℤ) : ℚ) := hS.r64.int _ (by
        rw [abs_of_nonneg (by omega)]; exact_mod_cast h3)
      rw [c1, e]
      push_cast at this
      rw [this]
      exact Fl.is_fin _
    · norm_num at h0
  unfold emaWeight
  rw [c2]
  rcases FloatSem.div_is (S := S) (Fl.is_fin 2) hadd (by linarith) with ⟨_, e⟩ | ⟨h0, _⟩
  · exact e
  · norm_num at h0

theorem is_of_between {x : Fl} {a b : ℚ} (hn : x ≠ .nan) (h1 : Ext.ofRat a ≤ x.key) (h2 : x.key ≤ Ext.ofRat b) :
    ∃ q, x.Is q ∧ a ≤ q ∧ q ≤ b := by
  rcases fl_cases hn with rfl | rfl | ⟨q, hq⟩
  · simp [Fl.key] at h1
  · simp [Fl.key] at h2
  · rw [hq.key] at h1 h2
    exact ⟨q, hq, by simpa using h1, by simpa using h2⟩

/-- The two weights of the exponential average in float64, for periods from 2 on. -/
theorem weights_pos {n : Nat} (h1 : 2 ≤ n) (h3 : n < 2 ^ 53) :
    ∃ p q : ℚ, (emaWeight ieee n).Is p ∧ 0 ≤ p ∧ p ≤ 1 ∧ (ieee.sub (ieee.const 1) (emaWeight ieee n)).Is q ∧ 0 < q := by
  have hS := ieee_lawful
  have hn : (2 : ℚ) ≤ n := by exact_mod_cast h1
  have e23 : ieee.rnd (2 / 3) = .fin (6004799503160661 / 9007199254740992) := by decide +kernel
  have e13 : ieee.rnd (1 / 4) = .fin (1 / 4) := by decide +kernel
  have k1 := hS.r64.mono 0 (2 / ((n : ℚ) + 1)) (by positivity)
  have k2 := hS.r64.mono (2 / ((n : ℚ) + 1)) (2 / 3) (by
    rw [div_le_div_iff₀ (by linarith) (by norm_num)]; linarith)
  rw [e23] at k2
  rw [rnd_zero hS] at k1
  rw [← emaWeight_rnd hS (by omega) h3] at k1 k2
  have kn : emaWeight ieee n ≠ .nan := by rw [emaWeight_rnd hS (by omega) h3]; exact hS.r64.not_nan _
  obtain ⟨p, hp, hp0, hp1⟩ := is_of_between kn k1 k2
  obtain ⟨sn, sk⟩ := sub_key hS (Fl.is_fin 1) hp
  have m1 := hS.r64.mono (1 / 4) (1 - p) (by linarith)
  have m2 := hS.r64.mono (1 - p) 1 (by linarith)
  rw [e13, ← sk] at m1
  rw [rnd_one hS, ← sk] at m2
  obtain ⟨q, hq, hq0, -⟩ := is_of_between sn m1 m2
  exact ⟨p, q, hp, hp0, by linarith, by rw [show ieee.const 1 = .fin 1 from rnd_one hS]; exact hq, by linarith⟩

/-- **C199.** No exponential average of finite closes is NaN in float64. Once a value is infinite, so are all
later ones, whatever the closes. -/
theorem C199_ema (cs : List Candle) (hc : FiniteCloses cs) (hr : FloatCloses cs) (n : Nat)
    (h1 : 2 ≤ n) (h2 : n ≤ cs.length) (h3 : n < 2 ^ 53) :
    ∃ out, exponentialMovingAverage ieee (some cs) n = .ok out ∧ .nan ∉ out ∧ InfinityStays out := by
  have hS := ieee_lawful
  obtain ⟨out, e, hl, hf, hv⟩ := C70_ema_float ieee cs n (by omega) h2
  obtain ⟨p, q, hp, hp0, hp1, hq, hq0⟩ := weights_pos h1 h3
  refine ⟨out, e, num_of_step ?_ ?_, stays_of_step ?_⟩
  · intro h
    obtain ⟨hi, hpos⟩ := ofInt_pos hS (n := n) (by omega) h3.le
    refine div_pos_num hS (sum_num hS ?_ ?_) hi hpos (hf _ h).symm
    · intro x hx
      obtain ⟨c, hcm, rfl⟩ := List.mem_map.1 hx
      exact hc c (List.mem_of_mem_take hcm)
    · rw [const_zero hS]; simp
  · intro k x hk hx hlt
    have hk1 : n + k + 1 < cs.length := by omega
    have hm := List.getElem_mem hk1
    rw [hv k x _ hk (List.getElem?_eq_getElem hk1)]
    intro h
    exact add_fin_right_num' hS (mul_unit_finite hS (hc _ hm) (hr _ hm) hp hp0 hp1) (mul_pos_num hS hx hq hq0) (Option.some.inj h)
  · intro k b hk hlt
    have hk1 : n + k + 1 < cs.length := by omega
    have hm := List.getElem_mem hk1
    rw [hv k _ _ hk (List.getElem?_eq_getElem hk1)]
    have e1 := mul_inf_by_pos (S := ieee) (b := b) hq hq0
    have e2 := mul_unit_finite hS (hc _ hm) (hr _ hm) hp hp0 hp1
    show some (ieee.add (ieee.mul _ (emaWeight ieee n)) (ieee.mul _ (ieee.sub _ (emaWeight ieee n)))) = _
    rw [e1, add_finite_inf e2]

/-- The smoothed average, value by value. -/
theorem smma_values (S : FloatSem) (cs : List Candle) (n : Nat) (h1 : 1 ≤ n) (h2 : n ≤ cs.length) :
    ∃ out, smoothedMovingAverage S (some cs) n = .ok out ∧ out.length = cs.length - n + 1 ∧
      out[0]? = some (S.div (((cs.take n).map Candle.close).foldl S.add (.fin 0)) (S.ofInt n)) ∧
      (∀ x c, out[0]? = some x → cs[n]? = some c → out[1]? = some (smmaSecond S n x c.close)) ∧
      ∀ k x c, out[k + 1]? = some x → cs[n + k + 1]? = some c → out[k + 2]? = some (smmaNext S n x c.close) := by
  refine ⟨_, smma_ok S cs n h1 h2, ?_⟩
  cases hd : cs.drop n with
  | nil =>
    have hlen : cs.length - n = 0 := by simpa using congrArg List.length hd
    refine ⟨by simp [hlen], rfl, ?_, ?_⟩
    · intro x c _ hc
      have := (List.getElem?_eq_some_iff.1 hc).1
      omega
    · intro k x c _ hc
      have := (List.getElem?_eq_some_iff.1 hc).1
      omega
  | cons c0 rest =>
    have hlen : cs.length - n = rest.length + 1 := by simpa using congrArg List.length hd
    have hg : ∀ j, cs[n + j]? = (c0 :: rest)[j]? := fun j => by rw [← hd, List.getElem?_drop]
    refine ⟨by simp [length_scan, closes, hlen], rfl, ?_, ?_⟩
    · intro x c hx hc
      have hg0 := hg 0
      rw [Nat.add_zero, hc] at hg0
      simp only [List.getElem?_cons_zero, Option.some.injEq] at hg0 hx
      subst hg0 hx
      simp only [List.getElem?_cons_succ]
      exact scan_zero _ _ _
    · intro k x c hx hc
      simp only [List.getElem?_cons_succ] at hx ⊢
      have hg1 := hg (k + 1)
      rw [← Nat.add_assoc, hc, List.getElem?_cons_succ] at hg1
      exact scan_succ _ _ _ k x _ hx (by simp [closes, ← hg1])

/-- **C199.** The smoothed average of finite closes, for periods from 2 on: the first two values are not NaN. A
later value is NaN exactly when the one before it is NaN or infinite. If the first value is infinite so is the
second. In any lawful float arithmetic. -/
theorem C199_smma {S : FloatSem} (hS : Lawful S) (cs : List Candle) (hc : FiniteCloses cs) (n : Nat)
    (h1 : 2 ≤ n) (h2 : n ≤ cs.length) (h3 : n ≤ 2 ^ 53) :
    ∃ out, smoothedMovingAverage S (some cs) n = .ok out ∧ out[0]? ≠ some .nan ∧ out[1]? ≠ some .nan ∧
      (∀ b, out[0]? = some (.inf b) → 1 < out.length → out[1]? = some (.inf b)) ∧
      ∀ k, k + 2 < out.length →
        (out[k + 2]? = some .nan ↔ out[k + 1]? = some .nan ∨ ∃ b, out[k + 1]? = some (.inf b)) := by
  obtain ⟨out, e, hl, hv0, hv1, hv⟩ := smma_values S cs n (by omega) h2
  obtain ⟨hi, hpos⟩ := ofInt_pos hS (n := n) (by omega) h3
  have hn2 : (2 : ℚ) ≤ n := by exact_mod_cast h1
  have hpred : (S.sub (S.ofInt n) (S.const 1)).Is ((n : ℚ) - 1) := by
    unfold FloatSem.const FloatSem.sub
    rw [rnd_one hS]
    rcases FloatSem.add_is (S := S) hi (Fl.is_fin 1).neg with h | ⟨-, h, -⟩
    · have : S.rnd (((n : ℤ) - 1 : ℤ) : ℚ) = .fin (((n : ℤ) - 1 : ℤ) : ℚ) := hS.r64.int _ (by
        rw [abs_of_nonneg (by omega)]; have : (n : ℤ) ≤ 2 ^ 53 := by exact_mod_cast h3
        omega)
      rw [h]
      push_cast at this
      rw [← sub_eq_add_neg, this]
      exact Fl.is_fin _
    · linarith
  have hsum : S.div (((cs.take n).map Candle.close).foldl S.add (.fin 0)) (S.ofInt n) ≠ .nan := by
    refine div_pos_num hS (sum_num hS ?_ (by simp)) hi hpos
    intro x hx
    obtain ⟨c, hcm, rfl⟩ := List.mem_map.1 hx
    exact hc c (List.mem_of_mem_take hcm)
  refine ⟨out, e, ?_, ?_, ?_, ?_⟩
  · rw [hv0]; intro h; exact hsum (Option.some.inj h)
  · intro h
    have hlt : 1 < out.length := (List.getElem?_eq_some_iff.1 h).1
    have hk : n < cs.length := by omega
    rw [hv1 _ _ hv0 (List.getElem?_eq_getElem hk)] at h
    refine div_pos_num hS (add_fin_right_num hS (mul_pos_num hS hsum hpred (by linarith)) (hc _ (List.getElem_mem hk))) hi hpos
      (Option.some.inj h)
  · intro b h hlt
    have hk : n < cs.length := by omega
    rw [hv1 _ _ h (List.getElem?_eq_getElem hk)]
    unfold smmaSecond
    rw [mul_inf_by_pos hpred (by linarith), add_inf_finite (hc _ (List.getElem_mem hk)), div_inf_by_pos hi hpos]
  · intro k hlt
    have hk : n + k + 1 < cs.length := by omega
    have hk' : k + 1 < out.length := by omega
    have hx := List.getElem?_eq_getElem hk'
    rw [hv k _ _ hx (List.getElem?_eq_getElem hk), hx]
    have hcf := hc _ (List.getElem_mem hk)
    generalize out[k + 1] = x
    unfold smmaNext
    rcases three_cases x with rfl | ⟨b, rfl⟩ | h
    · rw [nan_mul, nan_sub, nan_add, nan_div]; simp
    · rw [mul_inf_by_pos hi hpos]
      have : S.sub (.inf b) (.inf b) = .nan := by cases b <;> rfl
      rw [this, nan_add, nan_div]; simp
    · constructor
      · intro hnan
        exact absurd (Option.some.inj hnan)
          (div_pos_num hS (add_fin_right_num hS (sub_fin_num hS (mul_fin_num hS h (isFinite_of_is hi)) h) hcf) hi hpos)
      · rintro (h' | ⟨b, h'⟩) <;> · rw [Option.some.inj h'] at h; cases h

/-- Addition of zero. -/
theorem add_zero_right {S : FloatSem} (hS : Lawful S) {x z : Fl} {a : ℚ} (hx : x.Is a) (hr : S.Rep x) (hz : z.Is 0) :
    (S.add x z).Is a ∧ S.Rep (S.add x z) := by
  have hra : S.rnd a = .fin a := by
    rcases hx with rfl | ⟨-, rfl⟩
    · exact hr a rfl
    · exact rnd_zero hS
  rcases FloatSem.add_is (S := S) hx hz with h | ⟨h, rfl, -⟩
  · rw [h, add_zero, hra]
    exact ⟨Fl.is_fin a, fun q hq => by cases hq; exact hra⟩
  · rw [h]; exact ⟨Fl.is_negZero, fun q hq => by cases hq⟩

theorem zero_add_left {S : FloatSem} (hS : Lawful S) {x z : Fl} {a : ℚ} (hx : x.Is a) (hr : S.Rep x) (hz : z.Is 0) :
    (S.add z x).Is a ∧ S.Rep (S.add z x) := by
  have hra : S.rnd a = .fin a := by
    rcases hx with rfl | ⟨-, rfl⟩
    · exact hr a rfl
    · exact rnd_zero hS
  rcases FloatSem.add_is (S := S) hz hx with h | ⟨h, -, rfl⟩
  · rw [h, zero_add, hra]
    exact ⟨Fl.is_fin a, fun q hq => by cases hq; exact hra⟩
  · rw [h]; exact ⟨Fl.is_negZero, fun q hq => by cases hq⟩

theorem mul_one_right {S : FloatSem} (hS : Lawful S) {x y : Fl} {a : ℚ} (hx : x.Is a) (hr : S.Rep x) (hy : y.Is 1) :
    (S.mul x y).Is a ∧ S.Rep (S.mul x y) := by
  rcases FloatSem.mul_is (S := S) hx hy with ⟨h0, h⟩ | ⟨h0, h⟩
  · rw [mul_one] at h0 h
    have hra : S.rnd a = .fin a := by
      rcases hx with rfl | ⟨-, rfl⟩
      · exact hr a rfl
      · exact absurd rfl h0
    rw [h, hra]
    exact ⟨Fl.is_fin a, fun q hq => by cases hq; exact hra⟩
  · rw [mul_one] at h0; subst h0
    refine ⟨h, fun q hq => ?_⟩
    rw [hq, Fl.is_fin_iff] at h
    rw [h]; exact rnd_zero hS

theorem div_one_right {S : FloatSem} (hS : Lawful S) {x y : Fl} {a : ℚ} (hx : x.Is a) (hr : S.Rep x) (hy : y.Is 1) :
    (S.div x y).Is a ∧ S.Rep (S.div x y) := by
  rcases FloatSem.div_is (S := S) hx hy one_ne_zero with ⟨h0, h⟩ | ⟨rfl, h⟩
  · rw [div_one] at h
    have hra : S.rnd a = .fin a := by
      rcases hx with rfl | ⟨-, rfl⟩
      · exact hr a rfl
      · exact absurd rfl h0
    rw [h, hra]
    exact ⟨Fl.is_fin a, fun q hq => by cases hq; exact hra⟩
  · refine ⟨h, fun q hq => ?_⟩
    rw [hq, Fl.is_fin_iff] at h
    rw [h]; exact rnd_zero hS

theorem mul_by_zero {S : FloatSem} {x y : Fl} {a : ℚ} (hx : x.Is a) (hy : y.Is 0) : (S.mul x y).Is 0 := by
  rcases FloatSem.mul_is (S := S) hx hy with ⟨h0, -⟩ | ⟨-, h⟩
  · exact absurd (mul_zero a) h0
  · exact h

/-- **C199.** With period 1 every average is the last close itself, in any lawful float arithmetic: no overflow, no
rounding. (The exponential average begins with the first candle and leaves out the second.) -/
theorem C199_period_one {S : FloatSem} (hS : Lawful S) {cs : List Candle} {xs : List ℚ} (hx : Closes cs xs)
    (hr : ∀ c ∈ cs, S.Rep c.close) (hne : cs ≠ []) :
    (∃ out, movingAverage S (some cs) 1 = .ok out ∧ List.Forall₂ Fl.Is out xs) ∧
    (∃ out, smoothedMovingAverage S (some cs) 1 = .ok out ∧ List.Forall₂ Fl.Is out xs) ∧
    (∃ out, exponentialMovingAverage S (some cs) 1 = .ok out ∧
      List.Forall₂ Fl.Is out (match xs with | x :: _ :: rest => x :: rest | _ => [])) := by
  have hi : (S.ofInt ((1 : Nat) : Int)).Is 1 := by
    simpa using (ofInt_pos hS (n := 1) (by omega) (by norm_num)).1
  have h0 : S.const 0 = .fin 0 := const_zero hS
  have hlen : 1 ≤ cs.length := List.length_pos_iff.2 hne
  have single : ∀ {x : Fl} {a : ℚ}, x.Is a → S.Rep x → (S.div (S.add (.fin 0) x) (S.ofInt ((1 : Nat) : Int))).Is a ∧
      S.Rep (S.div (S.add (.fin 0) x) (S.ofInt ((1 : Nat) : Int))) := by
    intro x a ha hra
    obtain ⟨s1, s2⟩ := zero_add_left hS ha hra (Fl.is_fin 0)
    exact div_one_right hS s1 s2 hi
  refine ⟨?_, ?_, ?_⟩
  · obtain ⟨out, e, hl, hv⟩ := C65_moving_average S cs 1 (by omega) hlen
    refine ⟨out, by simpa using e, ?_⟩
    have hxl : cs.length = xs.length := hx.length_eq
    rw [List.forall₂_iff_get]
    refine ⟨by omega, ?_⟩
    intro i hi1 hi2
    have hic : i < cs.length := by omega
    have := hv i hi1
    rw [List.getElem?_eq_getElem hi1, Option.some.injEq, List.drop_eq_getElem_cons hic] at this
    simp only [List.take_succ_cons, List.take_zero, List.map_cons, List.map_nil, List.foldl_cons, List.foldl_nil,
      h0] at this
    rw [List.get_eq_getElem, this]
    exact (single ((List.forall₂_iff_get.1 hx).2 i hic hi2) (hr _ (List.getElem_mem hic))).1
  · have e := smma_ok S cs 1 (by omega) hlen
    refine ⟨_, by simpa using e, ?_⟩
    unfold Closes at hx
    cases hx with
    | nil => exact absurd rfl hne
    | @cons c x cs xs hc ht =>
      have hf : (smmaFirst S (c :: cs) 1).Is x ∧ S.Rep (smmaFirst S (c :: cs) 1) := by
        simp only [smmaFirst, closes, List.take_succ_cons, List.take_zero, List.map_cons, List.map_nil,
          List.foldl_cons, List.foldl_nil]
        exact single hc (hr c (by simp))
      refine .cons hf.1 ?_
      have hpred : (S.sub (S.ofInt ((1 : Nat) : Int)) (S.const 1)).Is 0 := by
        unfold FloatSem.const FloatSem.sub
        rw [rnd_one hS]
        rcases FloatSem.add_is (S := S) hi (Fl.is_fin 1).neg with h | ⟨-, h, -⟩
        · rw [h, add_neg_cancel, rnd_zero hS]; exact Fl.is_fin 0
        · norm_num at h
      have hr' : ∀ d ∈ cs, S.Rep d.close := fun d hd => hr d (List.mem_cons_of_mem _ hd)
      clear e hne hlen hr
      cases ht with
      | nil => exact .nil
      | @cons d y ds ys hd ht =>
        have hsec : (smmaSecond S ((1 : Nat) : Int) (smmaFirst S (c :: d :: ds) 1) d.close).Is y ∧
            S.Rep (smmaSecond S ((1 : Nat) : Int) (smmaFirst S (c :: d :: ds) 1) d.close) := by
          unfold smmaSecond
          obtain ⟨s1, s2⟩ := zero_add_left hS hd (hr' d (by simp)) (mul_by_zero (S := S) hf.1 hpred)
          exact div_one_right hS s1 s2 hi
        clear hf
        show List.Forall₂ Fl.Is (scan (smmaNext S ((1 : Nat) : Int))
          (smmaSecond S ((1 : Nat) : Int) (smmaFirst S (c :: d :: ds) 1) d.close) (closes ds)) (y :: ys)
        generalize smmaSecond S ((1 : Nat) : Int) (smmaFirst S (c :: d :: ds) 1) d.close = a at hsec
        have hr'' : ∀ e ∈ ds, S.Rep e.close := fun e he => hr' e (List.mem_cons_of_mem _ he)
        clear hr' hd
        revert a y
        induction ht with
        | nil => intro y a ha; exact .cons ha.1 .nil
        | @cons f z fs zs hz _ ih =>
          intro y a ha
          refine .cons ha.1 (ih (fun g hg => hr'' g (List.mem_cons_of_mem _ hg)) _ ?_)
          unfold smmaNext
          obtain ⟨m1, m2⟩ := mul_one_right hS ha.1 ha.2 hi
          have hsub : (S.sub (S.mul a (S.ofInt ((1 : Nat) : Int))) a).Is 0 := by
            unfold FloatSem.sub
            rcases FloatSem.add_is (S := S) m1 ha.1.neg with h | ⟨h, -, -⟩
            · rw [h, add_neg_cancel, rnd_zero hS]; exact Fl.is_fin 0
            · rw [h]; exact Fl.is_negZero
          obtain ⟨s1, s2⟩ := zero_add_left hS hz (hr'' f (by simp)) hsub
          exact div_one_right hS s1 s2 hi
  · have e := ema_ok S cs 1 (by omega) hlen
    refine ⟨_, by simpa using e, ?_⟩
    have hw : (emaWeight S ((1 : Nat) : Int)).Is 1 := by
      rw [emaWeight_rnd hS (by omega) (by norm_num)]
      norm_num
      rw [rnd_one hS]; exact Fl.is_fin 1
    have hw0 : (S.sub (S.const 1) (emaWeight S ((1 : Nat) : Int))).Is 0 := by
      unfold FloatSem.const FloatSem.sub
      rw [rnd_one hS]
      rcases FloatSem.add_is (S := S) (Fl.is_fin 1) hw.neg with h | ⟨-, h, -⟩
      · rw [h, add_neg_cancel, rnd_zero hS]; exact Fl.is_fin 0
      · norm_num at h
    unfold Closes at hx
    cases hx with
    | nil => exact absurd rfl hne
    | @cons c x cs xs hc ht =>
      cases ht with
      | nil => exact .nil
      | @cons d y ds ys hd ht =>
        simp only [List.take_succ_cons, List.take_zero]
        have hf : (average S [c]).Is x ∧ S.Rep (average S [c]) := by
          simp only [average_eq, closes, List.map_cons, List.map_nil, List.foldl_cons, List.foldl_nil, h0,
            List.length_cons, List.length_nil]
          exact single hc (hr c (by simp))
        have hr'' : ∀ e ∈ ds, S.Rep e.close := fun e he => hr e (by simp [he])
        clear e hne hlen hr hc
        generalize average S [c] = a at hf
        revert a x
        induction ht with
        | nil => intro x a ha; exact .cons ha.1 .nil
        | @cons f z fs zs hz _ ih =>
          intro x a ha
          refine .cons ha.1 (ih (fun g hg => hr'' g (List.mem_cons_of_mem _ hg)) _ ?_)
          unfold emaNext
          obtain ⟨m1, m2⟩ := mul_one_right hS hz (hr'' f (by simp)) hw
          exact add_zero_right hS m1 m2 (mul_by_zero (S := S) ha.1 hw0)

/-- **C199.** The volatility of candles with `0 ≤ low ≤ high`, all finite, is never NaN for `0 ≤ beta ≤ 1`; once
infinite it stays so when candles are added. In any lawful float arithmetic. -/
theorem C199_volatility {S : FloatSem} (hS : Lawful S) {beta : Fl} {b : ℚ} (hb : beta.Is b) (hb0 : 0 ≤ b) (hb1 : b ≤ 1)
    (cs : List Candle) (hc : ∀ c ∈ cs, c.high.isFinite = true ∧ S.Rep c.high ∧ Fl.le (.fin 0) c.low = true ∧
      Fl.le c.low c.high = true) :
    exponentialWeightedVolatility S cs beta ≠ .nan ∧
    ∀ ds es, cs = ds ++ es → exponentialWeightedVolatility S ds beta = .inf false →
      exponentialWeightedVolatility S cs beta = .inf false := by
  obtain ⟨sn, sk⟩ := sub_key hS (Fl.is_fin 1) hb
  have m1 := hS.r64.mono 0 (1 - b) (by linarith)
  have m2 := hS.r64.mono (1 - b) 1 (by linarith)
  rw [rnd_zero hS, ← sk] at m1
  rw [rnd_one hS, ← sk] at m2
  obtain ⟨q, hq, hq0, hq1⟩ := is_of_between sn m1 m2
  -- what a candle adds is finite
  have term : ∀ c ∈ cs, (S.mul (S.sub (S.const 1) beta) (S.sub c.high c.low)).isFinite = true := by
    intro c hcm
    obtain ⟨f, r, l0, lh⟩ := hc c hcm
    obtain ⟨h, hh⟩ := fin_of_finite f
    obtain ⟨l, hl, hl0, hlh⟩ := le_nonneg_finite l0 lh hh
    obtain ⟨tn, tk⟩ := sub_key hS hh hl
    have hrh : S.rnd h = .fin h := by
      rcases hh with e | ⟨-, rfl⟩
      · exact r h e
      · exact rnd_zero hS
    have k1 := hS.r64.mono 0 (h - l) (by linarith)
    have k2 := hS.r64.mono (h - l) h (by linarith)
    rw [rnd_zero hS, ← tk] at k1
    rw [hrh, ← tk] at k2
    obtain ⟨d, hd, hd0, hd1⟩ := is_of_between tn k1 k2
    have hc1 : S.const 1 = .fin 1 := rnd_one hS
    rw [hc1]
    obtain ⟨un, uk⟩ := mul_key hS hq hd
    have k3 := hS.r64.mono 0 (q * d) (mul_nonneg hq0 hd0)
    have k4 := hS.r64.mono (q * d) h (by nlinarith)
    rw [rnd_zero hS, ← uk] at k3
    rw [hrh, ← uk] at k4
    obtain ⟨z, hz, -⟩ := is_of_between un k3 k4
    exact isFinite_of_is hz
  -- from a number a number
  have num : ∀ (l : List Candle) (v : Fl), (∀ c ∈ l, c ∈ cs) → v ≠ .nan → (b = 0 → v.isFinite = true) →
      l.foldl (ewvStep S beta) v ≠ .nan ∧ (v = .inf false → l.foldl (ewvStep S beta) v = .inf false) ∧
        (b = 0 → (l.foldl (ewvStep S beta) v).isFinite = true) := by
    intro l
    induction l with
    | nil => intro v _ hv hz; exact ⟨hv, id, hz⟩
    | cons c l ih =>
      intro v hm hv hz
      have ht := term c (hm c (by simp))
      simp only [List.foldl_cons]
      by_cases h0 : b = 0
      · have hvf := hz h0
        obtain ⟨a, ha⟩ := fin_of_finite hvf
        subst h0
        have hzero : (S.mul beta v).Is 0 := by
          rcases FloatSem.mul_is (S := S) hb ha with ⟨hne, -⟩ | ⟨-, h⟩
          · exact absurd (zero_mul a) hne
          · exact h
        obtain ⟨t, htq⟩ := fin_of_finite ht
        have hrep : S.Rep (S.mul (S.sub (S.const 1) beta) (S.sub c.high c.low)) := by
          intro y hy
          have hc1 : S.const 1 = .fin 1 := rnd_one hS
          obtain ⟨f, r, l0, lh⟩ := hc c (hm c (by simp))
          obtain ⟨h, hh⟩ := fin_of_finite f
          obtain ⟨l, hl, hl0, hlh⟩ := le_nonneg_finite l0 lh hh
          obtain ⟨tn, tk⟩ := sub_key hS hh hl
          rw [hc1] at hy
          rcases fl_cases tn with e | e | ⟨d, hd⟩
          · rw [e] at tk
            have k1 := hS.r64.mono 0 (h - l) (by linarith)
            rw [rnd_zero hS, ← tk] at k1
            simp [Fl.key] at k1
          · rw [hc1, e] at ht
            cases hx : S.sub (.fin 1) beta with
            | fin w => rw [hx] at ht; by_cases w0 : w = 0 <;> simp [FloatSem.mul, Fl.isZero, w0, Fl.isFinite] at ht
            | negZero => rw [hx] at ht; simp [FloatSem.mul, Fl.isZero, Fl.isFinite] at ht
            | nan => rw [hx] at ht; simp [FloatSem.mul, Fl.isFinite] at ht
            | inf w => rw [hx] at ht; simp [FloatSem.mul, Fl.isFinite] at ht
          · rcases FloatSem.mul_is (S := S) hq hd with ⟨-, e⟩ | ⟨-, e⟩
            · rw [e] at hy; exact hS.r64.idem _ _ hy
            · rw [hy, Fl.is_fin_iff] at e; rw [e]; exact rnd_zero hS
        have hnext := (zero_add_left hS htq hrep hzero).1
        have hstep : ewvStep S beta v c = S.add (S.mul beta v) (S.mul (S.sub (S.const 1) beta) (S.sub c.high c.low)) := rfl
        obtain ⟨i1, -, i3⟩ := ih (ewvStep S beta v c) (fun d hd => hm d (by simp [hd])) (by rw [hstep]; exact hnext.ne_nan)
          (fun _ => by rw [hstep]; exact isFinite_of_is hnext)
        refine ⟨i1, ?_, i3⟩
        intro hinf; rw [hinf] at hvf; cases hvf
      · have hbp : 0 < b := lt_of_le_of_ne hb0 (Ne.symm h0)
        have hmul : S.mul beta v ≠ .nan ∧ (v = .inf false → S.mul beta v = .inf false) := by
          rcases three_cases v with h | ⟨s, rfl⟩ | h
          · exact absurd h hv
          · cases beta with
            | fin r =>
              rw [Fl.is_fin_iff] at hb; subst hb
              constructor
              · simp [FloatSem.mul, Fl.isZero, h0]
              · intro e; cases e; simp [FloatSem.mul, Fl.isZero, h0, Fl.sgn, not_lt.2 hb0]
            | negZero => rw [Fl.is_negZero_iff] at hb; exact absurd hb h0
            | nan => simp at hb
            | inf _ => simp at hb
          · exact ⟨mul_fin_num hS (isFinite_of_is hb) h, fun e => by rw [e] at h; cases h⟩
        obtain ⟨i1, i2, -⟩ := ih (ewvStep S beta v c) (fun d hd => hm d (by simp [hd])) (add_fin_right_num hS hmul.1 ht)
          (fun h => absurd h h0)
        refine ⟨i1, fun e => i2 ?_, fun h => absurd h h0⟩
        unfold ewvStep
        rw [hmul.2 e, add_inf_finite ht]
  refine ⟨(num cs _ (fun _ h => h) (by simp) (fun _ => rfl)).1, ?_⟩
  intro ds es hsplit hinf
  unfold exponentialWeightedVolatility at hinf ⊢
  rw [hsplit, List.foldl_append, hinf]
  by_cases h0 : b = 0
  · have := (num ds (.fin 0) (fun c h => by rw [hsplit]; simp [h]) (by simp) (fun _ => rfl)).2.2 h0
    rw [hinf] at this; cases this
  · exact (num es _ (fun c h => by rw [hsplit]; simp [h]) (by simp) (fun h => absurd h h0)).2.1 rfl

/-- Five closes of which two are too large to be added: the moving average recovers, the exponential average stays
infinite, the smoothed one is NaN from the third value on. -/
def bigCandles : List Candle :=
  [⟨0, .fin (pow2 1023), .fin (pow2 1023), .fin 1, .fin (pow2 1023), .fin 1⟩,
   ⟨60, .fin (pow2 1023), .fin (pow2 1023), .fin 1, .fin (pow2 1023), .fin 1⟩,
   ⟨120, .fin 1, .fin 2, .fin 1, .fin 1, .fin 1⟩, ⟨180, .fin 1, .fin 2, .fin 1, .fin 1, .fin 1⟩,
   ⟨240, .fin 1, .fin 2, .fin 1, .fin 1, .fin 1⟩]

example : FiniteCloses bigCandles ∧ FloatCloses bigCandles ∧
    movingAverage ieee (some bigCandles) 2 = .ok [.inf false, .fin (pow2 1022), .fin 1, .fin 1] ∧
    exponentialMovingAverage ieee (some bigCandles) 2 = .ok [.inf false, .inf false, .inf false] ∧
    smoothedMovingAverage ieee (some bigCandles) 2 = .ok [.inf false, .inf false, .nan, .nan] := by
  refine ⟨by unfold FiniteCloses; decide +kernel, ?_, by decide +kernel, by decide +kernel, by decide +kernel⟩
  intro c hc q hq
  simp only [bigCandles, List.mem_cons, List.not_mem_nil, or_false] at hc
  rcases hc with rfl | rfl | rfl | rfl | rfl <;> cases hq <;> decide +kernel

end Finmod
