import Verif.Model.MachineInt

/-!
# Machine integers in the indicators: C196
-/

namespace Finmod.Spec

/-- The values of an `int` of `w` bits. -/
def IsInt (w : Nat) (x : Int) : Prop := -2 ^ (w - 1) ≤ x ∧ x < 2 ^ (w - 1)

end Finmod.Spec

namespace Finmod
open Go Spec

variable {S : FloatSem} {w : Nat}

theorem two_pow_half (hw : 1 ≤ w) : (2 : Int) ^ w = 2 * 2 ^ (w - 1) := by
  obtain ⟨n, rfl⟩ := Nat.exists_eq_add_of_le' hw
  rw [Nat.add_sub_cancel, pow_succ]; ring

theorem wrapInt_of_isInt (hw : 1 ≤ w) {x : Int} (h : IsInt w x) : wrapInt w x = x := by
  have h2 := two_pow_half hw
  obtain ⟨h0, h1⟩ := h
  unfold wrapInt
  apply Int.bmod_eq_of_le <;> push_cast <;> omega

/-- One turn too far. -/
theorem wrapInt_over (hw : 1 ≤ w) {x : Int} (h0 : 2 ^ (w - 1) ≤ x) (h1 : x < 2 ^ w + 2 ^ (w - 1)) :
    wrapInt w x = x - 2 ^ w := by
  have h2 := two_pow_half hw
  have e : wrapInt w x = wrapInt w (x - 2 ^ w) := by
    unfold wrapInt
    have := Int.sub_bmod_right x (2 ^ w)
    push_cast at this
    exact this.symm
  rw [e]
  exact wrapInt_of_isInt hw ⟨by omega, by omega⟩

theorem wrapInt_under (hw : 1 ≤ w) {x : Int} (h0 : -2 ^ w - 2 ^ (w - 1) ≤ x) (h1 : x < -2 ^ (w - 1)) :
    wrapInt w x = x + 2 ^ w := by
  have h2 := two_pow_half hw
  have e : wrapInt w x = wrapInt w (x + 2 ^ w) := by
    unfold wrapInt
    have := Int.add_bmod_right x (2 ^ w)
    push_cast at this
    exact this.symm
  rw [e]
  exact wrapInt_of_isInt hw ⟨by omega, by omega⟩

theorem rsiLoopW_eq (hw : 3 ≤ w) (arr : List Candle) (len : Nat) (ha : (arr.length : Int) < 2 ^ (w - 1)) :
    ∀ fuel (i : Nat) (j : Int) acc, i ≤ arr.length → IsInt w j →
      rsiLoopW w S arr len fuel i j acc = rsiLoop S arr len fuel i j acc := by
  have h2 := two_pow_half (w := w) (by omega)
  have h4 : (4 : Int) ≤ 2 ^ (w - 1) := by
    calc (4 : Int) = 2 ^ 2 := by norm_num
      _ ≤ 2 ^ (w - 1) := pow_le_pow_right₀ (by norm_num) (by omega)
  intro fuel
  induction fuel with
  | zero => intros; rfl
  | succ fuel ih =>
    intro i j acc hi hj
    obtain ⟨hj0, hj1⟩ := hj
    rw [rsiLoopW, rsiLoop]
    by_cases hl : j = len
    · rw [if_pos hl, if_pos hl]
    rw [if_neg hl, if_neg hl]
    by_cases hg : (i : Int) ≤ j + 2 ∧ j + 2 ≤ arr.length
    · rw [if_pos hg]
      have e : wrapInt w (j + 2) = j + 2 := wrapInt_of_isInt (by omega) ⟨by omega, by omega⟩
      have e1 : wrapInt w (j + 1) = j + 1 := wrapInt_of_isInt (by omega) ⟨by omega, by omega⟩
      rw [e, e1, sliceInt, if_pos ⟨by omega, hg.1, hg.2⟩]
      dsimp only
      by_cases hi' : (i : Int) + 1 ≤ arr.length
      · have e2 : wrapInt w ((i : Int) + 1) = ((i + 1 : Nat) : Int) := by
          rw [wrapInt_of_isInt (by omega) ⟨by omega, by omega⟩]; push_cast; ring
        rw [e2, ih (i + 1) (j + 1) _ (by omega) ⟨by omega, by omega⟩]
        simp
      · -- `i` is the length: the next bounds are out of order or past the end, unless the loop ends
        have hil : (i : Int) = arr.length := by omega
        have hj2 : j + 2 = arr.length := by omega
        cases fuel with
        | zero => rfl
        | succ f =>
          rw [rsiLoopW, rsiLoop]
          by_cases hl' : j + 1 = len
          · rw [if_pos hl', if_pos hl']; simp
          · rw [if_neg hl', if_neg hl', if_neg (by omega)]
            have : sliceInt arr (wrapInt w ((i : Int) + 1)) (wrapInt w (j + 1 + 2)) = none := by
              rw [sliceInt, if_neg]
              rintro ⟨a0, a1, a2⟩
              by_cases hb : j + 3 < 2 ^ (w - 1)
              · have e3 : wrapInt w (j + 1 + 2) = j + 3 := by
                  rw [wrapInt_of_isInt (by omega) ⟨by omega, by omega⟩]; ring
                omega
              · have e3 : wrapInt w (j + 1 + 2) = j + 1 + 2 - 2 ^ w := wrapInt_over (by omega) (by omega) (by omega)
                omega
            rw [this]
    · rw [if_neg hg]
      have : sliceInt arr i (wrapInt w (j + 2)) = none := by
        rw [sliceInt, if_neg]
        rintro ⟨a0, a1, a2⟩
        by_cases hb : j + 2 < 2 ^ (w - 1)
        · rw [wrapInt_of_isInt (by omega) ⟨by omega, by omega⟩] at a1 a2
          exact hg ⟨a1, a2⟩
        · rw [wrapInt_over (by omega) (by omega) (by omega)] at a1
          omega
      rw [this]

/-- **C196** `RSI` with machine integers, any period at all. A slice with as many candles as the greatest `int`
would be an exception (with the least `int` as period `j == len(candles)` at once); a candle has 48 bytes. -/
theorem C196_rsi (hw : 3 ≤ w) (candles : Option (List Candle)) (spare : List Candle) {period : Int}
    (hp : IsInt w period) (hc : ∀ cs, candles = some cs → ((cs ++ spare).length : Int) + 1 < 2 ^ (w - 1)) :
    RSIW w S candles spare period = RSI S candles spare period := by
  cases candles with
  | none => rfl
  | some cs =>
    have hl := hc cs rfl
    have h2 := two_pow_half (w := w) (by omega)
    have h4 : (4 : Int) ≤ 2 ^ (w - 1) := by
      calc (4 : Int) = 2 ^ 2 := by norm_num
        _ ≤ 2 ^ (w - 1) := pow_le_pow_right₀ (by norm_num) (by omega)
    obtain ⟨hp0, hp1⟩ := hp
    rw [RSIW, RSI]
    split_ifs with h14
    · rfl
    by_cases hm : period = -2 ^ (w - 1)
    · -- `period - 1` wraps to the greatest `int`, and then `j + 2` to a negative bound
      have e : wrapInt w (period - 1) = period - 1 + 2 ^ w := wrapInt_under (by omega) (by omega) (by omega)
      have hlen : (cs.length : Int) ≤ (cs ++ spare).length := by simp
      have n1 : ¬ wrapInt w (period - 1) = (cs.length : Int) := by rw [e, h2, hm]; intro h; linarith
      rw [rsiLoopW, rsiLoop, if_neg n1, if_neg (by omega), if_neg (by omega)]
      have : sliceInt (cs ++ spare) 0 (wrapInt w (wrapInt w (period - 1) + 2)) = none := by
        rw [sliceInt, if_neg]
        rintro ⟨a0, a1, a2⟩
        rw [e, wrapInt_over (by omega) (by omega) (by omega)] at a1
        omega
      rw [this]
    · rw [wrapInt_of_isInt (by omega) ⟨by omega, by omega⟩]
      exact rsiLoopW_eq hw _ _ (by omega) _ 0 _ _ (by omega) ⟨by omega, by omega⟩

/-- **C196** The least and the greatest `int` as period: `RSI` panics. -/
theorem C196_rsi_extremes (hw : 3 ≤ w) {cs : List Candle} (spare : List Candle) {period : Int} (h14 : 14 ≤ cs.length)
    (hp : period = -2 ^ (w - 1) ∨ period = 2 ^ (w - 1) - 1) (hc : ((cs ++ spare).length : Int) + 2 < 2 ^ (w - 1)) :
    RSIW w S (some cs) spare period = .panic := by
  have h4 : (4 : Int) ≤ 2 ^ (w - 1) := by
    calc (4 : Int) = 2 ^ 2 := by norm_num
      _ ≤ 2 ^ (w - 1) := pow_le_pow_right₀ (by norm_num) (by omega)
  have hlen : (cs.length : Int) ≤ (cs ++ spare).length := by simp
  rw [C196_rsi hw _ _ (by rcases hp with h | h <;> exact ⟨by omega, by omega⟩) (by rintro _ ⟨⟩; omega), RSI,
    if_neg (by omega), rsiLoop, if_neg (by rcases hp with h | h <;> omega), if_neg (by rcases hp with h | h <;> omega)]

theorem maLoopW_eq (hw : 1 ≤ w) (cs : List Candle) (ha : (cs.length : Int) < 2 ^ (w - 1)) :
    ∀ fuel (i j : Nat), i ≤ j → j ≤ cs.length → maLoopW w S cs fuel i j = maLoop S cs fuel i j := by
  intro fuel
  induction fuel with
  | zero => intros; rfl
  | succ fuel ih =>
    intro i j hij hj
    rw [maLoopW, maLoop]
    by_cases hl : j = cs.length
    · rw [if_pos (by omega), if_pos hl]
    rw [if_neg (by omega), if_neg hl, if_neg (by omega)]
    have e : wrapInt w ((j : Int) + 1) = ((j + 1 : Nat) : Int) := by
      rw [wrapInt_of_isInt hw ⟨by omega, by omega⟩]; push_cast; ring
    have e2 : wrapInt w ((i : Int) + 1) = ((i + 1 : Nat) : Int) := by
      rw [wrapInt_of_isInt hw ⟨by omega, by omega⟩]; push_cast; ring
    rw [e, e2, sliceInt, if_pos ⟨by omega, by omega, by omega⟩, ih (i + 1) (j + 1) (by omega) (by omega)]
    simp only [Int.toNat_natCast]
    cases maLoop S cs fuel (i + 1) (j + 1) <;> rfl

/-- **C196** `MovingAverage` with machine integers. -/
theorem C196_movingAverage (hw : 1 ≤ w) (candles : Option (List Candle)) (period : Int)
    (hc : ∀ cs, candles = some cs → (cs.length : Int) < 2 ^ (w - 1)) :
    movingAverageW w S candles period = movingAverage S candles period := by
  cases candles with
  | none => rfl
  | some cs =>
    have hl := hc cs rfl
    rw [movingAverageW, movingAverage]
    split_ifs with h1 h2
    · rfl
    · rfl
    · have e : wrapInt w (period - 1) = ((period.toNat - 1 : Nat) : Int) := by
        rw [wrapInt_of_isInt hw ⟨by omega, by omega⟩]; omega
      rw [e]
      exact maLoopW_eq hw cs hl _ 0 _ (by omega) (by omega)

theorem smmaStepW_eq (hw : 1 ≤ w) (cs : List Candle) (ha : (cs.length : Int) < 2 ^ (w - 1)) {period : Int}
    (h1 : period ≤ cs.length) (h2 : 0 < period) (arr : Option (List Fl)) (ci : Candle × Nat) (hi : ci.2 < cs.length) :
    smmaStepW w S cs period (arr.elim (.err .einvalid []) .ok) ci
      = (smmaStep S cs period arr ci).elim (.err .einvalid []) .ok := by
  cases arr with
  | none => rfl
  | some arr =>
    have e1 : wrapInt w (period - 1) = period - 1 := wrapInt_of_isInt hw ⟨by omega, by omega⟩
    have e2 : wrapInt w ((ci.2 : Int) + 1) = ((ci.2 + 1 : Nat) : Int) := by
      rw [wrapInt_of_isInt hw ⟨by omega, by omega⟩]; push_cast; ring
    simp only [Option.elim, smmaStepW, smmaStep, e1, e2]
    by_cases hlt : (ci.2 : Int) < period - 1
    · rw [if_pos hlt, if_pos hlt]
    rw [if_neg hlt, if_neg hlt, sliceInt, if_pos ⟨by omega, by omega, by push_cast; omega⟩]
    simp only [Int.toNat_natCast, Int.toNat_zero, List.drop_zero]
    have hlen : (cs.take (ci.2 + 1)).length = ci.2 + 1 := by simp; omega
    have hn : ¬ (((cs.take (ci.2 + 1)).length : Int) < period) := by rw [hlen]; push_cast; omega
    have e3 : wrapInt w (((cs.take (ci.2 + 1)).length : Int) - period) = (cs.take (ci.2 + 1)).length - period :=
      wrapInt_of_isInt hw ⟨by rw [hlen]; push_cast; omega, by rw [hlen]; push_cast; omega⟩
    have e4 : (((cs.take (ci.2 + 1)).length : Int) - period).toNat = (cs.take (ci.2 + 1)).length - period.toNat := by
      omega
    rw [closingSumW, closingSum, if_neg hn, if_neg hn, e3, sliceInt, if_pos ⟨by rw [hlen]; push_cast; omega, by omega, le_refl _⟩]
    simp only [Int.toNat_natCast, List.take_length, e4]
    match arr with
    | [] => rfl
    | [_] => rfl
    | a :: b :: l =>
      simp only
      cases (a :: b :: l).getLast? <;> rfl

/-- **C196** `SmoothedMovingAverage` with machine integers. -/
theorem C196_smoothed (hw : 1 ≤ w) (candles : Option (List Candle)) (period : Int)
    (hc : ∀ cs, candles = some cs → (cs.length : Int) < 2 ^ (w - 1)) :
    smoothedMovingAverageW w S candles period = smoothedMovingAverage S candles period := by
  cases candles with
  | none => rfl
  | some cs =>
    have hl := hc cs rfl
    rw [smoothedMovingAverageW, smoothedMovingAverage]
    split_ifs with h1 h2
    · rfl
    · rfl
    have key : ∀ (l : List (Candle × Nat)), (∀ x ∈ l, x.2 < cs.length) → ∀ arr : Option (List Fl),
        l.foldl (smmaStepW w S cs period) (arr.elim (.err .einvalid []) .ok)
          = (l.foldl (smmaStep S cs period) arr).elim (.err .einvalid []) .ok := by
      intro l
      induction l with
      | nil => intros; rfl
      | cons x l ih =>
        intro hx arr
        rw [List.foldl_cons, List.foldl_cons,
          smmaStepW_eq hw cs hl (by omega) (by omega) arr x (hx x (by simp))]
        exact ih (fun y hy => hx y (by simp [hy])) _
    have := key cs.zipIdx (fun x hx => by
      have := List.snd_lt_of_mem_zipIdx (x := x) hx; simpa using this) (some [])
    simp only [Option.elim] at this
    rw [this]
    cases cs.zipIdx.foldl (smmaStep S cs period) (some []) <;> rfl

/-- The least `int` as period: `period - 1` wraps, and the call panics as without wrapping. -/
example : RSIW 64 .exact (some (List.replicate 14 ⟨0, .fin 1, .fin 1, .fin 1, .fin 1, .fin 1⟩)) [] (-2 ^ 63)
    = RSI .exact (some (List.replicate 14 ⟨0, .fin 1, .fin 1, .fin 1, .fin 1, .fin 1⟩)) [] (-2 ^ 63) :=
  C196_rsi (by norm_num) _ _ ⟨by norm_num, by norm_num⟩ (by rintro cs h; cases h; simp)

example : RSIW 32 .exact (some (List.replicate 20 ⟨0, .fin 1, .fin 1, .fin 1, .fin 1, .fin 1⟩)) [] (2 ^ 31 - 1) = .panic :=
  C196_rsi_extremes (by norm_num) _ (by simp) (.inr (by norm_num)) (by simp)

example : wrapInt 64 (-2 ^ 63 - 1) = 2 ^ 63 - 1 := by decide +kernel

end Finmod
