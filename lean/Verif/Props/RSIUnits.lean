import Verif.Props.RSIAccuracy
import Verif.Props.RSIMore

/-!
# RSI in other units, in float64: C261
-/

namespace Finmod
open Go Spec

theorem riseQ_affine_neg {a b : ℚ} (ha : a < 0) (xs : List ℚ) :
    riseQ (xs.map fun x => a * x + b) = -a * fallQ xs ∧ fallQ (xs.map fun x => a * x + b) = -a * riseQ xs := by
  have e : (xs.map fun x => a * x + b) = (xs.map fun x => 0 - x).map fun x => -a * x + b := by
    rw [List.map_map]
    apply List.map_congr_left
    intro x _
    simp only [Function.comp]
    ring
  rw [e, (riseQ_affine (b := b) (neg_pos.2 ha) _).1, (riseQ_affine (b := b) (neg_pos.2 ha) _).2, (riseQ_mirror 0 xs).1,
    (riseQ_mirror 0 xs).2]
  exact ⟨rfl, rfl⟩

theorem take_drop_map (f : ℚ → ℚ) (xs : List ℚ) (k n : Nat) :
    ((xs.map f).drop k).take n = ((xs.drop k).take n).map f := by rw [← List.map_drop, ← List.map_take]

/-- **C261** With closes `a*x + b`, `a` positive, the values of `RSI` are NaN in the same places and else differ by no more
than 0.00002. -/
theorem C261_units {cs spare cs' spare' : List Candle} {xs : List ℚ} {a b : ℚ} (ha : 0 < a)
    (h : Closes (cs ++ spare) xs) (h' : Closes (cs' ++ spare') (xs.map fun x => a * x + b)) (hl : cs'.length = cs.length)
    (hr : FloatCloses (cs ++ spare)) (hr' : FloatCloses (cs' ++ spare'))
    (hM : ∀ x ∈ xs, |x| ≤ 2 ^ (900 : ℤ) ∧ |a * x + b| ≤ 2 ^ (900 : ℤ)) (h14 : 14 ≤ cs.length) (hs : spare ≠ [])
    (n : Nat) (hn : n ≤ cs.length) (hn2 : n < 2 ^ 20) :
    ∃ out out', RSI ieee (some cs) spare n = .ok out ∧ RSI ieee (some cs') spare' n = .ok out' ∧
      out'.length = out.length ∧
      ∀ k, k < out.length → (out[k]? = some .nan ∧ out'[k]? = some .nan) ∨
        ∃ v v' r r', out[k]? = some v ∧ out'[k]? = some v' ∧ v.Is r ∧ v'.Is r' ∧ |r' - r| ≤ 2 / 100000 := by
  have hs' : spare' ≠ [] := by
    rintro rfl
    have e1 := h.length_eq
    have e2 := h'.length_eq
    have := List.length_pos_iff.2 hs
    simp at e1 e2
    omega
  obtain ⟨out, e, hlen, hv⟩ := C110_rsi_accurate h hr (fun x hx => (hM x hx).1) h14 hs n hn hn2
  obtain ⟨out', e', hlen', hv'⟩ := C110_rsi_accurate h' hr' (by
    intro x hx
    obtain ⟨y, hy, rfl⟩ := List.mem_map.1 hx
    exact (hM y hy).2) (hl ▸ h14) hs' n (hl ▸ hn) hn2
  have hll : out'.length = out.length := by rw [hlen, hlen', hl]
  refine ⟨out, out', e, e', hll, fun k hk => ?_⟩
  obtain ⟨z1, z2⟩ := hv k hk
  obtain ⟨z1', z2'⟩ := hv' k (hll ▸ hk)
  rw [take_drop_map, (riseQ_affine ha _).1, (riseQ_affine ha _).2] at z1' z2'
  generalize riseQ ((xs.drop k).take (n + 1)) = U at z1 z2 z1' z2'
  generalize fallQ ((xs.drop k).take (n + 1)) = D at z1 z2 z1' z2'
  by_cases hz : U + D = 0
  · exact .inl ⟨z1 hz, z1' (by rw [← mul_add, hz, mul_zero])⟩
  · obtain ⟨v, r, o1, i1, n1⟩ := z2 hz
    obtain ⟨v', r', o2, i2, n2⟩ := z2' (by rw [← mul_add]; exact mul_ne_zero ha.ne' hz)
    refine .inr ⟨v, v', r, r', o1, o2, i1, i2, ?_⟩
    have eq : 100 * (a * U) / (a * U + a * D) = 100 * U / (U + D) := by
      rw [← mul_add, mul_left_comm, mul_div_mul_left _ _ ha.ne']
    rw [eq] at n2
    rw [abs_le] at n1 n2 ⊢
    constructor <;> linarith [n1.1, n1.2, n2.1, n2.2]

/-- **C261** With `a` negative, the values add up to 100, no more than 0.00002 amiss. -/
theorem C261_upside_down {cs spare cs' spare' : List Candle} {xs : List ℚ} {a b : ℚ} (ha : a < 0)
    (h : Closes (cs ++ spare) xs) (h' : Closes (cs' ++ spare') (xs.map fun x => a * x + b)) (hl : cs'.length = cs.length)
    (hr : FloatCloses (cs ++ spare)) (hr' : FloatCloses (cs' ++ spare'))
    (hM : ∀ x ∈ xs, |x| ≤ 2 ^ (900 : ℤ) ∧ |a * x + b| ≤ 2 ^ (900 : ℤ)) (h14 : 14 ≤ cs.length) (hs : spare ≠ [])
    (n : Nat) (hn : n ≤ cs.length) (hn2 : n < 2 ^ 20) :
    ∃ out out', RSI ieee (some cs) spare n = .ok out ∧ RSI ieee (some cs') spare' n = .ok out' ∧
      out'.length = out.length ∧
      ∀ k, k < out.length → (out[k]? = some .nan ∧ out'[k]? = some .nan) ∨
        ∃ v v' r r', out[k]? = some v ∧ out'[k]? = some v' ∧ v.Is r ∧ v'.Is r' ∧ |r' + r - 100| ≤ 2 / 100000 := by
  have hs' : spare' ≠ [] := by
    rintro rfl
    have e1 := h.length_eq
    have e2 := h'.length_eq
    have := List.length_pos_iff.2 hs
    simp at e1 e2
    omega
  obtain ⟨out, e, hlen, hv⟩ := C110_rsi_accurate h hr (fun x hx => (hM x hx).1) h14 hs n hn hn2
  obtain ⟨out', e', hlen', hv'⟩ := C110_rsi_accurate h' hr' (by
    intro x hx
    obtain ⟨y, hy, rfl⟩ := List.mem_map.1 hx
    exact (hM y hy).2) (hl ▸ h14) hs' n (hl ▸ hn) hn2
  have hll : out'.length = out.length := by rw [hlen, hlen', hl]
  refine ⟨out, out', e, e', hll, fun k hk => ?_⟩
  obtain ⟨z1, z2⟩ := hv k hk
  obtain ⟨z1', z2'⟩ := hv' k (hll ▸ hk)
  rw [take_drop_map, (riseQ_affine_neg ha _).1, (riseQ_affine_neg ha _).2] at z1' z2'
  generalize riseQ ((xs.drop k).take (n + 1)) = U at z1 z2 z1' z2'
  generalize fallQ ((xs.drop k).take (n + 1)) = D at z1 z2 z1' z2'
  have hna : -a ≠ 0 := by linarith
  by_cases hz : U + D = 0
  · exact .inl ⟨z1 hz, z1' (by rw [← mul_add, add_comm, hz, mul_zero])⟩
  · obtain ⟨v, r, o1, i1, n1⟩ := z2 hz
    obtain ⟨v', r', o2, i2, n2⟩ := z2' (by rw [← mul_add, add_comm]; exact mul_ne_zero hna hz)
    refine .inr ⟨v, v', r, r', o1, o2, i1, i2, ?_⟩
    have eq : 100 * (-a * D) / (-a * D + -a * U) = 100 - 100 * U / (U + D) := by
      rw [← mul_add, mul_left_comm, mul_div_mul_left _ _ hna, add_comm D U]
      field_simp
      ring
    rw [eq] at n2
    rw [abs_le] at n1 n2 ⊢
    constructor <;> linarith [n1.1, n1.2, n2.1, n2.2]

/-- **Example for C261.** The closes of `rsiExample` and their values in units four times as small, less 3. -/
example : Closes (rsiExample ++ [rsiCandle 0]) [10, 11, 10, 12, 13, 12, 12, 14, 13, 15, 16, 15, 14, 15, 17, 0] ∧
    Closes ((rsiExample ++ [rsiCandle 0]).map fun c => { c with close := .fin (4 * c.close.toRat + -3) })
      ([10, 11, 10, 12, 13, 12, 12, 14, 13, 15, 16, 15, 14, 15, 17, 0].map fun x => 4 * x + -3) ∧
    FloatCloses ((rsiExample ++ [rsiCandle 0]).map fun c => { c with close := .fin (4 * c.close.toRat + -3) }) ∧
    ∀ x ∈ ([10, 11, 10, 12, 13, 12, 12, 14, 13, 15, 16, 15, 14, 15, 17, 0] : List ℚ),
      |x| ≤ 2 ^ (900 : ℤ) ∧ |4 * x + -3| ≤ 2 ^ (900 : ℤ) := by
  refine ⟨?_, ?_, ?_, ?_⟩
  · repeat first | exact .nil | refine .cons (Fl.is_fin _) ?_
  · repeat first | exact .nil | refine .cons (Fl.is_fin _) ?_
  · intro c hc q hq
    have : ∀ c ∈ (rsiExample ++ [rsiCandle 0]).map fun c => { c with close := .fin (4 * c.close.toRat + -3) },
        ieee.rnd c.close.toRat = .fin c.close.toRat := by decide +kernel
    have h := this c hc
    rw [hq] at h
    exact h
  · have hb : (100 : ℚ) ≤ 2 ^ (900 : ℤ) := by
      rw [show (900 : ℤ) = ((900 : ℕ) : ℤ) from rfl, zpow_natCast]
      calc (100 : ℚ) ≤ 2 ^ 7 := by norm_num
        _ ≤ 2 ^ 900 := pow_le_pow_right₀ (by norm_num) (by norm_num)
    have h100 : ∀ x ∈ ([10, 11, 10, 12, 13, 12, 12, 14, 13, 15, 16, 15, 14, 15, 17, 0] : List ℚ),
        |x| ≤ 100 ∧ |4 * x + -3| ≤ 100 := by decide +kernel
    exact fun x hx => ⟨(h100 x hx).1.trans hb, (h100 x hx).2.trans hb⟩

end Finmod
