import Verif.Props.Averages
import Verif.Props.MarkFloat
import Verif.Lemmas.Nonneg

/-!
# Averages and price rises (C124), averages of flat series (C125)
-/

namespace Finmod
open Go Spec

/-! ### Monotone arithmetic on non-negative floats -/

theorem le_inf {x : Fl} (h : x ≠ .nan) : Fl.le x (.inf false) = true :=
  Fl.le_iff.2 ⟨h, by simp, by simp [Fl.key]⟩

theorem nonneg_num {x : Fl} (h : Fl.le (.fin 0) x = true) : x ≠ .nan := (Fl.le_iff.1 h).2.1

theorem add_inf_left {S : FloatSem} {y : Fl} (hy : Fl.le (.fin 0) y = true) : S.add (.inf false) y = .inf false := by
  rcases nonneg_cases hy with rfl | ⟨b, hb, _⟩
  · rfl
  · rcases hb with rfl | ⟨rfl, rfl⟩ <;> rfl

theorem add_inf_right {S : FloatSem} {x : Fl} (hx : Fl.le (.fin 0) x = true) : S.add x (.inf false) = .inf false := by
  rcases nonneg_cases hx with rfl | ⟨b, hb, _⟩
  · rfl
  · rcases hb with rfl | ⟨rfl, rfl⟩ <;> rfl

theorem le_nonneg_finite {x x' : Fl} {a' : ℚ} (hx : Fl.le (.fin 0) x = true) (h : Fl.le x x' = true)
    (hx' : x'.Is a') : ∃ a, x.Is a ∧ 0 ≤ a ∧ a ≤ a' := by
  rcases nonneg_cases hx with rfl | ⟨a, ha, h0⟩
  · have := (Fl.le_iff.1 h).2.2
    rw [hx'.key] at this
    simp [Fl.key] at this
  · rw [ha.le hx', decide_eq_true_eq] at h
    exact ⟨a, ha, h0, h⟩

theorem add_mono_nonneg {S : FloatSem} (hS : Lawful S) {x x' y y' : Fl} (hx : Fl.le (.fin 0) x = true)
    (hy : Fl.le (.fin 0) y = true) (hxx : Fl.le x x' = true) (hyy : Fl.le y y' = true) :
    Fl.le (S.add x y) (S.add x' y') = true := by
  have hx' := fl_le_trans hx hxx
  have hy' := fl_le_trans hy hyy
  have hn := nonneg_num (add_nonneg_fl hS hx hy)
  rcases nonneg_cases hx' with rfl | ⟨a', ha', _⟩
  · rw [add_inf_left hy']; exact le_inf hn
  rcases nonneg_cases hy' with rfl | ⟨b', hb', _⟩
  · rw [add_inf_right hx']; exact le_inf hn
  obtain ⟨a, ha, _, h1⟩ := le_nonneg_finite hx hxx ha'
  obtain ⟨b, hb, _, h2⟩ := le_nonneg_finite hy hyy hb'
  obtain ⟨n1, k1⟩ := add_key hS ha hb
  obtain ⟨n2, k2⟩ := add_key hS ha' hb'
  refine Fl.le_iff.2 ⟨n1, n2, ?_⟩
  rw [k1, k2]
  exact hS.r64.mono _ _ (by linarith)

theorem div_key {S : FloatSem} (hS : Lawful S) {x y : Fl} {a b : ℚ} (hx : x.Is a) (hy : y.Is b) (hb : b ≠ 0) :
    S.div x y ≠ .nan ∧ (S.div x y).key = (S.rnd (a / b)).key := by
  rcases FloatSem.div_is (S := S) hx hy hb with ⟨_, e⟩ | ⟨h0, e⟩
  · rw [e]; exact ⟨hS.r64.not_nan _, rfl⟩
  · rw [h0, zero_div, rnd_zero hS]; exact ⟨e.ne_nan, by rw [e.key]; rfl⟩

theorem div_inf_pos {S : FloatSem} {y : Fl} {n : ℚ} (hy : y.Is n) (hn : 0 < n) :
    S.div (.inf false) y = .inf false := by
  rcases hy with rfl | ⟨_, rfl⟩
  · simp [FloatSem.div, Fl.sgn, not_lt.2 hn.le]
  · exact absurd hn (lt_irrefl _)

theorem div_mono_nonneg {S : FloatSem} (hS : Lawful S) {x x' y : Fl} {n : ℚ} (hy : y.Is n) (hn : 0 < n)
    (hx : Fl.le (.fin 0) x = true) (hxx : Fl.le x x' = true) :
    Fl.le (.fin 0) (S.div x y) = true ∧ Fl.le (S.div x y) (S.div x' y) = true := by
  have hx' := fl_le_trans hx hxx
  have fin_case : ∀ {z : Fl} {a : ℚ}, z.Is a → 0 ≤ a → Fl.le (.fin 0) (S.div z y) = true := by
    intro z a ha h0
    obtain ⟨n1, k1⟩ := div_key hS ha hy hn.ne'
    refine Fl.le_iff.2 ⟨by simp, n1, ?_⟩
    rw [k1]
    exact (Fl.le_iff.1 (rnd_nonneg hS (div_nonneg h0 hn.le))).2.2
  have h1 : Fl.le (.fin 0) (S.div x y) = true := by
    rcases nonneg_cases hx with rfl | ⟨a, ha, h0⟩
    · rw [div_inf_pos hy hn]; exact le_inf (by simp)
    · exact fin_case ha h0
  refine ⟨h1, ?_⟩
  rcases nonneg_cases hx' with rfl | ⟨a', ha', _⟩
  · rw [div_inf_pos hy hn]; exact le_inf (nonneg_num h1)
  obtain ⟨a, ha, _, hle⟩ := le_nonneg_finite hx hxx ha'
  obtain ⟨n1, k1⟩ := div_key hS ha hy hn.ne'
  obtain ⟨n2, k2⟩ := div_key hS ha' hy hn.ne'
  refine Fl.le_iff.2 ⟨n1, n2, ?_⟩
  rw [k1, k2]
  exact hS.r64.mono _ _ (div_le_div_of_nonneg_right hle hn.le)

/-! ### C124 -/

/-- `ds` has the candles of `cs` with closes that are at least as high; no close is negative. -/
def Spec.Raised (cs ds : List Candle) : Prop :=
  List.Forall₂ (fun c d => Fl.le (.fin 0) c.close = true ∧ Fl.le c.close d.close = true) cs ds

/-- Each value of the first list is at most the value of the second list at its place. -/
def Spec.Below (xs ys : List Fl) : Prop := List.Forall₂ (fun x y => Fl.le x y = true) xs ys

theorem sum_mono {S : FloatSem} (hS : Lawful S) {cs ds : List Candle} (h : Raised cs ds) (a b : Fl)
    (ha : Fl.le (.fin 0) a = true) (hab : Fl.le a b = true) :
    Fl.le (.fin 0) ((closes cs).foldl S.add a) = true ∧
    Fl.le ((closes cs).foldl S.add a) ((closes ds).foldl S.add b) = true := by
  unfold Raised at h
  induction h generalizing a b with
  | nil => exact ⟨ha, hab⟩
  | cons hc _ ih =>
    simp only [closes, List.map_cons, List.foldl_cons] at ih ⊢
    exact ih _ _ (add_nonneg_fl hS ha hc.1) (add_mono_nonneg hS ha hc.1 hab hc.2)

theorem ofInt_pos {S : FloatSem} (hS : Lawful S) {n : Nat} (h1 : 1 ≤ n) (hn : n ≤ 2 ^ 53) :
    (S.ofInt n).Is n ∧ (0 : ℚ) < n := by
  refine ⟨?_, by exact_mod_cast h1⟩
  have : S.rnd ((n : ℤ) : ℚ) = .fin ((n : ℤ) : ℚ) := hS.r64.int n (by
    rw [abs_of_nonneg (by omega)]; exact_mod_cast hn)
  rw [FloatSem.ofInt, this]
  exact Fl.is_fin _

theorem const_zero {S : FloatSem} (hS : Lawful S) : S.const 0 = .fin 0 := rnd_zero hS

theorem average_mono {S : FloatSem} (hS : Lawful S) {cs ds : List Candle} (h : Raised cs ds)
    (hne : 1 ≤ cs.length) (hlen : cs.length ≤ 2 ^ 53) :
    Fl.le (.fin 0) (average S cs) = true ∧ Fl.le (average S cs) (average S ds) = true := by
  rw [average_eq, average_eq]
  have hl : cs.length = ds.length := h.length_eq
  obtain ⟨hi, hp⟩ := ofInt_pos hS hne hlen
  rw [← hl, const_zero hS]
  obtain ⟨s1, s2⟩ := sum_mono hS h (.fin 0) (.fin 0) (by decide +kernel) (by decide +kernel)
  exact div_mono_nonneg hS hi hp s1 s2

theorem Spec.Raised.take {cs ds : List Candle} (h : Raised cs ds) (n : Nat) : Raised (cs.take n) (ds.take n) :=
  List.forall₂_take n h
theorem Spec.Raised.drop {cs ds : List Candle} (h : Raised cs ds) (n : Nat) : Raised (cs.drop n) (ds.drop n) :=
  List.forall₂_drop n h

/-- **C124** Raising closes does not lower any moving average, in any lawful float arithmetic. -/
theorem C124_ma_monotone {S : FloatSem} (hS : Lawful S) (cs ds : List Candle) (h : Raised cs ds) (n : Nat)
    (h1 : 1 ≤ n) (h2 : n ≤ cs.length) (h3 : n ≤ 2 ^ 53) :
    ∃ xs ys, movingAverage S (some cs) n = .ok xs ∧ movingAverage S (some ds) n = .ok ys ∧ Below xs ys := by
  have hl : cs.length = ds.length := h.length_eq
  refine ⟨_, _, movingAverage_ok S cs n h1 h2, movingAverage_ok S ds n h1 (hl ▸ h2), ?_⟩
  unfold Below
  rw [← hl, List.forall₂_map_left_iff, List.forall₂_map_right_iff, List.forall₂_same]
  intro k hk
  rw [List.mem_range] at hk
  have e : ((cs.drop k).take n).length = n := by simp; omega
  exact (average_mono hS ((h.drop k).take n) (by omega) (by omega)).2

theorem weight_facts {S : FloatSem} (hS : Lawful S) {n : Nat} (h1 : 1 ≤ n) (h3 : n < 2 ^ 53) :
    ∃ p q : ℚ, (emaWeight S n).Is p ∧ 0 ≤ p ∧ (S.sub (S.const 1) (emaWeight S n)).Is q ∧ 0 ≤ q := by
  obtain ⟨hi, hp⟩ := ofInt_pos hS h1 h3.le
  have c1 : S.const 1 = .fin 1 := rnd_one hS
  have c2 : S.const 2 = .fin 2 := by
    have : S.rnd ((2 : ℤ) : ℚ) = .fin ((2 : ℤ) : ℚ) := hS.r64.int 2 (by norm_num)
    unfold FloatSem.const
    simpa using this
  have hadd : (S.add (S.ofInt n) (S.const 1)).Is ((n : ℚ) + 1) := by
    rcases FloatSem.add_is (S := S) hi (Fl.is_fin 1) with e | ⟨_, _, h0⟩
    · have : S.rnd (((n + 1 : ℕ) : ℤ) : ℚ) = .fin (((n + 1 : ℕ) : ℤ) : ℚ) := hS.r64.int _ (by
        rw [abs_of_nonneg (by omega)]; exact_mod_cast h3)
      rw [c1, e]
      push_cast at this
      rw [this]
      exact Fl.is_fin _
    · norm_num at h0
  have hn1 : (1 : ℚ) ≤ n := by exact_mod_cast h1
  have hw : emaWeight S n = S.rnd (2 / ((n : ℚ) + 1)) := by
    unfold emaWeight
    rw [c2]
    rcases FloatSem.div_is (S := S) (Fl.is_fin 2) hadd (by linarith) with ⟨_, e⟩ | ⟨h0, _⟩
    · exact e
    · norm_num at h0
  have k0 := rnd_nonneg hS (q := 2 / ((n : ℚ) + 1)) (by positivity)
  have k1 := hS.r64.mono (2 / ((n : ℚ) + 1)) 1 (by rw [div_le_one (by linarith)]; linarith)
  rw [rnd_one hS] at k1
  rw [← hw] at k0 k1
  rcases nonneg_cases k0 with h | ⟨p, hp', hp0⟩
  · rw [h] at k1; simp [Fl.key] at k1
  · rw [hp'.key] at k1
    have hp1 : p ≤ 1 := by simpa [Fl.key] using k1
    have hs : S.sub (.fin 1) (emaWeight S n) ≠ .nan ∧ _ := sub_key hS (Fl.is_fin 1) hp'
    have hlow := (Fl.le_iff.1 (rnd_nonneg hS (q := 1 - p) (by linarith))).2.2
    have hup := hS.r64.mono (1 - p) 1 (by linarith)
    rw [rnd_one hS] at hup
    rw [← hs.2] at hlow hup
    rcases fl_cases hs.1 with e | e | ⟨q, hq⟩
    · rw [e] at hlow; simp [Fl.key] at hlow
    · rw [e] at hup; simp [Fl.key] at hup
    · refine ⟨p, q, hp', hp0, by rw [c1]; exact hq, ?_⟩
      rw [hq.key] at hlow
      simpa [Fl.key] using hlow

theorem mul_mono_right {S : FloatSem} (hS : Lawful S) {x x' y : Fl} {a a' q : ℚ} (hx : x.Is a) (hx' : x'.Is a')
    (hy : y.Is q) (hq : 0 ≤ q) (h0 : 0 ≤ a) (h : a ≤ a') :
    Fl.le (.fin 0) (S.mul x y) = true ∧ Fl.le (S.mul x y) (S.mul x' y) = true := by
  obtain ⟨n1, k1⟩ := mul_key hS hx hy
  obtain ⟨n2, k2⟩ := mul_key hS hx' hy
  constructor
  · refine Fl.le_iff.2 ⟨by simp, n1, ?_⟩
    rw [k1]
    exact (Fl.le_iff.1 (rnd_nonneg hS (mul_nonneg h0 hq))).2.2
  · refine Fl.le_iff.2 ⟨n1, n2, ?_⟩
    rw [k1, k2]
    exact hS.r64.mono _ _ (mul_le_mul_of_nonneg_right h hq)

theorem emaNext_mono {S : FloatSem} (hS : Lawful S) {n : Nat} (h1 : 1 ≤ n) (h3 : n < 2 ^ 53) {x x' c c' : Fl}
    (hx : Fl.le (.fin 0) x = true) (hxx : Fl.le x x' = true) (hc : Fl.le (.fin 0) c = true)
    (hcc : Fl.le c c' = true) (fx : x'.isFinite = true) (fc : c'.isFinite = true) :
    Fl.le (.fin 0) (emaNext S (emaWeight S n) x c) = true ∧
    Fl.le (emaNext S (emaWeight S n) x c) (emaNext S (emaWeight S n) x' c') = true := by
  obtain ⟨p, q, hp, hp0, hq, hq0⟩ := weight_facts hS h1 h3
  obtain ⟨a, ha, ha0, hle⟩ := le_nonneg_finite hx hxx (Fl.isFinite_is fx)
  obtain ⟨b, hb, hb0, hle'⟩ := le_nonneg_finite hc hcc (Fl.isFinite_is fc)
  obtain ⟨m1, m2⟩ := mul_mono_right hS hb (Fl.isFinite_is fc) hp hp0 hb0 hle'
  obtain ⟨m3, m4⟩ := mul_mono_right hS ha (Fl.isFinite_is fx) hq hq0 ha0 hle
  exact ⟨add_nonneg_fl hS m1 m3, add_mono_nonneg hS m1 m3 m2 m4⟩

theorem scan_mono {f : Fl → Fl → Fl}
    (hf : ∀ x x' c c', Fl.le (.fin 0) x = true → Fl.le x x' = true → Fl.le (.fin 0) c = true →
      Fl.le c c' = true → x'.isFinite = true → c'.isFinite = true →
      Fl.le (.fin 0) (f x c) = true ∧ Fl.le (f x c) (f x' c') = true)
    {cs ds : List Candle} (h : Raised cs ds) (hd : ∀ d ∈ ds, d.close.isFinite = true) {a b : Fl}
    (ha : Fl.le (.fin 0) a = true) (hab : Fl.le a b = true)
    (hfin : ∀ y ∈ scan f b (closes ds), y.isFinite = true) :
    Below (scan f a (closes cs)) (scan f b (closes ds)) := by
  unfold Raised at h
  induction h generalizing a b with
  | nil => exact .cons hab .nil
  | @cons c d cs ds hc _ ih =>
    simp only [closes, List.map_cons, scan, List.mem_cons, forall_eq_or_imp] at ih hfin ⊢
    obtain ⟨s1, s2⟩ := hf a b c.close d.close ha hab hc.1 hc.2 hfin.1 (hd d (by simp))
    exact .cons hab (ih (fun d hd' => hd d (by simp [hd'])) s1 s2 hfin.2)

/-- **C124** Raising closes does not lower any exponential average, in any lawful float arithmetic, as
long as the averages of the raised closes do not overflow. -/
theorem C124_ema_monotone {S : FloatSem} (hS : Lawful S) (cs ds : List Candle) (h : Raised cs ds)
    (hd : ∀ d ∈ ds, d.close.isFinite = true) (n : Nat)
    (h1 : 1 ≤ n) (h2 : n ≤ cs.length) (h3 : n < 2 ^ 53) :
    ∃ xs ys, exponentialMovingAverage S (some cs) n = .ok xs ∧
      exponentialMovingAverage S (some ds) n = .ok ys ∧
      ((∀ y ∈ ys, y.isFinite = true) → Below xs ys) := by
  have hl : cs.length = ds.length := h.length_eq
  refine ⟨_, _, ema_ok S cs n h1 h2, ema_ok S ds n h1 (hl ▸ h2), ?_⟩
  have hdrop := h.drop n
  have hmem : ∀ d ∈ ds.drop n, d.close.isFinite = true := fun d h' => hd d (List.mem_of_mem_drop h')
  have e : (cs.take n).length = n := by simp; omega
  obtain ⟨a1, a2⟩ := average_mono hS (h.take n) (by omega) (by omega)
  generalize cs.drop n = l at hdrop
  generalize ds.drop n = m at hdrop hmem
  cases hdrop with
  | nil => intro _; exact .nil
  | cons _ ht =>
    intro hfin
    exact scan_mono (fun x x' c c' q1 q2 q3 q4 q5 q6 => emaNext_mono hS h1 h3 q1 q2 q3 q4 q5 q6) ht
      (fun d h' => hmem d (by simp [h'])) a1 a2 hfin

/-- **C124** In exact arithmetic raising closes does not lower any smoothed average. -/
theorem C124_smma_monotone {cs ds : List Candle} {xs ys : List ℚ} (hx : Closes cs xs) (hy : Closes ds ys)
    (h : List.Forall₂ (· ≤ ·) xs ys) (n : Nat) (h1 : 1 ≤ n) (h2 : n ≤ cs.length) :
    ∃ out out', smoothedMovingAverage FloatSem.exact (some cs) n = .ok out ∧
      smoothedMovingAverage FloatSem.exact (some ds) n = .ok out' ∧ Below out out' := by
  have hl : cs.length = ds.length := by rw [hx.length_eq, h.length_eq, ← hy.length_eq]
  obtain ⟨out, e, ho⟩ := smma_exact hx h1 h2
  obtain ⟨out', e', ho'⟩ := smma_exact hy h1 (hl ▸ h2)
  refine ⟨out, out', e, e', ?_⟩
  have hn : (1 : ℚ) ≤ n := by exact_mod_cast h1
  have hq : List.Forall₂ (· ≤ ·) (smmaQ xs n) (smmaQ ys n) := by
    unfold smmaQ
    refine scan_forall₂ ?_ (List.forall₂_drop n h) ?_
    · unfold mean
      have ht := List.forall₂_take n h
      rw [ht.length_eq]
      exact div_le_div_of_nonneg_right ht.sum_le_sum (Nat.cast_nonneg _)
    · intro a a' b b' ha hb
      have := mul_le_mul_of_nonneg_right ha (by linarith : (0 : ℚ) ≤ n - 1)
      exact div_le_div_of_nonneg_right (by linarith) (by linarith)
  clear e e'
  generalize smmaQ xs n = us at *
  generalize smmaQ ys n = vs at *
  unfold Below
  induction hq generalizing out out' with
  | nil => cases ho; cases ho'; exact .nil
  | cons hab _ ih =>
    cases ho with
    | cons p1 p2 =>
      cases ho' with
      | cons q1 q2 =>
        refine .cons ?_ (ih _ _ p2 q2)
        rw [p1.le q1]
        simpa using hab

/-- Three closes and the same with the middle one raised. -/
example :
    let c (x : ℚ) : Candle := ⟨0, .fin 0, .fin 0, .fin 0, ieee.rnd x, .fin 0⟩
    Raised [c (1 / 10), c (2 / 10), c (3 / 10)] [c (1 / 10), c (5 / 10), c (3 / 10)] ∧
    movingAverage ieee (some [c (1 / 10), c (2 / 10), c (3 / 10)]) 2 ≠
      movingAverage ieee (some [c (1 / 10), c (5 / 10), c (3 / 10)]) 2 := by
  refine ⟨?_, by decide +kernel⟩
  exact .cons (by decide +kernel) (.cons (by decide +kernel) (.cons (by decide +kernel) .nil))

/-! ### C125 -/

/-- The full claim: the average of closes that are all equal is that close. -/
def Spec.C125_claim : Prop :=
  ∀ (cs : List Candle) (x : ℚ) (n : Nat), IsFloat64 x → (∀ c ∈ cs, c.close = .fin x) → 1 ≤ n → n ≤ cs.length →
    ∃ out, movingAverage ieee (some cs) n = .ok out ∧ ∀ y ∈ out, y.Is x

/-- **C125 is false of the code**: the average of 0.1, 0.1 and 0.1 is 0.10000000000000002. -/
theorem C125_flat_violated : ¬ C125_claim := by
  intro h
  obtain ⟨out, h1, h2⟩ := h
    (List.replicate 3 ⟨0, .fin 1, .fin 1, .fin 1, .fin (3602879701896397 / 36028797018963968), .fin 1⟩)
    (3602879701896397 / 36028797018963968) 3
    ⟨3602879701896397, -55, by norm_num, by norm_num, by norm_num, by norm_num⟩
    (by simp) (by simp) (by simp)
  have e : movingAverage ieee (some (List.replicate 3
      ⟨0, .fin 1, .fin 1, .fin 1, .fin (3602879701896397 / 36028797018963968), .fin 1⟩)) (3 : Nat) =
      .ok [.fin (7205759403792795 / 72057594037927936)] := by decide +kernel
  rw [e] at h1
  cases h1
  have := h2 (.fin (7205759403792795 / 72057594037927936)) (by simp)
  rw [Fl.is_fin_iff] at this
  norm_num at this

/-- The number above is the float64 spelt 0.1. -/
example : ieee.rnd (1 / 10) = .fin (3602879701896397 / 36028797018963968) := by decide +kernel

theorem flat_sum {m e : ℤ} (he : -1074 ≤ e) (he2 : e ≤ 971) :
    ∀ (k j : ℕ), |m| * ((j : ℤ) + k) < 2 ^ 53 →
      ((List.replicate k (Fl.fin (m * 2 ^ e))).foldl ieee.add (.fin (j * (m * 2 ^ e)))).Is ((j + k : ℕ) * (m * 2 ^ e)) := by
  intro k
  induction k with
  | zero => intro j _; simp
  | succ k ih =>
    intro j hj
    rw [List.replicate_succ, List.foldl_cons]
    have ea : ieee.add (.fin (j * (m * 2 ^ e))) (.fin (m * 2 ^ e)) = .fin ((j + 1 : ℕ) * (m * 2 ^ e)) := by
      have h : ieee.add (.fin (j * (m * 2 ^ e))) (.fin (m * 2 ^ e)) = ieee.rnd (j * (m * 2 ^ e) + m * 2 ^ e) := rfl
      have : (j : ℚ) * (m * 2 ^ e) + m * 2 ^ e = (j + 1 : ℕ) * (m * 2 ^ e) := by push_cast; ring
      rw [h, this]
      apply C102_nearest_even.1.exact
      refine ⟨(j + 1 : ℕ) * m, e, ?_, he, by push_cast; omega, by push_cast; ring⟩
      rw [abs_mul, abs_of_nonneg (by positivity), mul_comm]
      refine lt_of_le_of_lt (mul_le_mul_of_nonneg_left ?_ (abs_nonneg m)) hj
      push_cast; omega
    rw [ea]
    have := ih (j + 1) (by push_cast at hj ⊢; rw [add_assoc, add_comm 1]; exact hj)
    convert this using 2
    push_cast; ring

/-- **C125 (partial)** In exact arithmetic the average of a flat series is its close, whatever the
close. In float64 it is if the close is `m * 2^e` and `|m| * n` is below 2^53, for example for any
whole number below 2^53 / n. Missing: the other closes, where `C107_moving_average_accurate` bounds the
difference. -/
theorem C125_flat_partial (cs : List Candle) (n : Nat) (h1 : 1 ≤ n) (h2 : n ≤ cs.length) :
    (∀ x : ℚ, (∀ c ∈ cs, c.close = .fin x) →
      ∃ out, movingAverage FloatSem.exact (some cs) n = .ok out ∧ out.length = cs.length - n + 1 ∧ ∀ y ∈ out, y.Is x) ∧
    (∀ m e : ℤ, |m| * n < 2 ^ 53 → n < 2 ^ 53 → -1074 ≤ e → e ≤ 971 → (∀ c ∈ cs, c.close = .fin (m * 2 ^ e)) →
      ∃ out, movingAverage ieee (some cs) n = .ok out ∧ out.length = cs.length - n + 1 ∧
        ∀ y ∈ out, y.Is (m * 2 ^ e)) := by
  have hn0 : (n : ℚ) ≠ 0 := by exact_mod_cast (by omega : n ≠ 0)
  have win : ∀ (v : Fl), (∀ c ∈ cs, c.close = v) → ∀ k, k < cs.length - n + 1 →
      closes ((cs.drop k).take n) = List.replicate n v := by
    intro v hv k hk
    rw [List.eq_replicate_iff]
    refine ⟨by simp [closes]; omega, ?_⟩
    intro b hb
    obtain ⟨c, hc, rfl⟩ := List.mem_map.1 hb
    exact hv c (List.mem_of_mem_drop (List.mem_of_mem_take hc))
  constructor
  · intro x hx
    refine ⟨_, movingAverage_ok _ cs n h1 h2, by simp, ?_⟩
    intro y hy
    obtain ⟨k, hk, rfl⟩ := List.mem_map.1 hy
    rw [List.mem_range] at hk
    have hlen : ((cs.drop k).take n).length = n := by simp; omega
    rw [average_eq, hlen, win _ hx k hk]
    have := exact_foldl_add (l := List.replicate n (Fl.fin x)) (by simp [Fl.isFinite]) (acc := FloatSem.exact.const 0) (FloatSem.exact_const 0)
    have hd := FloatSem.exact_div this (FloatSem.exact_ofInt n) (by exact_mod_cast hn0)
    convert hd using 1
    simp [Fl.toRat]
    field_simp
  · intro m e hm hn he he2 hx
    refine ⟨_, movingAverage_ok _ cs n h1 h2, by simp, ?_⟩
    intro y hy
    obtain ⟨k, hk, rfl⟩ := List.mem_map.1 hy
    rw [List.mem_range] at hk
    have hlen : ((cs.drop k).take n).length = n := by simp; omega
    rw [average_eq, hlen, win _ hx k hk, const_zero ieee_lawful]
    have hs := flat_sum (m := m) he he2 n 0 (by push_cast; rw [zero_add]; exact hm)
    rw [Nat.cast_zero, zero_mul, zero_add] at hs
    obtain ⟨hi, _⟩ := ofInt_pos ieee_lawful h1 hn.le
    rcases FloatSem.div_is (S := ieee) hs hi hn0 with ⟨_, e1⟩ | ⟨e0, e1⟩
    · rw [e1, mul_div_cancel_left₀ _ hn0]
      rw [C102_nearest_even.1.exact _ ⟨m, e, ?_, he, by push_cast; omega, rfl⟩]
      · exact Fl.is_fin _
      · refine lt_of_le_of_lt ?_ hm
        exact le_mul_of_one_le_right (abs_nonneg m) (by exact_mod_cast h1)
    · have : (m : ℚ) * 2 ^ e = 0 := by
        rcases mul_eq_zero.1 e0 with h | h
        · exact absurd h hn0
        · exact h
      refine Fl.is_iff.2 ⟨(Fl.is_iff.1 e1).1, ?_⟩
      rw [e1.toRat, this]

/-- Seven closes of 30000.5 averaged over 5: the value is 30000.5. -/
example : |(60001 : ℤ)| * (5 : ℕ) < 2 ^ 53 ∧ (60001 : ℚ) * 2 ^ (-1 : ℤ) = 30000.5 ∧
    movingAverage ieee (some (List.replicate 7 ⟨0, .fin 1, .fin 1, .fin 1, .fin 30000.5, .fin 1⟩)) 5 =
      .ok [.fin 30000.5, .fin 30000.5, .fin 30000.5] := by
  refine ⟨by norm_num, by norm_num, by decide +kernel⟩

end Finmod
