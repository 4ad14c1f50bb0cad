import Verif.Model.RSI
import Verif.Lemmas.Gradual
import Verif.Spec.RSI
import Verif.Spec.Averages

/-!
# RSI (C76–C82)
-/

namespace Finmod
open Go

/-! ### The loop -/

theorem rsiLoop_ok (S : FloatSem) (arr : List Candle) (len : Nat) (hcap : len < arr.length) :
    ∀ (m fuel i : Nat) (j : Int) (acc : List Fl), j + m = len → (i : Int) ≤ j + 2 → m < fuel →
      rsiLoop S arr len fuel i j acc =
        .ok (acc ++ (List.range m).map fun (t : Nat) =>
          calculateRSI S ((arr.take (j + 2 + t).toNat).drop (i + t))) := by
  intro m
  induction m with
  | zero =>
    intro fuel i j acc hj _ hf
    obtain ⟨f, rfl⟩ : ∃ f, fuel = f + 1 := ⟨fuel - 1, by omega⟩
    unfold rsiLoop
    rw [if_pos (by omega)]
    simp
  | succ m ih =>
    intro fuel i j acc hj hij hf
    obtain ⟨f, rfl⟩ : ∃ f, fuel = f + 1 := ⟨fuel - 1, by omega⟩
    unfold rsiLoop
    rw [if_neg (by omega), if_pos (by omega), ih f (i + 1) (j + 1) _ (by omega) (by omega) (by omega)]
    rw [List.range_succ_eq_map, List.map_cons, List.append_assoc, List.singleton_append, List.map_map]
    congr 3
    · simp
    · apply List.map_congr_left
      intro t _
      simp only [Function.comp, Nat.succ_eq_add_one]
      congr 2
      · omega
      · congr 1; push_cast; congr 1; ring

theorem rsiLoop_panic (S : FloatSem) (arr : List Candle) (len : Nat) :
    ∀ (fuel i : Nat) (j : Int) (acc : List Fl),
      ((j < len ∧ arr.length ≤ len) ∨ len < j ∨ (j + 2 < i ∧ j ≠ len)) →
      rsiLoop S arr len fuel i j acc = .panic := by
  intro fuel
  induction fuel with
  | zero => intros; rfl
  | succ fuel ih =>
    intro i j acc h
    unfold rsiLoop
    rw [if_neg (by omega)]
    split
    · rename_i h2
      exact ih _ _ _ (by omega)
    · rfl

/-- `RSI` on at least 14 candles with spare capacity and a period in range. -/
theorem rsi_ok (S : FloatSem) (cs spare : List Candle) (h14 : 14 ≤ cs.length) (hs : spare ≠ [])
    (n : Nat) (hn : n ≤ cs.length) :
    RSI S (some cs) spare n = .ok ((List.range (cs.length - n + 1)).map fun k =>
      calculateRSI S (((cs ++ spare).drop k).take (n + 1))) := by
  have hl : 0 < spare.length := List.length_pos_iff.2 hs
  unfold RSI
  simp only
  rw [if_neg (by omega), rsiLoop_ok S _ _ (by simp; omega) (cs.length - n + 1) _ _ _ _ (by omega)
    (by omega) (by simp; omega)]
  rw [List.nil_append]
  congr 1
  apply List.map_congr_left
  intro k _
  congr 1
  rw [List.drop_take]
  congr 1
  · omega
  · congr 1; omega

/-! ### C76 -/

theorem sub_gt_nonneg {S : FloatSem} (hS : Lawful S) {x y : Fl} (h : Fl.lt y x = true) :
    Fl.le (.fin 0) (S.sub x y) = true := by
  by_cases hx : x.isFinite = true
  · by_cases hy : y.isFinite = true
    · exact sub_ge_nonneg hS hx hy (Fl.le_iff.2 (by
        obtain ⟨a, b, c⟩ := Fl.lt_iff.1 h; exact ⟨a, b, le_of_lt c⟩))
    · cases y with
      | inf b =>
        cases b with
        | true => cases x <;> simp_all [FloatSem.sub, Fl.neg, FloatSem.add, Fl.le, Fl.isNaN, Fl.key, Fl.isFinite]
        | false => exact absurd (Fl.lt_iff.1 h).2.2 (by simp [Fl.key])
      | nan => simp [Fl.lt, Fl.isNaN] at h
      | _ => simp [Fl.isFinite] at hy
  · cases x with
    | inf b =>
      cases b with
      | true => exact absurd (Fl.lt_iff.1 h).2.2 (by simp [Fl.key])
      | false =>
        cases y with
        | nan => simp [Fl.lt, Fl.isNaN] at h
        | inf b => cases b with
          | true => simp [FloatSem.sub, Fl.neg, FloatSem.add, Fl.le, Fl.isNaN, Fl.key]
          | false => simp [Fl.lt, Fl.key] at h
        | fin q =>
          by_cases hq : q = 0 <;>
          simp [FloatSem.sub, Fl.neg, FloatSem.add, Fl.le, Fl.isNaN, Fl.key, hq]
        | negZero => simp [FloatSem.sub, Fl.neg, FloatSem.add, Fl.le, Fl.isNaN, Fl.key]
    | nan => simp [Fl.lt, Fl.isNaN] at h
    | _ => simp [Fl.isFinite] at hx

theorem rsiSums_nonneg {S : FloatSem} (hS : Lawful S) (cs : List Candle) :
    ∀ (up down prev : Fl), Fl.le (.fin 0) up = true → Fl.le (.fin 0) down = true →
      Fl.le (.fin 0) (rsiSums S up down prev cs).1 = true ∧
      Fl.le (.fin 0) (rsiSums S up down prev cs).2 = true := by
  induction cs with
  | nil => intro up down prev h1 h2; exact ⟨h1, h2⟩
  | cons c cs ih =>
    intro up down prev h1 h2
    unfold rsiSums
    split
    · rename_i h
      exact ih _ _ _ (add_nonneg_fl hS h1 (sub_gt_nonneg hS h)) h2
    · split
      · rename_i h
        exact ih _ _ _ h1 (add_nonneg_fl hS h2 (sub_gt_nonneg hS h))
      · exact ih _ _ _ h1 h2

theorem div_nonneg_fl {S : FloatSem} (hS : Lawful S) {x y : Fl} (hx : Fl.le (.fin 0) x = true)
    (hy : Fl.le (.fin 0) y = true) (hz : y ≠ .negZero) :
    S.div x y = .nan ∨ Fl.le (.fin 0) (S.div x y) = true := by
  rcases nonneg_cases hx with rfl | ⟨a, ha, ha0⟩
  · rcases nonneg_cases hy with rfl | ⟨b, hb, hb0⟩
    · left; rfl
    · right
      cases y with
      | fin q =>
        simp only [Fl.is_fin_iff] at hb
        subst hb
        simp [FloatSem.div, Fl.sgn, not_lt.2 hb0, Fl.le, Fl.isNaN, Fl.key]
      | negZero => exact absurd rfl hz
      | _ => simp at hb
  · rcases nonneg_cases hy with rfl | ⟨b, hb, hb0⟩
    · right
      have : ∃ s, S.div x (.inf false) = Fl.zero s := by
        cases x <;> simp_all [FloatSem.div]
      obtain ⟨s, hs⟩ := this
      rw [hs]
      exact is_nonneg (Fl.zero_is s) (le_refl _)
    · by_cases hb' : b = 0
      · subst hb'
        have hy0 : y = .fin 0 := by
          rcases hb with rfl | ⟨rfl, _⟩
          · rfl
          · exact absurd rfl hz
        subst hy0
        by_cases ha' : a = 0
        · left
          cases x <;> simp_all [FloatSem.div, Fl.isZero]
        · right
          cases x with
          | fin q =>
            simp only [Fl.is_fin_iff] at ha
            subst ha
            simp [FloatSem.div, Fl.isZero, ha', Fl.sgn, not_lt.2 ha0, Fl.le, Fl.isNaN, Fl.key]
          | negZero => simp at ha; exact absurd ha ha'
          | _ => simp at ha
      · right
        rcases FloatSem.div_is (S := S) ha hb hb' with ⟨_, h⟩ | ⟨_, h⟩
        · rw [h]; exact rnd_nonneg hS (div_nonneg ha0 hb0)
        · exact is_nonneg h (le_refl _)

/-- Between two bounds, and a number. -/
def Spec.Between (lo hi : ℚ) (x : Fl) : Prop := Fl.le (.fin lo) x = true ∧ Fl.le x (.fin hi) = true

theorem between_rnd {S : FloatSem} (hS : Lawful S) {lo hi : ℤ} (h1 : |lo| ≤ 2^53) (h2 : |hi| ≤ 2^53)
    {q : ℚ} (hq1 : (lo : ℚ) ≤ q) (hq2 : q ≤ hi) : Spec.Between lo hi (S.rnd q) := by
  have a := hS.r64.mono _ _ hq1
  have b := hS.r64.mono _ _ hq2
  rw [hS.r64.int lo h1] at a
  rw [hS.r64.int hi h2] at b
  exact ⟨Fl.le_iff.2 ⟨by simp, hS.r64.not_nan q, a⟩, Fl.le_iff.2 ⟨hS.r64.not_nan q, by simp, b⟩⟩

theorem between_is {lo hi : ℚ} {x : Fl} (h : Spec.Between lo hi x) : ∃ q, x.Is q ∧ lo ≤ q ∧ q ≤ hi := by
  obtain ⟨h1, h2⟩ := h
  cases x with
  | nan => simp [Fl.le, Fl.isNaN] at h1
  | inf b => cases b <;> simp [Fl.le, Fl.isNaN, Fl.key] at h1 h2
  | fin q => exact ⟨q, Fl.is_fin q, by simpa using h1, by simpa using h2⟩
  | negZero =>
    rw [(Fl.is_fin lo).le Fl.is_negZero] at h1
    rw [Fl.is_negZero.le (Fl.is_fin hi)] at h2
    exact ⟨0, Fl.is_negZero, by simpa using h1, by simpa using h2⟩

theorem const_int {S : FloatSem} (hS : Lawful S) (n : ℤ) (h : |n| ≤ 2^53) :
    S.const (n : ℚ) = .fin n := hS.r64.int n h

/-- 1 plus a non-negative number is infinite or at least 1. -/
theorem one_add {S : FloatSem} (hS : Lawful S) {rs : Fl} (h : Fl.le (.fin 0) rs = true) :
    S.add (.fin 1) rs = .inf false ∨ ∃ q, S.add (.fin 1) rs = .fin q ∧ 1 ≤ q := by
  rcases nonneg_cases h with rfl | ⟨a, ha, ha0⟩
  · left; rfl
  · rcases FloatSem.add_is (S := S) (Fl.is_fin 1) ha with e | ⟨_, h1, _⟩
    · rw [e]
      have hm := hS.r64.mono 1 (1 + a) (by linarith)
      rw [rnd_one hS] at hm
      have hn := hS.r64.not_nan (1 + a)
      have hz := hS.r64.pos (1 + a) (by linarith)
      cases hr : S.rnd (1 + a) with
      | nan => exact absurd hr hn
      | inf b => cases b with
        | true => rw [hr] at hm; simp [Fl.key] at hm
        | false => left; rfl
      | fin q => right; rw [hr] at hm; exact ⟨q, rfl, by simpa [Fl.key] using hm⟩
      | negZero => exact absurd hr hz
    · norm_num at h1

theorem rsiIndex_between {S : FloatSem} (hS : Lawful S) {up down : Fl} (h1 : Fl.le (.fin 0) up = true)
    (h2 : Fl.le (.fin 0) down = true) (hz : down ≠ .negZero) :
    rsiIndex S up down = .nan ∨ Spec.Between 0 100 (rsiIndex S up down) := by
  have c1 : S.const 1 = .fin 1 := by simpa using const_int hS 1 (by norm_num)
  have c100 : S.const 100 = .fin 100 := by simpa using const_int hS 100 (by norm_num)
  unfold rsiIndex
  simp only [c1, c100]
  rcases div_nonneg_fl hS h1 h2 hz with h | h
  · left; rw [h]; rfl
  · right
    have hy : Spec.Between (0 : ℤ) (100 : ℤ) (S.div (.fin 100) (S.add (.fin 1) (S.div up down))) := by
      rcases one_add hS h with e | ⟨q, e, hq⟩
      · rw [e]
        have : S.div (.fin 100) (.inf false) = .fin 0 := by
          simp [FloatSem.div, Fl.sgn, Fl.zero]
        rw [this]
        exact ⟨by simp, by simp⟩
      · rw [e]
        rcases FloatSem.div_is (S := S) (Fl.is_fin 100) (Fl.is_fin q) (by linarith) with ⟨_, h⟩ | ⟨h, _⟩
        · rw [h]
          have hq0 : 0 < q := by linarith
          refine between_rnd hS (by norm_num) (by norm_num) ?_ ?_
          · push_cast; positivity
          · push_cast; rw [div_le_iff₀ hq0]; linarith
        · norm_num at h
    obtain ⟨y, hy, y0, y1⟩ := between_is hy
    push_cast at y0 y1
    have hsub : Spec.Between (0 : ℤ) (100 : ℤ) (S.sub (.fin 100)
        (S.div (.fin 100) (S.add (.fin 1) (S.div up down)))) := by
      unfold FloatSem.sub
      rcases FloatSem.add_is (S := S) (Fl.is_fin 100) hy.neg with e | ⟨_, e, _⟩
      · rw [e]
        exact between_rnd hS (by norm_num) (by norm_num) (by push_cast; linarith) (by push_cast; linarith)
      · norm_num at e
    generalize S.sub (.fin 100) (S.div (.fin 100) (S.add (.fin 1) (S.div up down))) = z at hsub
    obtain ⟨w, hw, w0, w1⟩ := between_is hsub
    push_cast at w0 w1
    cases z with
    | fin q =>
      simp only [Fl.is_fin_iff] at hw
      subst hw
      by_cases hq : q = 0
      · rw [show S.to32 (.fin q) = .fin 0 by simp [FloatSem.to32, hq]]
        exact ⟨by simp, by simp⟩
      · rw [show S.to32 (.fin q) = S.rnd32 q by simp [FloatSem.to32, hq]]
        have a := hS.r32.mono _ _ (show ((0 : ℤ) : ℚ) ≤ q by push_cast; exact w0)
        have b := hS.r32.mono _ _ (show q ≤ ((100 : ℤ) : ℚ) by push_cast; exact w1)
        rw [hS.r32.int 0 (by norm_num)] at a
        rw [hS.r32.int 100 (by norm_num)] at b
        push_cast at a b
        exact ⟨Fl.le_iff.2 ⟨by simp, hS.r32.not_nan q, a⟩, Fl.le_iff.2 ⟨hS.r32.not_nan q, by simp, b⟩⟩
    | negZero =>
      exact ⟨is_nonneg Fl.is_negZero (le_refl _), by
        rw [show S.to32 .negZero = .negZero from rfl, Fl.is_negZero.le (Fl.is_fin 100)]; simp⟩
    | _ => simp at hw

theorem add_ne_negZero {S : FloatSem} (hS : Lawful S) {x y : Fl} (hx : Fl.le (.fin 0) x = true)
    (hz : x ≠ .negZero) (hy : Fl.le (.fin 0) y = true) : S.add x y ≠ .negZero := by
  rcases nonneg_cases hx with rfl | ⟨a, ha, ha0⟩
  · cases y <;> simp_all [FloatSem.add, Fl.le, Fl.isNaN]
    split <;> simp
  · rcases nonneg_cases hy with rfl | ⟨b, hb, hb0⟩
    · cases x <;> simp_all [FloatSem.add]
    · have e : S.add x y = S.rnd (a + b) := by
        cases x <;> cases y <;> simp_all [FloatSem.add, Fl.toRat]
      rw [e]
      rcases eq_or_lt_of_le (add_nonneg ha0 hb0) with h | h
      · rw [← h]
        have : S.rnd ((0 : ℤ) : ℚ) = .fin ((0 : ℤ) : ℚ) := hS.r64.int 0 (by norm_num)
        rw [Int.cast_zero] at this
        rw [this]; simp
      · exact hS.r64.pos _ h

theorem foldl_add_inv {S : FloatSem} (hS : Lawful S) {l : List Fl}
    (hl : ∀ x ∈ l, Fl.le (.fin 0) x = true) :
    ∀ acc : Fl, Fl.le (.fin 0) acc = true → acc ≠ .negZero →
      Fl.le (.fin 0) (l.foldl S.add acc) = true ∧ l.foldl S.add acc ≠ .negZero := by
  induction l with
  | nil => intro acc h1 h2; exact ⟨h1, h2⟩
  | cons x l ih =>
    intro acc h1 h2
    have hx := hl x (by simp)
    exact ih (fun y hy => hl y (by simp [hy])) _ (add_nonneg_fl hS h1 hx) (add_ne_negZero hS h1 h2 hx)

/-- The interleaved loop computes the two sums. -/
theorem rsiSums_eq (S : FloatSem) (cs : List Candle) : ∀ (up down prev : Fl),
    rsiSums S up down prev cs =
      ((Spec.rises S (prev :: cs.map Candle.close)).foldl S.add up,
       (Spec.falls S (prev :: cs.map Candle.close)).foldl S.add down) := by
  induction cs with
  | nil => intros; rfl
  | cons c cs ih =>
    intro up down prev
    have hex : Fl.lt prev c.close = true → Fl.lt c.close prev = false := by
      intro h
      rw [Bool.eq_false_iff]
      intro h'
      have h := Fl.lt_iff.1 h
      have h' := Fl.lt_iff.1 h'
      exact absurd h.2.2 (not_lt.2 (le_of_lt h'.2.2))
    unfold rsiSums
    by_cases h1 : Fl.lt prev c.close = true
    · have h2 := hex h1
      rw [if_pos h1, ih]
      simp [Spec.rises, Spec.falls, Spec.moves, h1, h2]
    · rw [if_neg h1]
      by_cases h2 : Fl.lt c.close prev = true
      · rw [if_pos h2, ih]
        simp [Spec.rises, Spec.falls, Spec.moves, h1, h2]
      · rw [if_neg h2, ih]
        simp [Spec.rises, Spec.falls, Spec.moves, h1, h2]

theorem calculateRSI_eq (S : FloatSem) (cs : List Candle) :
    calculateRSI S cs = rsiIndex S (Spec.fsum S (Spec.rises S (cs.map Candle.close)))
      (Spec.fsum S (Spec.falls S (cs.map Candle.close))) := by
  cases cs with
  | nil => rfl
  | cons c cs =>
    unfold calculateRSI
    simp only
    rw [rsiSums_eq]
    rfl

theorem rises_nonneg {S : FloatSem} (hS : Lawful S) (xs : List Fl) :
    ∀ x ∈ Spec.rises S xs, Fl.le (.fin 0) x = true := by
  intro x hx
  simp only [Spec.rises, List.mem_map, List.mem_filter] at hx
  obtain ⟨m, ⟨_, hm⟩, rfl⟩ := hx
  exact sub_gt_nonneg hS hm

theorem falls_nonneg {S : FloatSem} (hS : Lawful S) (xs : List Fl) :
    ∀ x ∈ Spec.falls S xs, Fl.le (.fin 0) x = true := by
  intro x hx
  simp only [Spec.falls, List.mem_map, List.mem_filter] at hx
  obtain ⟨m, ⟨_, hm⟩, rfl⟩ := hx
  exact sub_gt_nonneg hS hm

theorem calculateRSI_between {S : FloatSem} (hS : Lawful S) (cs : List Candle) :
    calculateRSI S cs = .nan ∨ Spec.Between 0 100 (calculateRSI S cs) := by
  rw [calculateRSI_eq]
  have h1 := foldl_add_inv hS (rises_nonneg hS (cs.map Candle.close)) (.fin 0) (by simp) (by simp)
  have h2 := foldl_add_inv hS (falls_nonneg hS (cs.map Candle.close)) (.fin 0) (by simp) (by simp)
  exact rsiIndex_between hS h1.1 h2.1 h2.2

theorem rsiLoop_all {S : FloatSem} {P : Fl → Prop} (hP : ∀ cs, P (calculateRSI S cs))
    {arr : List Candle} {len : Nat} : ∀ (fuel i : Nat) (j : Int) (acc out : List Fl),
      (∀ v ∈ acc, P v) → rsiLoop S arr len fuel i j acc = .ok out → ∀ v ∈ out, P v := by
  intro fuel
  induction fuel with
  | zero => intro i j acc out _ h; cases h
  | succ fuel ih =>
    intro i j acc out ha h
    unfold rsiLoop at h
    split_ifs at h
    · cases h; exact ha
    · refine ih _ _ _ _ ?_ h
      intro v hv
      rcases List.mem_append.1 hv with hv | hv
      · exact ha v hv
      · rw [List.mem_singleton.1 hv]; exact hP _

/-- **C76.** In every lawful float semantics (binary64 with rounding to binary32 included),
whatever the closes, the period and the backing array: every value `RSI` returns is NaN or lies
between 0 and 100. -/
theorem C76_rsi_range {S : FloatSem} (hS : Lawful S) (candles : Option (List Candle))
    (spare : List Candle) (period : Int) {out : List Fl}
    (h : RSI S candles spare period = .ok out) :
    ∀ v ∈ out, v = .nan ∨ (Fl.le (.fin 0) v = true ∧ Fl.le v (.fin 100) = true) := by
  unfold RSI at h
  cases candles with
  | none => cases h
  | some cs =>
    simp only at h
    split_ifs at h
    exact rsiLoop_all (P := fun v => v = .nan ∨ Spec.Between 0 100 v) (calculateRSI_between hS)
      _ _ _ _ _ (by simp) h

/-- **C76.** For binary64. -/
theorem C76_rsi_range_ieee (candles : Option (List Candle)) (spare : List Candle) (period : Int)
    {out : List Fl} (h : RSI ieee candles spare period = .ok out) :
    ∀ v ∈ out, v = .nan ∨ (Fl.le (.fin 0) v = true ∧ Fl.le v (.fin 100) = true) :=
  C76_rsi_range ieee_lawful candles spare period h

/-- A candle with a close. -/
def rsiCandle (q : ℚ) : Candle := ⟨0, .fin 0, .fin 0, .fin 0, .fin q, .fin 0⟩

/-- Fifteen closes and one candle behind them in the backing array. -/
def rsiExample : List Candle :=
  [10, 11, 10, 12, 13, 12, 12, 14, 13, 15, 16, 15, 14, 15, 17].map rsiCandle

example : RSI ieee (some rsiExample) [rsiCandle 0] 14 =
    .ok [.fin (9252141 / 131072), .fin (8738133 / 262144)] := by decide +kernel

theorem hundred_not_neg : ¬ ((100 : ℚ) < 0) := by norm_num

/-! ### C77 -/

/-- The full claim of C77: never a panic, and no dependence on what lies behind the slice. -/
def Spec.C77_claim (S : FloatSem) : Prop :=
  (∀ candles spare period, RSI S candles spare period ≠ .panic) ∧
  ∀ candles spare spare' period, RSI S candles spare period = RSI S candles spare' period

/-- **C77 is false of the code**, both halves: `candles[i:j+2]` reaches one candle past the slice,
so RSI panics on a slice without spare capacity, and otherwise its last value depends on the
candle behind the slice. -/
theorem C77_reads_input_violated :
    (¬ ∀ (candles : Option (List Candle)) (spare : List Candle) (period : Int),
      RSI ieee candles spare period ≠ .panic) ∧
    (¬ ∀ (candles : Option (List Candle)) (spare spare' : List Candle) (period : Int),
      RSI ieee candles spare period ≠ .panic → RSI ieee candles spare' period ≠ .panic →
      RSI ieee candles spare period = RSI ieee candles spare' period) ∧
    ¬ Spec.C77_claim FloatSem.exact ∧ ¬ Spec.C77_claim ieee := by
  refine ⟨?_, ?_, ?_, ?_⟩
  · intro h; exact h (some rsiExample) [] 14 (by decide +kernel)
  · intro h
    have := h (some rsiExample) [rsiCandle 0] [rsiCandle 20] 14 (by decide +kernel) (by decide +kernel)
    revert this
    decide +kernel
  · intro h; exact h.1 (some rsiExample) [] 14 (by decide +kernel)
  · intro h; exact h.1 (some rsiExample) [] 14 (by decide +kernel)

/-- **C77 (partial).** Exactly when RSI panics, and what it depends on when it does not: all values
but the last are functions of the slice, the last also of the first candle behind it. Missing:
slices without spare capacity (always a panic for a usable period), and the last value. -/
theorem C77_reads_input_partial (S : FloatSem) (cs spare : List Candle) (h14 : 14 ≤ cs.length)
    (period : Int) :
    (RSI S (some cs) spare period = .panic ↔
      period ≠ cs.length + 1 ∧ (period < -1 ∨ (cs.length : Int) < period ∨ spare = [])) ∧
    (∀ n : Nat, period = n → n ≤ cs.length → ∀ s s' spare', ∃ out out',
      RSI S (some cs) (s :: spare) period = .ok out ∧
      RSI S (some cs) (s' :: spare') period = .ok out' ∧
      out.length = cs.length - n + 1 ∧ out'.length = cs.length - n + 1 ∧
      out.dropLast = out'.dropLast ∧ (s = s' → out = out')) := by
  constructor
  · constructor
    · intro h
      by_contra hc
      unfold RSI at h
      simp only at h
      rw [if_neg (by omega)] at h
      by_cases hp : period = cs.length + 1
      · subst hp
        unfold rsiLoop at h
        rw [if_pos (by omega)] at h
        cases h
      · push Not at hc
        have hc := hc hp
        have hl : 0 < spare.length := List.length_pos_iff.2 hc.2.2
        rw [rsiLoop_ok S _ _ (by simp; omega) (cs.length + 1 - period).toNat _ _ _ _ (by omega)
          (by omega) (by simp; omega)] at h
        cases h
    · rintro ⟨h1, h2⟩
      unfold RSI
      simp only
      rw [if_neg (by omega)]
      apply rsiLoop_panic
      rcases h2 with h2 | h2 | rfl
      · right; right; omega
      · right; left; omega
      · by_cases h3 : (cs.length : Int) < period
        · right; left; omega
        · left; simp; omega
  · rintro n rfl hn s s' spare'
    have hwin : ∀ (t : Candle) (sp : List Candle) (k : Nat), k ≤ cs.length - n →
        ((cs ++ t :: sp).drop k).take (n + 1) = ((cs ++ [t]).drop k).take (n + 1) := by
      intro t sp k hk
      have : cs ++ t :: sp = (cs ++ [t]) ++ sp := by simp
      rw [this, List.drop_append_of_le_length (by simp; omega),
        List.take_append_of_le_length (by simp; omega)]
    have hwin' : ∀ (t : Candle) (sp : List Candle) (k : Nat), k < cs.length - n →
        ((cs ++ t :: sp).drop k).take (n + 1) = (cs.drop k).take (n + 1) := by
      intro t sp k hk
      rw [List.drop_append_of_le_length (by omega), List.take_append_of_le_length (by simp; omega)]
    refine ⟨_, _, rsi_ok S cs (s :: spare) h14 (by simp) n hn,
      rsi_ok S cs (s' :: spare') h14 (by simp) n hn, by simp, by simp, ?_, ?_⟩
    · rw [List.range_succ, List.map_append, List.map_append, List.map_singleton, List.map_singleton,
        List.dropLast_concat, List.dropLast_concat]
      apply List.map_congr_left
      intro k hk
      rw [List.mem_range] at hk
      rw [hwin' _ _ k hk, hwin' _ _ k hk]
    · rintro rfl
      apply List.map_congr_left
      intro k hk
      rw [List.mem_range] at hk
      rw [hwin _ spare k (by omega), hwin _ spare' k (by omega)]

example : 14 ≤ rsiExample.length ∧ RSI ieee (some rsiExample) [] 14 = .panic ∧
    RSI ieee (some rsiExample) [rsiCandle 16] 16 = .ok [] := by decide +kernel

/-! ### C78 -/

/-- **C78.** On a slice with spare capacity there are `len - period + 1` values and value `k` is
`100 - 100/(1 + U/D)`, rounded to float32, with `U` and `D` the float sums of the rises and falls
of the closes `k .. k+period` of the backing array, in every float semantics. -/
theorem C78_rsi_windows (S : FloatSem) (cs spare : List Candle) (h14 : 14 ≤ cs.length)
    (hs : spare ≠ []) (n : Nat) (hn : n ≤ cs.length) :
    ∃ out, RSI S (some cs) spare n = .ok out ∧ out.length = cs.length - n + 1 ∧
      ∀ k, k < out.length →
        let U := Spec.fsum S (Spec.rises S (Spec.window (cs ++ spare) k n))
        let D := Spec.fsum S (Spec.falls S (Spec.window (cs ++ spare) k n))
        out[k]? = some (S.to32 (S.sub (S.const 100)
          (S.div (S.const 100) (S.add (S.const 1) (S.div U D))))) := by
  refine ⟨_, rsi_ok S cs spare h14 hs n hn, by simp, ?_⟩
  intro k hk
  simp only [List.length_map, List.length_range] at hk
  simp only [List.getElem?_map, List.getElem?_range hk, Option.map_some]
  rw [calculateRSI_eq]
  rfl

theorem zip_tail_cons {α : Type} (a b : α) (l : List α) :
    (a :: b :: l).zip (a :: b :: l).tail = (a, b) :: (b :: l).zip (b :: l).tail := rfl

theorem fsum_rises_exact {fs : List Fl} {xs : List ℚ} (h : List.Forall₂ Fl.Is fs xs) :
    (Spec.fsum FloatSem.exact (Spec.rises FloatSem.exact fs)).Is (Spec.riseQ xs) ∧
    (Spec.fsum FloatSem.exact (Spec.falls FloatSem.exact fs)).Is (Spec.fallQ xs) := by
  have key : ∀ (fs : List Fl) (xs : List ℚ), List.Forall₂ Fl.Is fs xs → ∀ (u d : Fl) (qu qd : ℚ),
      u.Is qu → d.Is qd →
      ((Spec.rises FloatSem.exact fs).foldl FloatSem.exact.add u).Is (qu + Spec.riseQ xs) ∧
      ((Spec.falls FloatSem.exact fs).foldl FloatSem.exact.add d).Is (qd + Spec.fallQ xs) := by
    intro fs xs h
    induction h with
    | nil =>
      intro u d qu qd hu hd
      simpa [Spec.rises, Spec.falls, Spec.moves, Spec.riseQ, Spec.fallQ] using ⟨hu, hd⟩
    | @cons a x fs xs ha hr ih =>
      intro u d qu qd hu hd
      cases hr with
      | nil => simpa [Spec.rises, Spec.falls, Spec.moves, Spec.riseQ, Spec.fallQ] using ⟨hu, hd⟩
      | @cons b y fs xs hb hr =>
        have eR : Spec.riseQ (x :: y :: xs) = max (y - x) 0 + Spec.riseQ (y :: xs) := by
          simp [Spec.riseQ]
        have eF : Spec.fallQ (x :: y :: xs) = max (x - y) 0 + Spec.fallQ (y :: xs) := by
          simp [Spec.fallQ]
        have e1 : Spec.rises FloatSem.exact (a :: b :: fs) =
            (if x < y then [FloatSem.exact.sub b a] else []) ++ Spec.rises FloatSem.exact (b :: fs) := by
          unfold Spec.rises Spec.moves
          rw [zip_tail_cons, List.filter_cons, ha.lt hb]
          by_cases hc : x < y <;> simp [hc]
        have e2 : Spec.falls FloatSem.exact (a :: b :: fs) =
            (if y < x then [FloatSem.exact.sub a b] else []) ++ Spec.falls FloatSem.exact (b :: fs) := by
          unfold Spec.falls Spec.moves
          rw [zip_tail_cons, List.filter_cons, hb.lt ha]
          by_cases hc : y < x <;> simp [hc]
        rw [eR, eF, e1, e2, List.foldl_append, List.foldl_append, ← add_assoc, ← add_assoc]
        refine ih _ _ _ _ ?_ ?_
        · by_cases hc : x < y
          · rw [if_pos hc, max_eq_left (by linarith)]
            exact FloatSem.exact_add hu (FloatSem.exact_sub hb ha)
          · rw [if_neg hc, max_eq_right (by linarith), add_zero]
            exact hu
        · by_cases hc : y < x
          · rw [if_pos hc, max_eq_left (by linarith)]
            exact FloatSem.exact_add hd (FloatSem.exact_sub ha hb)
          · rw [if_neg hc, max_eq_right (by linarith), add_zero]
            exact hd
  have := key fs xs h (.fin 0) (.fin 0) 0 0 (Fl.is_fin 0) (Fl.is_fin 0)
  simpa [Spec.fsum] using this

theorem sum_max_nonneg {α : Type} (l : List α) (f : α → ℚ) : 0 ≤ (l.map fun m => max (f m) 0).sum := by
  induction l with
  | nil => simp
  | cons a l ih =>
    rw [List.map_cons, List.sum_cons]
    have := le_max_right (f a) 0
    linarith

theorem riseQ_nonneg (xs : List ℚ) : 0 ≤ Spec.riseQ xs := by
  unfold Spec.riseQ
  exact sum_max_nonneg (xs.zip xs.tail) (fun m => m.2 - m.1)
theorem fallQ_nonneg (xs : List ℚ) : 0 ≤ Spec.fallQ xs := by
  unfold Spec.fallQ
  exact sum_max_nonneg (xs.zip xs.tail) (fun m => m.1 - m.2)

theorem to32_exact (x : Fl) : FloatSem.exact.to32 x = x := by
  cases x with
  | fin q => by_cases h : q = 0 <;> simp [FloatSem.to32, FloatSem.exact, h]
  | _ => rfl

theorem rsiIndex_exact {up down : Fl} {U D : ℚ} (hu : up.Is U) (hd : down.Is D) (hU : 0 ≤ U)
    (hD : 0 ≤ D) (hz : down ≠ .negZero) (huz : up ≠ .negZero) :
    rsiIndex FloatSem.exact up down = if U + D = 0 then .nan else .fin (100 * U / (U + D)) := by
  unfold rsiIndex
  simp only [to32_exact]
  rcases hu with rfl | ⟨rfl, _⟩
  swap; · exact absurd rfl huz
  rcases hd with rfl | ⟨rfl, _⟩
  swap; · exact absurd rfl hz
  by_cases hD0 : D = 0
  · subst hD0
    by_cases hU0 : U = 0
    · subst hU0
      simp [FloatSem.div, Fl.isZero, FloatSem.add, FloatSem.const, FloatSem.exact, FloatSem.sub, Fl.neg]
    · have : FloatSem.exact.div (.fin U) (.fin 0) = .inf false := by
        simp [FloatSem.div, Fl.isZero, hU0, Fl.sgn, not_lt.2 hU]
      rw [this, add_zero, if_neg hU0]
      have h100 : 100 * U / U = 100 := by field_simp
      rw [h100]
      simp [FloatSem.div, FloatSem.add, FloatSem.const, FloatSem.exact, FloatSem.sub, Fl.neg, Fl.zero,
        Fl.sgn, Fl.toRat, hundred_not_neg]
  · have hpos : 0 < D := lt_of_le_of_ne hD (Ne.symm hD0)
    have hUD : U + D ≠ 0 := by linarith
    rw [if_neg hUD]
    have h1 := FloatSem.exact_div (Fl.is_fin U) (Fl.is_fin D) hD0
    have h2 := FloatSem.exact_add (FloatSem.exact_const 1) h1
    have hne : 1 + U / D ≠ 0 := by
      have : 0 ≤ U / D := div_nonneg hU hD
      linarith
    have h3 := FloatSem.exact_sub (FloatSem.exact_const 100) (FloatSem.exact_div (FloatSem.exact_const 100) h2 hne)
    have hv : 100 - 100 / (1 + U / D) = 100 * U / (U + D) := by
      have : D + U ≠ 0 := by linarith
      field_simp
      ring
    rw [hv] at h3
    rcases h3 with h3 | ⟨h3, _⟩
    · exact h3
    · exfalso
      generalize FloatSem.exact.div (FloatSem.exact.const 100) _ = y at h3
      unfold FloatSem.sub FloatSem.const at h3
      simp only [FloatSem.exact_rnd] at h3
      cases y with
      | fin q => by_cases hq : q = 0 <;> simp [Fl.neg, hq, FloatSem.add, FloatSem.exact_rnd] at h3
      | negZero => simp [Fl.neg, FloatSem.add, FloatSem.exact_rnd] at h3
      | _ => simp [Fl.neg, FloatSem.add] at h3

/-- The value of one window in exact arithmetic. -/
theorem calculateRSI_exact {cs : List Candle} {xs : List ℚ} (h : Spec.Closes cs xs) :
    calculateRSI FloatSem.exact cs = if Spec.riseQ xs + Spec.fallQ xs = 0 then .nan
      else .fin (100 * Spec.riseQ xs / (Spec.riseQ xs + Spec.fallQ xs)) := by
  have hf : List.Forall₂ Fl.Is (cs.map Candle.close) xs := List.forall₂_map_left_iff.2 h
  rw [calculateRSI_eq]
  obtain ⟨h1, h2⟩ := fsum_rises_exact hf
  refine rsiIndex_exact h1 h2 (riseQ_nonneg xs) (fallQ_nonneg xs) ?_ ?_
  · exact (foldl_add_inv exact_lawful (falls_nonneg exact_lawful _) (.fin 0) (by simp) (by simp)).2
  · exact (foldl_add_inv exact_lawful (rises_nonneg exact_lawful _) (.fin 0) (by simp) (by simp)).2

/-- **C78.** In exact arithmetic value `k` is `100 * U / (U + D)`, with `U` and `D` the totals of
the rises and falls of the closes `k .. k+period` (NaN when both are 0). -/
theorem C78_rsi_exact {cs spare : List Candle} {xs : List ℚ} (h : Spec.Closes (cs ++ spare) xs)
    (h14 : 14 ≤ cs.length) (hs : spare ≠ []) (n : Nat) (hn : n ≤ cs.length) :
    ∃ out, RSI FloatSem.exact (some cs) spare n = .ok out ∧ out.length = cs.length - n + 1 ∧
      ∀ k, k < out.length →
        let w := (xs.drop k).take (n + 1)
        out[k]? = some (if Spec.riseQ w + Spec.fallQ w = 0 then .nan
          else .fin (100 * Spec.riseQ w / (Spec.riseQ w + Spec.fallQ w))) := by
  refine ⟨_, rsi_ok _ cs spare h14 hs n hn, by simp, ?_⟩
  intro k hk
  simp only [List.length_map, List.length_range] at hk
  simp only [List.getElem?_map, List.getElem?_range hk, Option.map_some]
  rw [calculateRSI_exact (List.forall₂_take (n + 1) (List.forall₂_drop k h))]

example : RSI FloatSem.exact (some rsiExample) [rsiCandle 0] 13 =
      .ok [.fin (200/3), .fin (275/4), .fin (275/8)] ∧
    Spec.riseQ ([10, 11, 10, 12, 13, 12, 12, 14, 13, 15, 16, 15, 14, 15]) = 10 ∧
    Spec.fallQ ([10, 11, 10, 12, 13, 12, 12, 14, 13, 15, 16, 15, 14, 15]) = 5 := by
  decide +kernel

/-! ### C79 -/

/-- The full claim of C79. -/
def Spec.C79_claim (S : FloatSem) : Prop :=
  ∀ (cs spare : List Candle) (period : Int) (out : List Fl),
    (∀ c ∈ cs ++ spare, c.close.isFinite = true ∧ S.Rep c.close) → 1 ≤ period →
    RSI S (some cs) spare period = .ok out → ∀ v ∈ out, v ≠ .nan

/-- **C79 is false of the code**: a window of equal closes gives `0/0`. -/
theorem C79_number_violated : ¬ Spec.C79_claim FloatSem.exact ∧ ¬ Spec.C79_claim ieee := by
  constructor
  · intro h
    refine h (List.replicate 14 (rsiCandle 7)) [rsiCandle 7] 14 [.nan] ?_ (by decide)
      (by decide +kernel) .nan (by simp) rfl
    intro c hc
    have : c = rsiCandle 7 := by
      rcases List.mem_append.1 hc with h | h
      · exact List.eq_of_mem_replicate h
      · exact List.mem_singleton.1 h
    subst this
    exact ⟨rfl, fun q hq => by cases hq; rfl⟩
  · intro h
    refine h (List.replicate 14 (rsiCandle 7)) [rsiCandle 7] 14 [.nan] ?_ (by decide)
      (by decide +kernel) .nan (by simp) rfl
    intro c hc
    have : c = rsiCandle 7 := by
      rcases List.mem_append.1 hc with h | h
      · exact List.eq_of_mem_replicate h
      · exact List.mem_singleton.1 h
    subst this
    exact ⟨rfl, fun q hq => by cases hq; decide +kernel⟩

theorem add_pos_fl {S : FloatSem} (hS : Lawful S) {x y : Fl} (hx : Fl.le (.fin 0) x = true)
    (hxr : S.Rep x) (hy : Fl.le (.fin 0) y = true) (hyr : S.Rep y)
    (h : Fl.lt (.fin 0) x = true ∨ Fl.lt (.fin 0) y = true) : Fl.lt (.fin 0) (S.add x y) = true := by
  rcases nonneg_cases hx with rfl | ⟨a, ha, ha0⟩
  · rcases nonneg_cases hy with rfl | ⟨b, hb, hb0⟩
    · simp [FloatSem.add, Fl.lt, Fl.isNaN, Fl.key]
    · cases y <;> simp_all [FloatSem.add, Fl.lt, Fl.isNaN, Fl.key]
  · rcases nonneg_cases hy with rfl | ⟨b, hb, hb0⟩
    · cases x <;> simp_all [FloatSem.add, Fl.lt, Fl.isNaN, Fl.key]
    · rw [(Fl.is_fin 0).lt ha, (Fl.is_fin 0).lt hb] at h
      simp only [decide_eq_true_eq] at h
      have key : ∀ (z : Fl) (q : ℚ), z.Is q → S.Rep z → 0 < q → q ≤ a + b →
          Fl.lt (.fin 0) (S.rnd (a + b)) = true := by
        intro z q hz hr hq hle
        rcases hz with rfl | ⟨_, rfl⟩
        · have hm := hS.r64.mono q (a + b) hle
          rw [hr q rfl] at hm
          exact Fl.lt_iff.2 ⟨by simp, hS.r64.not_nan _, lt_of_lt_of_le (by simpa [Fl.key] using hq) hm⟩
        · exact absurd hq (lt_irrefl _)
      rcases FloatSem.add_is (S := S) ha hb with e | ⟨_, e1, e2⟩
      · rw [e]
        rcases h with h | h
        · exact key x a ha hxr h (by linarith)
        · exact key y b hb hyr h (by linarith)
      · rcases h with h | h <;> linarith

theorem rep_add_fl {S : FloatSem} (hS : Lawful S) (x y : Fl) : S.Rep (S.add x y) := by
  intro q h
  rcases x with _ | (_ | _) | a | _ <;> rcases y with _ | (_ | _) | b | _ <;>
    first
    | (simp [FloatSem.add] at h; done)
    | exact hS.r64.idem _ _ h

theorem foldl_add_pos {S : FloatSem} (hS : Lawful S) {l : List Fl}
    (hl : ∀ x ∈ l, Fl.le (.fin 0) x = true ∧ S.Rep x) :
    ∀ acc : Fl, Fl.le (.fin 0) acc = true → S.Rep acc →
      (Fl.lt (.fin 0) acc = true ∨ ∃ x ∈ l, Fl.lt (.fin 0) x = true) →
      Fl.lt (.fin 0) (l.foldl S.add acc) = true := by
  induction l with
  | nil =>
    intro acc _ _ h
    rcases h with h | ⟨x, hx, _⟩
    · exact h
    · cases hx
  | cons x l ih =>
    intro acc h1 h2 h
    obtain ⟨hx1, hx2⟩ := hl x (by simp)
    refine ih (fun y hy => hl y (by simp [hy])) _ (add_nonneg_fl hS h1 hx1) (rep_add_fl hS _ _) ?_
    rcases h with h | ⟨y, hy, h⟩
    · exact .inl (add_pos_fl hS h1 h2 hx1 hx2 (.inl h))
    · rcases List.mem_cons.1 hy with rfl | hy
      · exact .inl (add_pos_fl hS h1 h2 hx1 hx2 (.inr h))
      · exact .inr ⟨y, hy, h⟩

theorem mem_moves_rep {S : FloatSem} {xs : List Fl} (hr : ∀ x ∈ xs, S.Rep x) {m : Fl × Fl}
    (hm : m ∈ Spec.moves xs) : S.Rep m.1 ∧ S.Rep m.2 := by
  have := List.of_mem_zip (show (m.1, m.2) ∈ xs.zip xs.tail from hm)
  exact ⟨hr _ this.1, hr _ (List.mem_of_mem_tail this.2)⟩

theorem rises_pos {S : FloatSem} (hS : Lawful S) (hG : Gradual S) {xs : List Fl}
    (hr : ∀ x ∈ xs, S.Rep x) {m : Fl × Fl} (hm : m ∈ Spec.moves xs) (h : Fl.lt m.1 m.2 = true) :
    Fl.lt (.fin 0) (Spec.fsum S (Spec.rises S xs)) = true := by
  have hz : S.Rep (.fin 0) := by
    intro q hq; cases hq
    have : S.rnd ((0 : ℤ) : ℚ) = .fin ((0 : ℤ) : ℚ) := hS.r64.int 0 (by norm_num)
    simpa using this
  refine foldl_add_pos hS ?_ (.fin 0) (by simp) hz (.inr ⟨S.sub m.2 m.1, ?_, ?_⟩)
  · intro x hx
    refine ⟨rises_nonneg hS xs x hx, ?_⟩
    simp only [Spec.rises, List.mem_map] at hx
    obtain ⟨m, _, rfl⟩ := hx
    exact rep_add_fl hS _ _
  · simp only [Spec.rises, List.mem_map, List.mem_filter]
    exact ⟨m, ⟨hm, h⟩, rfl⟩
  · obtain ⟨h1, h2⟩ := mem_moves_rep hr hm
    exact sub_gt_pos hS hG h2 h1 h

theorem falls_pos {S : FloatSem} (hS : Lawful S) (hG : Gradual S) {xs : List Fl}
    (hr : ∀ x ∈ xs, S.Rep x) {m : Fl × Fl} (hm : m ∈ Spec.moves xs) (h : Fl.lt m.2 m.1 = true) :
    Fl.lt (.fin 0) (Spec.fsum S (Spec.falls S xs)) = true := by
  have hz : S.Rep (.fin 0) := by
    intro q hq; cases hq
    have : S.rnd ((0 : ℤ) : ℚ) = .fin ((0 : ℤ) : ℚ) := hS.r64.int 0 (by norm_num)
    simpa using this
  refine foldl_add_pos hS ?_ (.fin 0) (by simp) hz (.inr ⟨S.sub m.1 m.2, ?_, ?_⟩)
  · intro x hx
    refine ⟨falls_nonneg hS xs x hx, ?_⟩
    simp only [Spec.falls, List.mem_map] at hx
    obtain ⟨m, _, rfl⟩ := hx
    exact rep_add_fl hS _ _
  · simp only [Spec.falls, List.mem_map, List.mem_filter]
    exact ⟨m, ⟨hm, h⟩, rfl⟩
  · obtain ⟨h1, h2⟩ := mem_moves_rep hr hm
    exact sub_gt_pos hS hG h1 h2 h

theorem to32_ne_nan {S : FloatSem} (hS : Lawful S) {x : Fl} (h : x ≠ .nan) : S.to32 x ≠ .nan := by
  cases x with
  | fin q =>
    by_cases hq : q = 0
    · simp [FloatSem.to32, hq]
    · simp only [FloatSem.to32, hq, if_false]; exact hS.r32.not_nan q
  | nan => exact absurd rfl h
  | _ => simp [FloatSem.to32]

theorem rsiIndex_number {S : FloatSem} (hS : Lawful S) {up down : Fl}
    (h1 : Fl.le (.fin 0) up = true) (h2 : Fl.le (.fin 0) down = true) (hz : down ≠ .negZero)
    (hd : S.div up down ≠ .nan) : rsiIndex S up down ≠ .nan := by
  have c1 : S.const 1 = .fin 1 := by simpa using const_int hS 1 (by norm_num)
  have c100 : S.const 100 = .fin 100 := by simpa using const_int hS 100 (by norm_num)
  unfold rsiIndex
  simp only [c1, c100]
  apply to32_ne_nan hS
  have h := (div_nonneg_fl hS h1 h2 hz).resolve_left hd
  rcases one_add hS h with e | ⟨q, e, hq⟩
  · rw [e]
    simp [FloatSem.div, FloatSem.sub, Fl.sgn, Fl.zero, Fl.neg, FloatSem.add, Fl.toRat, hS.r64.not_nan,
      hundred_not_neg]
  · rw [e]
    rcases FloatSem.div_is (S := S) (Fl.is_fin 100) (Fl.is_fin q) (by linarith) with ⟨_, h⟩ | ⟨h, _⟩
    · rw [h]
      have hb := between_rnd hS (lo := 0) (hi := 100) (by norm_num) (by norm_num) (q := 100 / q)
        (by push_cast; positivity) (by push_cast; rw [div_le_iff₀ (by linarith)]; linarith)
      obtain ⟨y, hy, _, _⟩ := between_is hb
      unfold FloatSem.sub
      rcases FloatSem.add_is (S := S) (Fl.is_fin 100) hy.neg with e | ⟨e, _, _⟩
      · rw [e]; exact hS.r64.not_nan _
      · rw [e]; simp
    · norm_num at h

/-- **C79 (partial).** A window of format closes in which some close differs from its predecessor
gives a number, unless both sums overflow to infinity. Missing: flat windows. -/
theorem C79_number_partial {S : FloatSem} (hS : Lawful S) (hG : Gradual S) {cs : List Candle}
    (hr : ∀ c ∈ cs, S.Rep c.close)
    (hm : ∃ m ∈ Spec.moves (cs.map Candle.close), Fl.lt m.1 m.2 = true ∨ Fl.lt m.2 m.1 = true)
    (ho : (Spec.fsum S (Spec.rises S (cs.map Candle.close))).isFinite = true ∨
      (Spec.fsum S (Spec.falls S (cs.map Candle.close))).isFinite = true) :
    calculateRSI S cs ≠ .nan := by
  have hr' : ∀ x ∈ cs.map Candle.close, S.Rep x := by
    intro x hx
    obtain ⟨c, hc, rfl⟩ := List.mem_map.1 hx
    exact hr c hc
  have h1 := foldl_add_inv hS (rises_nonneg hS (cs.map Candle.close)) (.fin 0) (by simp) (by simp)
  have h2 := foldl_add_inv hS (falls_nonneg hS (cs.map Candle.close)) (.fin 0) (by simp) (by simp)
  rw [calculateRSI_eq]
  refine rsiIndex_number hS h1.1 h2.1 h2.2 ?_
  have hpos : Fl.lt (.fin 0) (Spec.fsum S (Spec.rises S (cs.map Candle.close))) = true ∨
      Fl.lt (.fin 0) (Spec.fsum S (Spec.falls S (cs.map Candle.close))) = true := by
    obtain ⟨m, hm, h | h⟩ := hm
    · exact .inl (rises_pos hS hG hr' hm h)
    · exact .inr (falls_pos hS hG hr' hm h)
  have h1 := h1.1
  have h2z := h2.2
  have h2 := h2.1
  unfold Spec.fsum at *
  generalize (Spec.rises S (cs.map Candle.close)).foldl S.add (.fin 0) = u at *
  generalize (Spec.falls S (cs.map Candle.close)).foldl S.add (.fin 0) = d at *
  rcases nonneg_cases h1 with rfl | ⟨a, ha, ha0⟩
  · rcases nonneg_cases h2 with rfl | ⟨b, hb, hb0⟩
    · simp [Fl.isFinite] at ho
    · cases d <;> simp_all [FloatSem.div]
  · rcases nonneg_cases h2 with rfl | ⟨b, hb, hb0⟩
    · have : ∃ s, S.div u (.inf false) = Fl.zero s := by
        cases u <;> simp_all [FloatSem.div]
      obtain ⟨s, e⟩ := this
      rw [e]
      cases s <;> simp [Fl.zero]
    · by_cases hb' : b = 0
      · subst hb'
        have ha' : a ≠ 0 := by
          rw [(Fl.is_fin 0).lt ha, (Fl.is_fin 0).lt hb] at hpos
          simp only [decide_eq_true_eq, lt_irrefl, or_false] at hpos
          exact ne_of_gt hpos
        have hud : u.isZero = false := by rw [ha.isZero]; simpa using ha'
        have hdd : d.isZero = true := by rw [hb.isZero]; simp
        cases u <;> cases d <;> simp_all [FloatSem.div]
      · rcases FloatSem.div_is (S := S) ha hb hb' with ⟨_, h⟩ | ⟨_, h⟩
        · rw [h]; exact hS.r64.not_nan _
        · exact h.ne_nan

example : ∃ m ∈ Spec.moves (rsiExample.map Candle.close), Fl.lt m.1 m.2 = true ∨ Fl.lt m.2 m.1 = true :=
  ⟨(.fin 10, .fin 11), by decide +kernel, by decide +kernel⟩

/-! ### C80 -/

/-- **C80.** In every lawful float semantics with gradual underflow: closes of the format with at
least one rise and no fall give exactly 100. Overflow of the sum does not matter. -/
theorem C80_rsi_all_rises {S : FloatSem} (hS : Lawful S) (hG : Gradual S) {cs : List Candle}
    (hr : ∀ c ∈ cs, S.Rep c.close)
    (hup : ∃ m ∈ Spec.moves (cs.map Candle.close), Fl.lt m.1 m.2 = true)
    (hno : ∀ m ∈ Spec.moves (cs.map Candle.close), Fl.lt m.2 m.1 = false) :
    calculateRSI S cs = .fin 100 := by
  have hr' : ∀ x ∈ cs.map Candle.close, S.Rep x := by
    intro x hx
    obtain ⟨c, hc, rfl⟩ := List.mem_map.1 hx
    exact hr c hc
  have hf : Spec.falls S (cs.map Candle.close) = [] := by
    unfold Spec.falls
    rw [List.map_eq_nil_iff, List.filter_eq_nil_iff]
    intro m hm
    simp [hno m hm]
  obtain ⟨m, hm, h⟩ := hup
  have hp := rises_pos hS hG hr' hm h
  rw [calculateRSI_eq, hf]
  generalize Spec.fsum S (Spec.rises S (cs.map Candle.close)) = u at hp
  have hdiv : S.div u (Spec.fsum S []) = .inf false := by
    unfold Spec.fsum
    simp only [List.foldl_nil]
    rcases u with _ | (_ | _) | a | _
    · simp [Fl.lt, Fl.isNaN] at hp
    · simp [FloatSem.div, Fl.sgn]
    · simp [Fl.lt, Fl.key] at hp
    · have ha : 0 < a := by simpa using hp
      simp [FloatSem.div, Fl.isZero, ha.ne', Fl.sgn, not_lt.2 ha.le]
    · simp [Fl.lt, Fl.key] at hp
  have c1 : S.const 1 = .fin 1 := by simpa using const_int hS 1 (by norm_num)
  have c100 : S.const 100 = .fin 100 := by simpa using const_int hS 100 (by norm_num)
  have r100 : S.rnd 100 = .fin 100 := c100
  have s100 : S.rnd32 100 = .fin 100 := by simpa using hS.r32.int 100 (by norm_num)
  unfold rsiIndex
  rw [hdiv]
  simp [c1, c100, FloatSem.add, FloatSem.div, Fl.sgn, Fl.zero, FloatSem.sub, Fl.neg, Fl.toRat, r100,
    FloatSem.to32, s100, hundred_not_neg]

/-- **C80.** At least one fall and no rise give exactly 0. -/
theorem C80_rsi_all_falls {S : FloatSem} (hS : Lawful S) (hG : Gradual S) {cs : List Candle}
    (hr : ∀ c ∈ cs, S.Rep c.close)
    (hdn : ∃ m ∈ Spec.moves (cs.map Candle.close), Fl.lt m.2 m.1 = true)
    (hno : ∀ m ∈ Spec.moves (cs.map Candle.close), Fl.lt m.1 m.2 = false) :
    calculateRSI S cs = .fin 0 := by
  have hr' : ∀ x ∈ cs.map Candle.close, S.Rep x := by
    intro x hx
    obtain ⟨c, hc, rfl⟩ := List.mem_map.1 hx
    exact hr c hc
  have hf : Spec.rises S (cs.map Candle.close) = [] := by
    unfold Spec.rises
    rw [List.map_eq_nil_iff, List.filter_eq_nil_iff]
    intro m hm
    simp [hno m hm]
  obtain ⟨m, hm, h⟩ := hdn
  have hp := falls_pos hS hG hr' hm h
  rw [calculateRSI_eq, hf]
  generalize Spec.fsum S (Spec.falls S (cs.map Candle.close)) = d at hp
  have hdiv : S.div (Spec.fsum S []) d = .fin 0 := by
    unfold Spec.fsum
    simp only [List.foldl_nil]
    rcases d with _ | (_ | _) | a | _
    · simp [Fl.lt, Fl.isNaN] at hp
    · simp [FloatSem.div, Fl.sgn, Fl.zero]
    · simp [Fl.lt, Fl.key] at hp
    · have ha : 0 < a := by simpa using hp
      simp [FloatSem.div, Fl.isZero, ha.ne', Fl.sgn, not_lt.2 ha.le, Fl.zero]
    · simp [Fl.lt, Fl.key] at hp
  have c1 : S.const 1 = .fin 1 := by simpa using const_int hS 1 (by norm_num)
  have c100 : S.const 100 = .fin 100 := by simpa using const_int hS 100 (by norm_num)
  have r100 : S.rnd 100 = .fin 100 := c100
  have r0 : S.rnd 0 = .fin 0 := by simpa using hS.r64.int 0 (by norm_num)
  unfold rsiIndex
  rw [hdiv]
  simp [c1, c100, FloatSem.add, FloatSem.div, Fl.isZero, FloatSem.sub, Fl.neg, Fl.toRat, r100,
    FloatSem.to32, rnd_one hS, r0]

/-- **C80.** Both for binary64. -/
theorem C80_rsi_extremes_ieee {cs : List Candle} (hr : ∀ c ∈ cs, ieee.Rep c.close) :
    ((∃ m ∈ Spec.moves (cs.map Candle.close), Fl.lt m.1 m.2 = true) →
      (∀ m ∈ Spec.moves (cs.map Candle.close), Fl.lt m.2 m.1 = false) →
      calculateRSI ieee cs = .fin 100) ∧
    ((∃ m ∈ Spec.moves (cs.map Candle.close), Fl.lt m.2 m.1 = true) →
      (∀ m ∈ Spec.moves (cs.map Candle.close), Fl.lt m.1 m.2 = false) →
      calculateRSI ieee cs = .fin 0) :=
  ⟨C80_rsi_all_rises ieee_lawful ieee_gradual hr, C80_rsi_all_falls ieee_lawful ieee_gradual hr⟩

/-- **C80.** The same for the values `RSI` returns: value `k` is 100 (0) if the closes
`k .. k+period` have a rise and no fall (a fall and no rise). -/
theorem C80_rsi_values {cs spare : List Candle} (h14 : 14 ≤ cs.length) (hs : spare ≠ [])
    (hr : ∀ c ∈ cs ++ spare, ieee.Rep c.close) (n : Nat) (hn : n ≤ cs.length) :
    ∃ out, RSI ieee (some cs) spare n = .ok out ∧ ∀ k, k < cs.length - n + 1 →
      let ms := Spec.moves (Spec.window (cs ++ spare) k n)
      ((∃ m ∈ ms, Fl.lt m.1 m.2 = true) → (∀ m ∈ ms, Fl.lt m.2 m.1 = false) →
        out[k]? = some (.fin 100)) ∧
      ((∃ m ∈ ms, Fl.lt m.2 m.1 = true) → (∀ m ∈ ms, Fl.lt m.1 m.2 = false) →
        out[k]? = some (.fin 0)) := by
  refine ⟨_, rsi_ok ieee cs spare h14 hs n hn, ?_⟩
  intro k hk
  simp only [List.getElem?_map, List.getElem?_range hk, Option.map_some, Option.some.injEq]
  exact C80_rsi_extremes_ieee (cs := ((cs ++ spare).drop k).take (n + 1))
    (fun c hc => hr c (List.mem_of_mem_drop (List.mem_of_mem_take hc)))

example : let w := [1, 1, 2, 5].map rsiCandle
    (∃ m ∈ Spec.moves (w.map Candle.close), Fl.lt m.1 m.2 = true) ∧
    (∀ m ∈ Spec.moves (w.map Candle.close), Fl.lt m.2 m.1 = false) ∧
    calculateRSI ieee w = .fin 100 :=
  ⟨⟨(.fin 1, .fin 2), by decide +kernel, by decide +kernel⟩, by decide +kernel, by decide +kernel⟩

/-! ### C81 -/

theorem moves_affine (a b : ℚ) (xs : List ℚ) :
    (xs.map fun x => a * x + b).zip (xs.map fun x => a * x + b).tail =
      (xs.zip xs.tail).map fun m => (a * m.1 + b, a * m.2 + b) := by
  rw [← List.map_tail, List.zip_map]
  rfl

theorem sum_map_mul {α : Type} (a : ℚ) (f : α → ℚ) (l : List α) :
    (l.map fun m => a * f m).sum = a * (l.map f).sum := by
  induction l with
  | nil => simp
  | cons x l ih => simp only [List.map_cons, List.sum_cons, ih]; ring

theorem riseQ_affine {a b : ℚ} (ha : 0 < a) (xs : List ℚ) :
    Spec.riseQ (xs.map fun x => a * x + b) = a * Spec.riseQ xs ∧
    Spec.fallQ (xs.map fun x => a * x + b) = a * Spec.fallQ xs := by
  unfold Spec.riseQ Spec.fallQ
  rw [moves_affine, List.map_map, List.map_map, ← sum_map_mul, ← sum_map_mul]
  have hm : ∀ x : ℚ, max (a * x) 0 = a * max x 0 := by
    intro x
    rcases le_total 0 x with h | h
    · rw [max_eq_left (mul_nonneg ha.le h), max_eq_left h]
    · rw [max_eq_right (mul_nonpos_of_nonneg_of_nonpos ha.le h), max_eq_right h, mul_zero]
  constructor <;>
  · congr 1
    apply List.map_congr_left
    intro m _
    rw [← hm]
    simp only [Function.comp]
    congr 1
    ring

/-- **C81.** In exact arithmetic a window keeps its value when every close `x` becomes
`a*x + b`, `a > 0`. -/
theorem C81_rsi_affine_window {cs cs' : List Candle} {xs : List ℚ} {a b : ℚ} (ha : 0 < a)
    (h : Spec.Closes cs xs) (h' : Spec.Closes cs' (xs.map fun x => a * x + b)) :
    calculateRSI FloatSem.exact cs' = calculateRSI FloatSem.exact cs := by
  rw [calculateRSI_exact h, calculateRSI_exact h']
  obtain ⟨e1, e2⟩ := riseQ_affine (b := b) ha xs
  rw [e1, e2, ← mul_add]
  by_cases hz : Spec.riseQ xs + Spec.fallQ xs = 0
  · rw [if_pos hz, if_pos (by rw [hz, mul_zero])]
  · rw [if_neg hz, if_neg (mul_ne_zero ha.ne' hz)]
    congr 1
    have := ha.ne'
    field_simp

theorem rsiLoop_congr {S : FloatSem} {arr arr' : List Candle} {len : Nat}
    (hl : arr.length = arr'.length)
    (hc : ∀ i j, calculateRSI S ((arr.take j).drop i) = calculateRSI S ((arr'.take j).drop i)) :
    ∀ (fuel i : Nat) (j : Int) (acc : List Fl),
      rsiLoop S arr len fuel i j acc = rsiLoop S arr' len fuel i j acc := by
  intro fuel
  induction fuel with
  | zero => intros; rfl
  | succ fuel ih =>
    intro i j acc
    unfold rsiLoop
    rw [hl, hc, ih]

/-- **C81.** The whole result is unchanged, for every period. -/
theorem C81_rsi_affine {cs cs' spare spare' : List Candle} {xs ys : List ℚ} {a b : ℚ} (ha : 0 < a)
    (h1 : Spec.Closes cs xs) (h2 : Spec.Closes spare ys)
    (h1' : Spec.Closes cs' (xs.map fun x => a * x + b))
    (h2' : Spec.Closes spare' (ys.map fun x => a * x + b)) (period : Int) :
    RSI FloatSem.exact (some cs') spare' period = RSI FloatSem.exact (some cs) spare period := by
  have l1 : cs'.length = cs.length := by
    rw [h1'.length_eq, h1.length_eq, List.length_map]
  have l2 : spare'.length = spare.length := by
    rw [h2'.length_eq, h2.length_eq, List.length_map]
  have hall : Spec.Closes (cs ++ spare) (xs ++ ys) := List.rel_append h1 h2
  have hall' : Spec.Closes (cs' ++ spare') ((xs ++ ys).map fun x => a * x + b) := by
    rw [List.map_append]; exact List.rel_append h1' h2'
  unfold RSI
  simp only
  rw [l1, show (cs' ++ spare').length = (cs ++ spare).length by simp [l1, l2]]
  split_ifs
  · rfl
  · apply rsiLoop_congr (by simp [l1, l2])
    intro i j
    refine C81_rsi_affine_window (xs := ((xs ++ ys).take j).drop i) (a := a) (b := b) ha ?_ ?_
    · exact List.forall₂_drop i (List.forall₂_take j hall)
    · rw [List.map_drop, List.map_take]
      exact List.forall₂_drop i (List.forall₂_take j hall')

example : RSI FloatSem.exact (some rsiExample) [rsiCandle 0] 13 =
    RSI FloatSem.exact (some ([10, 11, 10, 12, 13, 12, 12, 14, 13, 15, 16, 15, 14, 15, 17].map
      fun x => rsiCandle (3 * x + 5))) [rsiCandle 5] 13 := by decide +kernel

/-! ### C82 -/

/-- The full claim of C82. -/
def Spec.C82_claim (S : FloatSem) : Prop :=
  ∀ (cs spare : List Candle) (period : Int),
    ((∃ v, RSI S (some cs) spare period = .err .einvalid v) ↔ cs.length < 14) ∧
    ((cs.length : Int) < period → ∃ e v, RSI S (some cs) spare period = .err e v)

/-- **C82 is false of the code**: a period above the number of candles is not reported; one more
gives an empty result without error, any larger one panics. -/
theorem C82_enough_candles_violated :
    ¬ Spec.C82_claim FloatSem.exact ∧ ¬ Spec.C82_claim ieee := by
  constructor
  · intro h
    obtain ⟨e, v, h⟩ := (h rsiExample [] 16).2 (by decide +kernel)
    rw [show RSI FloatSem.exact (some rsiExample) [] 16 = .ok [] by decide +kernel] at h
    cases h
  · intro h
    obtain ⟨e, v, h⟩ := (h rsiExample [] 17).2 (by decide +kernel)
    rw [show RSI ieee (some rsiExample) [] 17 = .panic by decide +kernel] at h
    cases h

/-- **C82 (partial).** `EINVALID` exactly for a nil slice or fewer than 14 candles, and no other
error, whatever the period; a too large period gives an empty result (period = len+1) or a panic.
Missing: an error for a too large period. -/
theorem C82_enough_candles_partial (S : FloatSem) (candles : Option (List Candle))
    (spare : List Candle) (period : Int) :
    ((∀ cs, candles = some cs → cs.length < 14) → RSI S candles spare period = .err .einvalid []) ∧
    (∀ cs, candles = some cs → 14 ≤ cs.length →
      (∀ e v, RSI S candles spare period ≠ .err e v) ∧
      (period = cs.length + 1 → RSI S candles spare period = .ok []) ∧
      ((cs.length : Int) + 1 < period → RSI S candles spare period = .panic)) := by
  constructor
  · intro h
    cases candles with
    | none => rfl
    | some cs => unfold RSI; simp only; rw [if_pos (h cs rfl)]
  · rintro cs rfl h14
    refine ⟨?_, ?_, ?_⟩
    · intro e v h
      unfold RSI at h
      simp only at h
      rw [if_neg (by omega)] at h
      have : ∀ (fuel i : Nat) (j : Int) (acc : List Fl),
          rsiLoop S (cs ++ spare) cs.length fuel i j acc ≠ .err e v := by
        intro fuel
        induction fuel with
        | zero => intro i j acc h; cases h
        | succ fuel ih =>
          intro i j acc h
          unfold rsiLoop at h
          split_ifs at h
          exact ih _ _ _ h
      exact this _ _ _ _ h
    · rintro rfl
      unfold RSI
      simp only
      rw [if_neg (by omega)]
      unfold rsiLoop
      rw [if_pos (by omega)]
    · intro hp
      exact ((C77_reads_input_partial S cs spare h14 period).1).2 ⟨by omega, .inr (.inl (by omega))⟩

example : RSI ieee (some (rsiExample.take 13)) [rsiCandle 1] 3 = .err .einvalid [] := by decide +kernel

end Finmod
