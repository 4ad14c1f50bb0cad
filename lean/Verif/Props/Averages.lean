import Mathlib.Tactic.Positivity
import Mathlib.Tactic.LinearCombination
import Verif.Spec.Averages

/-!
# Moving averages (C65–C73)
-/

namespace Finmod
open Go Spec

/-! ### Exact values of the building blocks -/

theorem foldl_closes_exact {cs : List Candle} {xs : List ℚ} (h : Closes cs xs) {acc : Fl} {q : ℚ}
    (ha : acc.Is q) : ((closes cs).foldl FloatSem.exact.add acc).Is (q + xs.sum) := by
  induction h generalizing acc q with
  | nil => simpa [closes] using ha
  | cons hc _ ih =>
    have := ih (FloatSem.exact_add ha hc)
    simpa [closes, add_assoc] using this

theorem Spec.Closes.length {cs : List Candle} {xs : List ℚ} (h : Closes cs xs) :
    cs.length = xs.length := List.Forall₂.length_eq h

theorem Spec.Closes.take {cs : List Candle} {xs : List ℚ} (h : Closes cs xs) (n : Nat) :
    Closes (cs.take n) (xs.take n) := List.forall₂_take n h

theorem Spec.Closes.drop {cs : List Candle} {xs : List ℚ} (h : Closes cs xs) (n : Nat) :
    Closes (cs.drop n) (xs.drop n) := List.forall₂_drop n h

theorem average_exact {cs : List Candle} {xs : List ℚ} (h : Closes cs xs) (hn : cs ≠ []) :
    (average FloatSem.exact cs).Is (mean xs) := by
  rw [average_eq]
  have h1 := foldl_closes_exact h (FloatSem.exact_const 0)
  have hl : (cs.length : ℚ) ≠ 0 := by
    have := List.length_pos_iff.2 hn
    positivity
  have := FloatSem.exact_div h1 (FloatSem.exact_ofInt cs.length) (by exact_mod_cast hl)
  rw [zero_add] at this
  unfold mean
  rw [← h.length]
  exact_mod_cast this

theorem smmaFirst_exact {cs : List Candle} {xs : List ℚ} (h : Closes cs xs) {n : Nat} (h1 : 1 ≤ n)
    (h2 : n ≤ cs.length) : (smmaFirst FloatSem.exact cs n).Is (mean (xs.take n)) := by
  unfold smmaFirst
  have ha := foldl_closes_exact (h.take n) (Fl.is_fin 0)
  have hn : (n : ℚ) ≠ 0 := by positivity
  have := FloatSem.exact_div ha (FloatSem.exact_ofInt n) (by exact_mod_cast hn)
  rw [zero_add] at this
  unfold mean
  have hl : (xs.take n).length = n := by rw [List.length_take, ← h.length]; omega
  rw [hl]
  exact_mod_cast this

theorem emaWeight_exact (n : Nat) : (emaWeight FloatSem.exact n).Is (2 / ((n : ℚ) + 1)) := by
  unfold emaWeight
  have h1 := FloatSem.exact_add (FloatSem.exact_ofInt n) (FloatSem.exact_const 1)
  have hn : ((n : Int) : ℚ) + 1 ≠ 0 := by
    have : (0 : ℚ) ≤ n := by positivity
    push_cast; linarith
  have := FloatSem.exact_div (FloatSem.exact_const 2) h1 hn
  rw [Int.cast_natCast] at this
  exact this

theorem emaNext_exact {n : Nat} {prev c : Fl} {x y : ℚ} (hx : prev.Is x) (hy : c.Is y) :
    (emaNext FloatSem.exact (emaWeight FloatSem.exact n) prev c).Is
      (y * (2 / ((n : ℚ) + 1)) + x * (1 - 2 / ((n : ℚ) + 1))) := by
  have hw := emaWeight_exact n
  exact FloatSem.exact_add (FloatSem.exact_mul hy hw)
    (FloatSem.exact_mul hx (FloatSem.exact_sub (FloatSem.exact_const 1) hw))

theorem smmaSecond_exact {n : Nat} (hn : 1 ≤ n) {prev c : Fl} {x y : ℚ} (hx : prev.Is x) (hy : c.Is y) :
    (smmaSecond FloatSem.exact n prev c).Is ((x * ((n : ℚ) - 1) + y) / n) := by
  have h0 : ((n : Int) : ℚ) ≠ 0 := by push_cast; positivity
  have := FloatSem.exact_div (FloatSem.exact_add (FloatSem.exact_mul hx
    (FloatSem.exact_sub (FloatSem.exact_ofInt n) (FloatSem.exact_const 1))) hy)
    (FloatSem.exact_ofInt n) h0
  exact_mod_cast this

theorem smmaNext_exact {n : Nat} (hn : 1 ≤ n) {prev c : Fl} {x y : ℚ} (hx : prev.Is x) (hy : c.Is y) :
    (smmaNext FloatSem.exact n prev c).Is ((x * ((n : ℚ) - 1) + y) / n) := by
  have h0 : ((n : Int) : ℚ) ≠ 0 := by push_cast; positivity
  have := FloatSem.exact_div (FloatSem.exact_add (FloatSem.exact_sub
    (FloatSem.exact_mul hx (FloatSem.exact_ofInt n)) hx) hy) (FloatSem.exact_ofInt n) h0
  have e : x * ((n : ℚ) - 1) + y = x * ((n : Int) : ℚ) - x + y := by push_cast; ring
  rw [e]
  exact_mod_cast this

theorem closes_forall₂ {cs : List Candle} {xs : List ℚ} (h : Closes cs xs) :
    List.Forall₂ Fl.Is (closes cs) xs := by
  unfold closes
  exact List.forall₂_map_left_iff.2 h

theorem ma_exact {cs : List Candle} {xs : List ℚ} (h : Closes cs xs) {n : Nat} (h1 : 1 ≤ n)
    (h2 : n ≤ cs.length) :
    ∃ out, movingAverage FloatSem.exact (some cs) n = .ok out ∧ List.Forall₂ Fl.Is out (maQ xs n) := by
  refine ⟨_, movingAverage_ok _ cs n h1 h2, ?_⟩
  unfold maQ
  rw [h.length]
  rw [List.forall₂_map_left_iff, List.forall₂_map_right_iff, List.forall₂_same]
  intro k hk
  rw [List.mem_range] at hk
  apply average_exact ((h.drop k).take n)
  intro h0
  have := congrArg List.length h0
  simp only [List.length_take, List.length_drop, List.length_nil] at this
  rw [← h.length] at hk
  omega

theorem ema_exact {cs : List Candle} {xs : List ℚ} (h : Closes cs xs) {n : Nat} (h1 : 1 ≤ n)
    (h2 : n ≤ cs.length) :
    ∃ out, exponentialMovingAverage FloatSem.exact (some cs) n = .ok out ∧
      List.Forall₂ Fl.Is out (emaQ xs n) := by
  refine ⟨_, ema_ok _ cs n h1 h2, ?_⟩
  unfold emaQ
  have hd := h.drop n
  generalize cs.drop n = l at hd
  generalize xs.drop n = m at hd
  cases hd with
  | nil => exact .nil
  | cons _ hr =>
    refine scan_forall₂ (average_exact (h.take n) ?_) (closes_forall₂ hr) ?_
    · intro h0
      have := congrArg List.length h0
      simp only [List.length_take, List.length_nil] at this
      omega
    · intro x x' y y' hx hy
      exact emaNext_exact hx hy

theorem smma_exact {cs : List Candle} {xs : List ℚ} (h : Closes cs xs) {n : Nat} (h1 : 1 ≤ n)
    (h2 : n ≤ cs.length) :
    ∃ out, smoothedMovingAverage FloatSem.exact (some cs) n = .ok out ∧
      List.Forall₂ Fl.Is out (smmaQ xs n) := by
  refine ⟨_, smma_ok _ cs n h1 h2, ?_⟩
  unfold smmaQ
  have hf := smmaFirst_exact h h1 h2
  have hd := h.drop n
  generalize cs.drop n = l at hd
  generalize xs.drop n = m at hd
  cases hd with
  | nil => exact .cons hf .nil
  | cons hc hr =>
    refine .cons hf (scan_forall₂ (smmaSecond_exact h1 hf hc) (closes_forall₂ hr) ?_)
    intro x x' y y' hx hy
    exact smmaNext_exact h1 hx hy

/-! ### C65, C66 -/

/-- **C65.** For `1 ≤ period ≤ len` there are `len - period + 1` values and value `k` is the
left-to-right float sum of closes `k .. k+period-1` divided by the period, in every float
semantics. -/
theorem C65_moving_average (S : FloatSem) (cs : List Candle) (n : Nat) (h1 : 1 ≤ n)
    (h2 : n ≤ cs.length) :
    ∃ out, movingAverage S (some cs) n = .ok out ∧ out.length = cs.length - n + 1 ∧
      ∀ k, k < out.length →
        out[k]? = some (S.div ((((cs.drop k).take n).map Candle.close).foldl S.add (S.const 0))
          (S.ofInt n)) := by
  refine ⟨_, movingAverage_ok S cs n h1 h2, by simp, ?_⟩
  intro k hk
  simp only [List.length_map, List.length_range] at hk
  simp only [List.getElem?_map, List.getElem?_range hk, Option.map_some]
  rw [average_eq]
  have : ((cs.drop k).take n).length = n := by simp; omega
  rw [this]
  rfl

/-- **C65.** In exact arithmetic each value is the mean of its window. -/
theorem C65_moving_average_exact {cs : List Candle} {xs : List ℚ} (h : Closes cs xs) (n : Nat)
    (h1 : 1 ≤ n) (h2 : n ≤ cs.length) :
    ∃ out, movingAverage FloatSem.exact (some cs) n = .ok out ∧ out.length = cs.length - n + 1 ∧
      ∀ (k : Nat) (x : Fl), out[k]? = some x → x.Is (((xs.drop k).take n).sum / n) := by
  obtain ⟨out, e, hout⟩ := ma_exact h h1 h2
  have hlen : out.length = cs.length - n + 1 := by
    rw [hout.length_eq, maQ, h.length]; simp
  refine ⟨out, e, hlen, ?_⟩
  intro k x hx
  have hk : k < out.length := by
    by_contra hc; rw [List.getElem?_eq_none (by omega)] at hx; cases hx
  have hg := List.Forall₂.get hout hk (by rw [← hout.length_eq]; exact hk)
  rw [List.getElem?_eq_getElem hk] at hx
  cases hx
  have hl : ((xs.drop k).take n).length = n := by simp; rw [← h.length]; omega
  simp only [List.get_eq_getElem, maQ, List.getElem_map, List.getElem_range, mean, hl] at hg
  exact hg

/-- A candle with a close. -/
def exClose (q : ℚ) : Candle := ⟨0, .fin 0, .fin 0, .fin 0, .fin q, .fin 0⟩

example : Closes [exClose 1, exClose 2, exClose 6, exClose 4] [1, 2, 6, 4] ∧
    movingAverage FloatSem.exact (some [exClose 1, exClose 2, exClose 6, exClose 4]) 2 =
      .ok [.fin (3/2), .fin 4, .fin 5] :=
  ⟨.cons (Fl.is_fin _) (.cons (Fl.is_fin _) (.cons (Fl.is_fin _) (.cons (Fl.is_fin _) .nil))),
    by decide +kernel⟩

/-- The bad calls. -/
def Spec.BadPeriod (cs : Option (List Candle)) (period : Int) : Prop :=
  cs = none ∨ period ≤ 0 ∨ ∃ l, cs = some l ∧ (l.length : Int) < period

/-- **C66.** The three averages return `EINVALID` (and no values) exactly for the bad calls, and
values for all others; so they never panic. -/
theorem C66_bad_periods (S : FloatSem) (cs : Option (List Candle)) (period : Int) :
    ∀ f ∈ [movingAverage S, exponentialMovingAverage S, smoothedMovingAverage S],
      (BadPeriod cs period → f cs period = .err .einvalid []) ∧
      (¬ BadPeriod cs period → ∃ out, f cs period = .ok out) := by
  intro f hf
  constructor
  · intro hb
    simp only [List.mem_cons, List.not_mem_nil, or_false] at hf
    rcases hb with rfl | hp | ⟨l, rfl, hl⟩
    · rcases hf with rfl | rfl | rfl <;> rfl
    · cases cs with
      | none => rcases hf with rfl | rfl | rfl <;> rfl
      | some l =>
        rcases hf with rfl | rfl | rfl <;>
          simp only [movingAverage, exponentialMovingAverage, smoothedMovingAverage] <;>
          split <;> rfl
    · rcases hf with rfl | rfl | rfl <;>
        simp only [movingAverage, exponentialMovingAverage, smoothedMovingAverage] <;>
        rw [if_pos hl]
  · intro hb
    unfold BadPeriod at hb
    push Not at hb
    obtain ⟨h1, h2, h3⟩ := hb
    obtain ⟨l, rfl⟩ := Option.ne_none_iff_exists'.1 h1
    have h3 := h3 l rfl
    obtain ⟨n, rfl⟩ : ∃ n : Nat, period = n := ⟨period.toNat, by omega⟩
    simp only [List.mem_cons, List.not_mem_nil, or_false] at hf
    rcases hf with rfl | rfl | rfl
    · exact ⟨_, movingAverage_ok S l n (by omega) (by omega)⟩
    · exact ⟨_, ema_ok S l n (by omega) (by omega)⟩
    · exact ⟨_, smma_ok S l n (by omega) (by omega)⟩

example : BadPeriod (some [exClose 1]) 2 ∧ BadPeriod (some [exClose 1]) 0 ∧
    ¬ BadPeriod (some [exClose 1]) 1 := by
  refine ⟨.inr (.inr ⟨_, rfl, by decide⟩), .inr (.inl (by decide)), ?_⟩
  rintro (h | h | ⟨l, h, h'⟩)
  · cases h
  · omega
  · cases h; simp at h'

/-! ### C67, C68 -/

theorem mean_bounds {xs : List ℚ} {lo hi : ℚ} (hne : xs ≠ []) (h : ∀ x ∈ xs, lo ≤ x ∧ x ≤ hi) :
    lo ≤ mean xs ∧ mean xs ≤ hi := by
  have hs : ∀ ys : List ℚ, (∀ x ∈ ys, lo ≤ x ∧ x ≤ hi) →
      lo * ys.length ≤ ys.sum ∧ ys.sum ≤ hi * ys.length := by
    intro ys hy
    induction ys with
    | nil => simp
    | cons y ys ih =>
      obtain ⟨a, b⟩ := ih (fun x hx => hy x (by simp [hx]))
      obtain ⟨c, d⟩ := hy y (by simp)
      simp only [List.sum_cons, List.length_cons]
      push_cast
      constructor <;> linarith
  obtain ⟨a, b⟩ := hs xs h
  have hl : (0 : ℚ) < xs.length := by
    have := List.length_pos_iff.2 hne
    positivity
  unfold mean
  exact ⟨by rw [le_div_iff₀ hl]; exact a, by rw [div_le_iff₀ hl]; exact b⟩

theorem weight_bounds {n : Nat} (h1 : 1 ≤ n) :
    0 ≤ 2 / ((n : ℚ) + 1) ∧ 2 / ((n : ℚ) + 1) ≤ 1 := by
  have hn : (1 : ℚ) ≤ n := by exact_mod_cast h1
  have : (0 : ℚ) < (n : ℚ) + 1 := by linarith
  exact ⟨by positivity, by rw [div_le_one this]; linarith⟩

theorem take_ne_nil {xs : List ℚ} {n k : Nat} (h1 : 1 ≤ n) (h2 : k < xs.length) :
    (xs.drop k).take n ≠ [] := by
  intro h
  have := congrArg List.length h
  simp only [List.length_take, List.length_drop, List.length_nil] at this
  omega

theorem forall₂_mem {out : List Fl} {qs : List ℚ} {P : ℚ → Prop} (h : List.Forall₂ Fl.Is out qs)
    (hq : ∀ q ∈ qs, P q) : ∀ v ∈ out, ∃ x, v.Is x ∧ P x := by
  induction h with
  | nil => simp
  | @cons a b l m hab _ ih =>
    intro v hv
    rcases List.mem_cons.1 hv with rfl | hv
    · exact ⟨b, hab, hq b (by simp)⟩
    · exact ih (fun q hq' => hq q (by simp [hq'])) v hv

/-- **C67.** Every value of the three averages lies between any bounds of the closes (in
particular between the lowest and the highest close). -/
theorem C67_within_range {cs : List Candle} {xs : List ℚ} (h : Closes cs xs) {n : Nat} (h1 : 1 ≤ n)
    (h2 : n ≤ cs.length) {lo hi : ℚ} (hb : ∀ x ∈ xs, lo ≤ x ∧ x ≤ hi) :
    ∀ f ∈ [movingAverage FloatSem.exact, exponentialMovingAverage FloatSem.exact,
        smoothedMovingAverage FloatSem.exact],
      ∃ out, f (some cs) n = .ok out ∧ ∀ v ∈ out, ∃ x, v.Is x ∧ lo ≤ x ∧ x ≤ hi := by
  have hlen := h.length
  have hfirst : lo ≤ mean (xs.take n) ∧ mean (xs.take n) ≤ hi :=
    mean_bounds (by simpa using take_ne_nil (xs := xs) (k := 0) h1 (by omega))
      (fun x hx => hb x (List.mem_of_mem_take hx))
  intro f hf
  simp only [List.mem_cons, List.not_mem_nil, or_false] at hf
  rcases hf with rfl | rfl | rfl
  · obtain ⟨out, e, ho⟩ := ma_exact h h1 h2
    refine ⟨out, e, forall₂_mem ho ?_⟩
    intro q hq
    simp only [maQ, List.mem_map, List.mem_range] at hq
    obtain ⟨k, hk, rfl⟩ := hq
    exact mean_bounds (take_ne_nil h1 (by omega))
      (fun x hx => hb x (List.mem_of_mem_drop (List.mem_of_mem_take hx)))
  · obtain ⟨out, e, ho⟩ := ema_exact h h1 h2
    refine ⟨out, e, forall₂_mem ho ?_⟩
    unfold emaQ
    cases hd : xs.drop n with
    | nil => simp
    | cons y ys =>
      simp only
      refine scan_all (Q := fun x => lo ≤ x ∧ x ≤ hi) hfirst ?_ ?_
      · intro b hb'
        refine hb b (List.mem_of_mem_drop (i := n) ?_)
        rw [hd]; simp [hb']
      · intro x y hx hy
        obtain ⟨w1, w2⟩ := weight_bounds h1
        generalize 2 / ((n : ℚ) + 1) = w at *
        constructor <;> nlinarith [hx.1, hx.2, hy.1, hy.2]
  · obtain ⟨out, e, ho⟩ := smma_exact h h1 h2
    refine ⟨out, e, forall₂_mem ho ?_⟩
    unfold smmaQ
    refine scan_all (Q := fun x => lo ≤ x ∧ x ≤ hi) hfirst ?_ ?_
    · intro b hb'
      exact hb b (List.mem_of_mem_drop hb')
    · intro x y hx hy
      have hn : (1 : ℚ) ≤ n := by exact_mod_cast h1
      have hn0 : (0 : ℚ) < n := by linarith
      constructor
      · rw [le_div_iff₀ hn0]; nlinarith [hx.1, hy.1]
      · rw [div_le_iff₀ hn0]; nlinarith [hx.2, hy.2]

theorem mean_affine {xs : List ℚ} (hne : xs ≠ []) (a b : ℚ) :
    mean (xs.map fun x => a * x + b) = a * mean xs + b := by
  have hs : (xs.map fun x => a * x + b).sum = a * xs.sum + b * xs.length := by
    induction xs with
    | nil => simp
    | cons x xs ih =>
      rcases xs with _ | ⟨y, ys⟩
      · simp
      · rw [List.map_cons, List.sum_cons, ih (by simp), List.sum_cons (a := x)]
        simp only [List.length_cons]; push_cast; ring
  have hl : (xs.length : ℚ) ≠ 0 := by
    have := List.length_pos_iff.2 hne
    positivity
  unfold mean
  rw [hs, List.length_map]
  field_simp

theorem scan_map {α β α' β' : Type} {f : α → β → α} {g : α' → β' → α'} {u : α → α'} {v : β → β'}
    (hf : ∀ x y, g (u x) (v y) = u (f x y)) (a : α) (l : List β) :
    scan g (u a) (l.map v) = (scan f a l).map u := by
  induction l generalizing a with
  | nil => rfl
  | cons b bs ih => simp only [List.map_cons, scan, hf, ih]

/-- The three rational averages commute with affine maps. -/
theorem Q_affine {xs : List ℚ} {n : Nat} (h1 : 1 ≤ n) (h2 : n ≤ xs.length) (a b : ℚ) :
    maQ (xs.map fun x => a * x + b) n = (maQ xs n).map (fun x => a * x + b) ∧
    emaQ (xs.map fun x => a * x + b) n = (emaQ xs n).map (fun x => a * x + b) ∧
    smmaQ (xs.map fun x => a * x + b) n = (smmaQ xs n).map (fun x => a * x + b) := by
  have hfirst : mean ((xs.map fun x => a * x + b).take n) = a * mean (xs.take n) + b := by
    rw [← List.map_take]
    exact mean_affine (by simpa using take_ne_nil (xs := xs) (k := 0) h1 (by omega)) a b
  refine ⟨?_, ?_, ?_⟩
  · unfold maQ
    rw [List.length_map, List.map_map]
    apply List.map_congr_left
    intro k hk
    rw [List.mem_range] at hk
    simp only [Function.comp]
    rw [← List.map_drop, ← List.map_take]
    exact mean_affine (take_ne_nil h1 (by omega)) a b
  · unfold emaQ
    rw [← List.map_drop, hfirst]
    cases hd : xs.drop n with
    | nil => rfl
    | cons y ys =>
      simp only [List.map_cons]
      exact scan_map (u := fun x => a * x + b) (v := fun x => a * x + b)
        (by intro x y; ring) (mean (xs.take n)) ys
  · unfold smmaQ
    rw [← List.map_drop, hfirst]
    have hn : (n : ℚ) ≠ 0 := by positivity
    exact scan_map (u := fun x => a * x + b) (v := fun x => a * x + b)
        (by intro x y; field_simp; ring) (mean (xs.take n)) (xs.drop n)

theorem forall₂_affine {out out' : List Fl} {qs : List ℚ} {a b : ℚ} (h : List.Forall₂ Fl.Is out qs)
    (h' : List.Forall₂ Fl.Is out' (qs.map fun x => a * x + b)) :
    List.Forall₂ (fun v v' => ∃ x, v.Is x ∧ v'.Is (a * x + b)) out out' := by
  induction h generalizing out' with
  | nil => cases h'; exact .nil
  | cons hab _ ih =>
    rw [List.map_cons] at h'
    cases h' with
    | cons h1 h2 => exact .cons ⟨_, hab, h1⟩ (ih h2)

/-- **C68.** If every close `x` is replaced by `a*x + b`, every value `v` of each average is
replaced by `a*v + b`. -/
theorem C68_affine {cs cs' : List Candle} {xs : List ℚ} {a b : ℚ} (h : Closes cs xs)
    (h' : Closes cs' (xs.map fun x => a * x + b)) {n : Nat} (h1 : 1 ≤ n) (h2 : n ≤ cs.length) :
    ∀ f ∈ [movingAverage FloatSem.exact, exponentialMovingAverage FloatSem.exact,
        smoothedMovingAverage FloatSem.exact],
      ∃ out out', f (some cs) n = .ok out ∧ f (some cs') n = .ok out' ∧
        List.Forall₂ (fun v v' => ∃ x, v.Is x ∧ v'.Is (a * x + b)) out out' := by
  have h2' : n ≤ cs'.length := by rw [h'.length, List.length_map, ← h.length]; exact h2
  have h2q : n ≤ xs.length := by rw [← h.length]; exact h2
  obtain ⟨q1, q2, q3⟩ := Q_affine h1 h2q a b
  intro f hf
  simp only [List.mem_cons, List.not_mem_nil, or_false] at hf
  rcases hf with rfl | rfl | rfl
  · obtain ⟨out, e, ho⟩ := ma_exact h h1 h2
    obtain ⟨out', e', ho'⟩ := ma_exact h' h1 h2'
    rw [q1] at ho'
    exact ⟨out, out', e, e', forall₂_affine ho ho'⟩
  · obtain ⟨out, e, ho⟩ := ema_exact h h1 h2
    obtain ⟨out', e', ho'⟩ := ema_exact h' h1 h2'
    rw [q2] at ho'
    exact ⟨out, out', e, e', forall₂_affine ho ho'⟩
  · obtain ⟨out, e, ho⟩ := smma_exact h h1 h2
    obtain ⟨out', e', ho'⟩ := smma_exact h' h1 h2'
    rw [q3] at ho'
    exact ⟨out, out', e, e', forall₂_affine ho ho'⟩

example : Closes [exClose 1, exClose 2, exClose 6] [1, 2, 6] ∧
    Closes [exClose 13, exClose 16, exClose 28] ([1, 2, 6].map fun x => 3 * x + 10) ∧
    smoothedMovingAverage FloatSem.exact (some [exClose 1, exClose 2, exClose 6]) 2 =
      .ok [.fin (3/2), .fin (15/4)] ∧
    smoothedMovingAverage FloatSem.exact (some [exClose 13, exClose 16, exClose 28]) 2 =
      .ok [.fin (29/2), .fin (85/4)] := by
  refine ⟨.cons (Fl.is_fin _) (.cons (Fl.is_fin _) (.cons (Fl.is_fin _) .nil)), ?_,
    by decide +kernel, by decide +kernel⟩
  refine .cons ?_ (.cons ?_ (.cons ?_ .nil)) <;> simp [exClose] <;> norm_num

/-- C67: closes between 1 and 6. -/
example : (∀ x ∈ ([1, 2, 6, 4] : List ℚ), 1 ≤ x ∧ x ≤ 6) ∧
    exponentialMovingAverage FloatSem.exact (some [exClose 1, exClose 2, exClose 6, exClose 4]) 2 = .ok [.fin (3/2), .fin (19/6)] ∧
    smoothedMovingAverage FloatSem.exact (some [exClose 1, exClose 2, exClose 6, exClose 4]) 2 = .ok [.fin (3/2), .fin (15/4), .fin (31/8)] := by
  decide +kernel

/-! ### C69 -/

/-- **C69.** Consecutive values of the moving average differ by (entering - leaving) / period. -/
theorem C69_slides {cs : List Candle} {xs : List ℚ} (h : Closes cs xs) {n : Nat} (h1 : 1 ≤ n)
    (h2 : n ≤ cs.length) :
    ∃ out, movingAverage FloatSem.exact (some cs) n = .ok out ∧ out.length = cs.length - n + 1 ∧
      ∀ (k : Nat) (x y : Fl), out[k]? = some x → out[k + 1]? = some y →
        ∃ vx vy entering leaving, x.Is vx ∧ y.Is vy ∧ xs[k + n]? = some entering ∧
          xs[k]? = some leaving ∧ vy - vx = (entering - leaving) / n := by
  obtain ⟨out, e, hl, hv⟩ := C65_moving_average_exact h n h1 h2
  refine ⟨out, e, hl, ?_⟩
  intro k x y hx hy
  have hlen := h.length
  have hk : k + 1 < out.length := by
    by_contra hc; rw [List.getElem?_eq_none (by omega)] at hy; cases hy
  refine ⟨_, _, xs[k + n]'(by omega), xs[k]'(by omega), hv k x hx, hv (k + 1) y hy,
    List.getElem?_eq_getElem _, List.getElem?_eq_getElem _, ?_⟩
  obtain ⟨m, rfl⟩ : ∃ m, n = m + 1 := ⟨n - 1, by omega⟩
  have e1 : (xs.drop k).take (m + 1) = xs[k]'(by omega) :: (xs.drop (k + 1)).take m := by
    rw [List.drop_eq_getElem_cons (by omega), List.take_succ_cons]
  have e2 : (xs.drop (k + 1)).take (m + 1) = (xs.drop (k + 1)).take m ++ [xs[k + (m + 1)]'(by omega)] := by
    rw [List.take_add_one, List.getElem?_drop]
    rw [List.getElem?_eq_getElem (by omega)]
    simp only [Option.toList_some]
    congr 2
    congr 1
    omega
  rw [e1, e2]
  have hn : ((m + 1 : Nat) : ℚ) ≠ 0 := by positivity
  simp only [List.sum_append, List.sum_cons, List.sum_nil]
  field_simp
  ring

/-! ### C70, C71 -/

/-- C69: the values 3/2, 4, 5 for period 2 differ by (6 - 1) / 2 and (4 - 2) / 2. -/
example : movingAverage FloatSem.exact (some [exClose 1, exClose 2, exClose 6, exClose 4]) 2 = .ok [.fin (3/2), .fin 4, .fin 5] ∧
    (4 : ℚ) - 3/2 = (6 - 1) / 2 ∧ (5 : ℚ) - 4 = (4 - 2) / 2 :=
  ⟨by decide +kernel, by norm_num, by norm_num⟩

/-- **C70.** The exponential average in every float semantics: number of values, first value and
recurrence, with the float operations in the order of the code. -/
theorem C70_ema_float (S : FloatSem) (cs : List Candle) (n : Nat) (h1 : 1 ≤ n) (h2 : n ≤ cs.length) :
    ∃ out, exponentialMovingAverage S (some cs) n = .ok out ∧ out.length = cs.length - n ∧
      (∀ x, out[0]? = some x → x = S.div (((cs.take n).map Candle.close).foldl S.add (S.const 0)) (S.ofInt n)) ∧
      ∀ k x c, out[k]? = some x → cs[n + k + 1]? = some c →
        let p := S.div (S.const 2) (S.add (S.ofInt n) (S.const 1))
        out[k + 1]? = some (S.add (S.mul c.close p) (S.mul x (S.sub (S.const 1) p))) := by
  refine ⟨_, ema_ok S cs n h1 h2, ?_⟩
  have hlen : (cs.drop n).length = cs.length - n := by simp
  cases hd : cs.drop n with
  | nil =>
    rw [hd] at hlen
    simp only [List.length_nil] at hlen
    refine ⟨by simpa using hlen, by simp, by simp⟩
  | cons c0 rest =>
    rw [hd] at hlen
    simp only [List.length_cons] at hlen
    simp only [length_scan]
    refine ⟨by simp [closes, hlen], ?_, ?_⟩
    · intro x hx
      rw [scan_zero] at hx
      cases hx
      rw [average_eq]
      have : (cs.take n).length = n := by simp; omega
      rw [this]; rfl
    · intro k x c hx hc
      refine scan_succ _ _ _ _ _ _ hx ?_
      have : rest[k]? = some c := by
        have e : cs.drop (n + 1) = rest := by rw [← List.drop_drop, hd]; rfl
        rw [← e, List.getElem?_drop, ← hc]
        congr 1; omega
      simp [closes, this]

/-- **C70.** The same in exact arithmetic: `v 0` is the mean of the first `n` closes and
`v (k+1) = close * 2/(n+1) + v k * (1 - 2/(n+1))`. -/
theorem C70_ema_exact {cs : List Candle} {xs : List ℚ} (h : Closes cs xs) (n : Nat) (h1 : 1 ≤ n)
    (h2 : n ≤ cs.length) :
    ∃ (out : List Fl) (v : Nat → ℚ), exponentialMovingAverage FloatSem.exact (some cs) n = .ok out ∧
      out.length = cs.length - n ∧
      (∀ (k : Nat) (x : Fl), out[k]? = some x → x.Is (v k)) ∧
      v 0 = (xs.take n).sum / n ∧
      ∀ k y, xs[n + k + 1]? = some y →
        v (k + 1) = y * (2 / ((n : ℚ) + 1)) + v k * (1 - 2 / ((n : ℚ) + 1)) := by
  obtain ⟨out, e, ho⟩ := ema_exact h h1 h2
  obtain ⟨out', e', hl, _⟩ := C70_ema_float FloatSem.exact cs n h1 h2
  rw [e] at e'
  cases e'
  have hn : (xs.take n).length = n := by rw [List.length_take, ← h.length]; omega
  refine ⟨out, fun k => ((emaQ xs n)[k]?).getD ((xs.take n).sum / n), e, hl, ?_, ?_, ?_⟩
  · intro k x hx
    have hk : k < out.length := by
      by_contra hc; rw [List.getElem?_eq_none (by omega)] at hx; cases hx
    have hk' : k < (emaQ xs n).length := by rw [← ho.length_eq]; exact hk
    have hg := ho.get hk hk'
    rw [List.getElem?_eq_getElem hk] at hx
    cases hx
    simp only [List.getElem?_eq_getElem hk', Option.getD_some]
    exact hg
  · unfold emaQ
    cases hd : xs.drop n with
    | nil => rfl
    | cons y ys =>
      simp only [scan_zero, Option.getD_some]
      rw [mean, hn]
  · intro k y hy
    have hk : n + k + 1 < xs.length := by
      by_contra hc; rw [List.getElem?_eq_none (by omega)] at hy; cases hy
    have hlq : (emaQ xs n).length = xs.length - n := by rw [← ho.length_eq, hl, h.length]
    have hk' : k < (emaQ xs n).length := by omega
    have hx := List.getElem?_eq_getElem hk'
    simp only [hx, Option.getD_some]
    have hs : (emaQ xs n)[k + 1]? = some (y * (2 / ((n : ℚ) + 1)) +
        (emaQ xs n)[k] * (1 - 2 / ((n : ℚ) + 1))) := by
      generalize (emaQ xs n)[k] = w at hx ⊢
      unfold emaQ at hx ⊢
      cases hd : xs.drop n with
      | nil => simp only [List.drop_eq_nil_iff] at hd; omega
      | cons y0 ys =>
        rw [hd] at hx
        simp only at hx ⊢
        refine scan_succ _ _ _ _ _ _ hx ?_
        have e : xs.drop (n + 1) = ys := by rw [← List.drop_drop, hd]; rfl
        rw [← e, List.getElem?_drop, ← hy]
        congr 1; omega
    rw [hs]
    rfl

example : Closes [exClose 1, exClose 3, exClose 100, exClose 5] [1, 3, 100, 5] ∧
    exponentialMovingAverage FloatSem.exact (some [exClose 1, exClose 3, exClose 100, exClose 5]) 2 =
      .ok [.fin 2, .fin 4] :=
  ⟨.cons (Fl.is_fin _) (.cons (Fl.is_fin _) (.cons (Fl.is_fin _) (.cons (Fl.is_fin _) .nil))),
    by decide +kernel⟩

/-- The full claim of C71, first half: one value per full window. -/
def Spec.C71_claim_windows (S : FloatSem) : Prop :=
  ∀ (cs : List Candle) (n : Nat), 1 ≤ n → n ≤ cs.length →
    ∃ out, exponentialMovingAverage S (some cs) n = .ok out ∧ out.length = cs.length - n + 1
/-- The full claim of C71, second half: every close influences the result, i.e. some other
(format) value for it gives another result. -/
def Spec.C71_claim_uses (S : FloatSem) : Prop :=
  ∀ (cs : List Candle) (n i : Nat) (c : Candle), 1 ≤ n → n ≤ cs.length → cs[i]? = some c →
    ∃ y, S.Rep y ∧ exponentialMovingAverage S (some (cs.set i { c with close := y })) n ≠
      exponentialMovingAverage S (some cs) n

/-- **C71 is false of the code**, both halves, in exact and in binary64 arithmetic: for
`period = len` there is no value at all, and the close of candle number `period` is never
used. -/
theorem C71_uses_all_violated :
    ¬ Spec.C71_claim_windows FloatSem.exact ∧ ¬ Spec.C71_claim_windows ieee ∧
    ¬ Spec.C71_claim_uses FloatSem.exact ∧ ¬ Spec.C71_claim_uses ieee := by
  have hw : ∀ S, ¬ Spec.C71_claim_windows S := by
    intro S h
    obtain ⟨out, e, hl⟩ := h [exClose 1] 1 (by decide) (by decide)
    rw [ema_ok S _ 1 (by decide) (by decide)] at e
    cases e
    simp at hl
  have hu : ∀ S, ¬ Spec.C71_claim_uses S := by
    intro S h
    obtain ⟨y, _, hy⟩ := h [exClose 1, exClose 2] 1 1 (exClose 2) (by decide) (by decide) rfl
    apply hy
    rw [show ((1 : Nat) : Int) = ((1 : Nat) : Int) from rfl, ema_ok S _ 1 (by decide) (by simp),
      ema_ok S _ 1 (by decide) (by decide)]
    rfl
  exact ⟨hw _, hw _, hu _, hu _⟩

/-- **C71 (partial).** In exact arithmetic every close other than number `period` does influence
the result: changing its value changes the list of values (when there are any). Missing: the
close at index `period`, and the value for the first full window. -/
theorem C71_uses_all_partial {cs cs' : List Candle} {xs : List ℚ} (h : Closes cs xs) {n i : Nat}
    (h1 : 1 ≤ n) (h2 : n < cs.length) (hi : i < xs.length) (hin : i ≠ n) {y : ℚ} (hy : xs[i] ≠ y)
    (h' : Closes cs' (xs.set i y)) :
    exponentialMovingAverage FloatSem.exact (some cs') n ≠
      exponentialMovingAverage FloatSem.exact (some cs) n := by
  intro heq
  have hlen := h.length
  have hlen' := h'.length
  rw [List.length_set] at hlen'
  obtain ⟨out, v, e, hl, hv, hv0, hvs⟩ := C70_ema_exact h n h1 h2.le
  obtain ⟨out', v', e', hl', hv', hv0', hvs'⟩ := C70_ema_exact h' n h1 (by omega)
  rw [heq, e] at e'
  cases e'
  have hvv : ∀ k, k < out.length → v' k = v k := by
    intro k hk
    have := List.getElem?_eq_getElem hk
    exact (hv' k _ this).unique (hv k _ this)
  have hn : (n : ℚ) ≠ 0 := by positivity
  by_cases hlt : i < n
  · have h0 := hvv 0 (by omega)
    rw [hv0, hv0', div_left_inj' hn] at h0
    rw [List.take_set] at h0
    have hs : ∀ (l : List ℚ) (j : Nat) (hj : j < l.length), (l.set j y).sum = l.sum - l[j] + y := by
      intro l
      induction l with
      | nil => intro j hj; simp at hj
      | cons a l ih =>
        intro j hj
        cases j with
        | zero => simp; ring
        | succ j =>
          simp only [List.set_cons_succ, List.sum_cons, List.getElem_cons_succ]
          rw [ih j (by simpa using hj)]; ring
    rw [hs _ i (by simp; omega)] at h0
    simp only [List.getElem_take] at h0
    apply hy; linarith
  · obtain ⟨k, rfl⟩ : ∃ k, i = n + k + 1 := ⟨i - n - 1, by omega⟩
    have hk := hvv k (by omega)
    have hk1 := hvv (k + 1) (by omega)
    rw [hvs k _ (List.getElem?_eq_getElem hi),
      hvs' k y (by rw [List.getElem?_set_self hi]), hk] at hk1
    have hw : 2 / ((n : ℚ) + 1) ≠ 0 := by positivity
    have : y * (2 / ((n : ℚ) + 1)) = xs[n + k + 1] * (2 / ((n : ℚ) + 1)) := by linarith
    exact hy (mul_right_cancel₀ hw this).symm

example : Closes [exClose 1, exClose 3, exClose 100, exClose 5] [1, 3, 100, 5] ∧
    Closes [exClose 1, exClose 3, exClose 100, exClose 8] ([1, 3, 100, 5].set 3 8) :=
  ⟨.cons (Fl.is_fin _) (.cons (Fl.is_fin _) (.cons (Fl.is_fin _) (.cons (Fl.is_fin _) .nil))),
   .cons (Fl.is_fin _) (.cons (Fl.is_fin _) (.cons (Fl.is_fin _) (.cons (Fl.is_fin _) .nil)))⟩

/-! ### C72, C73 -/

/-- **C72.** The smoothed average in exact arithmetic. -/
theorem C72_smma_exact {cs : List Candle} {xs : List ℚ} (h : Closes cs xs) (n : Nat) (h1 : 1 ≤ n)
    (h2 : n ≤ cs.length) :
    ∃ (out : List Fl) (v : Nat → ℚ), smoothedMovingAverage FloatSem.exact (some cs) n = .ok out ∧
      out.length = cs.length - n + 1 ∧
      (∀ (k : Nat) (x : Fl), out[k]? = some x → x.Is (v k)) ∧
      v 0 = (xs.take n).sum / n ∧
      ∀ k y, xs[n + k]? = some y → v (k + 1) = (v k * ((n : ℚ) - 1) + y) / n := by
  obtain ⟨out, e, ho⟩ := smma_exact h h1 h2
  have hn : (xs.take n).length = n := by rw [List.length_take, ← h.length]; omega
  have hl : (smmaQ xs n).length = cs.length - n + 1 := by
    unfold smmaQ; rw [length_scan, h.length]; simp
  refine ⟨out, fun k => ((smmaQ xs n)[k]?).getD 0, e, by rw [ho.length_eq, hl], ?_, ?_, ?_⟩
  · intro k x hx
    have hk : k < out.length := by
      by_contra hc; rw [List.getElem?_eq_none (by omega)] at hx; cases hx
    have hk' : k < (smmaQ xs n).length := by rw [← ho.length_eq]; exact hk
    have hg := ho.get hk hk'
    rw [List.getElem?_eq_getElem hk] at hx
    cases hx
    simp only [List.getElem?_eq_getElem hk', Option.getD_some]
    exact hg
  · simp only [smmaQ, scan_zero, Option.getD_some]
    rw [mean, hn]
  · intro k y hy
    have hk : n + k < xs.length := by
      by_contra hc; rw [List.getElem?_eq_none (by omega)] at hy; cases hy
    have hk' : k < (smmaQ xs n).length := by rw [hl, h.length]; omega
    have hx := List.getElem?_eq_getElem hk'
    simp only [hx, Option.getD_some]
    have hs : (smmaQ xs n)[k + 1]? = some (((smmaQ xs n)[k] * ((n : ℚ) - 1) + y) / n) := by
      generalize (smmaQ xs n)[k] = w at hx ⊢
      unfold smmaQ at hx ⊢
      refine scan_succ _ _ _ _ _ _ hx ?_
      rw [List.getElem?_drop, ← hy]
    rw [hs]
    rfl

example : Closes [exClose 1, exClose 3, exClose 8, exClose 5] [1, 3, 8, 5] ∧
    smoothedMovingAverage FloatSem.exact (some [exClose 1, exClose 3, exClose 8, exClose 5]) 2 =
      .ok [.fin 2, .fin 5, .fin 5] :=
  ⟨.cons (Fl.is_fin _) (.cons (Fl.is_fin _) (.cons (Fl.is_fin _) (.cons (Fl.is_fin _) .nil))),
    by decide +kernel⟩

/-- **C73.** In every float semantics, appending candles keeps the values already produced: the
old output is a prefix of the new one. -/
theorem C73_look_back (S : FloatSem) (cs ext : List Candle) (n : Nat) (h1 : 1 ≤ n)
    (h2 : n ≤ cs.length) :
    ∀ f ∈ [movingAverage S, exponentialMovingAverage S, smoothedMovingAverage S],
      ∃ out out', f (some cs) n = .ok out ∧ f (some (cs ++ ext)) n = .ok out' ∧ out <+: out' := by
  have h2' : n ≤ (cs ++ ext).length := by simp; omega
  have ht : (cs ++ ext).take n = cs.take n := by
    rw [List.take_append_of_le_length h2]
  have hd : (cs ++ ext).drop n = cs.drop n ++ ext := by
    rw [List.drop_append_of_le_length h2]
  intro f hf
  simp only [List.mem_cons, List.not_mem_nil, or_false] at hf
  rcases hf with rfl | rfl | rfl
  · refine ⟨_, _, movingAverage_ok S cs n h1 h2, movingAverage_ok S _ n h1 h2', ?_⟩
    have e : (cs ++ ext).length - n + 1 = (cs.length - n + 1) + ext.length := by simp; omega
    rw [e, List.range_add (m := ext.length), List.map_append]
    refine ⟨_, congrArg (fun l => l ++ _) ?_⟩
    apply List.map_congr_left
    intro k hk
    rw [List.mem_range] at hk
    congr 1
    rw [List.drop_append_of_le_length (by omega), List.take_append_of_le_length (by simp; omega)]
  · refine ⟨_, _, ema_ok S cs n h1 h2, ema_ok S _ n h1 h2', ?_⟩
    rw [ht, hd]
    cases hd' : cs.drop n with
    | nil => exact List.nil_prefix
    | cons c rest =>
      simp only [List.cons_append]
      rw [show closes (rest ++ ext) = closes rest ++ closes ext by simp [closes]]
      exact scan_append _ _ _ _
  · refine ⟨_, _, smma_ok S cs n h1 h2, smma_ok S _ n h1 h2', ?_⟩
    have hf : smmaFirst S (cs ++ ext) n = smmaFirst S cs n := by unfold smmaFirst; rw [ht]
    rw [hf, hd]
    refine (List.prefix_cons_inj _).2 ?_
    cases hd' : cs.drop n with
    | nil => exact List.nil_prefix
    | cons c rest =>
      simp only [List.cons_append]
      rw [show closes (rest ++ ext) = closes rest ++ closes ext by simp [closes]]
      exact scan_append _ _ _ _

/-- C73: two candles more. -/
example : smoothedMovingAverage FloatSem.exact (some [exClose 1, exClose 3]) 2 = .ok [.fin 2] ∧
    smoothedMovingAverage FloatSem.exact (some ([exClose 1, exClose 3] ++ [exClose 8, exClose 5])) 2 = .ok [.fin 2, .fin 5, .fin 5] := by
  decide +kernel

end Finmod
