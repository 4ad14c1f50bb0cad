import Mathlib.Tactic.Ring
import Verif.Props.BookDepth

/-!
# C20–C22: `CalculateOverlap`
-/

namespace Finmod
open Go Spec

/-- Prices and volumes are finite numbers. -/
def Spec.FiniteRows (rows : List Row) : Prop :=
  ∀ r ∈ rows, r.price.isFinite = true ∧ r.volume.isFinite = true

/-- Volumes are not negative. -/
def Spec.NonNegVolumes (rows : List Row) : Prop := ∀ r ∈ rows, 0 ≤ r.volume.toRat

instance (rows) : Decidable (FiniteRows rows) := by unfold FiniteRows; infer_instance
instance (rows) : Decidable (NonNegVolumes rows) := by unfold NonNegVolumes; infer_instance

/-! ### The loops -/

theorem overlapScan_eq (S : FloatSem) (stop : Row → Bool) (rows : List Row) (i : Nat) (acc : Fl) :
    overlapScan S stop rows i acc =
      (((rows.takeWhile (fun r => !(stop r))).map (·.volume)).foldl S.add acc,
        if rows.any stop then i + (rows.takeWhile (fun r => !(stop r))).length else 0) := by
  induction rows generalizing i acc with
  | nil => simp [overlapScan]
  | cons r rs ih =>
    unfold overlapScan
    by_cases h : stop r = true
    · simp [h]
    · simp only [h, Bool.false_eq_true, if_false]
      rw [ih]
      simp only [Bool.not_eq_true] at h
      simp only [List.takeWhile_cons, h, Bool.not_false, if_true, List.map_cons, List.foldl_cons,
        List.any_cons, Bool.false_or, List.length_cons, Prod.mk.injEq, true_and]
      split_ifs
      · omega
      · rfl

theorem exact_sum {rows : List Row} (hf : FiniteRows rows) {acc : Fl} {q : ℚ} (ha : acc.Is q) :
    ((rows.map (·.volume)).foldl FloatSem.exact.add acc).Is
      (q + (rows.map (·.volume.toRat)).sum) := by
  induction rows generalizing acc q with
  | nil => simpa using ha
  | cons r rs ih =>
    have h1 := FloatSem.exact_add ha (Fl.isFinite_is (hf r (by simp)).2)
    have := ih (fun x hx => hf x (by simp [hx])) h1
    simp only [List.map_cons, List.foldl_cons, List.sum_cons]
    rwa [← add_assoc]

/-- Cost of rows. -/
def Spec.cost (rows : List Row) : ℚ := (rows.map (fun r => r.price.toRat * r.volume.toRat)).sum

/-- Proceeds of selling `v` into the given levels in order, each level taking at most its
volume. -/
def Spec.proceeds : ℚ → List Row → ℚ
  | _, [] => 0
  | v, r :: rs => r.price.toRat * min r.volume.toRat (max 0 v) + proceeds (v - r.volume.toRat) rs

theorem proceeds_nonpos {rows : List Row} (hv : NonNegVolumes rows) {v : ℚ} (h : v ≤ 0) :
    proceeds v rows = 0 := by
  induction rows generalizing v with
  | nil => rfl
  | cons r rs ih =>
    have hr := hv r (by simp)
    unfold proceeds
    rw [ih (fun x hx => hv x (by simp [hx])) (by linarith), max_eq_left h, min_eq_right hr]
    ring

theorem exact_cost {rows : List Row} (hf : FiniteRows rows) {acc : Fl} {q : ℚ} (ha : acc.Is q) :
    (overlapCost FloatSem.exact rows acc).Is (q + cost rows) := by
  induction rows generalizing acc q with
  | nil => simpa [overlapCost, cost] using ha
  | cons r rs ih =>
    have hr := hf r (by simp)
    have h1 := FloatSem.exact_add ha
      (FloatSem.exact_mul (Fl.isFinite_is hr.1) (Fl.isFinite_is hr.2))
    have := ih (fun x hx => hf x (by simp [hx])) h1
    unfold overlapCost
    simp only [cost, List.map_cons, List.sum_cons] at this ⊢
    rwa [← add_assoc]

theorem exact_fill {rows : List Row} (hf : FiniteRows rows) (hv : NonNegVolumes rows)
    {target vol res : Fl} {t v q : ℚ} (ht : target.Is t) (hvol : vol.Is v) (hres : res.Is q)
    (hle : v ≤ t) :
    (overlapFill FloatSem.exact target rows vol res).Is (q + proceeds (t - v) rows) := by
  induction rows generalizing vol res v q with
  | nil => simpa [overlapFill, proceeds] using hres
  | cons r rs ih =>
    have hr := hf r (by simp)
    have hp := Fl.isFinite_is hr.1
    have hw := Fl.isFinite_is hr.2
    have hr0 := hv r (by simp)
    have hadd := FloatSem.exact_add hvol hw
    have hcmp : Fl.gt (FloatSem.exact.add vol r.volume) target = decide (t < v + r.volume.toRat) :=
      ht.lt hadd
    unfold overlapFill proceeds
    rw [hcmp]
    by_cases hc : t < v + r.volume.toRat
    · simp only [hc, decide_true, if_true]
      have := FloatSem.exact_add hres (FloatSem.exact_mul (FloatSem.exact_sub ht hvol) hp)
      rw [proceeds_nonpos (fun x hx => hv x (by simp [hx])) (by linarith),
        max_eq_right (by linarith), min_eq_right (by linarith)]
      have e : q + (r.price.toRat * (t - v) + 0) = q + (t - v) * r.price.toRat := by ring
      rw [e]; exact this
    · simp only [hc, decide_false, Bool.false_eq_true, if_false]
      have := ih (fun x hx => hf x (by simp [hx])) (fun x hx => hv x (by simp [hx])) hadd
        (FloatSem.exact_add hres (FloatSem.exact_mul hp hw)) (by linarith)
      rw [max_eq_right (by linarith), min_eq_left (by linarith)]
      have e : q + (r.price.toRat * r.volume.toRat + proceeds (t - v - r.volume.toRat) rs) =
          q + r.price.toRat * r.volume.toRat + proceeds (t - (v + r.volume.toRat)) rs := by
        rw [show t - v - r.volume.toRat = t - (v + r.volume.toRat) by ring]; ring
      rw [e]; exact this

/-! ### C20 -/

/-- The best ask of `x` is strictly below the best bid of `y`. -/
def Spec.Overlaps (x y : Book) : Prop :=
  ∃ a b, x.asks.head? = some a ∧ y.bids.head? = some b ∧ Fl.lt a.price b.price = true

/-- All four sides have a row. -/
def Spec.FourSides (x y : Book) : Prop := x.asks ≠ [] ∧ x.bids ≠ [] ∧ y.asks ≠ [] ∧ y.bids ≠ []

theorem overlapCalculation_ok (S : FloatSem) (x y : Book) (h1 : x.asks ≠ []) (h2 : y.bids ≠ []) :
    ∃ v, overlapCalculation S x y = .ok (Fl.abs v) := by
  unfold overlapCalculation
  obtain ⟨a, as, ha⟩ := List.exists_cons_of_ne_nil h1
  obtain ⟨b, bs, hb⟩ := List.exists_cons_of_ne_nil h2
  rw [ha, hb]
  exact ⟨_, rfl⟩

theorem calculateOverlap_cases (S : FloatSem) (x y : Book) (h : FourSides x y) :
    (Overlaps x y → calculateOverlap S x y = overlapCalculation S x y) ∧
    (¬ Overlaps x y → Overlaps y x → calculateOverlap S x y = overlapCalculation S y x) ∧
    (¬ Overlaps x y → ¬ Overlaps y x → calculateOverlap S x y = .err .enotfound (S.const (-1))) := by
  obtain ⟨h1, h2, h3, h4⟩ := h
  obtain ⟨xa, xas, hxa⟩ := List.exists_cons_of_ne_nil h1
  obtain ⟨xb, xbs, hxb⟩ := List.exists_cons_of_ne_nil h2
  obtain ⟨ya, yas, hya⟩ := List.exists_cons_of_ne_nil h3
  obtain ⟨yb, ybs, hyb⟩ := List.exists_cons_of_ne_nil h4
  have o1 : Overlaps x y ↔ Fl.lt xa.price yb.price = true := by
    simp [Overlaps, hxa, hyb]
  have o2 : Overlaps y x ↔ Fl.lt ya.price xb.price = true := by
    simp [Overlaps, hya, hxb]
  rw [o1, o2]
  unfold calculateOverlap
  rw [hxa, hyb]
  simp only
  refine ⟨fun h => by rw [if_pos h], fun h h' => ?_, fun h h' => ?_⟩
  · rw [if_neg h, hxb, hya]; simp only; rw [if_pos h']
  · rw [if_neg h, hxb, hya]; simp only; rw [if_neg h']

theorem abs_nonneg_or_nan (v : Fl) : Fl.abs v = .nan ∨ Fl.le (.fin 0) (Fl.abs v) = true := by
  cases v with
  | nan => left; rfl
  | inf b => right; simp [Fl.abs, Fl.le_iff, Fl.key]
  | negZero => right; simp [Fl.abs]
  | fin q =>
    right
    have := Fl.Is.abs (Fl.is_fin q)
    rw [(Fl.is_fin 0).le this]
    simp

/-- Everything the overlap needs is finite: exact value and sign. -/
theorem overlapCalculation_finite (x y : Book) (h1 : x.asks ≠ []) (h2 : y.bids ≠ [])
    (f1 : FiniteRows x.asks) (f2 : FiniteRows y.bids) :
    ∃ v q, overlapCalculation FloatSem.exact x y = .ok v ∧ v.Is q ∧ 0 ≤ q := by
  have fillfin : ∀ (rows : List Row) (target vol res : Fl), FiniteRows rows →
      target.isFinite = true → vol.isFinite = true → res.isFinite = true →
      (overlapFill FloatSem.exact target rows vol res).isFinite = true := by
    intro rows target
    induction rows with
    | nil => intro vol res _ _ _ h; exact h
    | cons r rs ih =>
      intro vol res hf ht hvo hre
      have hr := hf r (by simp)
      have isf : ∀ {z : Fl} {q : ℚ}, z.Is q → z.isFinite = true := fun h => (Fl.is_iff.1 h).1
      unfold overlapFill
      split
      · exact isf (FloatSem.exact_add (Fl.isFinite_is hre) (FloatSem.exact_mul
          (FloatSem.exact_sub (Fl.isFinite_is ht) (Fl.isFinite_is hvo)) (Fl.isFinite_is hr.1)))
      · exact ih _ _ (fun z hz => hf z (by simp [hz])) ht
          (isf (FloatSem.exact_add (Fl.isFinite_is hvo) (Fl.isFinite_is hr.2)))
          (isf (FloatSem.exact_add (Fl.isFinite_is hre)
            (FloatSem.exact_mul (Fl.isFinite_is hr.1) (Fl.isFinite_is hr.2))))
  have isf : ∀ {z : Fl} {q : ℚ}, z.Is q → z.isFinite = true := fun h => (Fl.is_iff.1 h).1
  have sub_fin : ∀ {rows rows' : List Row}, FiniteRows rows → (∀ r ∈ rows', r ∈ rows) →
      FiniteRows rows' := fun h hs r hr => h r (hs r hr)
  unfold overlapCalculation
  obtain ⟨a, as, ha⟩ := List.exists_cons_of_ne_nil h1
  obtain ⟨b, bs, hb⟩ := List.exists_cons_of_ne_nil h2
  rw [ha] at f1 ⊢
  rw [hb] at f2 ⊢
  simp only [overlapScan_eq]
  have c1 := exact_sum (sub_fin f1 (rows' := (a :: as).takeWhile
    (fun r => !(Fl.gt r.price b.price))) (fun r hr => (List.takeWhile_sublist _).subset hr)) (Fl.is_fin 0)
  refine ⟨_, |_|, rfl, Fl.Is.abs (FloatSem.exact_sub (exact_cost (sub_fin f1
    (fun r hr => List.mem_of_mem_take hr)) (Fl.is_fin 0)) (Fl.isFinite_is (fillfin _ _ _ _
    (sub_fin f2 ?_) (isf c1) rfl rfl))), abs_nonneg _⟩
  intro r hr
  rw [List.mem_reverse] at hr
  exact List.mem_of_mem_take hr

/-- **C20** The overlap test is right, there is no panic, and the value is never negative. -/
theorem C20_overlap_decided (S : FloatSem) (x y : Book) (h : FourSides x y) :
    ((∃ v, calculateOverlap S x y = .err .enotfound v) ↔ ¬ Overlaps x y ∧ ¬ Overlaps y x) ∧
    (¬ Overlaps x y → ¬ Overlaps y x →
      calculateOverlap S x y = .err .enotfound (S.const (-1))) ∧
    (Overlaps x y ∨ Overlaps y x →
      ∃ v, calculateOverlap S x y = .ok v ∧ (v = .nan ∨ Fl.le (.fin 0) v = true)) ∧
    (Overlaps x y ∨ Overlaps y x → FiniteRows x.asks → FiniteRows x.bids → FiniteRows y.asks →
      FiniteRows y.bids → ∃ v q, calculateOverlap FloatSem.exact x y = .ok v ∧ v.Is q ∧ 0 ≤ q) := by
  obtain ⟨c1, c2, c3⟩ := calculateOverlap_cases S x y h
  obtain ⟨h1, h2, h3, h4⟩ := h
  have pos : Overlaps x y ∨ Overlaps y x →
      ∃ v, calculateOverlap S x y = .ok v ∧ (v = .nan ∨ Fl.le (.fin 0) v = true) := by
    intro ho
    by_cases ho1 : Overlaps x y
    · obtain ⟨v, hv⟩ := overlapCalculation_ok S x y h1 h4
      exact ⟨_, (c1 ho1).trans hv, abs_nonneg_or_nan v⟩
    · have ho2 : Overlaps y x := ho.resolve_left ho1
      obtain ⟨v, hv⟩ := overlapCalculation_ok S y x h3 h2
      exact ⟨_, (c2 ho1 ho2).trans hv, abs_nonneg_or_nan v⟩
  refine ⟨⟨?_, ?_⟩, c3, pos, ?_⟩
  · rintro ⟨v, hv⟩
    by_contra hc
    have : Overlaps x y ∨ Overlaps y x := by tauto
    obtain ⟨w, hw, _⟩ := pos this
    rw [hw] at hv; simp at hv
  · rintro ⟨a, b⟩; exact ⟨_, c3 a b⟩
  · intro ho f1 f2 f3 f4
    obtain ⟨d1, d2, _⟩ := calculateOverlap_cases FloatSem.exact x y ⟨h1, h2, h3, h4⟩
    by_cases ho1 : Overlaps x y
    · rw [d1 ho1]; exact overlapCalculation_finite x y h1 h4 f1 f4
    · rw [d2 ho1 (ho.resolve_left ho1)]; exact overlapCalculation_finite y x h3 h2 f3 f2

/-- A second sample book, overlapping `Ex.book`: its bids reach above 11. -/
def Ex.book2 : Book :=
  { time := 7, maxDepth := 4,
    asks := [⟨.fin 15, .fin 1, .fin 1⟩, ⟨.fin 16, .fin 4, .fin 5⟩],
    bids := [⟨.fin (25/2), .fin 2, .fin 2⟩, ⟨.fin 11, .fin 2, .fin 4⟩, ⟨.fin 9, .fin 5, .fin 9⟩] }

example := C20_overlap_decided ieee Ex.book Ex.book2
  ⟨by decide, by decide, by decide, by decide⟩
example : Overlaps Ex.book Ex.book2 := ⟨_, _, rfl, rfl, by decide +kernel⟩

/-! ### C21 -/

/-- **C21** `CalculateOverlap` is symmetric for books that are not themselves crossed. -/
theorem C21_overlap_symmetric (S : FloatSem) (x y : Book) (h : FourSides x y)
    (hx : Uncrossed x) (hy : Uncrossed y) : calculateOverlap S x y = calculateOverlap S y x := by
  obtain ⟨c1, c2, c3⟩ := calculateOverlap_cases S x y h
  obtain ⟨d1, d2, d3⟩ := calculateOverlap_cases S y x ⟨h.2.2.1, h.2.2.2, h.1, h.2.1⟩
  by_cases o1 : Overlaps x y
  · by_cases o2 : Overlaps y x
    · exfalso
      obtain ⟨xa, yb, e1, e2, e3⟩ := o1
      obtain ⟨ya, xb, e4, e5, e6⟩ := o2
      have u1 := hx xb (List.mem_of_head? e5) xa (List.mem_of_head? e1)
      have u2 := hy yb (List.mem_of_head? e2) ya (List.mem_of_head? e4)
      rw [Fl.le_iff] at u1 u2
      rw [Fl.lt_iff] at e3 e6
      exact absurd (e3.2.2.trans_le (u2.2.2.trans (e6.2.2.le.trans u1.2.2))) (lt_irrefl _)
    · rw [c1 o1, d2 o2 o1]
  · by_cases o2 : Overlaps y x
    · rw [c2 o1 o2, d1 o2]
    · rw [c3 o1 o2, d3 o2 o1]

example := C21_overlap_symmetric ieee Ex.book Ex.book2
  ⟨by decide, by decide, by decide, by decide⟩ (by decide +kernel) (by decide +kernel)

/-! ### C22 -/

/-- The documented value: cost of the asks of `x` at or below the best bid of `y`, against the
proceeds of selling that volume to the bids of `y` at or above the best ask of `x`, cheapest such
bid first. -/
def Spec.overlapValue (x y : Book) (ask0 bid0 : Fl) : ℚ :=
  let asks := x.asks.filter (fun r => Fl.le r.price bid0)
  let bids := y.bids.filter (fun r => Fl.ge r.price ask0)
  |cost asks - proceeds (asks.map (·.volume.toRat)).sum bids.reverse|

/-- The full claim of C22. -/
def Spec.C22_claim : Prop :=
  ∀ (x y : Book) (a b : Row), WellFormed x → WellFormed y → FourSides x y →
    FiniteRows x.asks → FiniteRows y.bids → NonNegVolumes x.asks → NonNegVolumes y.bids →
    x.asks.head? = some a → y.bids.head? = some b → Fl.lt a.price b.price = true →
    ∃ v, calculateOverlap FloatSem.exact x y = .ok v ∧ v.Is (overlapValue x y a.price b.price)

/-- **C22 is false of the code**: one ask at 10 against one bid at 12 gives 0 instead of 2. -/
theorem C22_overlap_value_violated : ¬ C22_claim := by
  intro h
  obtain ⟨v, h1, h2⟩ := h
    { time := 0, maxDepth := 5, asks := [⟨.fin 10, .fin 1, .fin 1⟩], bids := [⟨.fin 9, .fin 1, .fin 1⟩] }
    { time := 0, maxDepth := 5, asks := [⟨.fin 13, .fin 1, .fin 1⟩], bids := [⟨.fin 12, .fin 1, .fin 1⟩] }
    ⟨.fin 10, .fin 1, .fin 1⟩ ⟨.fin 12, .fin 1, .fin 1⟩
    (by decide +kernel) (by decide +kernel) ⟨by decide, by decide, by decide, by decide⟩
    (by decide +kernel) (by decide +kernel) (by decide +kernel) (by decide +kernel) rfl rfl
    (by decide +kernel)
  have e : calculateOverlap FloatSem.exact
    { time := 0, maxDepth := 5, asks := [⟨.fin 10, .fin 1, .fin 1⟩], bids := [⟨.fin 9, .fin 1, .fin 1⟩] }
    { time := 0, maxDepth := 5, asks := [⟨.fin 13, .fin 1, .fin 1⟩], bids := [⟨.fin 12, .fin 1, .fin 1⟩] }
     = .ok (.fin 0) := by decide +kernel
  rw [e] at h1
  simp only [Res.ok.injEq] at h1
  subst h1
  rw [Fl.is_fin_iff] at h2
  revert h2
  decide +kernel

theorem takeWhile_eq_filter {lt : Fl → Fl → Bool} {α : Type} [LinearOrder α] {k : Fl → α}
    (O : SideOrd lt k) {rows : List Row} {p : Fl} (hn : NoNaN rows) (hp : p ≠ .nan)
    (hs : GSorted lt rows) :
    rows.takeWhile (fun r => !(lt p r.price)) = rows.filter (fun r => !(lt p r.price)) := by
  induction rows with
  | nil => rfl
  | cons r rs ih =>
    have hs' := List.pairwise_cons.1 hs
    have hrn := hn r (by simp)
    by_cases h : lt p r.price = true
    · have : (r :: rs).filter (fun r => !(lt p r.price)) = [] := by
        rw [List.filter_eq_nil_iff]
        intro x hx
        have hxn := hn x hx
        have h1 := (O.lt_iff _ _ hp hrn).1 h
        have : k p < k x.price := by
          rcases List.mem_cons.1 hx with rfl | hx
          · exact h1
          · exact h1.trans ((O.lt_iff _ _ hrn hxn).1 (hs'.1 x hx))
        simp [(O.lt_iff _ _ hp hxn).2 this]
      rw [this]; simp [h]
    · simp only [Bool.not_eq_true] at h
      simp only [List.takeWhile_cons, List.filter_cons, h, Bool.not_false, if_true]
      rw [ih (fun x hx => hn x (by simp [hx])) hs'.2]

theorem take_takeWhile (rows : List Row) (q : Row → Bool) :
    rows.take (rows.takeWhile q).length = rows.takeWhile q := by
  induction rows with
  | nil => rfl
  | cons r rs ih =>
    simp only [List.takeWhile_cons]
    split
    · simp [ih]
    · simp

/-- **C22, partial**: the value is right when book `x` also has an ask above the best bid of `y`
and `y` also has a bid below the best ask of `x`. Missing: books where a whole side is crossed,
for which the claim is false. -/
theorem C22_overlap_value_partial (x y : Book) (a b : Row) (hx : WellFormed x) (hy : WellFormed y)
    (h : FourSides x y) (f1 : FiniteRows x.asks) (f2 : FiniteRows y.bids)
    (v1 : NonNegVolumes x.asks) (v2 : NonNegVolumes y.bids)
    (ha : x.asks.head? = some a) (hb : y.bids.head? = some b)
    (hlt : Fl.lt a.price b.price = true)
    (s1 : ∃ r ∈ x.asks, Fl.gt r.price b.price = true)
    (s2 : ∃ r ∈ y.bids, Fl.lt r.price a.price = true) :
    ∃ v, calculateOverlap FloatSem.exact x y = .ok v ∧ v.Is (overlapValue x y a.price b.price) := by
  obtain ⟨c1, _, _⟩ := calculateOverlap_cases FloatSem.exact x y h
  rw [c1 ⟨a, b, ha, hb, hlt⟩]
  have ham := List.mem_of_head? ha
  have hbm := List.mem_of_head? hb
  have han := hx.asks_num a ham
  have hbn := hy.bids_num b hbm
  obtain ⟨as, hxa⟩ : ∃ as, x.asks = a :: as := by
    cases hh : x.asks with
    | nil => rw [hh] at ha; simp at ha
    | cons c cs => rw [hh] at ha; simp only [List.head?_cons, Option.some.injEq] at ha; exact ⟨cs, by rw [ha]⟩
  obtain ⟨bs, hyb⟩ : ∃ bs, y.bids = b :: bs := by
    cases hh : y.bids with
    | nil => rw [hh] at hb; simp at hb
    | cons c cs => rw [hh] at hb; simp only [List.head?_cons, Option.some.injEq] at hb; exact ⟨cs, by rw [hb]⟩
  -- the crossed rows
  set A := x.asks.filter (fun r => Fl.le r.price b.price) with hA
  set B := y.bids.filter (fun r => Fl.ge r.price a.price) with hB
  have eA : x.asks.takeWhile (fun r => !(Fl.gt r.price b.price)) = A := by
    rw [hA, show x.asks.takeWhile (fun r => !(Fl.gt r.price b.price)) =
      x.asks.filter (fun r => !(Fl.lt b.price r.price)) from
        takeWhile_eq_filter askOrd hx.asks_num hbn hx.askSorted]
    apply List.filter_congr
    intro r hr
    have hrn := hx.asks_num r hr
    rw [Bool.eq_iff_iff, le_key hrn hbn, Bool.not_eq_true', askOrd.lt_false_iff hbn hrn]
  have eB : y.bids.takeWhile (fun r => !(Fl.lt r.price a.price)) = B := by
    rw [hB, show y.bids.takeWhile (fun r => !(Fl.lt r.price a.price)) =
      y.bids.filter (fun r => !((fun p q => Fl.lt q p) a.price r.price)) from
        takeWhile_eq_filter bidOrd hy.bids_num han hy.bidSorted]
    apply List.filter_congr
    intro r hr
    have hrn := hy.bids_num r hr
    rw [Bool.eq_iff_iff, le_key han hrn, Bool.not_eq_true', bidOrd.lt_false_iff han hrn]
    exact Iff.rfl
  have anyA : x.asks.any (fun r => Fl.gt r.price b.price) = true := by
    rw [List.any_eq_true]; exact s1
  have anyB : y.bids.any (fun r => Fl.lt r.price a.price) = true := by
    rw [List.any_eq_true]; exact s2
  have tA : x.asks.take A.length = A := by rw [← eA]; exact take_takeWhile _ _
  have tB : y.bids.take B.length = B := by rw [← eB]; exact take_takeWhile _ _
  have fA : FiniteRows A := fun r hr => f1 r (List.mem_of_mem_filter hr)
  have fB : FiniteRows B.reverse := fun r hr => f2 r (List.mem_of_mem_filter (List.mem_reverse.1 hr))
  have vB : NonNegVolumes B.reverse := fun r hr => v2 r (List.mem_of_mem_filter (List.mem_reverse.1 hr))
  have hcalc : overlapCalculation FloatSem.exact x y = .ok (Fl.abs (FloatSem.exact.sub
      (overlapCost FloatSem.exact A (.fin 0))
      (overlapFill FloatSem.exact ((A.map (·.volume)).foldl FloatSem.exact.add (.fin 0))
        B.reverse (.fin 0) (.fin 0)))) := by
    unfold overlapCalculation
    rw [hxa, hyb]
    simp only [← hxa, ← hyb, overlapScan_eq, eA, eB, anyA, anyB, if_true, zero_add, tA, tB]
  have sumnn : 0 ≤ (A.map (·.volume.toRat)).sum := by
    apply List.sum_nonneg
    intro q hq
    obtain ⟨r, hr, rfl⟩ := List.mem_map.1 hq
    exact v1 r (List.mem_of_mem_filter hr)
  have hsum := exact_sum fA (Fl.is_fin 0)
  rw [zero_add] at hsum
  have hcost := exact_cost fA (Fl.is_fin 0)
  have hfill := exact_fill fB vB hsum (Fl.is_fin 0) (Fl.is_fin 0) sumnn
  rw [zero_add] at hcost hfill
  rw [sub_zero] at hfill
  exact ⟨_, hcalc, Fl.Is.abs (FloatSem.exact_sub hcost hfill)⟩

/-- The asks at 11 and 12 (volume 5) cost 59; the bids at 11 and 12.5 take 2 + 2 for 47. -/
example : overlapValue Ex.book Ex.book2 (.fin 11) (.fin (25/2)) = 12 := by decide +kernel

example := C22_overlap_value_partial Ex.book Ex.book2 _ _ (by decide +kernel) (by decide +kernel)
  ⟨by decide, by decide, by decide, by decide⟩ (by decide +kernel) (by decide +kernel)
  (by decide +kernel) (by decide +kernel) rfl rfl (by decide +kernel)
  ⟨⟨.fin 13, .fin 2, .fin 7⟩, by decide +kernel, by decide +kernel⟩
  ⟨⟨.fin 9, .fin 5, .fin 9⟩, by decide +kernel, by decide +kernel⟩

end Finmod
