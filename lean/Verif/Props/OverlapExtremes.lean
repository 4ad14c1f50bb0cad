import Verif.Props.OverlapExact
import Verif.Props.Extremes

/-!
# C211: the float64 value of `CalculateOverlap`, and when it is NaN or infinite

C135 gives the value in exact arithmetic. Here is the value for every arithmetic, step by step, and what becomes of
it when a sum is too large for a float64.
-/

namespace Finmod
open Go Spec

/-- The running sum of the volumes. -/
def Spec.sideVolume (S : FloatSem) (rows : List Row) : Fl := (rows.map (·.volume)).foldl S.add (.fin 0)

/-- The running sum of price × volume. -/
def Spec.sideCost (S : FloatSem) (rows : List Row) : Fl :=
  (rows.map (fun r => S.mul r.price r.volume)).foldl S.add (.fin 0)

/-- `p` is what selling `target` into the levels `rows`, in their order, brings: levels are used up while the running
sum of their volumes stays within `target`, and the first level that goes beyond it takes the rest. -/
def Spec.Sold (S : FloatSem) (target : Fl) (rows : List Row) (p : Fl) : Prop :=
  ((∀ j, 1 ≤ j → j ≤ rows.length → Fl.gt (sideVolume S (rows.take j)) target = false) ∧ p = sideCost S rows) ∨
  ∃ i r, rows[i]? = some r ∧ (∀ j, 1 ≤ j → j ≤ i → Fl.gt (sideVolume S (rows.take j)) target = false) ∧
    Fl.gt (sideVolume S (rows.take (i + 1))) target = true ∧
    p = S.add (sideCost S (rows.take i)) (S.mul (S.sub target (sideVolume S (rows.take i))) r.price)

section
variable {S : FloatSem}

theorem overlapCost_fold (S : FloatSem) (rows : List Row) (res : Fl) :
    overlapCost S rows res = (rows.map (fun r => S.mul r.price r.volume)).foldl S.add res := by
  induction rows generalizing res with
  | nil => rfl
  | cons r rs ih => exact ih _

theorem sideVolume_snoc (S : FloatSem) (l : List Row) (r : Row) :
    sideVolume S (l ++ [r]) = S.add (sideVolume S l) r.volume := by
  simp [sideVolume, List.foldl_append]

theorem sideCost_snoc (S : FloatSem) (l : List Row) (r : Row) :
    sideCost S (l ++ [r]) = S.add (sideCost S l) (S.mul r.price r.volume) := by
  simp [sideCost, List.foldl_append]

theorem overlapFill_sold (S : FloatSem) (target : Fl) (rows done : List Row)
    (h : ∀ j, 1 ≤ j → j ≤ done.length → Fl.gt (sideVolume S (done.take j)) target = false) :
    Sold S target (done ++ rows) (overlapFill S target rows (sideVolume S done) (sideCost S done)) := by
  induction rows generalizing done with
  | nil => left; simpa [overlapFill] using h
  | cons r rs ih =>
    unfold overlapFill
    by_cases hg : Fl.gt (S.add (sideVolume S done) r.volume) target = true
    · rw [if_pos hg]
      right
      refine ⟨done.length, r, by simp, ?_, ?_, by simp⟩
      · intro j h1 h2
        rw [List.take_append_of_le_length h2]
        exact h j h1 h2
      · rw [List.take_append, List.take_of_length_le (by omega), Nat.add_sub_cancel_left, List.take_succ_cons, List.take_zero,
          sideVolume_snoc]
        exact hg
    · rw [if_neg hg, ← sideVolume_snoc, ← sideCost_snoc]
      have := ih (done ++ [r]) (by
        intro j h1 h2
        rw [List.length_append, List.length_singleton] at h2
        by_cases hj : j ≤ done.length
        · rw [List.take_append_of_le_length hj]; exact h j h1 hj
        · rw [List.take_of_length_le (by simp; omega), sideVolume_snoc]
          simpa using hg)
      simpa using this

/-- `S.sub` of two non-negative values the format holds. -/
theorem sub_nonneg_finite (hS : Lawful S) {x y : Fl} {a b : ℚ} (hx : x.Is a) (hy : y.Is b) (ha : 0 ≤ a) (hb : 0 ≤ b)
    (rx : S.Rep x) (ry : S.Rep y) : (S.sub x y).isFinite = true := by
  have up : (S.rnd a).key ≤ Ext.ofRat a := by
    cases x with
    | fin q => rw [Fl.is_fin_iff] at hx; subst hx; rw [rx q rfl]; exact le_refl _
    | negZero => simp at hx; subst hx; rw [rnd_zero hS]; exact le_refl _
    | _ => simp at hx
  have dn : Ext.ofRat (-b) ≤ (S.rnd (-b)).key := by
    cases y with
    | fin q =>
      rw [Fl.is_fin_iff] at hy
      subst hy
      by_cases h0 : q = 0
      · subst h0; rw [neg_zero, rnd_zero hS]; exact le_refl _
      · rw [hS.r64.odd q h0, ry q rfl]; simp [Fl.neg, Fl.key, h0]
    | negZero => simp at hy; subst hy; rw [neg_zero, rnd_zero hS]; exact le_refl _
    | _ => simp at hy
  unfold FloatSem.sub
  rcases FloatSem.add_is (S := S) hx hy.neg with h' | ⟨h', _, _⟩
  · rw [h']
    obtain ⟨q, hq, -, -⟩ := is_of_between (hS.r64.not_nan (a + -b))
      (le_trans dn (hS.r64.mono _ _ (by linarith))) (le_trans (hS.r64.mono _ _ (by linarith)) up)
    exact isFinite_of_is hq
  · rw [h']; rfl

/-- Prices are above 0. -/
def Spec.PositivePrices (rows : List Row) : Prop := ∀ r ∈ rows, 0 < r.price.toRat

instance (rows) : Decidable (PositivePrices rows) := by unfold PositivePrices; infer_instance

theorem row_product (hS : Lawful S) {r : Row} (hp : r.price.isFinite = true) (hv : r.volume.isFinite = true)
    (h0 : 0 < r.price.toRat) (h1 : 0 ≤ r.volume.toRat) : Fl.le (.fin 0) (S.mul r.price r.volume) = true :=
  mul_nonneg_fl hS (Fl.isFinite_is hp) h0.le (is_nonneg (Fl.isFinite_is hv) h1) (fun _ => hv)

theorem fold_add_nonneg (hS : Lawful S) {l : List Fl} (h : ∀ x ∈ l, Fl.le (.fin 0) x = true) {acc : Fl}
    (ha : Fl.le (.fin 0) acc = true) : Fl.le (.fin 0) (l.foldl S.add acc) = true := by
  induction l generalizing acc with
  | nil => exact ha
  | cons x xs ih => exact ih (fun y hy => h y (by simp [hy])) (add_nonneg_fl hS ha (h x (by simp)))

theorem fold_add_rep (hS : Lawful S) (l : List Fl) {acc : Fl} (ha : S.Rep acc) : S.Rep (l.foldl S.add acc) := by
  induction l generalizing acc with
  | nil => exact ha
  | cons x xs ih => exact ih (rep_add hS)

theorem rep_zero_fl (hS : Lawful S) : S.Rep (.fin 0) := by
  intro q h; cases h; exact rnd_zero hS

theorem sideVolume_nonneg (hS : Lawful S) {rows : List Row} (f : FiniteRows rows) (v : NonNegVolumes rows) :
    Fl.le (.fin 0) (sideVolume S rows) = true := by
  apply fold_add_nonneg hS _ (is_nonneg (Fl.is_fin 0) (le_refl _))
  intro x hx
  obtain ⟨r, hr, rfl⟩ := List.mem_map.1 hx
  exact is_nonneg (Fl.isFinite_is (f r hr).2) (v r hr)

theorem sideCost_nonneg (hS : Lawful S) {rows : List Row} (f : FiniteRows rows) (v : NonNegVolumes rows)
    (pp : PositivePrices rows) : Fl.le (.fin 0) (sideCost S rows) = true := by
  apply fold_add_nonneg hS _ (is_nonneg (Fl.is_fin 0) (le_refl _))
  intro x hx
  obtain ⟨r, hr, rfl⟩ := List.mem_map.1 hx
  exact row_product hS (f r hr).1 (f r hr).2 (pp r hr) (v r hr)

theorem sold_nonneg (hS : Lawful S) {target p : Fl} {rows : List Row} (ht : Fl.le (.fin 0) target = true)
    (f : FiniteRows rows) (v : NonNegVolumes rows) (pp : PositivePrices rows) (h : Sold S target rows p) :
    Fl.le (.fin 0) p = true ∧ S.Rep p := by
  rcases h with ⟨-, rfl⟩ | ⟨i, r, hr, hall, hgt, rfl⟩
  · exact ⟨sideCost_nonneg hS f v pp, fold_add_rep hS _ (rep_zero_fl hS)⟩
  · refine ⟨?_, rep_add hS⟩
    have hm : r ∈ rows := List.mem_of_getElem? hr
    have sub : ∀ {s : Row}, s ∈ rows.take i → s ∈ rows := fun h => List.mem_of_mem_take h
    have hvi := sideVolume_nonneg (rows := rows.take i) hS (fun s hs => f s (sub hs)) (fun s hs => v s (sub hs))
    have tfin : ∃ a, target.Is a ∧ 0 ≤ a := by
      rcases nonneg_cases ht with rfl | h
      · exfalso
        rw [Fl.gt, Fl.lt_iff] at hgt
        obtain ⟨-, -, hgt⟩ := hgt
        exact absurd hgt (not_lt.2 le_top)
      · exact h
    obtain ⟨a, hta, ha0⟩ := tfin
    have hle : Fl.le (sideVolume S (rows.take i)) target = true := by
      rcases Nat.eq_zero_or_pos i with h0 | h0
      · subst h0; exact ht
      · have := hall i h0 (le_refl _)
        rw [← Bool.not_eq_true, Fl.gt, Fl.lt_iff] at this
        rw [Fl.le_iff]
        rw [Fl.le_iff] at hvi ht
        refine ⟨hvi.2.1, ht.2.1, ?_⟩
        by_contra hc
        exact this ⟨ht.2.1, hvi.2.1, not_le.1 hc⟩
    have vfin : (sideVolume S (rows.take i)).isFinite = true := by
      rcases nonneg_cases hvi with e | ⟨b, hb, -⟩
      · rw [e, Fl.le_iff, hta.key] at hle
        exact absurd hle.2.2 (by simp [Fl.key])
      · exact isFinite_of_is hb
    have hsub := sub_ge_nonneg hS (isFinite_of_is hta) vfin hle
    have hmul : Fl.le (.fin 0) (S.mul (S.sub target (sideVolume S (rows.take i))) r.price) = true := by
      rcases nonneg_cases hsub with e | ⟨c, hc, hc0⟩
      · rw [e, mul_inf_by_pos (Fl.isFinite_is (f r hm).1) (pp r hm)]
        simp [Fl.le, Fl.isNaN, Fl.key]
      · exact mul_nonneg_fl hS hc hc0 (is_nonneg (Fl.isFinite_is (f r hm).1) (pp r hm).le) (fun _ => (f r hm).1)
    exact add_nonneg_fl hS (sideCost_nonneg hS (fun s hs => f s (sub hs)) (fun s hs => v s (sub hs))
      (fun s hs => pp s (sub hs))) hmul

theorem abs_sub_cases (hS : Lawful S) {c p : Fl} (hc : Fl.le (.fin 0) c = true) (hp : Fl.le (.fin 0) p = true)
    (rc : S.Rep c) (rp : S.Rep p) :
    (Fl.abs (S.sub c p) = .nan ↔ c = .inf false ∧ p = .inf false) ∧
    (Fl.abs (S.sub c p) = .inf false ↔ (c = .inf false ∧ p.isFinite = true) ∨ (c.isFinite = true ∧ p = .inf false)) ∧
    ((Fl.abs (S.sub c p)).isFinite = true ↔ c.isFinite = true ∧ p.isFinite = true) := by
  rcases nonneg_cases hc with rfl | ⟨a, ha, ha0⟩
  · rcases nonneg_cases hp with rfl | ⟨b, hb, hb0⟩
    · simp [FloatSem.sub, FloatSem.add, Fl.neg, Fl.abs, Fl.isFinite]
    · have hf := isFinite_of_is hb
      rw [inf_sub_finite hf]
      have : p ≠ .inf false := fun e => by rw [e] at hf; simp [Fl.isFinite] at hf
      have e1 : (Fl.inf false).isFinite = false := rfl
      simp [Fl.abs, e1, hf, this]
  · have hfc := isFinite_of_is ha
    have nc : c ≠ .inf false := fun e => by rw [e] at hfc; simp [Fl.isFinite] at hfc
    rcases nonneg_cases hp with rfl | ⟨b, hb, hb0⟩
    · have : S.sub c (.inf false) = .inf true := by
        unfold FloatSem.sub; exact add_finite_inf hfc
      rw [this]
      have e1 : (Fl.inf false).isFinite = false := rfl
      simp [Fl.abs, e1, hfc, nc]
    · have hf := isFinite_of_is hb
      have np : p ≠ .inf false := fun e => by rw [e] at hf; simp [Fl.isFinite] at hf
      have hfin := isFinite_of_is (Fl.Is.abs (Fl.isFinite_is (sub_nonneg_finite hS ha hb ha0 hb0 rc rp)))
      have n1 : Fl.abs (S.sub c p) ≠ .nan := fun e => by rw [e] at hfin; simp [Fl.isFinite] at hfin
      have n2 : Fl.abs (S.sub c p) ≠ .inf false := fun e => by rw [e] at hfin; simp [Fl.isFinite] at hfin
      simp [hfin, n1, n2, nc, np, hf, hfc]

end

/-- **C211** The value of the overlap of two books, step by step, in every arithmetic. -/
theorem C211_overlap_value (S : FloatSem) (x y : Book) (a b : Row) (hx : WellFormed x) (hy : WellFormed y)
    (h : FourSides x y) (ha : x.asks.head? = some a) (hb : y.bids.head? = some b)
    (hlt : Fl.lt a.price b.price = true) :
    let asks := x.asks.filter (fun r => Fl.le r.price b.price)
    let bids := y.bids.filter (fun r => Fl.ge r.price a.price)
    ∃ p, Sold S (sideVolume S asks) (if y.bids.any (fun r => Fl.lt r.price a.price) then bids else []).reverse p ∧
      calculateOverlap S x y =
        .ok (Fl.abs (S.sub (sideCost S (if x.asks.any (fun r => Fl.gt r.price b.price) then asks else [])) p)) := by
  intro A B
  obtain ⟨c1, _, _⟩ := calculateOverlap_cases S x y h
  rw [c1 ⟨a, b, ha, hb, hlt⟩]
  have han := hx.asks_num a (List.mem_of_head? ha)
  have hbn := hy.bids_num b (List.mem_of_head? hb)
  obtain ⟨as, hxa⟩ := List.head?_eq_some_iff.1 ha
  obtain ⟨bs, hyb⟩ := List.head?_eq_some_iff.1 hb
  have eA : x.asks.takeWhile (fun r => !(Fl.gt r.price b.price)) = A := by
    rw [show x.asks.takeWhile (fun r => !(Fl.gt r.price b.price)) =
      x.asks.filter (fun r => !(Fl.lt b.price r.price)) from
        takeWhile_eq_filter askOrd hx.asks_num hbn hx.askSorted]
    apply List.filter_congr
    intro r hr
    have hrn := hx.asks_num r hr
    rw [Bool.eq_iff_iff, le_key hrn hbn, Bool.not_eq_true', askOrd.lt_false_iff hbn hrn]
  have eB : y.bids.takeWhile (fun r => !(Fl.lt r.price a.price)) = B := by
    rw [show y.bids.takeWhile (fun r => !(Fl.lt r.price a.price)) =
      y.bids.filter (fun r => !((fun p q => Fl.lt q p) a.price r.price)) from
        takeWhile_eq_filter bidOrd hy.bids_num han hy.bidSorted]
    apply List.filter_congr
    intro r hr
    have hrn := hy.bids_num r hr
    rw [Bool.eq_iff_iff, le_key han hrn, Bool.not_eq_true', bidOrd.lt_false_iff han hrn]
    exact Iff.rfl
  have tA : x.asks.take A.length = A := by rw [← eA]; exact take_takeWhile _ _
  have tB : y.bids.take B.length = B := by rw [← eB]; exact take_takeWhile _ _
  refine ⟨_, overlapFill_sold S _ _ [] (by intro j h1 h2; simp at h2; omega), ?_⟩
  unfold overlapCalculation
  rw [hxa, hyb]
  simp only [← hxa, ← hyb, overlapScan_eq, eA, eB, zero_add, overlapCost_fold]
  have z1 : (List.take (if x.asks.any (fun r => Fl.gt r.price b.price) then A.length else 0) x.asks) =
      (if x.asks.any (fun r => Fl.gt r.price b.price) then A else []) := by
    split_ifs
    · exact tA
    · exact List.take_zero
  have z2 : (List.take (if y.bids.any (fun r => Fl.lt r.price a.price) then B.length else 0) y.bids) =
      (if y.bids.any (fun r => Fl.lt r.price a.price) then B else []) := by
    split_ifs
    · exact tB
    · exact List.take_zero
  rw [z1, z2]
  rfl

/-- **C211** With finite positive prices and finite volumes of at least 0, the result is NaN exactly when both the
cost and the proceeds are too large for the format, `+Inf` exactly when one of them is, and finite otherwise. -/
theorem C211_special_values {S : FloatSem} (hS : Lawful S) (x y : Book) (a b : Row) (hx : WellFormed x)
    (hy : WellFormed y) (h : FourSides x y) (f1 : FiniteRows x.asks) (f2 : FiniteRows y.bids)
    (v1 : NonNegVolumes x.asks) (v2 : NonNegVolumes y.bids) (p1 : PositivePrices x.asks) (p2 : PositivePrices y.bids)
    (ha : x.asks.head? = some a) (hb : y.bids.head? = some b) (hlt : Fl.lt a.price b.price = true) :
    let asks := x.asks.filter (fun r => Fl.le r.price b.price)
    let bids := y.bids.filter (fun r => Fl.ge r.price a.price)
    let c := sideCost S (if x.asks.any (fun r => Fl.gt r.price b.price) then asks else [])
    ∃ p v, Sold S (sideVolume S asks) (if y.bids.any (fun r => Fl.lt r.price a.price) then bids else []).reverse p ∧
      calculateOverlap S x y = .ok v ∧ Fl.le (.fin 0) c = true ∧ Fl.le (.fin 0) p = true ∧
      (v = .nan ↔ c = .inf false ∧ p = .inf false) ∧
      (v = .inf false ↔ (c = .inf false ∧ p.isFinite = true) ∨ (c.isFinite = true ∧ p = .inf false)) ∧
      (v.isFinite = true ↔ c.isFinite = true ∧ p.isFinite = true) := by
  intro A B c
  obtain ⟨p, hs, hv⟩ := C211_overlap_value S x y a b hx hy h ha hb hlt
  have sA : ∀ r ∈ A, r ∈ x.asks := fun r hr => List.mem_of_mem_filter hr
  have sA' : ∀ r ∈ (if x.asks.any (fun r => Fl.gt r.price b.price) then A else []), r ∈ x.asks := by
    intro r hr
    split_ifs at hr
    · exact sA r hr
    · simp at hr
  have sB' : ∀ r ∈ (if y.bids.any (fun r => Fl.lt r.price a.price) then B else []).reverse, r ∈ y.bids := by
    intro r hr
    rw [List.mem_reverse] at hr
    split_ifs at hr
    · exact List.mem_of_mem_filter hr
    · simp at hr
  have hc : Fl.le (.fin 0) c = true := sideCost_nonneg hS (fun r hr => f1 r (sA' r hr)) (fun r hr => v1 r (sA' r hr))
    (fun r hr => p1 r (sA' r hr))
  obtain ⟨hp, rp⟩ := sold_nonneg hS (sideVolume_nonneg hS (fun r hr => f1 r (sA r hr)) (fun r hr => v1 r (sA r hr)))
    (fun r hr => f2 r (sB' r hr)) (fun r hr => v2 r (sB' r hr)) (fun r hr => p2 r (sB' r hr)) hs
  exact ⟨p, _, hs, hv, hc, hp, abs_sub_cases hS hc hp (fold_add_rep hS _ (rep_zero_fl hS)) rp⟩

/-- What selling brings is determined by the volume and the levels. -/
theorem C211_sold_unique (S : FloatSem) (target : Fl) (rows : List Row) (p q : Fl) (hp : Sold S target rows p)
    (hq : Sold S target rows q) : p = q := by
  rcases hp with ⟨h1, rfl⟩ | ⟨i, r, hr, h1, h2, rfl⟩
  · rcases hq with ⟨-, rfl⟩ | ⟨i, r, hr, -, h3, -⟩
    · rfl
    · obtain ⟨hi, -⟩ := List.getElem?_eq_some_iff.1 hr
      rw [h1 (i + 1) (by omega) (by omega)] at h3
      cases h3
  · obtain ⟨hi, -⟩ := List.getElem?_eq_some_iff.1 hr
    rcases hq with ⟨h3, -⟩ | ⟨j, s, hs, h3, h4, rfl⟩
    · rw [h3 (i + 1) (by omega) (by omega)] at h2; cases h2
    · have hij : i = j := by
        rcases Nat.lt_trichotomy i j with h | h | h
        · rw [h3 (i + 1) (by omega) (by omega)] at h2; cases h2
        · exact h
        · rw [h1 (j + 1) (by omega) (by omega)] at h4; cases h4
      subst hij
      rw [hr] at hs
      cases hs
      rfl

/-- A book whose only crossed ask costs more than a float64 can hold. -/
def Ex.hugeAsks : Book :=
  { Ex.book with
    asks := [⟨.fin (pow2 600), .fin (pow2 600), .fin (pow2 600)⟩, ⟨.fin (pow2 602), .fin 1, .fin (pow2 600)⟩]
    bids := [⟨.fin 1, .fin 1, .fin 1⟩] }

/-- A book whose only crossed bid brings more than a float64 can hold. -/
def Ex.hugeBids : Book :=
  { Ex.book with
    asks := [⟨.fin (pow2 603), .fin 1, .fin 1⟩]
    bids := [⟨.fin (pow2 601), .fin (pow2 601), .fin (pow2 601)⟩, ⟨.fin 1, .fin 1, .fin (pow2 601)⟩] }

/-- Both sums overflow: the overlap of these two books is NaN, not an error. -/
example : calculateOverlap ieee Ex.hugeAsks Ex.hugeBids = .ok .nan := by decide +kernel

example := C211_overlap_value ieee Ex.book Ex.book2 _ _ (by decide +kernel) (by decide +kernel)
  ⟨by decide, by decide, by decide, by decide⟩ rfl rfl (by decide +kernel)

example := C211_special_values ieee_lawful Ex.hugeAsks Ex.hugeBids _ _ (by decide +kernel) (by decide +kernel)
  ⟨by decide, by decide, by decide, by decide⟩ (by decide +kernel) (by decide +kernel)
  (by decide +kernel) (by decide +kernel) (by decide +kernel) (by decide +kernel) rfl rfl (by decide +kernel)

example : Sold ieee (.fin 3) Ex.book2.bids.reverse (.fin 27) :=
  .inr ⟨0, ⟨.fin 9, .fin 5, .fin 9⟩, rfl, by intro j h1 h2; omega, by decide +kernel, by decide +kernel⟩

example := C211_sold_unique ieee (.fin 3) Ex.book2.bids.reverse (.fin 27) (.fin 27)
  (.inr ⟨0, ⟨.fin 9, .fin 5, .fin 9⟩, rfl, by intro j h1 h2; omega, by decide +kernel, by decide +kernel⟩)
  (.inr ⟨0, ⟨.fin 9, .fin 5, .fin 9⟩, rfl, by intro j h1 h2; omega, by decide +kernel, by decide +kernel⟩)

end Finmod
