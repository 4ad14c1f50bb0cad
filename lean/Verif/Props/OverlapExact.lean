import Verif.Props.BookOverlap

/-!
# C135: what `CalculateOverlap` computes in every case

C22 is false of the code: a side whose rows are all crossed counts for nothing. Here is the value the
code gives, for all books.
-/

namespace Finmod
open Go Spec

/-- What is really computed. `asks`, `bids` are the crossed rows; if the book `x` has no ask beyond
the best bid of `y` their cost is left out, and if `y` has no bid beyond the best ask of `x` the
proceeds are left out. The volume sold is that of the crossed asks either way. -/
def Spec.overlapComputed (x y : Book) (ask0 bid0 : Fl) : ℚ :=
  let asks := x.asks.filter (fun r => Fl.le r.price bid0)
  let bids := y.bids.filter (fun r => Fl.ge r.price ask0)
  |cost (if x.asks.any (fun r => Fl.gt r.price bid0) then asks else []) -
    proceeds (asks.map (·.volume.toRat)).sum
      (if y.bids.any (fun r => Fl.lt r.price ask0) then bids else []).reverse|

/-- **C135** The value of the overlap of two books, in exact arithmetic, in every case. -/
theorem C135_overlap_computed (x y : Book) (a b : Row) (hx : WellFormed x) (hy : WellFormed y)
    (h : FourSides x y) (f1 : FiniteRows x.asks) (f2 : FiniteRows y.bids)
    (v1 : NonNegVolumes x.asks) (v2 : NonNegVolumes y.bids)
    (ha : x.asks.head? = some a) (hb : y.bids.head? = some b)
    (hlt : Fl.lt a.price b.price = true) :
    ∃ v, calculateOverlap FloatSem.exact x y = .ok v ∧
      v.Is (overlapComputed x y a.price b.price) := by
  obtain ⟨c1, _, _⟩ := calculateOverlap_cases FloatSem.exact x y h
  rw [c1 ⟨a, b, ha, hb, hlt⟩]
  have ham := List.mem_of_head? ha
  have hbm := List.mem_of_head? hb
  have han := hx.asks_num a ham
  have hbn := hy.bids_num b hbm
  obtain ⟨as, hxa⟩ : ∃ as, x.asks = a :: as := by
    cases hh : x.asks with
    | nil => rw [hh] at ha; simp at ha
    | cons c cs => rw [hh] at ha; simp only [List.head?_cons, Option.some.injEq] at ha; exact ⟨cs, by rw [ha]⟩
  obtain ⟨bs, hyb⟩ : ∃ bs, y.bids = b :: bs := by
    cases hh : y.bids with
    | nil => rw [hh] at hb; simp at hb
    | cons c cs => rw [hh] at hb; simp only [List.head?_cons, Option.some.injEq] at hb; exact ⟨cs, by rw [hb]⟩
  -- the crossed rows
  set A := x.asks.filter (fun r => Fl.le r.price b.price) with hA
  set B := y.bids.filter (fun r => Fl.ge r.price a.price) with hB
  have eA : x.asks.takeWhile (fun r => !(Fl.gt r.price b.price)) = A := by
    rw [hA, show x.asks.takeWhile (fun r => !(Fl.gt r.price b.price)) =
      x.asks.filter (fun r => !(Fl.lt b.price r.price)) from
        takeWhile_eq_filter askOrd hx.asks_num hbn hx.askSorted]
    apply List.filter_congr
    intro r hr
    have hrn := hx.asks_num r hr
    rw [Bool.eq_iff_iff, le_key hrn hbn, Bool.not_eq_true', askOrd.lt_false_iff hbn hrn]
  have eB : y.bids.takeWhile (fun r => !(Fl.lt r.price a.price)) = B := by
    rw [hB, show y.bids.takeWhile (fun r => !(Fl.lt r.price a.price)) =
      y.bids.filter (fun r => !((fun p q => Fl.lt q p) a.price r.price)) from
        takeWhile_eq_filter bidOrd hy.bids_num han hy.bidSorted]
    apply List.filter_congr
    intro r hr
    have hrn := hy.bids_num r hr
    rw [Bool.eq_iff_iff, le_key han hrn, Bool.not_eq_true', bidOrd.lt_false_iff han hrn]
    exact Iff.rfl
  have tA : x.asks.take A.length = A := by rw [← eA]; exact take_takeWhile _ _
  have tB : y.bids.take B.length = B := by rw [← eB]; exact take_takeWhile _ _
  have fA : FiniteRows A := fun r hr => f1 r (List.mem_of_mem_filter hr)
  have fB : FiniteRows B.reverse := fun r hr => f2 r (List.mem_of_mem_filter (List.mem_reverse.1 hr))
  have vB : NonNegVolumes B.reverse := fun r hr => v2 r (List.mem_of_mem_filter (List.mem_reverse.1 hr))
  have hcalc : overlapCalculation FloatSem.exact x y = .ok (Fl.abs (FloatSem.exact.sub
      (overlapCost FloatSem.exact (if x.asks.any (fun r => Fl.gt r.price b.price) then A else []) (.fin 0))
      (overlapFill FloatSem.exact ((A.map (·.volume)).foldl FloatSem.exact.add (.fin 0))
        (if y.bids.any (fun r => Fl.lt r.price a.price) then B else []).reverse (.fin 0) (.fin 0)))) := by
    unfold overlapCalculation
    rw [hxa, hyb]
    simp only [← hxa, ← hyb, overlapScan_eq, eA, eB, zero_add]
    have z1 : (List.take (if x.asks.any (fun r => Fl.gt r.price b.price) then A.length else 0) x.asks) =
        (if x.asks.any (fun r => Fl.gt r.price b.price) then A else []) := by
      split_ifs
      · exact tA
      · exact List.take_zero
    have z2 : (List.take (if y.bids.any (fun r => Fl.lt r.price a.price) then B.length else 0) y.bids) =
        (if y.bids.any (fun r => Fl.lt r.price a.price) then B else []) := by
      split_ifs
      · exact tB
      · exact List.take_zero
    rw [z1, z2]
  have sumnn : 0 ≤ (A.map (·.volume.toRat)).sum := by
    apply List.sum_nonneg
    intro q hq
    obtain ⟨r, hr, rfl⟩ := List.mem_map.1 hq
    exact v1 r (List.mem_of_mem_filter hr)
  have hsum := exact_sum fA (Fl.is_fin 0)
  rw [zero_add] at hsum
  have fA' : FiniteRows (if x.asks.any (fun r => Fl.gt r.price b.price) then A else []) := by
    split_ifs
    · exact fA
    · intro r hr; simp at hr
  have fB' : FiniteRows (if y.bids.any (fun r => Fl.lt r.price a.price) then B else []).reverse := by
    split_ifs
    · exact fB
    · intro r hr; simp at hr
  have vB' : NonNegVolumes (if y.bids.any (fun r => Fl.lt r.price a.price) then B else []).reverse := by
    split_ifs
    · exact vB
    · intro r hr; simp at hr
  have hcost := exact_cost fA' (Fl.is_fin 0)
  have hfill := exact_fill fB' vB' hsum (Fl.is_fin 0) (Fl.is_fin 0) sumnn
  rw [zero_add] at hcost hfill
  rw [sub_zero] at hfill
  exact ⟨_, hcalc, Fl.Is.abs (FloatSem.exact_sub hcost hfill)⟩

/-- **C135** In particular: both sides wholly crossed give 0; only the asks wholly crossed gives the
proceeds; only the bids wholly crossed gives the cost of the crossed asks. -/
theorem C135_whole_side (x y : Book) (ask0 bid0 : Fl) (v2 : NonNegVolumes y.bids)
    (p2 : ∀ r ∈ y.bids, 0 ≤ r.price.toRat) (v1 : NonNegVolumes x.asks)
    (p1 : ∀ r ∈ x.asks, 0 ≤ r.price.toRat) :
    let asks := x.asks.filter (fun r => Fl.le r.price bid0)
    let bids := y.bids.filter (fun r => Fl.ge r.price ask0)
    ((∀ r ∈ x.asks, Fl.gt r.price bid0 = false) → (∀ r ∈ y.bids, Fl.lt r.price ask0 = false) →
      overlapComputed x y ask0 bid0 = 0) ∧
    ((∀ r ∈ x.asks, Fl.gt r.price bid0 = false) → (∃ r ∈ y.bids, Fl.lt r.price ask0 = true) →
      overlapComputed x y ask0 bid0 = proceeds (asks.map (·.volume.toRat)).sum bids.reverse) ∧
    ((∃ r ∈ x.asks, Fl.gt r.price bid0 = true) → (∀ r ∈ y.bids, Fl.lt r.price ask0 = false) →
      overlapComputed x y ask0 bid0 = cost asks) ∧
    ((∃ r ∈ x.asks, Fl.gt r.price bid0 = true) → (∃ r ∈ y.bids, Fl.lt r.price ask0 = true) →
      overlapComputed x y ask0 bid0 = overlapValue x y ask0 bid0) := by
  intro asks bids
  have no : ∀ {l : List Row} {q : Row → Bool}, (∀ r ∈ l, q r = false) → l.any q = false := by
    intro l q h; rw [List.any_eq_false]; intro r hr; rw [h r hr]; simp
  have yes : ∀ {l : List Row} {q : Row → Bool}, (∃ r ∈ l, q r = true) → l.any q = true := by
    intro l q h; rw [List.any_eq_true]; exact h
  have pnn : ∀ (l : List Row) (v : ℚ), NonNegVolumes l → (∀ r ∈ l, 0 ≤ r.price.toRat) →
      0 ≤ proceeds v l := by
    intro l
    induction l with
    | nil => intro v _ _; exact le_refl _
    | cons r rs ih =>
      intro v hv hp
      have h1 := ih (v - r.volume.toRat) (fun s hs => hv s (by simp [hs])) (fun s hs => hp s (by simp [hs]))
      have h2 : 0 ≤ r.price.toRat * min r.volume.toRat (max 0 v) :=
        mul_nonneg (hp r (by simp)) (le_min (hv r (by simp)) (le_max_left _ _))
      unfold proceeds
      linarith
  refine ⟨fun h1 h2 => ?_, fun h1 h2 => ?_, fun h1 h2 => ?_, fun h1 h2 => ?_⟩
  · simp only [overlapComputed]
    rw [no h1, no h2]
    simp [cost, proceeds]
  · simp only [overlapComputed]
    rw [no h1, yes h2]
    simp only [Bool.false_eq_true, if_false, if_true]
    rw [show cost [] = 0 from rfl, zero_sub, abs_neg, abs_of_nonneg]
    apply pnn
    · intro r hr; exact v2 r (List.mem_of_mem_filter (List.mem_reverse.1 hr))
    · intro r hr; exact p2 r (List.mem_of_mem_filter (List.mem_reverse.1 hr))
  · simp only [overlapComputed]
    rw [yes h1, no h2]
    simp only [Bool.false_eq_true, if_false, if_true]
    rw [show ∀ v, proceeds v [].reverse = 0 from fun v => rfl, sub_zero, abs_of_nonneg]
    apply List.sum_nonneg
    intro q hq
    obtain ⟨r, hr, rfl⟩ := List.mem_map.1 hq
    have hm := List.mem_of_mem_filter hr
    exact mul_nonneg (p1 r hm) (v1 r hm)
  · simp only [overlapComputed]
    rw [yes h1, yes h2]
    rfl

example := C135_overlap_computed Ex.book Ex.book2 _ _ (by decide +kernel) (by decide +kernel)
  ⟨by decide, by decide, by decide, by decide⟩ (by decide +kernel) (by decide +kernel)
  (by decide +kernel) (by decide +kernel) rfl rfl (by decide +kernel)

end Finmod
