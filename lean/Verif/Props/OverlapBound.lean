import Verif.Props.OverlapExact
import Verif.Props.OverlapFloat

/-!
# C278: how large an overlap can be
-/

namespace Finmod
open Go Spec

/-- The volume of rows. -/
def Spec.volumeOf (rows : List Row) : ℚ := (rows.map (·.volume.toRat)).sum

theorem volumeOf_nonneg {rows : List Row} (h : NonNegVolumes rows) : 0 ≤ volumeOf rows :=
  List.sum_nonneg fun q hq => by obtain ⟨r, hr, rfl⟩ := List.mem_map.1 hq; exact h r hr

theorem cost_between {rows : List Row} {lo hi : ℚ} (hv : NonNegVolumes rows) (hp : ∀ r ∈ rows, lo ≤ r.price.toRat ∧ r.price.toRat ≤ hi) :
    lo * volumeOf rows ≤ cost rows ∧ cost rows ≤ hi * volumeOf rows := by
  induction rows with
  | nil => simp [cost, volumeOf]
  | cons r rs ih =>
    obtain ⟨i1, i2⟩ := ih (fun x hx => hv x (List.mem_cons_of_mem _ hx)) fun x hx => hp x (List.mem_cons_of_mem _ hx)
    obtain ⟨p1, p2⟩ := hp r List.mem_cons_self
    have h0 := hv r List.mem_cons_self
    have k1 := mul_le_mul_of_nonneg_right p1 h0
    have k2 := mul_le_mul_of_nonneg_right p2 h0
    simp only [cost, volumeOf, List.map_cons, List.sum_cons] at *
    constructor <;> linarith

theorem proceeds_between {rows : List Row} {lo hi : ℚ} (hv : NonNegVolumes rows)
    (hp : ∀ r ∈ rows, lo ≤ r.price.toRat ∧ r.price.toRat ≤ hi) (v : ℚ) :
    lo * min (max 0 v) (volumeOf rows) ≤ proceeds v rows ∧ proceeds v rows ≤ hi * min (max 0 v) (volumeOf rows) := by
  induction rows generalizing v with
  | nil => simp [proceeds, volumeOf]
  | cons r rs ih =>
    have hv' : NonNegVolumes rs := fun x hx => hv x (List.mem_cons_of_mem _ hx)
    obtain ⟨i1, i2⟩ := ih hv' (fun x hx => hp x (List.mem_cons_of_mem _ hx)) (v - r.volume.toRat)
    obtain ⟨p1, p2⟩ := hp r List.mem_cons_self
    have h0 := hv r List.mem_cons_self
    have hs := volumeOf_nonneg hv'
    have e : volumeOf (r :: rs) = r.volume.toRat + volumeOf rs := by simp [volumeOf]
    have hm : min (max 0 v) (volumeOf (r :: rs)) = min r.volume.toRat (max 0 v) + min (max 0 (v - r.volume.toRat)) (volumeOf rs) := by
      rw [e]
      generalize r.volume.toRat = w at *
      generalize volumeOf rs = s at *
      rcases le_total v 0 with h | h
      · rw [max_eq_left h, max_eq_left (by linarith), min_eq_left (by linarith), min_eq_right h0, min_eq_left hs, add_zero]
      · rw [max_eq_right h]
        rcases le_total v w with h' | h'
        · rw [max_eq_left (by linarith), min_eq_left (by linarith), min_eq_right h', min_eq_left hs, add_zero]
        · rw [max_eq_right (by linarith), min_eq_left h']
          rcases le_total (v - w) s with h2 | h2
          · rw [min_eq_left h2, min_eq_left (by linarith)]; ring
          · rw [min_eq_right h2, min_eq_right (by linarith)]
    have hw : 0 ≤ min r.volume.toRat (max 0 v) := le_min h0 (le_max_left _ _)
    have k1 := mul_le_mul_of_nonneg_right p1 hw
    have k2 := mul_le_mul_of_nonneg_right p2 hw
    rw [hm, proceeds]
    constructor <;> nlinarith

/-- The crossed rows are priced from the best ask to the best bid. -/
theorem crossed_prices {x y : Book} {a b : Row} (hx : WellFormed x) (hy : WellFormed y) (f1 : FiniteRows x.asks) (f2 : FiniteRows y.bids)
    (ha : x.asks.head? = some a) (hb : y.bids.head? = some b) :
    (∀ r ∈ x.asks.filter (fun r => Fl.le r.price b.price), a.price.toRat ≤ r.price.toRat ∧ r.price.toRat ≤ b.price.toRat) ∧
    ∀ r ∈ y.bids.filter (fun r => Fl.ge r.price a.price), a.price.toRat ≤ r.price.toRat ∧ r.price.toRat ≤ b.price.toRat := by
  have fa := Fl.isFinite_is (f1 a (List.mem_of_head? ha)).1
  have fb := Fl.isFinite_is (f2 b (List.mem_of_head? hb)).1
  refine ⟨fun r hr => ?_, fun r hr => ?_⟩
  · obtain ⟨hm, hle⟩ := List.mem_filter.1 hr
    have fr := Fl.isFinite_is (f1 r hm).1
    rw [fr.le fb, decide_eq_true_eq] at hle
    refine ⟨?_, hle⟩
    have hs := hx.asks_sorted
    unfold AskSorted at hs
    cases hh : x.asks with
    | nil => rw [hh] at ha; simp at ha
    | cons c cs =>
      rw [hh] at ha hs hm
      simp only [List.head?_cons, Option.some.injEq] at ha
      subst ha
      rcases List.mem_cons.1 hm with rfl | hm
      · exact le_rfl
      · have := (List.pairwise_cons.1 hs).1 r hm
        rw [fa.lt fr, decide_eq_true_eq] at this
        exact this.le
  · obtain ⟨hm, hle⟩ := List.mem_filter.1 hr
    have fr := Fl.isFinite_is (f2 r hm).1
    rw [show Fl.ge r.price a.price = Fl.le a.price r.price from rfl, fa.le fr, decide_eq_true_eq] at hle
    refine ⟨hle, ?_⟩
    have hs := hy.bids_sorted
    unfold BidSorted at hs
    cases hh : y.bids with
    | nil => rw [hh] at hb; simp at hb
    | cons c cs =>
      rw [hh] at hb hs hm
      simp only [List.head?_cons, Option.some.injEq] at hb
      subst hb
      rcases List.mem_cons.1 hm with rfl | hm
      · exact le_rfl
      · have := (List.pairwise_cons.1 hs).1 r hm
        rw [show Fl.gt c.price r.price = Fl.lt r.price c.price from rfl, fr.lt fb, decide_eq_true_eq] at this
        exact this.le

/-- **C278, as one would like it**: the overlap is worth no more than the crossed asks' volume times the distance from the best ask to the best
bid. -/
def Spec.C278_claim : Prop :=
  ∀ (x y : Book) (a b : Row), WellFormed x → WellFormed y → FourSides x y →
    FiniteRows x.asks → FiniteRows y.bids → NonNegVolumes x.asks → NonNegVolumes y.bids →
    x.asks.head? = some a → y.bids.head? = some b → Fl.lt a.price b.price = true →
    ∀ v, calculateOverlap FloatSem.exact x y = .ok v →
      v.toRat ≤ (b.price.toRat - a.price.toRat) * volumeOf (x.asks.filter fun r => Fl.le r.price b.price)

/-- **C278 is false of the code**: 5 units asked at 10 against a bid for 1 unit at 12 give 38, the cost of all 5 minus the proceeds of 1. -/
theorem C278_spread_violated : ¬ Spec.C278_claim := by
  intro h
  have := h
    { time := 0, maxDepth := 5, asks := [⟨.fin 10, .fin 5, .fin 5⟩, ⟨.fin 14, .fin 1, .fin 6⟩], bids := [⟨.fin 9, .fin 1, .fin 1⟩] }
    { time := 0, maxDepth := 5, asks := [⟨.fin 13, .fin 1, .fin 1⟩], bids := [⟨.fin 12, .fin 1, .fin 1⟩, ⟨.fin 8, .fin 9, .fin 10⟩] }
    ⟨.fin 10, .fin 5, .fin 5⟩ ⟨.fin 12, .fin 1, .fin 1⟩
    (by decide +kernel) (by decide +kernel) ⟨by decide, by decide, by decide, by decide⟩
    (by decide +kernel) (by decide +kernel) (by decide +kernel) (by decide +kernel) rfl rfl
    (by decide +kernel) (.fin 38) (by decide +kernel)
  revert this
  unfold volumeOf
  decide +kernel

theorem computed_le {x y : Book} {a b : Row} (hx : WellFormed x) (hy : WellFormed y)
    (f1 : FiniteRows x.asks) (f2 : FiniteRows y.bids) (v1 : NonNegVolumes x.asks) (v2 : NonNegVolumes y.bids)
    (ha : x.asks.head? = some a) (hb : y.bids.head? = some b) (h0 : 0 ≤ a.price.toRat) (hab : a.price.toRat ≤ b.price.toRat) :
    let asks := x.asks.filter (fun r => Fl.le r.price b.price)
    let bids := y.bids.filter (fun r => Fl.ge r.price a.price)
    overlapComputed x y a.price b.price ≤ b.price.toRat * volumeOf asks ∧
    ((∃ r ∈ x.asks, Fl.gt r.price b.price = true) → (∃ r ∈ y.bids, Fl.lt r.price a.price = true) → volumeOf asks ≤ volumeOf bids →
      overlapComputed x y a.price b.price ≤ (b.price.toRat - a.price.toRat) * volumeOf asks) := by
  intro asks bids
  obtain ⟨pa, pb⟩ := crossed_prices hx hy f1 f2 ha hb
  have va : NonNegVolumes asks := fun r hr => v1 r (List.mem_of_mem_filter hr)
  have vb : NonNegVolumes bids := fun r hr => v2 r (List.mem_of_mem_filter hr)
  have hV := volumeOf_nonneg va
  have hW := volumeOf_nonneg vb
  obtain ⟨c1, c2⟩ := cost_between va pa
  have vb' : NonNegVolumes bids.reverse := fun r hr => vb r (List.mem_reverse.1 hr)
  obtain ⟨d1, d2⟩ := proceeds_between vb' (fun r hr => pb r (List.mem_reverse.1 hr)) (volumeOf asks)
  have hrev : volumeOf bids.reverse = volumeOf bids := by simp [volumeOf, List.sum_reverse]
  rw [hrev, max_eq_right hV] at d1 d2
  have hm0 : 0 ≤ min (volumeOf asks) (volumeOf bids) := le_min hV hW
  have hb0 : 0 ≤ b.price.toRat := h0.trans hab
  have e1 := mul_nonneg h0 hV
  have e2 := mul_nonneg h0 hm0
  have e3 := mul_nonneg hb0 hV
  have e4 := mul_le_mul_of_nonneg_left (min_le_left (volumeOf asks) (volumeOf bids)) hb0
  have hc : overlapComputed x y a.price b.price = |cost (if x.asks.any (fun r => Fl.gt r.price b.price) then asks else []) -
      proceeds (volumeOf asks) (if y.bids.any (fun r => Fl.lt r.price a.price) then bids else []).reverse| := rfl
  rw [hc]
  constructor
  · have z : cost [] = 0 := rfl
    have z' : ∀ v, proceeds v ([] : List Row).reverse = 0 := fun _ => rfl
    clear_value asks bids
    rw [abs_le]
    split_ifs <;> (try simp only [z, z']) <;> constructor <;> linarith
  · intro s1 s2 hle
    rw [if_pos (List.any_eq_true.2 s1), if_pos (List.any_eq_true.2 s2)]
    rw [min_eq_left hle] at d1 d2
    clear_value asks bids
    rw [abs_le]
    constructor <;> linarith

/-- **C278, in exact arithmetic** If the crossed bids are good for the volume of the crossed asks and each side has a row beyond, the overlap is
worth no more than that volume times the distance from the best ask to the best bid. In every case it is worth no more than that volume at
the best bid. Missing: the first bound without its conditions, which is false. -/
theorem C278_spread_partial (x y : Book) (a b : Row) (hx : WellFormed x) (hy : WellFormed y) (h : FourSides x y)
    (f1 : FiniteRows x.asks) (f2 : FiniteRows y.bids) (v1 : NonNegVolumes x.asks) (v2 : NonNegVolumes y.bids)
    (ha : x.asks.head? = some a) (hb : y.bids.head? = some b) (hlt : Fl.lt a.price b.price = true) (h0 : 0 ≤ a.price.toRat) :
    let asks := x.asks.filter (fun r => Fl.le r.price b.price)
    let bids := y.bids.filter (fun r => Fl.ge r.price a.price)
    ∃ v, calculateOverlap FloatSem.exact x y = .ok v ∧ v.toRat ≤ b.price.toRat * volumeOf asks ∧
      ((∃ r ∈ x.asks, Fl.gt r.price b.price = true) → (∃ r ∈ y.bids, Fl.lt r.price a.price = true) → volumeOf asks ≤ volumeOf bids →
        v.toRat ≤ (b.price.toRat - a.price.toRat) * volumeOf asks) := by
  intro asks bids
  obtain ⟨v, e, hv⟩ := C135_overlap_computed x y a b hx hy h f1 f2 v1 v2 ha hb hlt
  have fa := Fl.isFinite_is (f1 a (List.mem_of_head? ha)).1
  have fb := Fl.isFinite_is (f2 b (List.mem_of_head? hb)).1
  rw [fa.lt fb, decide_eq_true_eq] at hlt
  refine ⟨v, e, ?_⟩
  rw [hv.toRat]
  exact computed_le hx hy f1 f2 v1 v2 ha hb h0 hlt.le

/-- **C278, in float64** The same up to the rounding errors of C159. -/
theorem C278_near_partial (x y : Book) (a b : Row) (hx : WellFormed x) (hy : WellFormed y) (h : FourSides x y)
    (f1 : ∀ r ∈ x.asks, FloatRow r) (f2 : ∀ r ∈ y.bids, FloatRow r)
    (ha : x.asks.head? = some a) (hb : y.bids.head? = some b) (hlt : Fl.lt a.price b.price = true) :
    let asks := x.asks.filter (fun r => Fl.le r.price b.price)
    let bids := y.bids.filter (fun r => Fl.ge r.price a.price)
    let n := asks.length + bids.length
    let volume := volumeOf asks + volumeOf bids
    let err := 32 * n * (2 ^ (-53 : ℤ) * (b.price.toRat * volume) + 2 ^ (-1075 : ℤ))
    n ≤ 2 ^ 40 → volume ≤ 2 ^ (900 : ℤ) → b.price.toRat * volume ≤ 2 ^ (900 : ℤ) →
    ∃ v, calculateOverlap ieee x y = .ok v ∧ v.isFinite = true ∧ v.toRat ≤ b.price.toRat * volumeOf asks + err ∧
      ((∃ r ∈ x.asks, Fl.gt r.price b.price = true) → (∃ r ∈ y.bids, Fl.lt r.price a.price = true) → volumeOf asks ≤ volumeOf bids →
        v.toRat ≤ (b.price.toRat - a.price.toRat) * volumeOf asks + err) := by
  intro asks bids n volume err hn hv hpv
  obtain ⟨v, e, hf, hacc⟩ := C159_overlap_accurate_plain x y a b hx hy h f1 f2 ha hb hlt hn hv hpv
  have fin1 : FiniteRows x.asks := fun r hr => ⟨(f1 r hr).price, (f1 r hr).volume⟩
  have fin2 : FiniteRows y.bids := fun r hr => ⟨(f2 r hr).price, (f2 r hr).volume⟩
  have fa := Fl.isFinite_is (fin1 a (List.mem_of_head? ha)).1
  have fb := Fl.isFinite_is (fin2 b (List.mem_of_head? hb)).1
  rw [fa.lt fb, decide_eq_true_eq] at hlt
  obtain ⟨k1, k2⟩ := computed_le hx hy fin1 fin2 (fun r hr => (f1 r hr).volume_nonneg) (fun r hr => (f2 r hr).volume_nonneg) ha hb
    (f1 a (List.mem_of_head? ha)).price_nonneg hlt.le
  have hb := (abs_le.1 hacc).2
  change v.toRat - _ ≤ err at hb
  exact ⟨v, e, hf, by linarith, fun s1 s2 hle => by linarith [k2 s1 s2 hle]⟩

/-- The spread bound at work: 2 units asked at 10 against 3 bid at 12 are worth 4. -/
example : let x : Book := { time := 0, maxDepth := 5, asks := [⟨.fin 10, .fin 2, .fin 2⟩, ⟨.fin 14, .fin 1, .fin 3⟩], bids := [⟨.fin 9, .fin 1, .fin 1⟩] }
    let y : Book := { time := 0, maxDepth := 5, asks := [⟨.fin 13, .fin 1, .fin 1⟩], bids := [⟨.fin 12, .fin 3, .fin 3⟩, ⟨.fin 8, .fin 9, .fin 12⟩] }
    WellFormed x ∧ WellFormed y ∧ FourSides x y ∧ FiniteRows x.asks ∧ FiniteRows y.bids ∧ NonNegVolumes x.asks ∧ NonNegVolumes y.bids ∧
      (∀ r ∈ x.asks, FloatRow r) ∧ (∀ r ∈ y.bids, FloatRow r) ∧
      (∃ r ∈ x.asks, Fl.gt r.price (.fin 12) = true) ∧ (∃ r ∈ y.bids, Fl.lt r.price (.fin 10) = true) ∧
      calculateOverlap FloatSem.exact x y = .ok (.fin 4) ∧ calculateOverlap ieee x y = .ok (.fin 4) := by
  refine ⟨by decide +kernel, by decide +kernel, ⟨by decide, by decide, by decide, by decide⟩, by decide +kernel, by decide +kernel,
    by decide +kernel, by decide +kernel, ?_, ?_, by decide +kernel, by decide +kernel, by decide +kernel, by decide +kernel⟩
  · intro r hr
    simp only [List.mem_cons, List.not_mem_nil, or_false] at hr
    rcases hr with rfl | rfl <;> exact floatRow_fin (by decide +kernel) (by decide +kernel)
  · intro r hr
    simp only [List.mem_cons, List.not_mem_nil, or_false] at hr
    rcases hr with rfl | rfl <;> exact floatRow_fin (by decide +kernel) (by decide +kernel)

end Finmod
