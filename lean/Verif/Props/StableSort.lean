import Verif.Props.BookNew
import Verif.Lemmas.NewBook
import Verif.Lemmas.GoSort
import Verif.Go.IEEE

/-!
# The sort of `NewOrderBook` and `WilliamFractals`: C182; with NaN prices: C183

`sort.SliceStable` as the Go library does it (`Go.Sort.sliceStable`): insertion sort of blocks of 20, then merging
in place by rotations.
-/

/-! ## Specification -/

namespace Finmod.Spec
open Go

/-- `l'` is `l` sorted by price, `before` saying which price goes first, rows of equal prices in the order of `l`. -/
def PriceSorted (before : Fl → Fl → Bool) (l l' : List Row) : Prop :=
  l'.Pairwise (fun x y => before y.price x.price = false) ∧
    ∀ v, l'.filter (fun r => Fl.eq r.price v) = l.filter (fun r => Fl.eq r.price v)

/-- Rows with a NaN price stay where they are, and the stretches between them are sorted, each on its own. -/
inductive SortedBetweenNaNs (before : Fl → Fl → Bool) : List Row → List Row → Prop
  | last {l l' : List Row} : (∀ r ∈ l, r.price ≠ .nan) → (∀ r ∈ l', r.price ≠ .nan) → PriceSorted before l l' →
    SortedBetweenNaNs before l l'
  | next {l l' m m' : List Row} {r : Row} : (∀ r ∈ l, r.price ≠ .nan) → (∀ r ∈ l', r.price ≠ .nan) →
    PriceSorted before l l' → r.price = .nan → SortedBetweenNaNs before m m' →
    SortedBetweenNaNs before (l ++ r :: m) (l' ++ r :: m')

end Finmod.Spec

namespace Go.Sort
variable {α κ : Type} [LinearOrder κ]

/-- **C182.** The sort never panics (no index outside of the slice, every loop ends) and returns the same elements,
whatever the comparison function, also one that is not an order. -/
theorem C182_elements (less : α → α → Bool) (l : List α) : ∃ s, sliceStable less l = some s ∧ s.Perm l := by
  obtain ⟨s, e, h⟩ := sliceStable_at less (fun _ => (0 : Nat)) l
  exact ⟨s, e, h.1⟩

/-- **C182.** If the comparison function compares keys in a linear order, the result is sorted by key and elements of
equal keys are in the order they had. -/
theorem C182_stable (less : α → α → Bool) (key : α → κ) (l : List α)
    (hless : ∀ x ∈ l, ∀ y ∈ l, (less x y = true ↔ key x < key y)) :
    ∃ s, sliceStable less l = some s ∧ s.Pairwise (fun x y => key x ≤ key y) ∧
      ∀ v, s.filter (fun x => decide (key x = v)) = l.filter (fun x => decide (key x = v)) := by
  obtain ⟨s, e, h⟩ := sliceStable_at less key l
  obtain ⟨h1, h2⟩ := h.2 (· ∈ l) (fun x y hx hy => hless x hx y hy) (fun _ h => h) trivial
  exact ⟨s, e, h1, fun v => (h2 v).symm⟩

/-- **C182.** There is only one such list, so nothing else about the algorithm can be seen. -/
theorem C182_unique (less : α → α → Bool) (key : α → κ) (l s : List α)
    (hless : ∀ x ∈ l, ∀ y ∈ l, (less x y = true ↔ key x < key y)) :
    sliceStable less l = some s ↔ s.Pairwise (fun x y => key x ≤ key y) ∧
      ∀ v, s.filter (fun x => decide (key x = v)) = l.filter (fun x => decide (key x = v)) := by
  obtain ⟨t, e, h1, h2⟩ := C182_stable less key l hless
  rw [e]
  constructor
  · rintro h; cases h; exact ⟨h1, h2⟩
  · rintro ⟨h3, h4⟩
    rw [sorted_unique (k := key) h1 h3 fun v => (h2 v).trans (h4 v).symm]

/-- 45 elements, more than two blocks, with equal keys: sorted by the last digit, in order within a digit. -/
example : sliceStable (fun x y : Nat => decide (x % 10 < y % 10)) (List.range 45) =
    some ((List.range 10).flatMap fun d => (List.range 45).filter (· % 10 = d)) := by decide +kernel

/-! ### NaN prices -/

theorem sink_self (lt : α → α → Bool) (a : Nat) (l : List α) : sink lt a a l = some l := by
  cases a with
  | zero => rfl
  | succ a => simp [sink]

theorem insertionSort_eq (lt : α → α → Bool) {a b : Nat} (h : a ≤ b) (l : List α) :
    insertionSort lt a b l = insertionLoop lt a (b - a) a l := by
  unfold insertionSort
  rcases Nat.eq_or_lt_of_le h with rfl | h
  · rw [Nat.sub_self, show a - (a + 1) = 0 by omega]; rfl
  · rw [show b - a = (b - (a + 1)) + 1 by omega, insertionLoop, sink_self]

theorem insertionLoop_add (lt : α → α → Bool) (a : Nat) : ∀ (k1 k2 i : Nat) (l l' : List α),
    insertionLoop lt a k1 i l = some l' → insertionLoop lt a (k1 + k2) i l = insertionLoop lt a k2 (i + k1) l'
  | 0, k2, i, l, l', h => by cases h; simp
  | k1 + 1, k2, i, l, l', h => by
    rw [show k1 + 1 + k2 = k1 + k2 + 1 by omega]
    simp only [insertionLoop] at h ⊢
    cases hs : sink lt a i l with
    | none => rw [hs] at h; cases h
    | some t =>
      rw [hs] at h
      simp only at h ⊢
      rw [insertionLoop_add lt a k1 k2 (i + 1) t l' h, show i + 1 + k1 = i + (k1 + 1) by omega]

theorem swap?_keeps {l l' : List α} {i j b : Nat} (h : swap? l i j = some l') (hi : b ≤ i) (hj : b ≤ j) :
    l'.length = l.length ∧ ∀ n < b, l'[n]? = l[n]? := by
  unfold swap? at h
  split at h
  · cases h
    refine ⟨by simp, fun n hn => ?_⟩
    rw [List.getElem?_set_ne (by omega), List.getElem?_set_ne (by omega)]
  · cases h

theorem sink_keeps {lt : α → α → Bool} {b : Nat} : ∀ (j : Nat) {l l' : List α}, sink lt b j l = some l' →
    l'.length = l.length ∧ ∀ n < b, l'[n]? = l[n]?
  | 0, l, l', h => by cases h; simp
  | j + 1, l, l', h => by
    simp only [sink] at h
    split at h
    · cases hl : less? lt l (j + 1) j with
      | none => rw [hl] at h; cases h
      | some c =>
        rw [hl] at h
        cases c with
        | false => cases h; simp
        | true =>
          cases hs : swap? l (j + 1) j with
          | none => rw [hs] at h; cases h
          | some t =>
            rw [hs] at h
            obtain ⟨t1, t2⟩ := swap?_keeps (b := b) hs (by omega) (by omega)
            obtain ⟨u1, u2⟩ := sink_keeps j h
            exact ⟨u1.trans t1, fun n hn => (u2 n hn).trans (t2 n hn)⟩
    · cases h; simp

/-- Nothing sinks below an element that nothing is less than. -/
theorem sink_barrier {lt : α → α → Bool} {a c : Nat} (hc : a ≤ c) {r : α} (hr : ∀ x, lt x r = false) :
    ∀ (j : Nat) (l : List α), c < j → j < l.length → l[c]? = some r → sink lt a j l = sink lt (c + 1) j l
  | 0, _, h, _, _ => by omega
  | j + 1, l, h, hl, hg => by
    simp only [sink]
    rw [if_pos (show j + 1 > a by omega)]
    rcases Nat.eq_or_lt_of_le (show c ≤ j by omega) with rfl | hj
    · rw [if_neg (by omega)]
      have lj1 : l[c + 1]? = some l[c + 1] := List.getElem?_eq_getElem (by omega)
      rw [less?_at lj1 hg, hr]
    · rw [if_pos (by omega)]
      cases less? lt l (j + 1) j with
      | none => rfl
      | some b =>
        cases b with
        | false => rfl
        | true =>
          cases hs : swap? l (j + 1) j with
          | none => rfl
          | some t =>
            obtain ⟨t1, t2⟩ := swap?_keeps (b := c + 1) hs (by omega) (by omega)
            exact sink_barrier hc hr j t hj (by omega) ((t2 c (by omega)).trans hg)

theorem insertionLoop_barrier {lt : α → α → Bool} {a c : Nat} (hc : a ≤ c) {r : α} (hr : ∀ x, lt x r = false) :
    ∀ (k i : Nat) (l : List α), c < i → i + k ≤ l.length → l[c]? = some r →
      insertionLoop lt a k i l = insertionLoop lt (c + 1) k i l
  | 0, _, _, _, _, _ => rfl
  | k + 1, i, l, hi, hl, hg => by
    simp only [insertionLoop]
    rw [sink_barrier hc hr i l hi (by omega) hg]
    cases hs : sink lt (c + 1) i l with
    | none => rfl
    | some t =>
      obtain ⟨t1, t2⟩ := sink_keeps i hs
      exact insertionLoop_barrier hc hr k (i + 1) t (by omega) (by omega) ((t2 c (by omega)).trans hg)

/-- An element that is less than nothing stays. -/
theorem sink_stays {lt : α → α → Bool} {a : Nat} {r : α} (hr : ∀ x, lt r x = false) (j : Nat) (l : List α)
    (hj : j < l.length) (hg : l[j]? = some r) : sink lt a j l = some l := by
  cases j with
  | zero => rfl
  | succ j =>
    simp only [sink]
    split
    · have lj : l[j]? = some l[j] := List.getElem?_eq_getElem (by omega)
      rw [less?_at hg lj, hr]
    · rfl

/-- Insertion sort of a stretch, an element that compares with nothing, and a rest. -/
theorem insertionSort_split {lt : α → α → Bool} {r : α} (h1 : ∀ x, lt x r = false) (h2 : ∀ x, lt r x = false)
    {A A' B B' P : List α} {a b c : Nat} (ha : a = P.length) (hc : c = a + A.length) (hb : b = c + 1 + B.length)
    (hA : insertionSort lt a c (P ++ A ++ r :: B) = some (P ++ A' ++ r :: B)) (lA : A'.length = A.length)
    (hB : insertionSort lt (c + 1) b (P ++ A' ++ [r] ++ B) = some (P ++ A' ++ [r] ++ B')) :
    insertionSort lt a b (P ++ A ++ r :: B) = some (P ++ A' ++ r :: B') := by
  rw [insertionSort_eq lt (by omega)] at hA hB ⊢
  rw [show b - a = (c - a) + (1 + B.length) by omega, insertionLoop_add lt a _ _ _ _ _ hA, show a + (c - a) = c by omega]
  have hg : (P ++ A' ++ r :: B)[c]? = some r := by
    rw [List.getElem?_append_right (by simp; omega), show c - (P ++ A').length = 0 by simp; omega]; rfl
  have step : insertionLoop lt a 1 c (P ++ A' ++ r :: B) = some (P ++ A' ++ r :: B) := by
    simp only [insertionLoop]
    rw [sink_stays h2 c _ (by simp; omega) hg]
  rw [insertionLoop_add lt a 1 _ _ _ _ step, insertionLoop_barrier (c := c) (by omega) h1 _ _ _ (by omega) (by simp; omega) hg]
  rw [show b - (c + 1) = B.length by omega] at hB
  simpa using hB

/-- Up to 20 elements the sort is insertion sort. -/
theorem sliceStable_small (lt : α → α → Bool) {l : List α} (h : l.length ≤ 20) :
    sliceStable lt l = insertionSort lt 0 l.length l := by
  have m : ∀ t : List α, mergeLoop lt l.length (l.length + 1) 20 t = some t := by
    intro t
    simp only [mergeLoop]
    rw [if_neg (by omega)]
  unfold sliceStable
  rcases Nat.eq_or_lt_of_le h with e | h
  · obtain ⟨C, hC, -⟩ := insertionSort_at lt (fun _ => (0 : Nat)) l [] [] (a := 0) (b := l.length) rfl (by simp)
    simp only [List.nil_append, List.append_nil] at hC
    simp only [sortBlocks, m]
    rw [if_pos (by omega)]
    rw [show 0 + 20 = l.length by omega, hC]
    rw [show l.length = 19 + 1 by omega]
    simp [sortBlocks, insertionSort, insertionLoop]
  · simp only [sortBlocks, m]
    rw [if_neg (by omega)]
    cases insertionSort lt 0 l.length l <;> rfl

end Go.Sort

namespace Finmod
open Go Spec

section
variable {lt : Fl → Fl → Bool} {κ : Type} [LinearOrder κ] {k : Fl → κ}

theorem filter_eq_iff {l l' : List Row} (O : SideOrd lt k) (hl : NoNaN l) (hl' : NoNaN l') :
    (∀ v, l'.filter (fun r => Fl.eq r.price v) = l.filter (fun r => Fl.eq r.price v)) ↔
      Go.Sort.SameByKey (fun r : Row => k r.price) l l' := by
  have key : ∀ (m : List Row) (v : Fl), NoNaN m → v ≠ .nan →
      m.filter (fun r => Fl.eq r.price v) = m.filter (fun r => decide (k r.price = k v)) := by
    intro m v hm hv
    refine List.filter_congr fun r hr => ?_
    rw [Bool.eq_iff_iff, O.eq_iff _ _ (hm r hr) hv]; simp
  have nan : ∀ (m : List Row), m.filter (fun r => Fl.eq r.price .nan) = [] := by
    intro m
    rw [List.filter_eq_nil_iff]
    intro r _
    cases r.price <;> simp [Fl.eq, Fl.isNaN]
  constructor
  · intro h c
    by_cases hc : ∃ r ∈ l ++ l', k r.price = c
    · obtain ⟨r, hr, rfl⟩ := hc
      have hv : r.price ≠ .nan := by
        rcases List.mem_append.1 hr with hr | hr
        · exact hl r hr
        · exact hl' r hr
      rw [← key l _ hl hv, ← key l' _ hl' hv, h]
    · have z : ∀ m : List Row, (∀ r ∈ m, r ∈ l ++ l') → m.filter (fun r => decide (k r.price = c)) = [] := by
        intro m hm
        rw [List.filter_eq_nil_iff]
        intro r hr; simpa using fun e => hc ⟨r, hm r hr, e⟩
      rw [z l (by simp +contextual), z l' (by simp +contextual)]
  · intro h v
    by_cases hv : v = .nan
    · rw [hv, nan, nan]
    · rw [key l v hl hv, key l' v hl' hv]; exact (h (k v)).symm

theorem priceSorted_iff {l l' : List Row} (O : SideOrd lt k) (hl : NoNaN l) (hl' : NoNaN l') :
    PriceSorted lt l l' ↔ Go.Sort.SortedBy (fun r : Row => k r.price) l' ∧ Go.Sort.SameByKey (fun r : Row => k r.price) l l' := by
  unfold PriceSorted
  rw [filter_eq_iff O hl hl']
  refine and_congr_left fun _ => ?_
  unfold Go.Sort.SortedBy
  constructor <;> intro h <;> refine h.imp_of_mem fun {x y} hx hy hxy => ?_
  · exact (O.lt_false_iff (hl' y hy) (hl' x hx)).1 hxy
  · exact (O.lt_false_iff (hl' y hy) (hl' x hx)).2 hxy

omit [LinearOrder κ] in
theorem first_nan : ∀ {R : List Row}, ¬ NoNaN R → ∃ A r B, R = A ++ r :: B ∧ NoNaN A ∧ r.price = .nan
  | [], h => (h (by simp [NoNaN])).elim
  | x :: R, h => by
    by_cases hx : x.price = .nan
    · exact ⟨[], x, R, rfl, by simp [NoNaN], hx⟩
    · obtain ⟨A, r, B, rfl, hA, hr⟩ := first_nan (R := R) fun hR => h fun r hr => by
        rcases List.mem_cons.1 hr with rfl | hr
        · exact hx
        · exact hR r hr
      refine ⟨x :: A, r, B, rfl, fun s hs => ?_, hr⟩
      rcases List.mem_cons.1 hs with rfl | hs
      · exact hx
      · exact hA s hs

omit [LinearOrder κ] in
theorem first_nan_unique : ∀ {A A' B B' : List Row} {r r' : Row}, A ++ r :: B = A' ++ r' :: B' → NoNaN A → NoNaN A' →
    r.price = .nan → r'.price = .nan → A = A' ∧ r = r' ∧ B = B'
  | [], [], _, _, _, _, e, _, _, _, _ => by simpa using e
  | [], x :: A', _, _, _, _, e, _, h, hr, _ => by
    simp only [List.nil_append, List.cons_append, List.cons.injEq] at e
    exact (h x (by simp) (e.1 ▸ hr)).elim
  | x :: A, [], _, _, _, _, e, h, _, _, hr => by
    simp only [List.nil_append, List.cons_append, List.cons.injEq] at e
    exact (h x (by simp) (e.1 ▸ hr)).elim
  | x :: A, x' :: A', _, _, _, _, e, h, h', hr, hr' => by
    simp only [List.cons_append, List.cons.injEq] at e
    obtain ⟨rfl, h2, h3⟩ := first_nan_unique e.2 (fun s hs => h s (by simp [hs])) (fun s hs => h' s (by simp [hs])) hr hr'
    exact ⟨by rw [e.1], h2, h3⟩

theorem sortedBetween_unique (O : SideOrd lt k) {l s s' : List Row} (h : SortedBetweenNaNs lt l s)
    (h' : SortedBetweenNaNs lt l s') : s = s' := by
  have one : ∀ {l s s' : List Row}, NoNaN l → NoNaN s → NoNaN s' → PriceSorted lt l s → PriceSorted lt l s' → s = s' := by
    intro l s s' hl hs hs' p p'
    obtain ⟨a, b⟩ := (priceSorted_iff O hl hs).1 p
    obtain ⟨a', b'⟩ := (priceSorted_iff O hl hs').1 p'
    exact Go.Sort.sorted_unique a a' (b.symm.trans b')
  induction h generalizing s' with
  | last hl hs p =>
    cases h' with
    | last _ hs' p' => exact one hl hs hs' p p'
    | next _ _ _ hr _ => exact (hl _ (by simp) hr).elim
  | @next l s m t r hl hs p hr _ ih =>
    generalize e : l ++ r :: m = w at h'
    cases h' with
    | last hw _ _ => exact (hw r (by simp [← e]) hr).elim
    | next hl' hs' p' hr' h2 =>
      obtain ⟨rfl, rfl, rfl⟩ := first_nan_unique e hl hl' hr hr'
      rw [one hl hs hs' p p', ih h2]

theorem insertionSort_between (O : SideOrd lt k) (h1 : ∀ x, lt x .nan = false) (h2 : ∀ x, lt .nan x = false) :
    ∀ (n : Nat) (R P : List Row) {a b : Nat}, R.length < n → a = P.length → b = a + R.length →
      ∃ R', Go.Sort.insertionSort (lessOf lt) a b (P ++ R) = some (P ++ R') ∧ SortedBetweenNaNs lt R R' := by
  intro n
  induction n with
  | zero => intro R P a b hn; omega
  | succ n ih =>
    intro R P a b hn ha hb
    have stretch : ∀ (A Q T : List Row) {a b : Nat}, NoNaN A → a = Q.length → b = a + A.length →
        ∃ C, Go.Sort.insertionSort (lessOf lt) a b (Q ++ A ++ T) = some (Q ++ C ++ T) ∧ C.length = A.length ∧ NoNaN C ∧
          PriceSorted lt A C := by
      intro A Q T a b hA ha hb
      obtain ⟨C, e, hp, hs⟩ := Go.Sort.insertionSort_at (lessOf lt) (fun r : Row => k r.price) A Q T (a := a) (b := b) ha hb
      have hC : NoNaN C := fun r hr => hA r (hp.mem_iff.1 hr)
      exact ⟨C, e, hp.length_eq, hC, (priceSorted_iff O hA hC).2 (hs _ (compares_row O) hA trivial)⟩
    by_cases hR : NoNaN R
    · obtain ⟨C, e, -, hC, hs⟩ := stretch R P [] hR ha hb
      exact ⟨C, by simpa using e, .last hR hC hs⟩
    · obtain ⟨A, r, B, rfl, hA, hr⟩ : ∃ A r B, R = A ++ r :: B ∧ NoNaN A ∧ r.price = .nan := first_nan hR
      obtain ⟨A', e, lA, hA', hs⟩ := stretch A P (r :: B) (a := a) (b := a + A.length) hA ha rfl
      obtain ⟨B', e2, hB⟩ := ih B (P ++ A' ++ [r]) (a := a + A.length + 1) (b := b) (by simp at hn; omega) (by simp; omega)
        (by simp at hb; omega)
      refine ⟨A' ++ r :: B', ?_, .next hA hA' hs hr hB⟩
      have := Go.Sort.insertionSort_split (lt := lessOf lt) (r := r) (fun x => by simp only [lessOf, hr, h1]) (fun x => by simp only [lessOf, hr, h2])
        (A := A) (A' := A') (B := B) (B' := B') (P := P) (a := a) (b := b) (c := a + A.length) ha rfl (by simp at hb; omega) e lA e2
      simpa using this

theorem sliceStable_between (O : SideOrd lt k) (h1 : ∀ x, lt x .nan = false) (h2 : ∀ x, lt .nan x = false) {l : List Row}
    (hl : l.length ≤ 20) (s : List Row) : Go.Sort.sliceStable (lessOf lt) l = some s ↔ SortedBetweenNaNs lt l s := by
  obtain ⟨t, e, h⟩ := insertionSort_between O h1 h2 (l.length + 1) l [] (a := 0) (b := l.length) (by omega) rfl (by simp)
  rw [Go.Sort.sliceStable_small _ hl]
  simp only [List.nil_append] at e
  rw [e]
  constructor
  · intro h'; cases h'; exact h
  · intro h'; rw [sortedBetween_unique O h h']

end

theorem lt_nan_right (x : Fl) : Fl.lt x .nan = false := by cases x <;> rfl
theorem lt_nan_left (x : Fl) : Fl.lt .nan x = false := by cases x <;> rfl

/-- **C183.** `NewOrderBook` of at most 20 rows a side, with NaN prices among them: the rows with a NaN price keep their
places and the stretches between them are sorted on their own; of that the first MaxDepth rows are kept. -/
theorem C183_book {S : FloatSem} (hS : Lawful S) (now : Int) {asks bids : List Row} {d : Int} (hd : 0 ≤ d)
    (ha : asks.length ≤ 20) (hb : bids.length ≤ 20) :
    ∃ asks' bids', SortedBetweenNaNs Fl.lt asks asks' ∧ SortedBetweenNaNs Fl.gt bids bids' ∧
      ∃ b, newOrderBook S now asks bids d = .ok b ∧ b.time = now ∧ b.maxDepth = d ∧
        b.asks.map Row.pv = (asks'.take d.toNat).map Row.pv ∧ AccumOk S b.asks ∧
        b.bids.map Row.pv = (bids'.take d.toNat).map Row.pv ∧ AccumOk S b.bids := by
  obtain ⟨a, ea, -⟩ := Go.Sort.C182_elements (fun x y : Row => Fl.lt x.price y.price) asks
  obtain ⟨b, eb, -⟩ := Go.Sort.C182_elements (fun x y : Row => Fl.gt x.price y.price) bids
  refine ⟨a, b, (sliceStable_between askOrd lt_nan_right lt_nan_left ha a).1 ea,
    (sliceStable_between bidOrd lt_nan_left lt_nan_right hb b).1 eb, _,
    newOrderBook_eq hS hd (by omega) (by omega), rfl, rfl, ?_, accumulate_ok S _, ?_, accumulate_ok S _⟩
  · unfold sliceStable
    rw [ea]; exact accumulate_pv S _ _
  · unfold sliceStable
    rw [eb]; exact accumulate_pv S _ _

/-- **C183.** What is found in a side is determined by that. -/
theorem C183_unique {rows s s' : List Row} :
    (SortedBetweenNaNs Fl.lt rows s → SortedBetweenNaNs Fl.lt rows s' → s = s') ∧
    (SortedBetweenNaNs Fl.gt rows s → SortedBetweenNaNs Fl.gt rows s' → s = s') :=
  ⟨sortedBetween_unique askOrd, sortedBetween_unique bidOrd⟩

/-- Five asks, one with a NaN price: 7 and 5 before it and 6 and 1 after it are put in order, 1 is not first. -/
example : (match newOrderBook ieee 0 [mkRow (.fin 7) (.fin 1), mkRow (.fin 5) (.fin 2), mkRow .nan (.fin 3),
      mkRow (.fin 6) (.fin 4), mkRow (.fin 1) (.fin 5)] [] 10 with
    | .ok b => b.asks.map (·.price)
    | _ => []) = [.fin 5, .fin 7, .nan, .fin 1, .fin 6] := by decide +kernel

/-- The bound of 20 rows is needed: with 21 asks the row with a NaN price does not keep its place. -/
theorem C183_more_rows : ∃ rows : List Row, rows.length = 21 ∧ (rows[3]?.map (·.price)) = some .nan ∧
    ∃ s, Go.Sort.sliceStable (fun x y : Row => Fl.lt x.price y.price) rows = some s ∧
      (s[3]?.map (·.price)) ≠ some .nan := by
  refine ⟨(List.range 21).map fun i => mkRow (if i = 3 then .nan else .fin (100 - i : ℤ)) (.fin 1), by decide +kernel,
    by decide +kernel, ?_⟩
  obtain ⟨s, e, -⟩ := Go.Sort.C182_elements (fun x y : Row => Fl.lt x.price y.price)
    ((List.range 21).map fun i => mkRow (if i = 3 then .nan else .fin (100 - i : ℤ)) (.fin 1))
  refine ⟨s, e, fun h => ?_⟩
  have : (Go.Sort.sliceStable (fun x y : Row => Fl.lt x.price y.price)
      ((List.range 21).map fun i => mkRow (if i = 3 then .nan else .fin (100 - i : ℤ)) (.fin 1))).map
      (fun s => s[3]?.map (·.price)) ≠ some (some .nan) := by decide +kernel
  rw [e] at this
  exact this (congrArg some h)

/-- **C182.** `NewOrderBook` with any prices, NaN too: the rows are those of the caller, in some order, cut to MaxDepth. -/
theorem C182_book {S : FloatSem} (hS : Lawful S) (now : Int) {asks bids : List Row} {d : Int} (hd : 0 ≤ d)
    (ha : asks.length < 2 ^ 53) (hb : bids.length < 2 ^ 53) :
    ∃ asks' bids', asks'.Perm asks ∧ bids'.Perm bids ∧
      (NoNaN asks → PriceSorted Fl.lt asks asks') ∧ (NoNaN bids → PriceSorted Fl.gt bids bids') ∧
      ∃ b, newOrderBook S now asks bids d = .ok b ∧ b.time = now ∧ b.maxDepth = d ∧
        b.asks.map Row.pv = (asks'.take d.toNat).map Row.pv ∧ AccumOk S b.asks ∧
        b.bids.map Row.pv = (bids'.take d.toNat).map Row.pv ∧ AccumOk S b.bids := by
  refine ⟨_, _, sliceStable_perm _ asks, sliceStable_perm _ bids, fun h => ?_, fun h => ?_, _,
    newOrderBook_eq hS hd ha hb, rfl, rfl, accumulate_pv S _ _, accumulate_ok S _, accumulate_pv S _ _,
    accumulate_ok S _⟩
  · refine (priceSorted_iff askOrd h (sliceStable_num _ h)).2 ⟨sliceStable_sorted askOrd h, fun c => ?_⟩
    exact (sliceStable_stable askOrd h c).symm
  · refine (priceSorted_iff bidOrd h (sliceStable_num _ h)).2 ⟨sliceStable_sorted bidOrd h, fun c => ?_⟩
    exact (sliceStable_stable bidOrd h c).symm

/-- 41 asks (three blocks) with prices 0 to 4 again and again: by price, and within a price in the order given. -/
example : (match newOrderBook ieee 0 ((List.range 41).map fun i => mkRow (.fin (i % 5 : ℕ)) (.fin i)) [] 12 with
    | .ok b => b.asks.map fun r => (r.price, r.volume)
    | _ => []) =
    ([0, 5, 10, 15, 20, 25, 30, 35, 40].map (fun v => (.fin 0, .fin v)) ++ [1, 6, 11].map fun v => (.fin 1, .fin v)) := by
  decide +kernel

end Finmod
