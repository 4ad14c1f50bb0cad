import Verif.Props.BookHistory

/-!
# C17–C23: `GetDepth`, `CalculateOverlap`, `Print`
-/

namespace Finmod
open Go Spec

/-! ### GetDepth -/

/-- The row a range search finds: the last row not behind the price. -/
theorem locate {lt : Fl → Fl → Bool} {α : Type} [LinearOrder α] {k : Fl → α} (O : SideOrd lt k)
    {f : Row} {rest : List Row} {price : Fl} (hn : NoNaN (f :: rest)) (hp : price ≠ .nan)
    (hs : GSorted lt (f :: rest)) (hf : k f.price ≤ k price) :
    ∃ l1 r l2, f :: rest = l1 ++ r :: l2 ∧ k r.price ≤ k price ∧
      (∀ x ∈ l1, k x.price < k r.price) ∧ (∀ x ∈ l2, k price < k x.price) ∧
      (match (f :: rest).findIdx? (fun r => lt price r.price) with
        | some i => (f :: rest)[i - 1]?
        | none => (f :: rest).getLast?) = some r := by
  cases h : (f :: rest).findIdx? (fun r => lt price r.price) with
  | none =>
    have hall := findIdx?_none_all h
    have hne : (f :: rest) ≠ [] := by simp
    refine ⟨(f :: rest).dropLast, (f :: rest).getLast hne, [], ?_, ?_, ?_, by simp, ?_⟩
    · exact (List.dropLast_append_getLast hne).symm
    · have hm := List.getLast_mem hne
      exact (O.lt_false_iff hp (hn _ hm)).1 (hall _ hm)
    · intro x hx
      have hs2 := hs
      unfold GSorted at hs2
      rw [← List.dropLast_append_getLast hne, List.pairwise_append] at hs2
      have hxm : x ∈ f :: rest := List.mem_of_mem_dropLast hx
      exact (O.lt_iff _ _ (hn x hxm) (hn _ (List.getLast_mem hne))).1 (hs2.2.2 x hx _ (by simp))
    · exact List.getLast?_eq_some_getLast hne
  | some i =>
    obtain ⟨l1, x, l2, hl, rfl, hx, hall⟩ := findIdx?_some_split h
    have hxn : x.price ≠ .nan := hn x (by rw [hl]; simp)
    have hkx := (O.lt_iff _ _ hp hxn).1 hx
    have hne : l1 ≠ [] := by
      rintro rfl
      simp only [List.nil_append, List.cons.injEq] at hl
      rw [hl.1] at hf
      exact absurd hkx (not_lt.2 hf)
    have e : l1.dropLast ++ [l1.getLast hne] = l1 := List.dropLast_append_getLast hne
    have hn1 : ∀ y ∈ l1, y.price ≠ .nan := fun y hy => hn y (by rw [hl]; simp [hy])
    have hs2 := hs
    unfold GSorted at hs2
    rw [hl, List.pairwise_append, List.pairwise_cons] at hs2
    refine ⟨l1.dropLast, l1.getLast hne, x :: l2, ?_, ?_, ?_, ?_, ?_⟩
    · rw [hl]; conv_lhs => rw [← e]
      simp
    · have hm := List.getLast_mem hne
      exact (O.lt_false_iff hp (hn1 _ hm)).1 (hall _ hm)
    · intro y hy
      have hs3 := hs2.1
      rw [← e, List.pairwise_append] at hs3
      exact (O.lt_iff _ _ (hn1 y (List.mem_of_mem_dropLast hy)) (hn1 _ (List.getLast_mem hne))).1
        (hs3.2.2 y hy _ (by simp))
    · intro y hy
      rcases List.mem_cons.1 hy with rfl | hy
      · exact hkx
      · have hyn : y.price ≠ .nan := hn y (by rw [hl]; simp [hy])
        exact hkx.trans ((O.lt_iff _ _ hxn hyn).1 (hs2.2.1.1 y hy))
    · have hlen : 0 < l1.length := List.length_pos_iff.2 hne
      simp only
      rw [hl, List.getElem?_append_left (by omega), ← List.getLast?_eq_getElem?]
      exact List.getLast?_eq_some_getLast hne

/-- Price is inside the range of the asks. -/
def Spec.InAsks (b : Book) (price : Fl) : Prop :=
  ∃ f l, b.asks.head? = some f ∧ b.asks.getLast? = some l ∧
    Fl.le f.price price = true ∧ Fl.le price l.price = true

/-- Price is inside the range of the bids. -/
def Spec.InBids (b : Book) (price : Fl) : Prop :=
  ∃ f l, b.bids.head? = some f ∧ b.bids.getLast? = some l ∧
    Fl.le l.price price = true ∧ Fl.le price f.price = true

/-- The rows up to a located row are the rows selected by price. -/
theorem locate_filter {lt : Fl → Fl → Bool} {α : Type} [LinearOrder α] {k : Fl → α}
    (O : SideOrd lt k) {rows l1 l2 : List Row} {r : Row} {price : Fl} (hn : NoNaN rows)
    (hp : price ≠ .nan) (hl : rows = l1 ++ r :: l2) (h1 : k r.price ≤ k price)
    (h2 : ∀ x ∈ l1, k x.price < k r.price) (h3 : ∀ x ∈ l2, k price < k x.price) :
    rows.filter (fun x => !(lt price x.price)) = rows.take (l1.length + 1) := by
  subst hl
  have e1 : l1.filter (fun x => !(lt price x.price)) = l1 := by
    rw [List.filter_eq_self]
    intro x hx
    rw [(O.lt_false_iff hp (hn x (by simp [hx]))).2 ((h2 x hx).le.trans h1)]; rfl
  have e2 : l2.filter (fun x => !(lt price x.price)) = [] := by
    rw [List.filter_eq_nil_iff]
    intro x hx
    rw [(O.lt_iff _ _ hp (hn x (by simp [hx]))).2 (h3 x hx)]; simp
  rw [List.filter_append, List.filter_cons, e1, e2,
    (O.lt_false_iff hp (hn r (by simp))).2 h1]
  simp [List.take_append]

/-- `GetDepth` on well-formed non-empty sides, all cases. -/
theorem getDepth_cases (b : Book) (h : WellFormed b) (ha : b.asks ≠ []) (hbne : b.bids ≠ [])
    (price : Fl) :
    (Fl.le price (.fin 0) = true → b.getDepth price = .err .einvalid (.fin 0)) ∧
    (Fl.le price (.fin 0) = false → InAsks b price →
      ∃ l1 r l2, b.asks = l1 ++ r :: l2 ∧ r.price.key ≤ price.key ∧
        (∀ x ∈ l1, x.price.key < r.price.key) ∧ (∀ x ∈ l2, price.key < x.price.key) ∧
        price ≠ .nan ∧ b.getDepth price = .ok r.price) ∧
    (Fl.le price (.fin 0) = false → ¬ InAsks b price → InBids b price →
      ∃ l1 r l2, b.bids = l1 ++ r :: l2 ∧ price.key ≤ r.price.key ∧
        (∀ x ∈ l1, r.price.key < x.price.key) ∧ (∀ x ∈ l2, x.price.key < price.key) ∧
        price ≠ .nan ∧ b.getDepth price = .ok r.price) ∧
    (Fl.le price (.fin 0) = false → ¬ InAsks b price → ¬ InBids b price →
      b.getDepth price = .err .enotfound (.fin 0)) := by
  obtain ⟨f, rest, hfr⟩ := List.exists_cons_of_ne_nil ha
  obtain ⟨g, srest, hgr⟩ := List.exists_cons_of_ne_nil hbne
  obtain ⟨la, hla⟩ : ∃ x, b.asks.getLast? = some x := ⟨_, List.getLast?_eq_some_getLast ha⟩
  obtain ⟨lb, hlb⟩ : ∃ x, b.bids.getLast? = some x := ⟨_, List.getLast?_eq_some_getLast hbne⟩
  have hfa : b.asks.head? = some f := by rw [hfr]; rfl
  have hgb : b.bids.head? = some g := by rw [hgr]; rfl
  have hina : InAsks b price ↔ (Fl.le f.price price = true ∧ Fl.le price la.price = true) := by
    constructor
    · rintro ⟨f', l', h1, h2, h3, h4⟩
      rw [hfa] at h1; rw [hla] at h2
      simp only [Option.some.injEq] at h1 h2
      subst h1; subst h2; exact ⟨h3, h4⟩
    · rintro ⟨h3, h4⟩; exact ⟨f, la, hfa, hla, h3, h4⟩
  have hinb : InBids b price ↔ (Fl.le lb.price price = true ∧ Fl.le price g.price = true) := by
    constructor
    · rintro ⟨f', l', h1, h2, h3, h4⟩
      rw [hgb] at h1; rw [hlb] at h2
      simp only [Option.some.injEq] at h1 h2
      subst h1; subst h2; exact ⟨h3, h4⟩
    · rintro ⟨h3, h4⟩; exact ⟨g, lb, hgb, hlb, h3, h4⟩
  refine ⟨?_, ?_, ?_, ?_⟩
  · intro h0; simp [Book.getDepth, h0]
  · intro h0 hin
    have hin' := hina.1 hin
    have hpn : price ≠ .nan := (Fl.le_iff.1 hin'.2).1
    have hn := h.asks_num; have hs := h.askSorted
    rw [hfr] at hn hs
    obtain ⟨l1, r, l2, e1, e2, e3, e4, e5⟩ := locate askOrd hn hpn hs (Fl.le_iff.1 hin'.1).2.2
    refine ⟨l1, r, l2, hfr.trans e1, e2, e3, e4, hpn, ?_⟩
    unfold Book.getDepth
    simp only [h0, hfa, hla, hgb, hlb, hin'.1, hin'.2, Bool.false_eq_true, if_false, Bool.and_self,
      if_true]
    rw [← hfr] at e5
    cases hfi : b.asks.findIdx? (fun r => Fl.gt r.price price) with
    | none =>
      have : b.asks.findIdx? (fun r => Fl.lt price r.price) = none := hfi
      rw [this] at e5
      simp only at e5 ⊢
      rw [hla] at e5; simp only [Option.some.injEq] at e5; rw [e5]
    | some i =>
      have : b.asks.findIdx? (fun r => Fl.lt price r.price) = some i := hfi
      rw [this] at e5
      simp only at e5 ⊢
      rw [e5]
  · intro h0 hnin hin
    have hin' := hinb.1 hin
    have hpn : price ≠ .nan := (Fl.le_iff.1 hin'.2).1
    have hn := h.bids_num; have hs := h.bidSorted
    rw [hgr] at hn hs
    obtain ⟨l1, r, l2, e1, e2, e3, e4, e5⟩ := locate bidOrd hn hpn hs (Fl.le_iff.1 hin'.2).2.2
    refine ⟨l1, r, l2, hgr.trans e1, e2, e3, e4, hpn, ?_⟩
    have hna : (Fl.le f.price price && Fl.le price la.price) = false := by
      rw [hina] at hnin
      rw [Bool.and_eq_false_iff]
      by_contra hc
      push Not at hc
      exact hnin ⟨by simpa using hc.1, by simpa using hc.2⟩
    unfold Book.getDepth
    simp only [h0, hfa, hla, hgb, hlb, hna, hin'.1, hin'.2, Bool.false_eq_true, if_false,
      Bool.and_self, if_true]
    rw [← hgr] at e5
    cases hfi : b.bids.findIdx? (fun r => Fl.lt r.price price) with
    | none =>
      have : b.bids.findIdx? (fun r => (fun a b => Fl.lt b a) price r.price) = none := hfi
      rw [this] at e5
      simp only at e5 ⊢
      rw [hlb] at e5; simp only [Option.some.injEq] at e5; rw [e5]
    | some i =>
      have : b.bids.findIdx? (fun r => (fun a b => Fl.lt b a) price r.price) = some i := hfi
      rw [this] at e5
      simp only at e5 ⊢
      rw [e5]
  · intro h0 hnin hnib
    have hna : (Fl.le f.price price && Fl.le price la.price) = false := by
      rw [hina] at hnin
      rw [Bool.and_eq_false_iff]
      by_contra hc
      push Not at hc
      exact hnin ⟨by simpa using hc.1, by simpa using hc.2⟩
    have hnb : (Fl.le lb.price price && Fl.le price g.price) = false := by
      rw [hinb] at hnib
      rw [Bool.and_eq_false_iff]
      by_contra hc
      push Not at hc
      exact hnib ⟨by simpa using hc.1, by simpa using hc.2⟩
    unfold Book.getDepth
    simp [h0, hfa, hla, hgb, hlb, hna, hnb]

/-! ### C17 -/

/-- The documented result: the accumulated volume from the best row to the price. -/
def Spec.askDepth (S : FloatSem) (b : Book) (price : Fl) : Fl :=
  runningSum S ((b.asks.filter (fun r => !(Fl.gt r.price price))).map (·.volume))
def Spec.bidDepth (S : FloatSem) (b : Book) (price : Fl) : Fl :=
  runningSum S ((b.bids.filter (fun r => !(Fl.lt r.price price))).map (·.volume))

/-- The full claim of C17 (ask part is enough to refute it). -/
def Spec.C17_claim : Prop :=
  ∀ (S : FloatSem) (b : Book) (price : Fl), WellFormed b → b.asks ≠ [] → b.bids ≠ [] →
    AccumOk S b.asks → AccumOk S b.bids → Fl.le price (.fin 0) = false →
    (InAsks b price → b.getDepth price = .ok (askDepth S b price)) ∧
    (¬ InAsks b price → InBids b price → b.getDepth price = .ok (bidDepth S b price))

/-- **C17 is false of the code**: asks 11 and 12 with volumes 1 and 4: `GetDepth(12)` gives 12,
not 5. -/
theorem C17_get_depth_volume_violated : ¬ C17_claim := by
  intro h
  have ok : ∀ rows : List Row, rows.length = 3 →
      (∀ i : Fin 3, ∀ h : i.val < rows.length,
        rows[i.val].accum = runningSum FloatSem.exact ((rows.take (i + 1)).map (·.volume))) →
      AccumOk FloatSem.exact rows := fun rows hl hh i hi => hh ⟨i, by omega⟩ hi
  have := (h FloatSem.exact Ex.book (.fin 12) (by decide +kernel) (by decide) (by decide)
    (ok _ rfl (by decide +kernel)) (ok _ rfl (by decide +kernel)) (by decide +kernel)).1
    ⟨⟨.fin 11, .fin 1, .fin 1⟩, ⟨.fin 13, .fin 2, .fin 7⟩, rfl, rfl, by decide +kernel,
      by decide +kernel⟩
  revert this
  decide +kernel

/-- **C17, partial**: `GetDepth` finds the row whose `AccumVolume` is the documented result, but
returns that row's price. Missing: returning the volume, which the code does not do. -/
theorem C17_get_depth_volume_partial (S : FloatSem) (b : Book) (price : Fl) (h : WellFormed b)
    (ha : b.asks ≠ []) (hb : b.bids ≠ []) (hoa : AccumOk S b.asks) (hob : AccumOk S b.bids)
    (h0 : Fl.le price (.fin 0) = false) :
    (InAsks b price → ∃ r ∈ b.asks, b.getDepth price = .ok r.price ∧ r.accum = askDepth S b price) ∧
    (¬ InAsks b price → InBids b price →
      ∃ r ∈ b.bids, b.getDepth price = .ok r.price ∧ r.accum = bidDepth S b price) := by
  obtain ⟨_, c2, c3, _⟩ := getDepth_cases b h ha hb price
  have pick : ∀ (rows l1 l2 : List Row) (r : Row), rows = l1 ++ r :: l2 → AccumOk S rows →
      r.accum = runningSum S ((rows.take (l1.length + 1)).map (·.volume)) := by
    intro rows l1 l2 r hl ho
    have := ho l1.length (by rw [hl]; simp)
    rw [← this]
    subst hl; simp
  constructor
  · intro hin
    obtain ⟨l1, r, l2, e1, e2, e3, e4, e5, e6⟩ := c2 h0 hin
    refine ⟨r, by rw [e1]; simp, e6, ?_⟩
    rw [pick _ _ _ _ e1 hoa, ← locate_filter askOrd h.asks_num e5 e1 e2 e3 e4]
    rfl
  · intro hnin hin
    obtain ⟨l1, r, l2, e1, e2, e3, e4, e5, e6⟩ := c3 h0 hnin hin
    refine ⟨r, by rw [e1]; simp, e6, ?_⟩
    rw [pick _ _ _ _ e1 hob, ← locate_filter bidOrd h.bids_num e5 e1 e2 e3 e4]
    rfl

/-- `GetDepth(12)` on the sample book selects the row at 12, whose `AccumVolume` is 5. -/
example : Ex.book.getDepth (.fin 12) = .ok (.fin 12) ∧
    askDepth FloatSem.exact Ex.book (.fin 12) = .fin 5 := by decide +kernel

/-! ### C18 -/

/-- **C18** `GetDepth` locates the right level. -/
theorem C18_get_depth_level (b : Book) (h : WellFormed b) (ha : b.asks ≠ []) (hb : b.bids ≠ [])
    (price : Fl) :
    (Fl.le price (.fin 0) = true → b.getDepth price = .err .einvalid (.fin 0)) ∧
    (Fl.le price (.fin 0) = false →
      (InAsks b price → ∃ r ∈ b.asks, b.getDepth price = .ok r.price ∧
        Fl.le r.price price = true ∧
        ∀ r' ∈ b.asks, Fl.le r'.price price = true → Fl.le r'.price r.price = true) ∧
      (¬ InAsks b price → InBids b price → ∃ r ∈ b.bids, b.getDepth price = .ok r.price ∧
        Fl.ge r.price price = true ∧
        ∀ r' ∈ b.bids, Fl.ge r'.price price = true → Fl.ge r'.price r.price = true) ∧
      (¬ InAsks b price → ¬ InBids b price → b.getDepth price = .err .enotfound (.fin 0))) := by
  obtain ⟨c1, c2, c3, c4⟩ := getDepth_cases b h ha hb price
  refine ⟨c1, fun h0 => ⟨?_, ?_, c4 h0⟩⟩
  · intro hin
    obtain ⟨l1, r, l2, e1, e2, e3, e4, e5, e6⟩ := c2 h0 hin
    have hn := h.asks_num
    have hrn : r.price ≠ .nan := hn r (by rw [e1]; simp)
    refine ⟨r, by rw [e1]; simp, e6, (le_key hrn e5).2 e2, ?_⟩
    intro r' hr' hle
    have hrn' := hn r' hr'
    rw [le_key hrn' e5] at hle
    rw [le_key hrn' hrn]
    rw [e1] at hr'
    rcases List.mem_append.1 hr' with hm | hm
    · exact (e3 r' hm).le
    · rcases List.mem_cons.1 hm with rfl | hm
      · exact le_rfl
      · exact absurd hle (not_le.2 (e4 r' hm))
  · intro hnin hin
    obtain ⟨l1, r, l2, e1, e2, e3, e4, e5, e6⟩ := c3 h0 hnin hin
    have hn := h.bids_num
    have hrn : r.price ≠ .nan := hn r (by rw [e1]; simp)
    refine ⟨r, by rw [e1]; simp, e6, (le_key e5 hrn).2 e2, ?_⟩
    intro r' hr' hle
    have hrn' := hn r' hr'
    unfold Fl.ge at hle ⊢
    rw [le_key e5 hrn'] at hle
    rw [le_key hrn hrn']
    rw [e1] at hr'
    rcases List.mem_append.1 hr' with hm | hm
    · exact (e3 r' hm).le
    · rcases List.mem_cons.1 hm with rfl | hm
      · exact le_rfl
      · exact absurd hle (not_le.2 (e4 r' hm))

example := C18_get_depth_level Ex.book (by decide +kernel) (by decide) (by decide) (.fin 9)
example : Ex.book.getDepth (.fin 9) = .ok (.fin 10) ∧ Ex.book.getDepth (.fin (25/2)) = .ok (.fin 12)
    ∧ Ex.book.getDepth (.fin (21/2)) = .err .enotfound (.fin 0) := by decide +kernel

/-! ### C19 -/

/-- The full claim of C19. -/
def Spec.C19_claim : Prop := ∀ (b : Book) (price : Fl), b.getDepth price ≠ .panic

/-- **C19 is false of the code**: a book without asks panics. -/
theorem C19_get_depth_no_panic_violated : ¬ C19_claim := by
  intro h
  exact h { time := 0, maxDepth := 5, asks := [], bids := [⟨.fin 10, .fin 1, .fin 1⟩] } (.fin 10)
    (by decide +kernel)

/-- **C19, partial**: with both sides non-empty, or a price that is not positive, `GetDepth` never
panics, sorted or not. Missing: empty sides, for which the claim is false. -/
theorem C19_get_depth_no_panic_partial (b : Book) (price : Fl)
    (h : (b.asks ≠ [] ∧ b.bids ≠ []) ∨ Fl.le price (.fin 0) = true) : b.getDepth price ≠ .panic := by
  unfold Book.getDepth
  split_ifs with h0
  · simp
  · have h' : b.asks ≠ [] ∧ b.bids ≠ [] := by
      rcases h with h | h
      · exact h
      · exact absurd h h0
    have hh : ∀ l : List Row, l ≠ [] → (∃ x, l.head? = some x) ∧ (∃ x, l.getLast? = some x) := by
      intro l hl
      exact ⟨⟨_, List.head?_eq_some_head hl⟩, ⟨_, List.getLast?_eq_some_getLast hl⟩⟩
    obtain ⟨⟨fa, h1⟩, ⟨la, h2⟩⟩ := hh _ h'.1
    obtain ⟨⟨fb, h3⟩, ⟨lb, h4⟩⟩ := hh _ h'.2
    have idx : ∀ (l : List Row) (q : Row → Bool) (i : Nat), l.findIdx? q = some i →
        ∃ r, l[i - 1]? = some r := by
      intro l q i hi
      obtain ⟨l1, x, l2, rfl, rfl, _⟩ := findIdx?_some_split hi
      exact ⟨_, List.getElem?_eq_getElem (by simp; omega)⟩
    simp only [h1, h2, h3, h4]
    split_ifs
    · cases hf : b.asks.findIdx? (fun r => Fl.gt r.price price) with
      | none => simp
      | some i => obtain ⟨r, hr⟩ := idx _ _ _ hf; simp [hr]
    · cases hf : b.bids.findIdx? (fun r => Fl.lt r.price price) with
      | none => simp
      | some i => obtain ⟨r, hr⟩ := idx _ _ _ hf; simp [hr]
    · simp

example := C19_get_depth_no_panic_partial Ex.book (.fin 12) (Or.inl ⟨by decide, by decide⟩)

/-! ### C23 -/

theorem print_asks (asks : List Row) :
    (List.range asks.length).filterMap (fun i => (asks[asks.length - 1 - i]?).map PrintLine.row) =
      asks.reverse.map PrintLine.row := by
  apply List.ext_getElem?
  intro i
  have e : (List.range asks.length).filterMap
      (fun i => (asks[asks.length - 1 - i]?).map PrintLine.row) =
      (List.range asks.length).map (fun i => PrintLine.row (asks.reverse.getD i zeroRow)) := by
    rw [← List.filterMap_eq_map]
    apply List.filterMap_congr
    intro i hi
    rw [List.mem_range] at hi
    simp [List.getElem?_reverse hi, List.getD_eq_getElem?_getD,
      List.getElem?_eq_getElem (show asks.length - 1 - i < asks.length by omega)]
  rw [e]
  by_cases hi : i < asks.length
  · rw [List.getElem?_map, List.getElem?_map, List.getElem?_range hi]
    simp [hi, List.getD_eq_getElem?_getD]
  · rw [List.getElem?_eq_none (by simp; omega), List.getElem?_eq_none (by simp; omega)]

/-- Prices on the printed lines, top to bottom. -/
def Spec.printedPrices (ls : List PrintLine) : List Fl :=
  ls.filterMap (fun l => match l with | .row r => some r.price | _ => none)

/-- **C23** `Print` writes the asks reversed, the separator, then the bids; for a sorted uncrossed
book the printed prices are non-increasing. -/
theorem C23_print_ladder (b : Book) :
    b.print = [.title] ++ b.asks.reverse.map .row ++ [.separator] ++ b.bids.map .row ∧
    (WellFormed b → Uncrossed b →
      (printedPrices b.print).Pairwise (fun x y => Fl.ge x y = true)) := by
  have hp : b.print = [.title] ++ b.asks.reverse.map .row ++ [.separator] ++ b.bids.map .row := by
    unfold Book.print; rw [print_asks]
  refine ⟨hp, ?_⟩
  intro h hx
  have fm : ∀ l : List Row, (l.map PrintLine.row).filterMap
      (fun l => match l with | .row r => some r.price | _ => none) = l.map (·.price) := by
    intro l; induction l with
    | nil => rfl
    | cons a l ih => simp [ih]
  have : printedPrices b.print = b.asks.reverse.map (·.price) ++ b.bids.map (·.price) := by
    rw [hp]
    unfold printedPrices
    simp only [List.filterMap_append, fm]
    simp
  rw [this, List.pairwise_append]
  refine ⟨?_, ?_, ?_⟩
  · rw [List.pairwise_map, List.pairwise_reverse]
    refine h.asks_sorted.imp ?_
    intro x y hxy
    rw [Fl.lt_iff] at hxy
    exact Fl.le_iff.2 ⟨hxy.1, hxy.2.1, hxy.2.2.le⟩
  · rw [List.pairwise_map]
    refine h.bids_sorted.imp ?_
    intro x y hxy
    rw [Fl.lt_iff] at hxy
    exact Fl.le_iff.2 ⟨hxy.1, hxy.2.1, hxy.2.2.le⟩
  · intro x hxm y hym
    obtain ⟨x', hx1, rfl⟩ := List.mem_map.1 hxm
    obtain ⟨y', hy1, rfl⟩ := List.mem_map.1 hym
    exact hx y' hy1 x' (by simpa using hx1)

example := (C23_print_ladder Ex.book).2 (by decide +kernel) (by decide +kernel)
example : printedPrices Ex.book.print = [.fin 13, .fin 12, .fin 11, .fin 10, .fin 8, .fin 6] := by
  decide +kernel

end Finmod
