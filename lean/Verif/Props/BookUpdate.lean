import Verif.Props.BookNew

/-!
# C05–C11: one `ApplyUpdate` step, crossing and locking
-/

namespace Finmod
open Go Spec

/-- A sample book: asks 11, 12, 13; bids 10, 8, 6; depth 4. -/
def Ex.book : Book :=
  { time := 7, maxDepth := 4,
    asks := [⟨.fin 11, .fin 1, .fin 1⟩, ⟨.fin 12, .fin 4, .fin 5⟩, ⟨.fin 13, .fin 2, .fin 7⟩],
    bids := [⟨.fin 10, .fin 3, .fin 3⟩, ⟨.fin 8, .fin 1, .fin 4⟩, ⟨.fin 6, .fin 5, .fin 9⟩] }

/-! ### C05 -/

/-- **C05** A non-zero update sets exactly one level of its own side. -/
theorem C05_nonzero_update_sets_level (b : Book) (h : WellFormed b) (hd : 0 ≤ b.maxDepth)
    (u : Update) (hp : u.price ≠ .nan) (hv : Fl.ne u.volume (.fin 0) = true) :
    (u.side = "ask" → ∃ b', b.applyUpdate u = .ok b' ∧
      b'.asks = (setAsk b.asks u.price u.volume).take b.maxDepth.toNat) ∧
    (u.side = "bid" → ∃ b', b.applyUpdate u = .ok b' ∧
      b'.bids = (setBid b.bids u.price u.volume).take b.maxDepth.toNat) := by
  constructor
  · intro hs
    exact ⟨_, applyUpdate_ask_set' hd hs hv, by simp only [upsertAsk_set h hp]⟩
  · intro hs
    exact ⟨_, applyUpdate_bid_set' hd hs hv, by simp only [upsertBid_set h hp]⟩

example := C05_nonzero_update_sets_level Ex.book (by decide +kernel) (by decide)
  ⟨.fin 12, .fin 9, "ask"⟩ (by decide) (by decide +kernel)

example : (Ex.book.applyUpdate ⟨.fin (23/2), .fin 9, "ask"⟩) = .ok
    { Ex.book with asks := [⟨.fin 11, .fin 1, .fin 1⟩, ⟨.fin (23/2), .fin 9, .fin 0⟩,
      ⟨.fin 12, .fin 4, .fin 5⟩, ⟨.fin 13, .fin 2, .fin 7⟩] } := by decide +kernel

/-! ### C06 -/

/-- **C06** A zero-volume update deletes exactly that level. -/
theorem C06_zero_update_deletes_level (b : Book) (h : WellFormed b) (hd : 0 ≤ b.maxDepth)
    (hb : DepthOk b) (u : Update) (hp : u.price ≠ .nan) (hv : Fl.eq u.volume (.fin 0) = true) :
    (u.side = "ask" → b.applyUpdate u = .ok { b with asks := deleteLevel b.asks u.price }) ∧
    (u.side = "bid" → b.applyUpdate u = .ok { b with bids := deleteLevel b.bids u.price }) := by
  have hv' : Fl.ne u.volume (.fin 0) = false := by simp [Fl.ne, hv]
  exact ⟨fun hs => applyUpdate_ask_del ⟨h, hd, hb⟩ hs hv' hp,
    fun hs => applyUpdate_bid_del ⟨h, hd, hb⟩ hs hv' hp⟩

example := C06_zero_update_deletes_level Ex.book (by decide +kernel) (by decide) (by decide +kernel)
  ⟨.fin 12, .negZero, "ask"⟩ (by decide) (by decide +kernel)

/-! ### C07 -/

/-- **C07** Unknown sides are rejected without effect; known sides never give an error. -/
theorem C07_unknown_side_rejected (b : Book) (u : Update) :
    (u.side ≠ "ask" → u.side ≠ "bid" → b.applyUpdate u = .err .einvalid b) ∧
    (u.side = "ask" ∨ u.side = "bid" → ∀ c b', b.applyUpdate u ≠ .err c b') := by
  refine ⟨applyUpdate_other, ?_⟩
  have lim : ∀ (d : Book) c b', d.limit ≠ .err c b' := by
    intro d c b'; unfold Book.limit; split <;> simp
  rintro (h | h) c b'
  · unfold Book.applyUpdate
    simp only [h, if_true]
    split_ifs
    · exact lim _ _ _
    · split
      · exact lim _ _ _
      · simp
  · unfold Book.applyUpdate
    have hne : ¬ ("bid" = "ask") := by decide
    simp only [h, if_true, if_neg hne]
    split_ifs
    · exact lim _ _ _
    · split
      · exact lim _ _ _
      · simp

example : Ex.book.applyUpdate ⟨.fin 1, .fin 1, "Ask"⟩ = .err .einvalid Ex.book := by decide +kernel

/-! ### C08 -/

theorem le_key {x y : Fl} (hx : x ≠ .nan) (hy : y ≠ .nan) :
    Fl.le x y = true ↔ x.key ≤ y.key := by rw [Fl.le_iff]; simp [hx, hy]
theorem lt_key {x y : Fl} (hx : x ≠ .nan) (hy : y ≠ .nan) :
    Fl.lt x y = true ↔ x.key < y.key := by rw [Fl.lt_iff]; simp [hx, hy]
theorem eq_key {x y : Fl} (hx : x ≠ .nan) (hy : y ≠ .nan) :
    Fl.eq x y = true ↔ x.key = y.key := by rw [Fl.eq_iff]; simp [hx, hy]

/-- Members of the own side after a set: the new row or an old row. -/
theorem mem_setAsk_take {b : Book} {p v : Fl} {n : Nat} {r : Row}
    (h : r ∈ (setAsk b.asks p v).take n) : r = ⟨p, v, .fin 0⟩ ∨ r ∈ b.asks := by
  have := List.mem_of_mem_take h
  simp only [setAsk, List.mem_append, List.mem_filter, List.mem_singleton] at this
  tauto

theorem mem_setBid_take {b : Book} {p v : Fl} {n : Nat} {r : Row}
    (h : r ∈ (setBid b.bids p v).take n) : r = ⟨p, v, .fin 0⟩ ∨ r ∈ b.bids := by
  have := List.mem_of_mem_take h
  simp only [setBid, List.mem_append, List.mem_filter, List.mem_singleton] at this
  tauto

theorem removeInvalidBid_mem {b : Book} (h : WellFormed b) {p : Fl} (hp : p ≠ .nan) {r : Row}
    (hr : r ∈ (removeInvalidBid b.bids p).1) : r ∈ b.bids ∧ Fl.le r.price p = true := by
  rw [removeInvalidBid_eq] at hr
  have hm := (gRemove_suffix bidOrd h.bids_num hp h.bidSorted).subset hr
  exact ⟨hm, (le_key (h.bids_num r hm) hp).2 (gRemove_ge bidOrd h.bids_num hp h.bidSorted r hr)⟩

theorem removeInvalidAsk_mem {b : Book} (h : WellFormed b) {p : Fl} (hp : p ≠ .nan) {r : Row}
    (hr : r ∈ (removeInvalidAsk b.asks p).1) : r ∈ b.asks ∧ Fl.le p r.price = true := by
  rw [removeInvalidAsk_eq] at hr
  have hm := (gRemove_suffix askOrd h.asks_num hp h.askSorted).subset hr
  exact ⟨hm, (le_key hp (h.asks_num r hm)).2 (gRemove_ge askOrd h.asks_num hp h.askSorted r hr)⟩

theorem deleteLevel_mem {rows : List Row} {p : Fl} {r : Row} (h : r ∈ deleteLevel rows p) :
    r ∈ rows := List.mem_of_mem_filter h

theorem stepTo_uncrossed {b b' : Book} {u : Update} (h : Good b) (hp : u.price ≠ .nan)
    (hx : Uncrossed b) (hs : StepTo b u b') : Uncrossed b' := by
  cases hs with
  | askSet _ _ =>
    intro x hx1 y hy
    obtain ⟨hxm, hxle⟩ := removeInvalidBid_mem h.wf hp hx1
    rcases mem_setAsk_take hy with rfl | hy
    · exact hxle
    · exact hx x hxm y hy
  | askDel _ _ => exact fun x hx1 y hy => hx x hx1 y (deleteLevel_mem hy)
  | bidSet _ _ =>
    intro x hx1 y hy
    obtain ⟨hym, hyle⟩ := removeInvalidAsk_mem h.wf hp hy
    rcases mem_setBid_take hx1 with rfl | hx1
    · exact hyle
    · exact hx x hx1 y hym
  | bidDel _ _ => exact fun x hx1 y hy => hx x (deleteLevel_mem hx1) y hy
  | other _ _ => exact hx

/-- **C08** An uncrossed book stays uncrossed under any history. -/
theorem C08_book_never_crossed (b : Book) (h : WellFormed b) (hd : 0 ≤ b.maxDepth) (hb : DepthOk b)
    (hx : Uncrossed b) (us : List Update) (hu : NumUpdates us) :
    ∃ b', b.applyAll us = .ok b' ∧ Uncrossed b' := by
  obtain ⟨b', h1, _, _, h2⟩ := applyAll_good (P := Uncrossed) hu
    (fun c c' hg hc u hum hs => stepTo_uncrossed hg (hu u hum) hc hs) ⟨h, hd, hb⟩ hx
  exact ⟨b', h1, h2⟩

/-- **C08**, from `NewOrderBook`. -/
theorem C08_new_book_never_crossed {S : FloatSem} (hS : Lawful S) (now : Int)
    (asks bids : List Row) (d : Int) (hd : 0 ≤ d)
    (ha : asks.length < 2 ^ 53) (hb : bids.length < 2 ^ 53)
    (hna : NumPrices asks) (hnb : NumPrices bids)
    (hda : asks.Pairwise (fun a b => Fl.eq a.price b.price = false))
    (hdb : bids.Pairwise (fun a b => Fl.eq a.price b.price = false))
    (hx : ∀ x ∈ bids, ∀ y ∈ asks, Fl.le x.price y.price = true)
    (us : List Update) (hu : NumUpdates us) :
    ∃ b b', newOrderBook S now asks bids d = .ok b ∧ b.applyAll us = .ok b' ∧ Uncrossed b' := by
  obtain ⟨b, h1, h2, _⟩ := newOrderBook_good hS (now := now) hd ha hb hna hnb hda hdb
  have hx' : Uncrossed b := by
    have e := newOrderBook_eq hS (now := now) hd ha hb
    rw [h1] at e
    simp only [Res.ok.injEq] at e
    subst e
    intro x hxm y hym
    obtain ⟨x', hx1, hx2, _⟩ := accumulate_mem_price _ _ _ _ hxm
    obtain ⟨y', hy1, hy2, _⟩ := accumulate_mem_price _ _ _ _ hym
    rw [← hx2, ← hy2]
    exact hx x' ((sliceStable_perm _ _).subset (List.mem_of_mem_take hx1))
      y' ((sliceStable_perm _ _).subset (List.mem_of_mem_take hy1))
  obtain ⟨b', h3, h4⟩ := C08_book_never_crossed b h2.wf h2.depth h2.bound hx' us hu
  exact ⟨b, b', h1, h3, h4⟩

example := C08_book_never_crossed Ex.book (by decide +kernel) (by decide) (by decide +kernel)
  (by decide +kernel) Ex.upd1 (by decide +kernel)

example := C08_new_book_never_crossed ieee_lawful 0 Ex.asks1 Ex.bids1 3 (by decide)
  (by decide) (by decide) (by decide +kernel) (by decide +kernel) (by decide +kernel)
  (by decide +kernel) (by decide +kernel) Ex.upd1 (by decide +kernel)

/-! ### C09 -/

/-- The full claim of C09: an unlocked book stays unlocked. -/
def Spec.C09_claim : Prop :=
  ∀ (b : Book), WellFormed b → 0 ≤ b.maxDepth → DepthOk b → Unlocked b →
    ∀ us, NumUpdates us → ∀ b', b.applyAll us = .ok b' → Unlocked b'

/-- **C09 is false of the code**: an ask at the price of the only bid leaves that bid in place. -/
theorem C09_never_locked_violated : ¬ C09_claim := by
  intro h
  have := h { time := 0, maxDepth := 5, asks := [], bids := [⟨.fin 10, .fin 1, .fin 1⟩] }
    (by decide +kernel) (by decide) (by decide +kernel) (by decide +kernel)
    [⟨.fin 10, .fin 2, "ask"⟩] (by decide +kernel)
    { time := 0, maxDepth := 5, asks := [⟨.fin 10, .fin 2, .fin 0⟩],
      bids := [⟨.fin 10, .fin 1, .fin 1⟩] } (by decide +kernel)
  revert this
  decide +kernel

/-- The update does not touch the price of the worst row of the opposite side. -/
def Spec.NoTouch (b : Book) (u : Update) : Prop :=
  (u.side = "ask" → ∀ r, b.bids.getLast? = some r → Fl.eq r.price u.price = false) ∧
  (u.side = "bid" → ∀ r, b.asks.getLast? = some r → Fl.eq r.price u.price = false)

/-- Survivors of a removal are strictly behind the price, unless the last old row is at it. -/
theorem gRemove_gt {lt : Fl → Fl → Bool} {α : Type} [LinearOrder α] {k : Fl → α} (O : SideOrd lt k)
    {rows : List Row} {p : Fl} (hn : NoNaN rows) (hp : p ≠ .nan) (hs : GSorted lt rows)
    (ht : ∀ r, rows.getLast? = some r → Fl.eq r.price p = false) :
    ∀ r ∈ (gRemove lt rows p).1, k p < k r.price := by
  rcases gRemove_cases O hn hp hs with ⟨h0, h⟩ | ⟨_, h⟩ | ⟨l1, x, l2, hl, _, hx, h2, _, h⟩
  · rw [h]; exact h0
  · rw [h]; simp
  · rw [h]
    split_ifs with h3
    · have hxn : x.price ≠ .nan := hn x (by rw [hl]; simp)
      have := ht x (by rw [hl, h3]; simp)
      have := (O.eq_false_iff hxn hp).1 this
      intro r hr
      rw [List.mem_singleton] at hr
      rw [hr]
      exact lt_of_le_of_ne hx (Ne.symm this)
    · exact h2

/-- **C09, partial**: a step that does not touch the opposite side's worst price keeps the book
unlocked. Missing: updates at exactly that price, for which the claim is false. -/
theorem C09_never_locked_partial (b : Book) (h : WellFormed b) (hd : 0 ≤ b.maxDepth)
    (hb : DepthOk b) (hx : Unlocked b) (u : Update) (hp : u.price ≠ .nan) (ht : NoTouch b u) :
    ∃ b', (b.applyUpdate u = .ok b' ∨ b.applyUpdate u = .err .einvalid b') ∧ Unlocked b' := by
  have hg : Good b := ⟨h, hd, hb⟩
  by_cases h1 : u.side = "ask"
  · cases hv : Fl.ne u.volume (.fin 0) with
    | true =>
      refine ⟨_, Or.inl (applyUpdate_ask_set hg h1 hv hp), ?_⟩
      intro x hxm y hym
      obtain ⟨hxb, _⟩ := removeInvalidBid_mem h hp hxm
      rcases mem_setAsk_take hym with rfl | hy
      · rw [removeInvalidBid_eq] at hxm
        exact (lt_key (h.bids_num x hxb) hp).2
          (gRemove_gt bidOrd h.bids_num hp h.bidSorted (ht.1 h1) x hxm)
      · exact hx x hxb y hy
    | false =>
      exact ⟨_, Or.inl (applyUpdate_ask_del hg h1 hv hp),
        fun x hxm y hym => hx x hxm y (deleteLevel_mem hym)⟩
  · by_cases h2 : u.side = "bid"
    · cases hv : Fl.ne u.volume (.fin 0) with
      | true =>
        refine ⟨_, Or.inl (applyUpdate_bid_set hg h2 hv hp), ?_⟩
        intro x hxm y hym
        obtain ⟨hyb, _⟩ := removeInvalidAsk_mem h hp hym
        rcases mem_setBid_take hxm with rfl | hy
        · rw [removeInvalidAsk_eq] at hym
          exact (lt_key hp (h.asks_num y hyb)).2
            (gRemove_gt askOrd h.asks_num hp h.askSorted (ht.2 h2) y hym)
        · exact hx x hy y hyb
      | false =>
        exact ⟨_, Or.inl (applyUpdate_bid_del hg h2 hv hp),
          fun x hxm y hym => hx x (deleteLevel_mem hxm) y hym⟩
    · exact ⟨b, Or.inr (applyUpdate_other h1 h2), hx⟩

example := C09_never_locked_partial Ex.book (by decide +kernel) (by decide) (by decide +kernel)
  (by decide +kernel) ⟨.fin 8, .fin 2, "ask"⟩ (by decide)
  ⟨fun _ r hr => by simp [Ex.book] at hr; subst hr; decide +kernel, fun h => absurd h (by decide)⟩

/-! ### C10 -/

/-- The full claim of C10. -/
def Spec.C10_claim : Prop :=
  ∀ (b : Book), WellFormed b → 0 ≤ b.maxDepth → DepthOk b → ∀ u : Update, u.price ≠ .nan →
    Fl.ne u.volume (.fin 0) = true → ∀ b', b.applyUpdate u = .ok b' →
      (u.side = "ask" → b'.bids = b.bids.filter (fun r => Fl.lt r.price u.price)) ∧
      (u.side = "bid" → b'.asks = b.asks.filter (fun r => Fl.gt r.price u.price))

/-- **C10 is false of the code**: bids 10, 8, 6 and an ask at 9 lose the bid at 8 as well. -/
theorem C10_removes_only_crossed_violated : ¬ C10_claim := by
  intro h
  have := (h Ex.book (by decide +kernel) (by decide) (by decide +kernel) ⟨.fin 9, .fin 2, "ask"⟩
    (by decide) (by decide +kernel)
    { time := 7, maxDepth := 4,
      asks := [⟨.fin 9, .fin 2, .fin 0⟩, ⟨.fin 11, .fin 1, .fin 1⟩,
        ⟨.fin 12, .fin 4, .fin 5⟩, ⟨.fin 13, .fin 2, .fin 7⟩],
      bids := [⟨.fin 6, .fin 5, .fin 9⟩] } (by decide +kernel)).1 rfl
  revert this
  decide +kernel

/-- The rows behind the price, in three cases. -/
theorem gRemove_bounds {lt : Fl → Fl → Bool} {α : Type} [LinearOrder α] {k : Fl → α}
    (O : SideOrd lt k) {rows : List Row} {p : Fl} (hn : NoNaN rows) (hp : p ≠ .nan)
    (hs : GSorted lt rows) :
    (rows.filter (fun r => lt p r.price)).drop 1 <:+ (gRemove lt rows p).1 ∧
    (gRemove lt rows p).1 <:+ rows.filter (fun r => !(lt r.price p)) ∧
    (((∀ r ∈ rows, lt p r.price = true) ∨ (∀ r ∈ rows, lt r.price p = true) ∨
      (∃ r ∈ rows, Fl.eq r.price p = true ∧ rows.getLast? ≠ some r)) →
      (gRemove lt rows p).1 = rows.filter (fun r => lt p r.price)) := by
  have fpos : ∀ l : List Row, NoNaN l → (∀ r ∈ l, k p < k r.price) →
      l.filter (fun r => lt p r.price) = l := by
    intro l hl h
    rw [List.filter_eq_self]
    exact fun r hr => (O.lt_iff _ _ hp (hl r hr)).2 (h r hr)
  have fneg : ∀ l : List Row, NoNaN l → (∀ r ∈ l, k r.price ≤ k p) →
      l.filter (fun r => lt p r.price) = [] := by
    intro l hl h
    rw [List.filter_eq_nil_iff]
    intro r hr
    rw [(O.lt_false_iff hp (hl r hr)).2 (h r hr)]; simp
  have gpos : ∀ l : List Row, NoNaN l → (∀ r ∈ l, k p ≤ k r.price) →
      l.filter (fun r => !(lt r.price p)) = l := by
    intro l hl h
    rw [List.filter_eq_self]
    intro r hr
    rw [(O.lt_false_iff (hl r hr) hp).2 (h r hr)]; rfl
  have gneg : ∀ l : List Row, NoNaN l → (∀ r ∈ l, k r.price < k p) →
      l.filter (fun r => !(lt r.price p)) = [] := by
    intro l hl h
    rw [List.filter_eq_nil_iff]
    intro r hr
    rw [(O.lt_iff _ _ (hl r hr) hp).2 (h r hr)]; simp
  rcases gRemove_cases O hn hp hs with ⟨h0, h⟩ | ⟨h0, h⟩ | ⟨l1, x, l2, hl, h1, hx, h2, h3, h⟩
  · rw [h, fpos _ hn h0, gpos _ hn (fun r hr => (h0 r hr).le)]
    exact ⟨List.drop_suffix _ _, List.suffix_refl _, fun _ => rfl⟩
  · rw [h, fneg _ hn (fun r hr => (h0 r hr).le)]
    exact ⟨by simp, List.nil_suffix, fun _ => rfl⟩
  · have n1 : NoNaN l1 := fun r hr => hn r (by rw [hl]; simp [hr])
    have n2 : NoNaN l2 := fun r hr => hn r (by rw [hl]; simp [hr])
    have hxn : x.price ≠ .nan := hn x (by rw [hl]; simp)
    have e1 : rows.filter (fun r => lt p r.price) = (if lt p x.price then [x] else []) ++ l2 := by
      rw [hl, List.filter_append, fneg _ n1 (fun r hr => (h1 r hr).le), List.filter_cons,
        fpos _ n2 h2]
      split <;> simp
    have e2 : rows.filter (fun r => !(lt r.price p)) = x :: l2 := by
      rw [hl, List.filter_append, gneg _ n1 h1, List.filter_cons,
        gpos _ n2 (fun r hr => (h2 r hr).le), (O.lt_false_iff hxn hp).2 hx]
      simp
    rw [e1, e2, h]
    refine ⟨?_, ?_, ?_⟩
    · by_cases hlt : lt p x.price = true
      · simp only [hlt, if_true]
        split_ifs with h4
        · subst h4; simp
        · simp
      · rw [if_neg hlt, List.nil_append]
        split_ifs with h4
        · subst h4; simp
        · exact List.drop_suffix _ _
    · split_ifs with h4
      · subst h4; exact List.suffix_refl _
      · exact List.suffix_cons _ _
    · rintro (hc | hc | ⟨r, hr, hre, hrl⟩)
      · -- every row strictly behind: excluded by h3
        exfalso
        rcases h3 with h3 | h3
        · obtain ⟨r, hr⟩ := List.exists_mem_of_ne_nil l1 h3
          have a := h1 r hr
          have b := (O.lt_iff _ _ hp (n1 r hr)).1 (hc r (by rw [hl]; simp [hr]))
          exact absurd a (not_lt.2 b.le)
        · have b := (O.lt_iff _ _ hp hxn).1 (hc x (by rw [hl]; simp))
          rw [h3] at b; exact lt_irrefl _ b
      · exfalso
        have b := (O.lt_iff _ _ hxn hp).1 (hc x (by rw [hl]; simp))
        exact absurd hx (not_le.2 b)
      · have hrk := (O.eq_iff _ _ (hn r hr) hp).1 hre
        have hrx : r = x := by
          rw [hl] at hr
          rcases List.mem_append.1 hr with hr | hr
          · have := h1 r hr; rw [hrk] at this; exact absurd this (lt_irrefl _)
          · rcases List.mem_cons.1 hr with hr | hr
            · exact hr
            · have := h2 r hr; rw [hrk] at this; exact absurd this (lt_irrefl _)
        subst hrx
        have h4 : l2 ≠ [] := by
          rintro rfl
          apply hrl; rw [hl]; simp
        rw [if_neg h4, (O.lt_false_iff hp hxn).2 hrk.le]
        simp

/-- **C10, partial**. For an ask update at `p` the surviving bids contain every bid strictly below
`p` except possibly the best of them, and are all at or below `p`; and they are exactly the bids
strictly below `p` when nothing is crossed, when everything is strictly crossed, or when a bid
other than the last is exactly at `p`. Same for bid updates. Missing: a row at
`p` that is the last, and rows on both sides of `p` with none at it; C129 says what is left in every
case. -/
theorem C10_removes_only_crossed_partial (b : Book) (h : WellFormed b) (hd : 0 ≤ b.maxDepth)
    (hb : DepthOk b) (u : Update) (hp : u.price ≠ .nan) (hv : Fl.ne u.volume (.fin 0) = true) :
    (u.side = "ask" → ∃ b', b.applyUpdate u = .ok b' ∧
      (b.bids.filter (fun r => Fl.lt r.price u.price)).drop 1 <:+ b'.bids ∧
      b'.bids <:+ b.bids.filter (fun r => !(Fl.gt r.price u.price)) ∧
      (((∀ r ∈ b.bids, Fl.lt r.price u.price = true) ∨ (∀ r ∈ b.bids, Fl.gt r.price u.price = true) ∨
        (∃ r ∈ b.bids, Fl.eq r.price u.price = true ∧ b.bids.getLast? ≠ some r)) →
        b'.bids = b.bids.filter (fun r => Fl.lt r.price u.price))) ∧
    (u.side = "bid" → ∃ b', b.applyUpdate u = .ok b' ∧
      (b.asks.filter (fun r => Fl.gt r.price u.price)).drop 1 <:+ b'.asks ∧
      b'.asks <:+ b.asks.filter (fun r => !(Fl.lt r.price u.price)) ∧
      (((∀ r ∈ b.asks, Fl.gt r.price u.price = true) ∨ (∀ r ∈ b.asks, Fl.lt r.price u.price = true) ∨
        (∃ r ∈ b.asks, Fl.eq r.price u.price = true ∧ b.asks.getLast? ≠ some r)) →
        b'.asks = b.asks.filter (fun r => Fl.gt r.price u.price))) := by
  have hg : Good b := ⟨h, hd, hb⟩
  constructor
  · intro hs
    refine ⟨_, applyUpdate_ask_set hg hs hv hp, ?_⟩
    exact gRemove_bounds bidOrd h.bids_num hp h.bidSorted
  · intro hs
    refine ⟨_, applyUpdate_bid_set hg hs hv hp, ?_⟩
    exact gRemove_bounds askOrd h.asks_num hp h.askSorted

example := C10_removes_only_crossed_partial Ex.book (by decide +kernel) (by decide)
  (by decide +kernel) ⟨.fin 8, .fin 2, "ask"⟩ (by decide) (by decide +kernel)

/-! ### C11 -/

theorem gRemove_suffix' (lt : Fl → Fl → Bool) (rows : List Row) (p : Fl) :
    (gRemove lt rows p).1 <:+ rows := by
  unfold gRemove
  split
  · exact List.suffix_refl _
  · split_ifs
    · exact List.suffix_refl _
    · split
      · exact List.drop_suffix _ _
      · exact List.nil_suffix

/-- The best row of a side, if any, is not reached by price `p`. -/
def Spec.AskBehind (b : Book) (p : Fl) : Prop := ∀ r, b.asks.head? = some r → Fl.lt p r.price = true
def Spec.BidBehind (b : Book) (p : Fl) : Prop := ∀ r, b.bids.head? = some r → Fl.gt p r.price = true

theorem gRemove_noop {lt : Fl → Fl → Bool} {rows : List Row} {p : Fl}
    (h : ∀ r, rows.head? = some r → lt p r.price = true) : (gRemove lt rows p).1 = rows := by
  unfold gRemove
  split
  · rfl
  · rw [if_pos (h _ rfl)]

/-- **C11** Non-crossing and zero-volume updates leave the other side alone; in every case what is
left of the other side is a tail of it. Any book within its depth, sorted or not. -/
theorem C11_other_side_untouched (b : Book) (hd : 0 ≤ b.maxDepth) (hb : DepthOk b) (u : Update) :
    (u.side = "ask" → ∃ b', b.applyUpdate u = .ok b' ∧ b'.bids <:+ b.bids ∧
      ((BidBehind b u.price ∨ Fl.eq u.volume (.fin 0) = true) → b'.bids = b.bids)) ∧
    (u.side = "bid" → ∃ b', b.applyUpdate u = .ok b' ∧ b'.asks <:+ b.asks ∧
      ((AskBehind b u.price ∨ Fl.eq u.volume (.fin 0) = true) → b'.asks = b.asks)) := by
  have hb1 := hb.1
  have hb2 := hb.2
  constructor
  · intro hs
    cases hv : Fl.ne u.volume (.fin 0) with
    | true =>
      refine ⟨_, applyUpdate_ask_set' hd hs hv, ?_⟩
      have hv' : Fl.eq u.volume (.fin 0) = false := by simpa [Fl.ne] using hv
      simp only
      rw [removeInvalidBid_take _ hb, removeInvalidBid_eq, hv']
      refine ⟨gRemove_suffix' _ _ _, ?_⟩
      rintro (h | h)
      · exact gRemove_noop h
      · exact absurd h (by simp)
    | false =>
      cases hf : b.asks.findIdx? (fun r => Fl.eq r.price u.price) with
      | none =>
        exact ⟨b, by simp [Book.applyUpdate, hs, hv, hf], List.suffix_refl _, fun _ => rfl⟩
      | some i =>
        refine ⟨_, by simp only [Book.applyUpdate, hs, hv, hf, if_true]; exact limit_eq hd, ?_⟩
        simp only
        rw [List.take_of_length_le (by omega)]
        exact ⟨List.suffix_refl _, fun _ => rfl⟩
  · intro hs
    have hne : ¬ ("bid" = "ask") := by decide
    cases hv : Fl.ne u.volume (.fin 0) with
    | true =>
      refine ⟨_, applyUpdate_bid_set' hd hs hv, ?_⟩
      have hv' : Fl.eq u.volume (.fin 0) = false := by simpa [Fl.ne] using hv
      simp only
      rw [removeInvalidAsk_take _ hb, removeInvalidAsk_eq, hv']
      refine ⟨gRemove_suffix' _ _ _, ?_⟩
      rintro (h | h)
      · exact gRemove_noop h
      · exact absurd h (by simp)
    | false =>
      cases hf : b.bids.findIdx? (fun r => Fl.eq r.price u.price) with
      | none =>
        exact ⟨b, by simp [Book.applyUpdate, hs, hv, hf], List.suffix_refl _, fun _ => rfl⟩
      | some i =>
        refine ⟨_, by simp only [Book.applyUpdate, hs, hv, hf, if_true, if_neg hne]; exact limit_eq hd, ?_⟩
        simp only
        rw [List.take_of_length_le (by omega)]
        exact ⟨List.suffix_refl _, fun _ => rfl⟩

example := C11_other_side_untouched Ex.book (by decide) (by decide +kernel)
  ⟨.fin (21/2), .fin 2, "ask"⟩

example : BidBehind Ex.book (.fin (21/2)) := by
  intro r hr; simp [Ex.book] at hr; subst hr; decide +kernel

end Finmod
