import Verif.Props.BookDepth

/-!
# C129–C131: exactly which rows a crossing update removes, exactly when an update locks the book,
exactly when `GetDepth` panics

C09, C10 and C19 are false of the code. The theorems here say precisely what the code does instead,
for every well-formed book and every update.
-/

namespace Finmod
open Go Spec

/-! ### C129 -/

/-- The rows of a side that outlive an opposing price. `ahead r`: the row is strictly better than
the price; `behind r`: strictly worse. A side that is wholly behind the price is kept. Otherwise
the rows ahead go, and the next row goes with them unless it is the last one. -/
def Spec.kept (ahead behind : Row → Bool) (rows : List Row) : List Row :=
  if rows.all behind then rows
  else match rows.filter (fun r => !(ahead r)) with
    | [] => []
    | [x] => [x]
    | _ :: t => t

theorem gRemove_kept {lt : Fl → Fl → Bool} {α : Type} [LinearOrder α] {k : Fl → α}
    (O : SideOrd lt k) {rows : List Row} {p : Fl} (hn : NoNaN rows) (hp : p ≠ .nan)
    (hs : GSorted lt rows) :
    (gRemove lt rows p).1 = kept (fun r => lt r.price p) (fun r => lt p r.price) rows := by
  unfold kept
  rcases gRemove_cases O hn hp hs with ⟨h0, h⟩ | ⟨h0, h⟩ | ⟨l1, x, l2, hl, h1, hx, h2, h3, h⟩
  · rw [h, if_pos]
    rw [List.all_eq_true]
    exact fun r hr => (O.lt_iff _ _ hp (hn r hr)).2 (h0 r hr)
  · rw [h]
    have e : rows.filter (fun r => !(lt r.price p)) = [] := by
      rw [List.filter_eq_nil_iff]
      intro r hr
      rw [(O.lt_iff _ _ (hn r hr) hp).2 (h0 r hr)]; simp
    rw [e]
    split_ifs with hc
    · cases rows with
      | nil => rfl
      | cons r t =>
        exfalso
        rw [List.all_eq_true] at hc
        have a := (O.lt_iff _ _ hp (hn r (by simp))).1 (hc r (by simp))
        exact absurd a (not_lt.2 (h0 r (by simp)).le)
    · rfl
  · have n1 : NoNaN l1 := fun r hr => hn r (by rw [hl]; simp [hr])
    have n2 : NoNaN l2 := fun r hr => hn r (by rw [hl]; simp [hr])
    have hxn : x.price ≠ .nan := hn x (by rw [hl]; simp)
    have e : rows.filter (fun r => !(lt r.price p)) = x :: l2 := by
      have g1 : l1.filter (fun r => !(lt r.price p)) = [] := by
        rw [List.filter_eq_nil_iff]
        intro r hr
        rw [(O.lt_iff _ _ (n1 r hr) hp).2 (h1 r hr)]; simp
      have g2 : l2.filter (fun r => !(lt r.price p)) = l2 := by
        rw [List.filter_eq_self]
        intro r hr
        rw [(O.lt_false_iff (n2 r hr) hp).2 (h2 r hr).le]; rfl
      rw [hl, List.filter_append, g1, List.filter_cons, g2, (O.lt_false_iff hxn hp).2 hx]
      simp
    have hc : ¬ (rows.all (fun r => lt p r.price) = true) := by
      rw [List.all_eq_true]
      intro hc
      rcases h3 with h3 | h3
      · obtain ⟨r, hr⟩ := List.exists_mem_of_ne_nil l1 h3
        have b := (O.lt_iff _ _ hp (n1 r hr)).1 (hc r (by rw [hl]; simp [hr]))
        exact absurd (h1 r hr) (not_lt.2 b.le)
      · have b := (O.lt_iff _ _ hp hxn).1 (hc x (by rw [hl]; simp))
        rw [h3] at b; exact lt_irrefl _ b
    rw [if_neg hc, e, h]
    cases l2 with
    | nil => simp
    | cons y t => simp

/-- When a removal is exactly "the rows at or ahead of the price go". -/
theorem gRemove_only {lt : Fl → Fl → Bool} {α : Type} [LinearOrder α] {k : Fl → α}
    (O : SideOrd lt k) {rows : List Row} {p : Fl} (hn : NoNaN rows) (hp : p ≠ .nan)
    (hs : GSorted lt rows) :
    (gRemove lt rows p).1 = rows.filter (fun r => lt p r.price) ↔
      (∀ r ∈ rows, lt p r.price = true) ∨ (∀ r ∈ rows, lt r.price p = true) ∨
      (∃ r ∈ rows, Fl.eq r.price p = true ∧ rows.getLast? ≠ some r) ∨
      ((∀ r ∈ rows, Fl.eq r.price p = false) ∧
        (rows.filter (fun r => lt p r.price)).length = 1) := by
  constructor
  · intro he
    rcases gRemove_cases O hn hp hs with ⟨h0, h⟩ | ⟨h0, h⟩ | ⟨l1, x, l2, hl, h1, hx, h2, h3, h⟩
    · exact Or.inl fun r hr => (O.lt_iff _ _ hp (hn r hr)).2 (h0 r hr)
    · exact Or.inr (Or.inl fun r hr => (O.lt_iff _ _ (hn r hr) hp).2 (h0 r hr))
    · have n1 : NoNaN l1 := fun r hr => hn r (by rw [hl]; simp [hr])
      have n2 : NoNaN l2 := fun r hr => hn r (by rw [hl]; simp [hr])
      have hxn : x.price ≠ .nan := hn x (by rw [hl]; simp)
      have f1 : l1.filter (fun r => lt p r.price) = [] := by
        rw [List.filter_eq_nil_iff]
        intro r hr
        rw [(O.lt_false_iff hp (n1 r hr)).2 (h1 r hr).le]; simp
      have f2 : l2.filter (fun r => lt p r.price) = l2 := by
        rw [List.filter_eq_self]
        exact fun r hr => (O.lt_iff _ _ hp (n2 r hr)).2 (h2 r hr)
      by_cases hxe : k x.price = k p
      · have fx : lt p x.price = false := (O.lt_false_iff hp hxn).2 hxe.le
        have e1 : rows.filter (fun r => lt p r.price) = l2 := by
          rw [hl, List.filter_append, f1, List.filter_cons, f2, fx]; simp
        right; right; left
        refine ⟨x, by rw [hl]; simp, (O.eq_iff _ _ hxn hp).2 hxe, ?_⟩
        intro hlast
        cases l2 with
        | nil => rw [h, e1] at he; simp at he
        | cons y t =>
          rw [hl] at hlast
          have hmem : x ∈ y :: t := by
            have : (l1 ++ x :: y :: t).getLast? = (y :: t).getLast? := by
              rw [List.getLast?_append, List.getLast?_cons_cons, List.getLast?_eq_some_getLast (by simp)]
              rfl
            rw [this] at hlast
            exact List.mem_of_getLast? hlast
          have := h2 x hmem
          rw [hxe] at this
          exact lt_irrefl _ this
      · have hlt : k p < k x.price := lt_of_le_of_ne hx (Ne.symm hxe)
        have fx : lt p x.price = true := (O.lt_iff _ _ hp hxn).2 hlt
        have e1 : rows.filter (fun r => lt p r.price) = x :: l2 := by
          rw [hl, List.filter_append, f1, List.filter_cons, f2, fx]; simp
        right; right; right
        constructor
        · intro r hr
          rw [O.eq_false_iff (hn r hr) hp]
          rw [hl] at hr
          rcases List.mem_append.1 hr with hr | hr
          · exact (h1 r hr).ne
          · rcases List.mem_cons.1 hr with rfl | hr
            · exact hxe
            · exact (h2 r hr).ne'
        · cases l2 with
          | nil => rw [e1]; rfl
          | cons y t =>
            rw [h, e1] at he
            have := congrArg List.length he
            simp at this
  · intro hc
    have hb := (gRemove_bounds O hn hp hs).2.2
    rcases hc with hc | hc | hc | ⟨hne, h1⟩
    · exact hb (Or.inl hc)
    · exact hb (Or.inr (Or.inl hc))
    · exact hb (Or.inr (Or.inr hc))
    · by_cases hall : ∀ r ∈ rows, lt p r.price = true
      · exact hb (Or.inl hall)
      · rw [gRemove_kept O hn hp hs]
        have hf : rows.filter (fun r => !(lt r.price p)) = rows.filter (fun r => lt p r.price) := by
          apply List.filter_congr
          intro r hr
          have hk := (O.eq_false_iff (hn r hr) hp).1 (hne r hr)
          rcases lt_or_gt_of_ne hk with hk | hk
          · rw [(O.lt_iff _ _ (hn r hr) hp).2 hk, (O.lt_false_iff hp (hn r hr)).2 hk.le]; rfl
          · rw [(O.lt_iff _ _ hp (hn r hr)).2 hk, (O.lt_false_iff (hn r hr) hp).2 hk.le]; rfl
        obtain ⟨x, hx⟩ := List.length_eq_one_iff.1 h1
        unfold kept
        rw [hf, hx, if_neg (by rw [List.all_eq_true]; exact hall)]

/-- **C129** The whole book after a non-zero update: its own side has the level set and is cut to
the limit, of the opposite side the rows `kept` are left, the time and the limit do not change. -/
theorem C129_update_exact (b : Book) (h : WellFormed b) (hd : 0 ≤ b.maxDepth) (hb : DepthOk b)
    (u : Update) (hp : u.price ≠ .nan) (hv : Fl.ne u.volume (.fin 0) = true) :
    (u.side = "ask" → b.applyUpdate u = .ok
      { time := b.time, maxDepth := b.maxDepth,
        asks := (setAsk b.asks u.price u.volume).take b.maxDepth.toNat,
        bids := kept (fun r => Fl.gt r.price u.price) (fun r => Fl.lt r.price u.price) b.bids }) ∧
    (u.side = "bid" → b.applyUpdate u = .ok
      { time := b.time, maxDepth := b.maxDepth,
        asks := kept (fun r => Fl.lt r.price u.price) (fun r => Fl.gt r.price u.price) b.asks,
        bids := (setBid b.bids u.price u.volume).take b.maxDepth.toNat }) := by
  have hg : Good b := ⟨h, hd, hb⟩
  constructor
  · intro hs
    rw [applyUpdate_ask_set hg hs hv hp]
    congr 2
    exact gRemove_kept bidOrd h.bids_num hp h.bidSorted
  · intro hs
    rw [applyUpdate_bid_set hg hs hv hp]
    congr 2
    exact gRemove_kept askOrd h.asks_num hp h.askSorted

/-- **C129** A non-zero update removes exactly the opposing rows it reaches in these cases and in no
other: it reaches none; it is strictly past all of them; a row other than the last is at its price;
or no row is at its price and just one row is behind it. -/
theorem C129_only_crossed_iff (b : Book) (h : WellFormed b) (hd : 0 ≤ b.maxDepth) (hb : DepthOk b)
    (u : Update) (hp : u.price ≠ .nan) (hv : Fl.ne u.volume (.fin 0) = true) :
    (u.side = "ask" → ∃ b', b.applyUpdate u = .ok b' ∧
      (b'.bids = b.bids.filter (fun r => Fl.lt r.price u.price) ↔
        (∀ r ∈ b.bids, Fl.lt r.price u.price = true) ∨
        (∀ r ∈ b.bids, Fl.gt r.price u.price = true) ∨
        (∃ r ∈ b.bids, Fl.eq r.price u.price = true ∧ b.bids.getLast? ≠ some r) ∨
        ((∀ r ∈ b.bids, Fl.eq r.price u.price = false) ∧
          (b.bids.filter (fun r => Fl.lt r.price u.price)).length = 1))) ∧
    (u.side = "bid" → ∃ b', b.applyUpdate u = .ok b' ∧
      (b'.asks = b.asks.filter (fun r => Fl.gt r.price u.price) ↔
        (∀ r ∈ b.asks, Fl.gt r.price u.price = true) ∨
        (∀ r ∈ b.asks, Fl.lt r.price u.price = true) ∨
        (∃ r ∈ b.asks, Fl.eq r.price u.price = true ∧ b.asks.getLast? ≠ some r) ∨
        ((∀ r ∈ b.asks, Fl.eq r.price u.price = false) ∧
          (b.asks.filter (fun r => Fl.gt r.price u.price)).length = 1))) := by
  have hg : Good b := ⟨h, hd, hb⟩
  exact ⟨fun hs => ⟨_, applyUpdate_ask_set hg hs hv hp,
      gRemove_only bidOrd h.bids_num hp h.bidSorted⟩,
    fun hs => ⟨_, applyUpdate_bid_set hg hs hv hp,
      gRemove_only askOrd h.asks_num hp h.askSorted⟩⟩

example := C129_update_exact Ex.book (by decide +kernel) (by decide) (by decide +kernel)
  ⟨.fin 9, .fin 2, "ask"⟩ (by decide) (by decide +kernel)

-- the bid at 8 goes although the ask is at 9; at 7 only the bids 10 and 8 go
example : kept (fun r => Fl.gt r.price (.fin 9)) (fun r => Fl.lt r.price (.fin 9)) Ex.book.bids =
    [⟨.fin 6, .fin 5, .fin 9⟩] := by decide +kernel

example := C129_only_crossed_iff Ex.book (by decide +kernel) (by decide) (by decide +kernel)
  ⟨.fin 7, .fin 2, "ask"⟩ (by decide) (by decide +kernel)

/-! ### C130 -/

/-- The last row of a removal survives when it is at the price. -/
theorem gRemove_last {lt : Fl → Fl → Bool} {α : Type} [LinearOrder α] {k : Fl → α}
    (O : SideOrd lt k) {rows : List Row} {p : Fl} (hn : NoNaN rows) (hp : p ≠ .nan)
    (hs : GSorted lt rows) {r : Row} (hr : rows.getLast? = some r)
    (he : Fl.eq r.price p = true) : r ∈ (gRemove lt rows p).1 := by
  have hm := List.mem_of_getLast? hr
  have hk := (O.eq_iff _ _ (hn r hm) hp).1 he
  rcases gRemove_cases O hn hp hs with ⟨h0, h⟩ | ⟨h0, h⟩ | ⟨l1, x, l2, hl, h1, hx, h2, h3, h⟩
  · rw [h]; exact hm
  · have := h0 r hm; rw [hk] at this; exact absurd this (lt_irrefl _)
  · rw [h]
    cases l2 with
    | nil =>
      rw [hl] at hr
      simp at hr
      simp [hr]
    | cons y t =>
      exfalso
      rw [hl] at hr
      have : (l1 ++ x :: y :: t).getLast? = (y :: t).getLast? := by
        rw [List.getLast?_append, List.getLast?_cons_cons, List.getLast?_eq_some_getLast (by simp)]
        rfl
      rw [this] at hr
      have := h2 r (List.mem_of_getLast? hr)
      rw [hk] at this
      exact lt_irrefl _ this

/-- **C130** An update locks an unlocked book exactly when its volume is not zero and its price is
the price of the last row of the opposite side. -/
theorem C130_locks_iff (b : Book) (h : WellFormed b) (hd : 0 ≤ b.maxDepth) (hb : DepthOk b)
    (hx : Unlocked b) (u : Update) (hp : u.price ≠ .nan) :
    ∃ b', (b.applyUpdate u = .ok b' ∨ b.applyUpdate u = .err .einvalid b') ∧
      (¬ Unlocked b' ↔ Fl.ne u.volume (.fin 0) = true ∧
        ((u.side = "ask" ∧ ∃ r, b.bids.getLast? = some r ∧ Fl.eq r.price u.price = true) ∨
         (u.side = "bid" ∧ ∃ r, b.asks.getLast? = some r ∧ Fl.eq r.price u.price = true))) := by
  have hg : Good b := ⟨h, hd, hb⟩
  by_cases hc : Fl.ne u.volume (.fin 0) = true ∧
        ((u.side = "ask" ∧ ∃ r, b.bids.getLast? = some r ∧ Fl.eq r.price u.price = true) ∨
         (u.side = "bid" ∧ ∃ r, b.asks.getLast? = some r ∧ Fl.eq r.price u.price = true))
  · obtain ⟨hv, hc'⟩ := hc
    rcases hc' with ⟨hs, r, hr, he⟩ | ⟨hs, r, hr, he⟩
    · refine ⟨_, Or.inl (applyUpdate_ask_set hg hs hv hp), iff_of_true ?_ ⟨hv, Or.inl ⟨hs, r, hr, he⟩⟩⟩
      intro hun
      have hm := List.mem_of_getLast? hr
      have hrn := h.bids_num r hm
      have hk := (eq_key hrn hp).1 he
      have hlow : b.asks.filter (fun y => Fl.lt y.price u.price) = [] := by
        rw [List.filter_eq_nil_iff]
        intro y hy hlt
        have a := (lt_key hrn (h.asks_num y hy)).1 (hx r hm y hy)
        have c := (lt_key (h.asks_num y hy) hp).1 hlt
        rw [hk] at a
        exact absurd a (not_lt.2 c.le)
      have hpos : b.maxDepth.toNat = (b.maxDepth.toNat - 1) + 1 := by
        have := hb.2
        have : 0 < b.bids.length := List.length_pos_of_mem hm
        omega
      have hin : (⟨u.price, u.volume, .fin 0⟩ : Row) ∈
          (setAsk b.asks u.price u.volume).take b.maxDepth.toNat := by
        unfold setAsk
        rw [hlow, hpos]
        simp
      have hin2 : r ∈ (removeInvalidBid b.bids u.price).1 := by
        rw [removeInvalidBid_eq]
        exact gRemove_last bidOrd h.bids_num hp h.bidSorted hr he
      have := (lt_key hrn hp).1 (hun r hin2 _ hin)
      rw [hk] at this
      exact lt_irrefl _ this
    · refine ⟨_, Or.inl (applyUpdate_bid_set hg hs hv hp), iff_of_true ?_ ⟨hv, Or.inr ⟨hs, r, hr, he⟩⟩⟩
      intro hun
      have hm := List.mem_of_getLast? hr
      have hrn := h.asks_num r hm
      have hk := (eq_key hrn hp).1 he
      have hlow : b.bids.filter (fun y => Fl.gt y.price u.price) = [] := by
        rw [List.filter_eq_nil_iff]
        intro y hy hlt
        have a := (lt_key (h.bids_num y hy) hrn).1 (hx y hy r hm)
        have c := (lt_key hp (h.bids_num y hy)).1 hlt
        rw [hk] at a
        exact absurd a (not_lt.2 c.le)
      have hpos : b.maxDepth.toNat = (b.maxDepth.toNat - 1) + 1 := by
        have := hb.1
        have : 0 < b.asks.length := List.length_pos_of_mem hm
        omega
      have hin : (⟨u.price, u.volume, .fin 0⟩ : Row) ∈
          (setBid b.bids u.price u.volume).take b.maxDepth.toNat := by
        unfold setBid
        rw [hlow, hpos]
        simp
      have hin2 : r ∈ (removeInvalidAsk b.asks u.price).1 := by
        rw [removeInvalidAsk_eq]
        exact gRemove_last askOrd h.asks_num hp h.askSorted hr he
      have := (lt_key hp hrn).1 (hun _ hin r hin2)
      rw [hk] at this
      exact lt_irrefl _ this
  · cases hv : Fl.ne u.volume (.fin 0) with
    | false =>
      by_cases h1 : u.side = "ask"
      · exact ⟨_, Or.inl (applyUpdate_ask_del hg h1 hv hp), iff_of_false
          (not_not.2 fun x hxm y hym => hx x hxm y (deleteLevel_mem hym)) (by simp)⟩
      · by_cases h2 : u.side = "bid"
        · exact ⟨_, Or.inl (applyUpdate_bid_del hg h2 hv hp), iff_of_false
            (not_not.2 fun x hxm y hym => hx x (deleteLevel_mem hxm) y hym) (by simp)⟩
        · exact ⟨b, Or.inr (applyUpdate_other h1 h2), iff_of_false (not_not.2 hx) (by simp)⟩
    | true =>
      have ht : NoTouch b u := by
        constructor
        · intro hs r hr
          cases he : Fl.eq r.price u.price with
          | false => rfl
          | true => exact absurd ⟨hv, Or.inl ⟨hs, r, hr, he⟩⟩ hc
        · intro hs r hr
          cases he : Fl.eq r.price u.price with
          | false => rfl
          | true => exact absurd ⟨hv, Or.inr ⟨hs, r, hr, he⟩⟩ hc
      obtain ⟨b', h1, h2⟩ := C09_never_locked_partial b h hd hb hx u hp ht
      rw [hv] at hc
      exact ⟨b', h1, iff_of_false (not_not.2 h2) hc⟩

example := C130_locks_iff Ex.book (by decide +kernel) (by decide) (by decide +kernel)
  (by decide +kernel) ⟨.fin 6, .fin 2, "ask"⟩ (by decide)

/-! ### C131 -/

/-- **C131** `GetDepth` panics exactly when it looks at an empty side: the price is positive or NaN
and there is no ask or no bid. -/
theorem C131_get_depth_panics_iff (b : Book) (price : Fl) :
    b.getDepth price = .panic ↔
      Fl.le price (.fin 0) = false ∧ (b.asks = [] ∨ b.bids = []) := by
  constructor
  · intro hpan
    by_contra hc
    refine C19_get_depth_no_panic_partial b price ?_ hpan
    by_cases h0 : Fl.le price (.fin 0) = true
    · exact Or.inr h0
    · left
      rw [Bool.not_eq_true] at h0
      by_contra hc2
      apply hc
      refine ⟨h0, ?_⟩
      by_contra hc3
      rw [not_or] at hc3
      exact hc2 hc3
  · rintro ⟨h0, h | h⟩
    · simp [Book.getDepth, h0, h]
    · unfold Book.getDepth
      simp only [h0, h, Bool.false_eq_true, if_false, List.head?_nil, List.getLast?_nil]
      split <;> first | rfl | simp_all

example : ({ time := 0, maxDepth := 5, asks := [], bids := [⟨.fin 10, .fin 1, .fin 1⟩] } :
    Book).getDepth .nan = .panic := (C131_get_depth_panics_iff _ _).2 (by decide +kernel)

end Finmod
