import Verif.Props.BookMore

/-!
# C152: When a limited book stops showing the best rows of a deeper one

C118 is false of the code. The theorem here says for one update exactly when it goes wrong.
-/

namespace Finmod
open Go Spec

theorem drop_take_ne {rows : List Row} {d i : Nat} (hn : rows.Nodup) (hd : d < rows.length) (hi : i < d) :
    (rows.take d).drop (min (i + 1) (d - 1)) ≠ (rows.drop (min (i + 1) (rows.length - 1))).take d := by
  intro h
  have hm : min (i + 1) (rows.length - 1) = i + 1 := by omega
  rw [hm] at h
  have h0 := congrArg (fun l : List Row => l[0]?) h
  simp only [List.getElem?_drop, List.getElem?_take] at h0
  rw [if_pos (by omega), if_pos (by omega), List.getElem?_eq_getElem (by omega),
    List.getElem?_eq_getElem (by omega)] at h0
  have hl := congrArg List.length h
  simp only [List.length_drop, List.length_take] at hl
  have := (List.Nodup.getElem_inj_iff hn).1 (Option.some.inj h0)
  omega

theorem gRemove_reached {lt : Fl → Fl → Bool} {l : List Row} {p : Fl} {first : Row} (hf : l.head? = some first)
    (h1 : ¬ lt p first.price = true) :
    gRemove lt l p = match l.findIdx? (fun r => !(lt r.price p)) with
      | some i => (l.drop (min (i + 1) (l.length - 1)), (l.length : Int) - i)
      | none => ([], 0) := by
  cases l with
  | nil => simp at hf
  | cons a tl =>
    simp only [List.head?_cons, Option.some.injEq] at hf
    subst hf
    unfold gRemove
    simp only
    rw [if_neg h1]
    rfl

/-- The opposite side, when it is longer than the limit. -/
theorem gRemove_take_iff {lt : Fl → Fl → Bool} {rows : List Row} {p : Fl} {d : Nat} (hn : rows.Nodup)
    (h0 : 0 < d) (hd : d < rows.length) (first : Row) (hf : rows.head? = some first) :
    (gRemove lt (rows.take d) p).1 = (gRemove lt rows p).1.take d ↔
      lt p first.price = true ∨ ∀ r ∈ rows, lt r.price p = true := by
  obtain ⟨tl, rfl⟩ : ∃ tl, rows = first :: tl := by
    cases rows with
    | nil => simp at hf
    | cons a tl => simp at hf; exact ⟨tl, by rw [hf]⟩
  obtain ⟨e, rfl⟩ : ∃ e, d = e + 1 := ⟨d - 1, by omega⟩
  have hlen : ((first :: tl).take (e + 1)).length = e + 1 := by rw [List.length_take]; omega
  by_cases h1 : lt p first.price = true
  · simp [gRemove, h1]
  · have hL := gRemove_reached (lt := lt) (p := p) (first := first) (l := (first :: tl).take (e + 1)) rfl h1
    have hD := gRemove_reached (lt := lt) (p := p) (first := first) (l := first :: tl) rfl h1
    rw [hlen] at hL
    generalize first :: tl = rows at *
    rw [hL, hD]
    have hor : (lt p first.price = true ∨ ∀ r ∈ rows, lt r.price p = true) ↔ ∀ r ∈ rows, lt r.price p = true := by
      simp [h1]
    rw [hor]
    cases hi : rows.findIdx? (fun r => !(lt r.price p)) with
    | none =>
      have hall : ∀ r ∈ rows, lt r.price p = true := by
        intro r hr
        simpa using List.findIdx?_eq_none_iff.1 hi r hr
      have : (rows.take (e + 1)).findIdx? (fun r => !(lt r.price p)) = none := by
        rw [List.findIdx?_eq_none_iff]
        intro r hr
        simp [hall r (List.mem_of_mem_take hr)]
      rw [this]
      simp only [List.take_nil, true_iff]
      exact hall
    | some i =>
      obtain ⟨hil, hip, hib⟩ := List.findIdx?_eq_some_iff_getElem.1 hi
      have hnot : ¬ ∀ r ∈ rows, lt r.price p = true := by
        intro h
        have := h _ (List.getElem_mem hil)
        simp [this] at hip
      simp only [hnot, iff_false]
      cases hj : (rows.take (e + 1)).findIdx? (fun r => !(lt r.price p)) with
      | none =>
        simp only
        intro h
        have := congrArg List.length h
        simp only [List.length_nil, List.length_take, List.length_drop] at this
        omega
      | some j =>
        obtain ⟨hjl, hjp, hjb⟩ := List.findIdx?_eq_some_iff_getElem.1 hj
        rw [hlen] at hjl
        have hij : i = j := by
          rcases lt_trichotomy i j with h | h | h
          · have := hjb i h
            simp only [List.getElem_take] at this
            exact absurd hip this
          · exact h
          · have := hib j h
            simp only [List.getElem_take] at hjp
            exact absurd hjp this
        subst hij
        exact drop_take_ne hn hd hjl

/-- A deletion, when the side is longer than the limit. -/
theorem deleteLevel_take_iff {lt : Fl → Fl → Bool} {α : Type} [LinearOrder α] {k : Fl → α} (O : SideOrd lt k)
    {rows : List Row} {p : Fl} {d : Nat} (hnn : NoNaN rows) (hp : p ≠ .nan) (hs : GSorted lt rows)
    (hd : d < rows.length) :
    deleteLevel (rows.take d) p = (deleteLevel rows p).take d ↔ ∀ r ∈ rows.take d, Fl.eq r.price p = false := by
  have hlen : (rows.take d).length = d := by rw [List.length_take]; omega
  have hsplit : rows = rows.take d ++ rows.drop d := (List.take_append_drop d rows).symm
  have hR : rows.drop d ≠ [] := by
    intro h
    have := congrArg List.length h
    simp only [List.length_drop, List.length_nil] at this
    omega
  generalize rows.take d = A at *
  generalize rows.drop d = R at *
  subst hsplit
  constructor
  · intro h r hr
    by_contra hc
    have hc : Fl.eq r.price p = true := by simpa using hc
    unfold GSorted at hs
    rw [List.pairwise_append] at hs
    have hRk : deleteLevel R p = R := by
      unfold deleteLevel
      rw [List.filter_eq_self]
      intro x hx
      have h1 := (O.eq_iff _ _ (hnn r (by simp [hr])) hp).1 hc
      have h2 := (O.lt_iff _ _ (hnn r (by simp [hr])) (hnn x (by simp [hx]))).1 (hs.2.2 r hr x hx)
      have : Fl.eq x.price p = false := (O.eq_false_iff (hnn x (by simp [hx])) hp).2 (by rw [← h1]; exact h2.ne')
      simp [this]
    have hA : (deleteLevel A p).length < A.length := by
      unfold deleteLevel
      rw [List.length_filter_lt_length_iff_exists]
      exact ⟨r, hr, by simp [hc]⟩
    have e : deleteLevel (A ++ R) p = deleteLevel A p ++ R := by
      conv_rhs => rw [← hRk]
      unfold deleteLevel
      exact List.filter_append ..
    rw [e] at h
    have := congrArg List.length h
    have hRl := List.length_pos_iff.2 hR
    simp only [List.length_take, List.length_append] at this
    omega
  · intro h
    have hAk : deleteLevel A p = A := by
      unfold deleteLevel
      rw [List.filter_eq_self]
      intro x hx
      simp [h x hx]
    have e : deleteLevel (A ++ R) p = A ++ deleteLevel R p := by
      conv_rhs => rw [← hAk]
      unfold deleteLevel
      exact List.filter_append ..
    rw [e, hAk, ← hlen, List.take_left]

theorem sorted_nodup {lt : Fl → Fl → Bool} {α : Type} [LinearOrder α] {k : Fl → α} (O : SideOrd lt k)
    {rows : List Row} (hnn : NoNaN rows) (hs : GSorted lt rows) : rows.Nodup := by
  refine List.Pairwise.imp_of_mem ?_ hs
  intro a b ha hb h e
  subst e
  exact lt_irrefl _ ((O.lt_iff _ _ (hnn a ha) (hnn a ha)).1 h)

theorem first_ahead_iff {lt : Fl → Fl → Bool} {α : Type} [LinearOrder α] {k : Fl → α} (O : SideOrd lt k)
    {rows : List Row} {p : Fl} (hnn : NoNaN rows) (hp : p ≠ .nan) (hs : GSorted lt rows) {first : Row}
    (hf : rows.head? = some first) : lt p first.price = true ↔ ∀ r ∈ rows, lt p r.price = true := by
  cases rows with
  | nil => simp at hf
  | cons a tl =>
    simp only [List.head?_cons, Option.some.injEq] at hf
    subst hf
    constructor
    · intro h r hr
      rcases List.mem_cons.1 hr with rfl | hr
      · exact h
      · have h2 := (List.pairwise_cons.1 hs).1 r hr
        rw [O.lt_iff _ _ hp (hnn _ (by simp))] at h
        rw [O.lt_iff _ _ (hnn _ (by simp)) (hnn _ (by simp [hr]))] at h2
        rw [O.lt_iff _ _ hp (hnn _ (by simp [hr]))]
        exact h.trans h2
    · intro h
      exact h _ (by simp)

theorem gRemove_top_iff {lt : Fl → Fl → Bool} {α : Type} [LinearOrder α] {k : Fl → α} (O : SideOrd lt k)
    {rows : List Row} {p : Fl} (hnn : NoNaN rows) (hp : p ≠ .nan) (hs : GSorted lt rows) (d : Nat) :
    (gRemove lt (rows.take d) p).1 = (gRemove lt rows p).1.take d ↔
      d = 0 ∨ rows.length ≤ d ∨ (∀ r ∈ rows, lt p r.price = true) ∨ ∀ r ∈ rows, lt r.price p = true := by
  by_cases h0 : d = 0
  · subst h0; simp [gRemove]
  by_cases hl : rows.length ≤ d
  · simp only [hl, true_or, or_true, iff_true]
    rw [List.take_of_length_le hl, List.take_of_length_le (gRemove_length.trans hl)]
  · obtain ⟨first, hf⟩ : ∃ first, rows.head? = some first := by
      cases rows with
      | nil => simp at hl
      | cons a _ => exact ⟨a, rfl⟩
    rw [gRemove_take_iff (sorted_nodup O hnn hs) (by omega) (by omega) first hf,
      first_ahead_iff O hnn hp hs hf]
    simp [h0, hl]

theorem deleteLevel_top_iff {lt : Fl → Fl → Bool} {α : Type} [LinearOrder α] {k : Fl → α} (O : SideOrd lt k)
    {rows : List Row} {p : Fl} (hnn : NoNaN rows) (hp : p ≠ .nan) (hs : GSorted lt rows) (d : Nat) :
    deleteLevel (rows.take d) p = (deleteLevel rows p).take d ↔
      rows.length ≤ d ∨ ∀ r ∈ rows.take d, Fl.eq r.price p = false := by
  by_cases hl : rows.length ≤ d
  · simp only [hl, true_or, iff_true]
    rw [List.take_of_length_le hl, List.take_of_length_le ((deleteLevel_length rows p).trans hl)]
  · rw [deleteLevel_take_iff O hnn hp hs (by omega)]
    simp [hl]

theorem good_top {b B : Book} (hg : Good B) (hd : 0 ≤ b.maxDepth) (ht : TopOf b B) : Good b := by
  obtain ⟨t1, t2⟩ := ht
  refine ⟨⟨?_, ?_, ?_, ?_⟩, hd, ?_, ?_⟩
  · rw [t1]; exact take_num hg.wf.asks_num
  · rw [t2]; exact take_num hg.wf.bids_num
  · rw [t1]; exact take_sorted (lt := Fl.lt) hg.wf.askSorted
  · rw [t2]; exact take_sorted (lt := fun a b => Fl.lt b a) hg.wf.bidSorted
  · rw [t1, List.length_take]; omega
  · rw [t2, List.length_take]; omega

/-- The side is not longer than the limit of the limited book, or the update at price `p` of the
other side reaches no row of it or is strictly past every row. -/
def Spec.SafeCross (d : Nat) (rows : List Row) (ahead behind : Row → Bool) : Prop :=
  d = 0 ∨ rows.length ≤ d ∨ (∀ r ∈ rows, behind r = true) ∨ ∀ r ∈ rows, ahead r = true

/-- The side is not longer than the limit of the limited book, or none of the rows shown is at `p`. -/
def Spec.SafeDelete (d : Nat) (rows : List Row) (p : Fl) : Prop :=
  rows.length ≤ d ∨ ∀ r ∈ rows.take d, Fl.eq r.price p = false

/-- **C152.** A book shows the best rows of a deeper one. After one update of both it still does if and
only if: a non-zero update reaches no row of the opposite side, or is strictly past all of them, or that
side had no more rows than the limit (or the limit is 0); a deletion deletes no row shown, or the side
had no more rows than the limit. -/
theorem C152_stays_top_iff (b B : Book) (h : WellFormed B) (hb : DepthOk B) (hd : 0 ≤ b.maxDepth)
    (hD : b.maxDepth ≤ B.maxDepth) (ht : TopOf b B) (u : Update) (hp : u.price ≠ .nan)
    (hs : u.side = "ask" ∨ u.side = "bid") :
    ∃ b' B', b.applyUpdate u = .ok b' ∧ B.applyUpdate u = .ok B' ∧
      (TopOf b' B' ↔
        (u.side = "ask" → Fl.ne u.volume (.fin 0) = true → SafeCross b.maxDepth.toNat B.bids
          (fun r => Fl.gt r.price u.price) (fun r => Fl.lt r.price u.price)) ∧
        (u.side = "bid" → Fl.ne u.volume (.fin 0) = true → SafeCross b.maxDepth.toNat B.asks
          (fun r => Fl.lt r.price u.price) (fun r => Fl.gt r.price u.price)) ∧
        (u.side = "ask" → Fl.ne u.volume (.fin 0) = false → SafeDelete b.maxDepth.toNat B.asks u.price) ∧
        (u.side = "bid" → Fl.ne u.volume (.fin 0) = false → SafeDelete b.maxDepth.toNat B.bids u.price)) := by
  have hg : Good B := ⟨h, by omega, hb⟩
  have hgb := good_top hg hd ht
  obtain ⟨t1, t2⟩ := ht
  have m : min b.maxDepth.toNat B.maxDepth.toNat = b.maxDepth.toNat := by omega
  have ne : ("bid" : String) ≠ "ask" := by decide
  have ne' : ("ask" : String) ≠ "bid" := by decide
  rcases hs with hs | hs <;> cases hv : Fl.ne u.volume (.fin 0)
  · refine ⟨_, _, applyUpdate_ask_del hgb hs hv hp, applyUpdate_ask_del hg hs hv hp, ?_⟩
    simp only [TopOf, hs, t2, ne', and_true, true_imp_iff, false_imp_iff, true_and, Bool.false_eq_true,
      imp_true_iff]
    rw [t1]
    exact deleteLevel_top_iff askOrd h.asks_num hp h.askSorted _
  · refine ⟨_, _, applyUpdate_ask_set hgb hs hv hp, applyUpdate_ask_set hg hs hv hp, ?_⟩
    have e : (setAsk b.asks u.price u.volume).take b.maxDepth.toNat =
        ((setAsk B.asks u.price u.volume).take B.maxDepth.toNat).take b.maxDepth.toNat := by
      rw [List.take_take, m, t1]
      exact gSet_take askOrd h.asks_num hp h.askSorted _
    simp only [TopOf, hs, e, ne', and_true, true_imp_iff, false_imp_iff, true_and, Bool.true_eq_false,
      imp_true_iff]
    rw [t2]
    exact gRemove_top_iff bidOrd h.bids_num hp h.bidSorted _
  · refine ⟨_, _, applyUpdate_bid_del hgb hs hv hp, applyUpdate_bid_del hg hs hv hp, ?_⟩
    simp only [TopOf, hs, t1, ne, and_true, true_imp_iff, false_imp_iff, true_and, Bool.false_eq_true,
      imp_true_iff]
    rw [t2]
    exact deleteLevel_top_iff bidOrd h.bids_num hp h.bidSorted _
  · refine ⟨_, _, applyUpdate_bid_set hgb hs hv hp, applyUpdate_bid_set hg hs hv hp, ?_⟩
    have e : (setBid b.bids u.price u.volume).take b.maxDepth.toNat =
        ((setBid B.bids u.price u.volume).take B.maxDepth.toNat).take b.maxDepth.toNat := by
      rw [List.take_take, m, t2]
      exact gSet_take bidOrd h.bids_num hp h.bidSorted _
    simp only [TopOf, hs, e, ne, and_true, true_imp_iff, false_imp_iff, true_and, Bool.true_eq_false,
      imp_true_iff]
    rw [t1]
    exact gRemove_top_iff askOrd h.asks_num hp h.askSorted _

namespace Ex
/-- A deeper book and the two best rows of each side. -/
def deep : Book := ⟨0, [⟨.fin 11, .fin 1, .fin 1⟩, ⟨.fin 12, .fin 1, .fin 2⟩, ⟨.fin 13, .fin 1, .fin 3⟩],
  [⟨.fin 9, .fin 1, .fin 1⟩, ⟨.fin 8, .fin 1, .fin 2⟩], 5⟩
def shallow : Book := ⟨0, [⟨.fin 11, .fin 1, .fin 1⟩, ⟨.fin 12, .fin 1, .fin 2⟩],
  [⟨.fin 9, .fin 1, .fin 1⟩, ⟨.fin 8, .fin 1, .fin 2⟩], 2⟩
end Ex

example : WellFormed Ex.deep ∧ DepthOk Ex.deep ∧ TopOf Ex.shallow Ex.deep := by decide +kernel

/-- Both limited and deep books after an update agree on the best rows. -/
def Ex.stillTop (u : Update) : Bool :=
  match Ex.shallow.applyUpdate u, Ex.deep.applyUpdate u with
  | .ok b, .ok B => decide (TopOf b B)
  | _, _ => false

-- deleting a shown ask or crossing it goes wrong; bids, hidden asks and going past all asks do not
example : Ex.stillTop ⟨.fin 12, .fin 0, "ask"⟩ = false ∧ Ex.stillTop ⟨.fin 13, .fin 0, "ask"⟩ = true ∧
    Ex.stillTop ⟨.fin 9, .fin 0, "bid"⟩ = true ∧ Ex.stillTop ⟨.fin 11, .fin 1, "bid"⟩ = false ∧
    Ex.stillTop ⟨.fin 14, .fin 1, "bid"⟩ = true ∧ Ex.stillTop ⟨.fin 8, .fin 1, "ask"⟩ = true := by
  decide +kernel

end Finmod
