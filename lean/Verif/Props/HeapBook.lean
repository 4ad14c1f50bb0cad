import Verif.Props.BookNew
import Verif.Lemmas.HeapBook

/-!
# C99, C100, C106: order books in shared memory
-/

namespace Finmod
open Go Go.Heap Spec

theorem take_min_len {α : Type} {l : List α} {n d : Nat} (hl : l.length = n) : l.take (min n d) = l.take d := by
  by_cases h : n ≤ d
  · rw [min_eq_left h, List.take_of_length_le (by omega), List.take_of_length_le (by omega)]
  · rw [min_eq_right (by omega)]

/-! ## C100 -/

/-- **C100.** A book whose sides live in separate memory behaves as a value: after any updates,
whatever the capacities and the growth policy, it shows exactly the list-level book, or both runs
panic. -/
theorem C100_updates_as_values (grow : Nat → Nat → Nat) {h : Heap Row} {hb : HBook} {b : Book} (hs : Shows h hb b)
    (us : List Update) :
    match HBook.applyAll grow h hb us, Book.applyAll b us with
    | .ok (h', hb'), .ok b' => Shows h' hb' b'
    | .panic, .panic => True
    | _, _ => False := by
  have := agree_all grow us hs
  cases e1 : HBook.applyAll grow h hb us <;> cases e2 : Book.applyAll b us <;> rw [e1, e2] at this <;>
    simp only [Agree] at this ⊢
  · exact this.1
  · exact absurd e2 (applyAll_not_err _ _ _ _)

/-- **C100.** One update, with its error. -/
theorem C100_update_as_value (grow : Nat → Nat → Nat) {h : Heap Row} {hb : HBook} {b : Book} (hs : Shows h hb b)
    (u : Update) :
    match HBook.applyUpdate grow h hb u, Book.applyUpdate b u with
    | .ok (h', hb'), .ok b' => Shows h' hb' b'
    | .err c (h', hb'), .err c' b' => c = c' ∧ Shows h' hb' b'
    | .panic, .panic => True
    | _, _ => False := by
  have := agree_update grow hs u
  cases e1 : HBook.applyUpdate grow h hb u <;> cases e2 : Book.applyUpdate b u <;> rw [e1, e2] at this <;>
    simp only [Agree] at this ⊢
  · exact this.1
  · exact ⟨this.1, this.2.1⟩

/-- **C100.** `NewOrderBook` on separate slices gives a book that shows the list-level new book. -/
theorem C100_new_as_value {S : FloatSem} (hS : Lawful S) {h : Heap Row} {asks bids : Slice} (wa : WF h asks)
    (wb : WF h bids) (sep : asks.Separate bids) (la : asks.len < 2 ^ 53) (lb : bids.len < 2 ^ 53) {d : Int}
    (hd : 0 ≤ d) (now : Int) :
    ∃ h' hb b, hNewOrderBook S h now asks bids d = .ok (h', hb) ∧
      newOrderBook S now (h.load asks) (h.load bids) d = .ok b ∧ Shows h' hb b := by
  obtain ⟨h', e, st, wa', wb', l1, l2⟩ := hNew_run hS wa wb sep la lb hd now
  have la' := length_load h asks
  have lb' := length_load h bids
  refine ⟨h', _, _, e, newOrderBook_eq hS hd (by omega) (by omega), ?_⟩
  have u1 := step_upTo wa' (n := min asks.len d.toNat) (by omega)
  have u2 := step_upTo wb' (n := min bids.len d.toNat) (by omega)
  refine ⟨rfl, rfl, ?_, ?_, u1.1.wf, u2.1.wf, fun a i h1 h2 => sep a i h1 h2⟩
  · have x : (accumulate S none ((sliceStable (fun x y => Fl.lt x.price y.price) (h.load asks)).take
        (min asks.len d.toNat))).length = min asks.len d.toNat := by
      rw [accumulate_length, List.length_take, sliceStable_length, la']; omega
    refine u1.2.trans ?_
    rw [l1, List.take_left' x]
    rw [take_min_len (by rw [sliceStable_length, la'])]
  · have x : (accumulate S none ((sliceStable (fun x y => Fl.gt x.price y.price) (h.load bids)).take
        (min bids.len d.toNat))).length = min bids.len d.toNat := by
      rw [accumulate_length, List.length_take, sliceStable_length, lb']; omega
    refine u2.2.trans ?_
    rw [l2, List.take_left' x]
    rw [take_min_len (by rw [sliceStable_length, lb'])]

/-! ## C99 -/

/-- **C99**, the claim: the slices passed to `NewOrderBook` still hold the same rows. -/
def Spec.C99_claim (S : FloatSem) : Prop :=
  ∀ (h : Heap Row) (asks bids : Slice) (d now : Int) (h' : Heap Row) (hb : HBook),
    WF h asks → WF h bids → asks.Separate bids → asks.len < 2 ^ 53 → bids.len < 2 ^ 53 → 0 ≤ d →
    hNewOrderBook S h now asks bids d = .ok (h', hb) →
    h'.load asks = h.load asks ∧ h'.load bids = h.load bids

/-- **C99**, what is true: the caller's slice is sorted in place, the first rows (those the book
keeps, and shares) get running totals, and no memory outside the two slices is written. -/
theorem C99_caller_rows_partial {S : FloatSem} (hS : Lawful S) {h : Heap Row} {asks bids : Slice} (wa : WF h asks)
    (wb : WF h bids) (sep : asks.Separate bids) (la : asks.len < 2 ^ 53) (lb : bids.len < 2 ^ 53) {d : Int}
    (hd : 0 ≤ d) (now : Int) (na : NumPrices (h.load asks)) (nb : NumPrices (h.load bids)) :
    ∃ h' hb A B, hNewOrderBook S h now asks bids d = .ok (h', hb) ∧
      StableSort (fun x y => Fl.le x y = true) (h.load asks) A ∧
      StableSort (fun x y => Fl.ge x y = true) (h.load bids) B ∧
      (h'.load asks).map Row.pv = A.map Row.pv ∧ (h'.load bids).map Row.pv = B.map Row.pv ∧
      (h'.load asks).drop d.toNat = A.drop d.toNat ∧ (h'.load bids).drop d.toNat = B.drop d.toNat ∧
      AccumOk S ((h'.load asks).take d.toNat) ∧ AccumOk S ((h'.load bids).take d.toNat) ∧
      h'.load hb.asks = (h'.load asks).take d.toNat ∧ h'.load hb.bids = (h'.load bids).take d.toNat ∧
      (∀ a i, a < h.next → ¬ asks.Owns a i → ¬ bids.Owns a i → h'.cell a i = h.cell a i) := by
  obtain ⟨h', e, st, wa', wb', l1, l2⟩ := hNew_run hS wa wb sep la lb hd now
  have key : ∀ (s : Slice) (sorted : List Row), WF h' s → sorted.length = s.len →
      h'.load s = accumulate S none (sorted.take (min s.len d.toNat)) ++ sorted.drop (min s.len d.toNat) →
      (h'.load s).map Row.pv = sorted.map Row.pv ∧ (h'.load s).drop d.toNat = sorted.drop d.toNat ∧
      AccumOk S ((h'.load s).take d.toNat) ∧ h'.load (s.upTo (min s.len d.toNat)) = (h'.load s).take d.toNat := by
    intro s sorted wf hl hs
    have x : (accumulate S none (sorted.take (min s.len d.toNat))).length = min s.len d.toNat := by
      rw [accumulate_length, List.length_take]; omega
    have hll : (h'.load s).length = s.len := length_load _ _
    have ht : (h'.load s).take d.toNat = accumulate S none (sorted.take d.toNat) := by
      rw [← take_min_len hll, hs, List.take_left' x, take_min_len hl]
    refine ⟨?_, ?_, ?_, ?_⟩
    · rw [hs, List.map_append, accumulate_pv, ← List.map_append, List.take_append_drop]
    · by_cases hc : s.len ≤ d.toNat
      · rw [List.drop_eq_nil_of_le (by omega), List.drop_eq_nil_of_le (by omega)]
      · rw [min_eq_right (by omega)] at x hs
        rw [hs, List.drop_left' x]
    · rw [ht]
      intro i hi
      rw [accumulate_none]
      have hp : (accumulate S none (sorted.take d.toNat)).map (·.volume) = (sorted.take d.toNat).map (·.volume) := by
        have := congrArg (List.map Prod.snd) (accumulate_pv S none (sorted.take d.toNat))
        rw [List.map_map, List.map_map] at this
        exact this
      simp only [List.map_take] at hp ⊢
      rw [hp]
    · rw [(step_upTo wf (by omega)).2, take_min_len hll]
  obtain ⟨p1, p2, p3, p4⟩ := key asks _ wa' (by rw [sliceStable_length, length_load]) l1
  obtain ⟨q1, q2, q3, q4⟩ := key bids _ wb' (by rw [sliceStable_length, length_load]) l2
  exact ⟨h', _, _, _, e, stableSort_asks na, stableSort_bids nb, p1, q1, p2, q2, p3, q3, p4, q4, st.frame⟩

theorem pv_accum_ext {l l' : List Row} (h1 : l.map Row.pv = l'.map Row.pv)
    (h2 : l.map (·.accum) = l'.map (·.accum)) : l = l' := by
  induction l generalizing l' with
  | nil => cases l' with
    | nil => rfl
    | cons a t => simp at h1
  | cons a t ih => cases l' with
    | nil => simp at h1
    | cons b t' =>
      rw [List.map_cons, List.map_cons, List.cons.injEq] at h1 h2
      have e := ih h1.2 h2.2
      obtain ⟨a1, a2, a3⟩ := a
      obtain ⟨b1, b2, b3⟩ := b
      simp only [Row.pv, Prod.mk.injEq] at h1 h2
      rw [e, h1.1.1, h1.1.2, h2.1]

theorem accumOk_accums {S : FloatSem} {l l' : List Row} (h : AccumOk S l) (h' : AccumOk S l')
    (hp : l.map Row.pv = l'.map Row.pv) : l = l' := by
  have hl : l.length = l'.length := by simpa using congrArg List.length hp
  have hv : l.map (·.volume) = l'.map (·.volume) := by
    have := congrArg (List.map Prod.snd) hp
    rw [List.map_map, List.map_map] at this
    exact this
  apply pv_accum_ext hp
  apply List.ext_getElem (by simpa using hl)
  intro i h1 h2
  rw [List.getElem_map, List.getElem_map, h i (by simpa using h1), h' i (by simpa using h2),
    List.map_take, List.map_take, hv]

/-- A sorted list is its own stable sort, and there is only one. -/
theorem stableSort_sorted {le : Fl → Fl → Prop} (anti : ∀ x y, le x y → le y x → Fl.eq x y = true)
    (refl : ∀ x y, Fl.eq x y = true → Fl.eq y x = true) {L F : List Row} (hF : StableSort le L F)
    (hn : NumPrices L) (hs : L.Pairwise (fun a b => le a.price b.price)) : F = L := by
  have hsame : ∀ x : Row, x ∈ L → Fl.eq x.price x.price = true := fun x hx => by
    have := hn x hx
    rw [Fl.eq_iff]; exact ⟨this, this, rfl⟩
  obtain ⟨hp, hsort, hst⟩ := hF
  induction L generalizing F with
  | nil => exact List.perm_nil.1 hp
  | cons x L ih =>
    cases F with
    | nil => simpa using hp.length_eq
    | cons y F =>
      have hxy : x = y := by
        have hx : x ∈ y :: F := hp.symm.subset (by simp)
        have hy : y ∈ x :: L := hp.subset (by simp)
        have e : Fl.eq x.price y.price = true := by
          rcases List.mem_cons.1 hx with rfl | hx'
          · exact hsame x (by simp)
          · rcases List.mem_cons.1 hy with rfl | hy'
            · exact hsame y (by simp)
            · exact anti _ _ ((List.pairwise_cons.1 hs).1 y hy') ((List.pairwise_cons.1 hsort).1 x hx')
        have := hst x.price
        rw [List.filter_cons, List.filter_cons, if_pos (refl _ _ e), if_pos (hsame x (by simp))] at this
        exact (List.cons.inj this).1.symm
      subst hxy
      rw [List.cons.injEq]
      refine ⟨rfl, ih (fun r hr => hn r (by simp [hr])) (List.pairwise_cons.1 hs).2
        (fun z hz => hsame z (by simp [hz])) (List.Perm.cons_inv hp) (List.pairwise_cons.1 hsort).2 ?_⟩
      intro p
      have := hst p
      rw [List.filter_cons, List.filter_cons] at this
      split_ifs at this
      · exact (List.cons.inj this).2
      · exact this

/-- **C99**, exactly when the caller's asks are left as they were: when they were sorted already and
the part the book keeps carried its running totals already. -/
theorem C99_untouched_asks_partial {S : FloatSem} (hS : Lawful S) {h : Heap Row} {asks bids : Slice} (wa : WF h asks)
    (wb : WF h bids) (sep : asks.Separate bids) (la : asks.len < 2 ^ 53) (lb : bids.len < 2 ^ 53) {d : Int}
    (hd : 0 ≤ d) (now : Int) (na : NumPrices (h.load asks)) (nb : NumPrices (h.load bids)) :
    ∃ h' hb, hNewOrderBook S h now asks bids d = .ok (h', hb) ∧
      (h'.load asks = h.load asks ↔
        (h.load asks).Pairwise (fun x y => Fl.le x.price y.price = true) ∧
        AccumOk S ((h.load asks).take d.toNat)) ∧
      (h'.load bids = h.load bids ↔
        (h.load bids).Pairwise (fun x y => Fl.ge x.price y.price = true) ∧
        AccumOk S ((h.load bids).take d.toNat)) := by
  obtain ⟨h', hb, A, B, e, sA, sB, pA, pB, dA, dB, aA, aB, -, -, -⟩ :=
    C99_caller_rows_partial hS wa wb sep la lb hd now na nb
  have key : ∀ {le : Fl → Fl → Prop} {L F X : List Row}, (∀ x y, le x y → le y x → Fl.eq x y = true) →
      NumPrices L → StableSort le L F → X.map Row.pv = F.map Row.pv → X.drop d.toNat = F.drop d.toNat →
      AccumOk S (X.take d.toNat) →
      (X = L ↔ L.Pairwise (fun x y => le x.price y.price) ∧ AccumOk S (L.take d.toNat)) := by
    intro le L F X anti hn hF hp hd' ha
    constructor
    · rintro rfl
      refine ⟨?_, ha⟩
      have h1 : (F.map Row.pv).Pairwise (fun a b => le a.1 b.1) := by
        rw [List.pairwise_map]; exact hF.sorted
      rw [← hp, List.pairwise_map] at h1
      exact h1
    · rintro ⟨hs, ha'⟩
      have hFL := stableSort_sorted anti (fun x y h => by
        rw [Fl.eq_iff] at h ⊢; exact ⟨h.2.1, h.1, h.2.2.symm⟩) hF hn hs
      subst hFL
      rw [← List.take_append_drop d.toNat X, ← List.take_append_drop d.toNat F, hd',
        accumOk_accums ha ha' (by rw [List.map_take, List.map_take, hp])]
  have anti1 : ∀ x y, Fl.le x y = true → Fl.le y x = true → Fl.eq x y = true := by
    intro x y h1 h2
    rw [Fl.le_iff] at h1 h2
    rw [Fl.eq_iff]
    exact ⟨h1.1, h1.2.1, le_antisymm h1.2.2 h2.2.2⟩
  refine ⟨h', hb, e, key anti1 na sA pA dA aA, key (fun x y h1 h2 => ?_) nb sB pB dB aB⟩
  exact anti1 x y h2 h1

/-- **C99** is false of the code: unsorted input is reordered in place. -/
theorem C99_caller_rows_violated {S : FloatSem} (hS : Lawful S) : ¬ Spec.C99_claim S := by
  intro hc
  let h : Heap Row := ⟨fun _ i => if i = 0 then ⟨.fin 2, .fin 1, .fin 0⟩ else ⟨.fin 1, .fin 1, .fin 0⟩, 1⟩
  have wa : WF h ⟨0, 0, 2, 2⟩ := ⟨le_rfl, fun _ => Nat.one_pos⟩
  have wb : WF h Slice.empty := ⟨le_rfl, fun h0 => absurd rfl h0⟩
  have sep : Slice.Separate ⟨0, 0, 2, 2⟩ Slice.empty := by
    rintro a i - ⟨-, h1, h2⟩
    simp only [Slice.empty] at h1 h2
    omega
  have e0 : h.load ⟨0, 0, 2, 2⟩ = [⟨.fin 2, .fin 1, .fin 0⟩, ⟨.fin 1, .fin 1, .fin 0⟩] := rfl
  obtain ⟨h', hb, e, i1, -⟩ := C99_untouched_asks_partial hS wa wb sep (by norm_num) (by norm_num [Slice.empty])
    (d := 5) (by norm_num) 0 (by rw [e0]; decide +kernel) (by decide)
  have := (i1.1 (hc h ⟨0, 0, 2, 2⟩ Slice.empty 5 0 h' hb wa wb sep (by norm_num) (by norm_num [Slice.empty]) (by norm_num) e).1).1
  rw [e0] at this
  revert this
  decide +kernel

/-! ## C106 -/

/-- **C106**, the claim: a copy of a book (same headers) taken before some updates still shows the old
rows after them. -/
def Spec.C106_claim (grow : Nat → Nat → Nat) : Prop :=
  ∀ (h : Heap Row) (hb : HBook) (b : Book) (us : List Update) (h' : Heap Row) (hb' : HBook), Shows h hb b →
    HBook.applyAll grow h hb us = .ok (h', hb') → Shows h' hb b

/-- **C106** is false of the code, whatever the growth policy: changing the volume of a level changes it in every copy. -/
theorem C106_copies_violated (grow : Nat → Nat → Nat) : ¬ Spec.C106_claim grow := by
  intro hc
  let h : Heap Row := ⟨fun _ _ => ⟨.fin 2, .fin 1, .fin 1⟩, 1⟩
  have wb : WF h Slice.empty := ⟨le_rfl, fun h0 => absurd rfl h0⟩
  have hs : Shows h ⟨0, ⟨0, 0, 1, 1⟩, Slice.empty, 5⟩ ⟨0, [⟨.fin 2, .fin 1, .fin 1⟩], [], 5⟩ := by
    refine ⟨rfl, rfl, rfl, rfl, ⟨le_rfl, fun _ => Nat.one_pos⟩, wb, ?_⟩
    rintro a i - ⟨-, h1, h2⟩
    simp only [Slice.empty] at h1 h2
    omega
  have := hc h _ _ [⟨.fin 2, .fin 7, "ask"⟩] _ _ hs rfl
  have e : [(⟨.fin 2, .fin 7, .fin 0⟩ : Row)] = [⟨.fin 2, .fin 1, .fin 1⟩] := this.asks
  revert e
  decide +kernel

/-- Two books in one memory, in separate places. -/
structure Spec.Apart (c d : HBook) : Prop where
  aa : c.asks.Separate d.asks
  ab : c.asks.Separate d.bids
  ba : c.bids.Separate d.asks
  bb : c.bids.Separate d.bids

theorem Spec.Apart.symm {c d : HBook} (h : Apart c d) : Apart d c :=
  ⟨separate_comm h.aa, separate_comm h.ba, separate_comm h.ab, separate_comm h.bb⟩

/-- A step of one book leaves a book elsewhere as it was. -/
theorem BStep.other {h h' : Heap Row} {c c' d : HBook} {b : Book} (st : BStep h c h' c') (hs : Shows h d b)
    (ap : Apart c d) : Shows h' d b ∧ Apart c' d := by
  have lt : ∀ {s : Slice} {a i : Nat}, WF h s → s.Owns a i → a < h.next := by
    rintro s a i wf ⟨rfl, h1, h2⟩
    exact wf.2 (by omega)
  have ld : ∀ {s : Slice}, WF h s → c.asks.Separate s → c.bids.Separate s → h'.load s = h.load s := by
    intro s wf s1 s2
    apply load_congr
    intro i hi
    have ho : s.Owns s.arr (s.off + i) := ⟨rfl, by omega, by have := wf.1; omega⟩
    exact st.frame _ _ (lt wf ho) (fun h1 => s1 _ _ h1 ho) (fun h1 => s2 _ _ h1 ho)
  have sp : ∀ {s : Slice}, WF h s → c.asks.Separate s → c.bids.Separate s → ∀ a i,
      c'.asks.Owns a i ∨ c'.bids.Owns a i → ¬ s.Owns a i := by
    intro s wf s1 s2 a i ho h2
    rcases st.inherits a i ho with h3 | h3 | h3
    · exact s1 a i h3 h2
    · exact s2 a i h3 h2
    · have := lt wf h2; omega
  have wf : ∀ {s : Slice}, WF h s → WF h' s := fun w => ⟨w.1, fun h0 => lt_of_lt_of_le (w.2 h0) st.next⟩
  exact ⟨⟨hs.time, hs.depth, (ld hs.wfa ap.aa ap.ba).trans hs.asks, (ld hs.wfb ap.ab ap.bb).trans hs.bids,
      wf hs.wfa, wf hs.wfb, hs.sep⟩,
    ⟨fun a i h1 => sp hs.wfa ap.aa ap.ba a i (Or.inl h1), fun a i h1 => sp hs.wfb ap.ab ap.bb a i (Or.inl h1),
      fun a i h1 => sp hs.wfa ap.aa ap.ba a i (Or.inr h1), fun a i h1 => sp hs.wfb ap.ab ap.bb a i (Or.inr h1)⟩⟩

/-- The updates addressed to one of two books. -/
def Spec.sentTo (which : Bool) (us : List (Bool × Update)) : List Update :=
  (us.filter (fun u => u.1 == which)).map (·.2)

/-- **C106**, what is true: books with separate arrays are independent. In any interleaving of updates
each book ends as the list-level book does under its own updates alone. -/
theorem C106_separate_books_partial (grow : Nat → Nat → Nat) (us : List (Bool × Update)) :
    ∀ {h : Heap Row} {c d : HBook} {b1 b2 b1' b2' : Book}, Shows h c b1 → Shows h d b2 → Apart c d →
    Book.applyAll b1 (sentTo true us) = .ok b1' → Book.applyAll b2 (sentTo false us) = .ok b2' →
    ∃ h' c' d', hTwoBooks grow h c d us = .ok (h', c', d') ∧ Shows h' c' b1' ∧ Shows h' d' b2' ∧ Apart c' d' := by
  induction us with
  | nil =>
    intro h c d b1 b2 b1' b2' s1 s2 ap e1 e2
    cases e1; cases e2
    exact ⟨h, c, d, rfl, s1, s2, ap⟩
  | cons u us ih =>
    intro h c d b1 b2 b1' b2' s1 s2 ap e1 e2
    obtain ⟨w, u⟩ := u
    cases w with
    | true =>
      have ag := agree_update grow s1 u
      change Book.applyAll b1 (u :: sentTo true us) = _ at e1
      change Book.applyAll b2 (sentTo false us) = _ at e2
      unfold Book.applyAll at e1
      unfold hTwoBooks
      cases x1 : HBook.applyUpdate grow h c u <;> cases x2 : Book.applyUpdate b1 u <;> rw [x1, x2] at ag <;>
        simp only [Agree] at ag <;> rw [x2] at e1
      · obtain ⟨o1, o2⟩ := ag.2.other s2 ap
        exact ih ag.1 o1 o2 e1 e2
      · obtain ⟨o1, o2⟩ := ag.2.2.other s2 ap
        exact ih ag.2.1 o1 o2 e1 e2
      · exact absurd e1 (by simp)
    | false =>
      have ag := agree_update grow s2 u
      change Book.applyAll b1 (sentTo true us) = _ at e1
      change Book.applyAll b2 (u :: sentTo false us) = _ at e2
      unfold Book.applyAll at e2
      unfold hTwoBooks
      cases x1 : HBook.applyUpdate grow h d u <;> cases x2 : Book.applyUpdate b2 u <;> rw [x1, x2] at ag <;>
        simp only [Agree] at ag <;> rw [x2] at e2
      · obtain ⟨o1, o2⟩ := ag.2.other s1 ap.symm
        exact ih o1 ag.1 o2.symm e1 e2
      · obtain ⟨o1, o2⟩ := ag.2.2.other s1 ap.symm
        exact ih o1 ag.2.1 o2.symm e1 e2
      · exact absurd e2 (by simp)

/-! ## Examples -/

/-- A memory with asks 3, 5 at array 0 (room for one more) and bids 2, 1 at array 1. -/
def exHeap : Heap Row :=
  ⟨fun a i => if a = 0 then (if i = 0 then ⟨.fin 3, .fin 1, .fin 0⟩ else ⟨.fin 5, .fin 2, .fin 0⟩)
    else (if i = 0 then ⟨.fin 2, .fin 1, .fin 0⟩ else ⟨.fin 1, .fin 4, .fin 0⟩), 2⟩
def exHBook : HBook := ⟨0, ⟨0, 0, 2, 3⟩, ⟨1, 0, 2, 2⟩, 5⟩
def exBook : Book := ⟨0, [⟨.fin 3, .fin 1, .fin 0⟩, ⟨.fin 5, .fin 2, .fin 0⟩], [⟨.fin 2, .fin 1, .fin 0⟩, ⟨.fin 1, .fin 4, .fin 0⟩], 5⟩

theorem exShows : Shows exHeap exHBook exBook := by
  refine ⟨rfl, rfl, rfl, rfl, ⟨by decide, fun _ => by decide⟩, ⟨by decide, fun _ => by decide⟩, ?_⟩
  rintro a i ⟨rfl, -, -⟩ ⟨h1, -, -⟩
  exact absurd h1 (by decide)

/-- C100: an insertion in place, an insertion that moves the array, a deletion. -/
example : ∃ h' hb', HBook.applyAll (fun c _ => c) exHeap exHBook
      [⟨.fin 4, .fin 7, "ask"⟩, ⟨.fin (5 / 2), .fin 1, "bid"⟩, ⟨.fin 3, .fin 0, "ask"⟩] = .ok (h', hb') ∧
    hb'.asks.arr = 0 ∧ hb'.bids.arr = 2 ∧
    Shows h' hb' ⟨0, [⟨.fin 4, .fin 7, .fin 0⟩, ⟨.fin 5, .fin 2, .fin 0⟩],
      [⟨.fin (5 / 2), .fin 1, .fin 0⟩, ⟨.fin 2, .fin 1, .fin 0⟩, ⟨.fin 1, .fin 4, .fin 0⟩], 5⟩ := by
  have := C100_updates_as_values (fun c _ => c) exShows
    [⟨.fin 4, .fin 7, "ask"⟩, ⟨.fin (5 / 2), .fin 1, "bid"⟩, ⟨.fin 3, .fin 0, "ask"⟩]
  have e : Book.applyAll exBook [⟨.fin 4, .fin 7, "ask"⟩, ⟨.fin (5 / 2), .fin 1, "bid"⟩, ⟨.fin 3, .fin 0, "ask"⟩] =
    .ok ⟨0, [⟨.fin 4, .fin 7, .fin 0⟩, ⟨.fin 5, .fin 2, .fin 0⟩],
      [⟨.fin (5 / 2), .fin 1, .fin 0⟩, ⟨.fin 2, .fin 1, .fin 0⟩, ⟨.fin 1, .fin 4, .fin 0⟩], 5⟩ := by decide +kernel
  rw [e] at this
  have d : ∀ r, HBook.applyAll (fun c _ => c) exHeap exHBook
      [⟨.fin 4, .fin 7, "ask"⟩, ⟨.fin (5 / 2), .fin 1, "bid"⟩, ⟨.fin 3, .fin 0, "ask"⟩] = .ok r →
      r.2.asks.arr = 0 ∧ r.2.bids.arr = 2 := by
    have : (match HBook.applyAll (fun c _ => c) exHeap exHBook
      [⟨.fin 4, .fin 7, "ask"⟩, ⟨.fin (5 / 2), .fin 1, "bid"⟩, ⟨.fin 3, .fin 0, "ask"⟩] with
      | .ok r => decide (r.2.asks.arr = 0 ∧ r.2.bids.arr = 2) | _ => false) = true := by decide +kernel
    intro r hr
    rw [hr] at this
    exact of_decide_eq_true this
  cases hr : HBook.applyAll (fun c _ => c) exHeap exHBook
      [⟨.fin 4, .fin 7, "ask"⟩, ⟨.fin (5 / 2), .fin 1, "bid"⟩, ⟨.fin 3, .fin 0, "ask"⟩] with
  | ok r => rw [hr] at this; exact ⟨r.1, r.2, rfl, (d r hr).1, (d r hr).2, this⟩
  | err c r => rw [hr] at this; exact this.elim
  | panic => rw [hr] at this; exact this.elim

/-- C100, C99: the hypotheses hold of the example memory. -/
example : WF exHeap exHBook.asks ∧ WF exHeap exHBook.bids ∧ exHBook.asks.Separate exHBook.bids ∧
    NumPrices (exHeap.load exHBook.asks) ∧ NumPrices (exHeap.load exHBook.bids) :=
  ⟨exShows.wfa, exShows.wfb, exShows.sep, by rw [exShows.asks]; decide +kernel, by rw [exShows.bids]; decide +kernel⟩

/-- C106: a second book elsewhere. -/
example : Shows { exHeap with next := 4 } exHBook exBook ∧
    Shows { exHeap with next := 4 } ⟨0, ⟨2, 0, 2, 2⟩, ⟨3, 0, 1, 5⟩, 5⟩
      ⟨0, [⟨.fin 2, .fin 1, .fin 0⟩, ⟨.fin 1, .fin 4, .fin 0⟩], [⟨.fin 2, .fin 1, .fin 0⟩], 5⟩ ∧
    Apart exHBook ⟨0, ⟨2, 0, 2, 2⟩, ⟨3, 0, 1, 5⟩, 5⟩ := by
  refine ⟨⟨rfl, rfl, rfl, rfl, ⟨by decide, fun _ => by decide⟩, ⟨by decide, fun _ => by decide⟩, exShows.sep⟩,
    ⟨rfl, rfl, rfl, rfl, ⟨by decide, fun _ => by decide⟩, ⟨by decide, fun _ => by decide⟩, ?_⟩, ?_, ?_, ?_, ?_⟩ <;>
  · rintro a i ⟨rfl, -, -⟩ ⟨h1, -, -⟩
    exact absurd h1 (by decide)

end Finmod
