import Verif.Model.BookThreads
import Verif.Props.HeapBook
import Verif.Lemmas.SortThreads

/-!
# C204, C205: order books used by several goroutines
-/

namespace Finmod
open Go Go.Heap Spec

section
variable {view own : Cells} {h : Heap Row} {s : Slice}

theorem first_read (ho : MayRead own view s) (hw : s.len ≤ s.cap) {i : Nat} (hi : i < s.len) :
    own s.arr (s.off + i) ∨ view s.arr (s.off + i) := ho _ _ ⟨rfl, by omega, by omega⟩

theorem load_getElem (h : Heap Row) {i : Nat} (hi : i < s.len) : (h.load s)[i]? = some (h.cell s.arr (s.off + i)) := by
  rw [getElem?_load, if_pos hi]

theorem safe_removeInvalidAsk {post : Heap Row → Cells → Slice → Prop} (hw : s.len ≤ s.cap) (ho : MayRead own view s)
    (price : Fl) (hp : post h own (hRemoveInvalidAsk h s price)) : Safe view (removeInvalidAskP s price) h own post := by
  unfold removeInvalidAskP
  unfold hRemoveInvalidAsk at hp
  by_cases h0 : s.len = 0
  · rw [if_pos h0]
    rw [getElem?_load, if_neg (by omega)] at hp
    exact hp
  · rw [if_neg h0]
    rw [load_getElem h (by omega)] at hp
    refine ⟨first_read ho hw (i := 0) (by omega), ?_⟩
    simp only [Nat.add_zero] at hp ⊢
    by_cases hc : Fl.lt price (h.cell s.arr s.off).price = true
    · rw [if_pos hc] at hp ⊢; exact hp
    · rw [if_neg hc] at hp ⊢
      refine safe_bind _ _ _ (safe_find hw ho ?_)
      cases hf : (h.load s).findIdx? (fun r => !(Fl.lt r.price price)) <;> rw [hf] at hp <;> exact hp

theorem safe_removeInvalidBid {post : Heap Row → Cells → Slice → Prop} (hw : s.len ≤ s.cap) (ho : MayRead own view s)
    (price : Fl) (hp : post h own (hRemoveInvalidBid h s price)) : Safe view (removeInvalidBidP s price) h own post := by
  unfold removeInvalidBidP
  unfold hRemoveInvalidBid at hp
  by_cases h0 : s.len = 0
  · rw [if_pos h0]
    rw [getElem?_load, if_neg (by omega)] at hp
    exact hp
  · rw [if_neg h0]
    rw [load_getElem h (by omega)] at hp
    refine ⟨first_read ho hw (i := 0) (by omega), ?_⟩
    simp only [Nat.add_zero] at hp ⊢
    by_cases hc : Fl.gt price (h.cell s.arr s.off).price = true
    · rw [if_pos hc] at hp ⊢; exact hp
    · rw [if_neg hc] at hp ⊢
      refine safe_bind _ _ _ (safe_find hw ho ?_)
      cases hf : (h.load s).findIdx? (fun r => !(Fl.gt r.price price)) <;> rw [hf] at hp <;> exact hp

theorem pair_parts {A B : Type} {a : A} {b : B} {x : A × B} (h : (a, b) = x) : a = x.1 ∧ b = x.2 := by subst h; exact ⟨rfl, rfl⟩

/-- What holds when a side has been rewritten by `f`, at a memory `h0` that the others may have changed elsewhere. -/
def SideDone (view own : Cells) (h : Heap Row) (f : Heap Row → Heap Row × Slice) (h' : Heap Row) (own' : Cells)
    (s' : Slice) : Prop :=
  ∃ h0, Rely (fun a i => own a i ∨ view a i) h h0 ∧ (h', s') = f h0 ∧ (∀ a i, own a i → own' a i) ∧ OwnsAll own' s' ∧
    (∀ a i, own' a i → a < h'.next)

variable (grow : Nat → Nat → Nat)

theorem safe_append_side (hw : s.len ≤ s.cap) (ho : OwnsAll own s) (hn : ∀ a i, own a i ∨ view a i → a < h.next)
    (xs : List Row) : Safe view (HProg.append grow s xs) h own (SideDone view own h fun h0 => h0.append grow s xs) :=
  safe_append grow hw ho xs hn fun h0 _ hr hm ho' hn' => ⟨h0, hr, rfl, hm, ho', hn'⟩

theorem SideDone.congr {f g : Heap Row → Heap Row × Slice}
    (e : ∀ h0, Rely (fun a i => own a i ∨ view a i) h h0 → f h0 = g h0) {h' : Heap Row} {own' : Cells} {s' : Slice}
    (hd : SideDone view own h f h' own' s') : SideDone view own h g h' own' s' := by
  obtain ⟨h0, hr, he, hm, ho, hn⟩ := hd
  exact ⟨h0, hr, he.trans (e h0 hr), hm, ho, hn⟩

theorem safe_removeElement (hw : s.len ≤ s.cap) (ho : OwnsAll own s) (hn : ∀ a i, own a i ∨ view a i → a < h.next)
    {i : Nat} (hi : i < s.len) :
    Safe view (removeElementP grow s i) h own (SideDone view own h fun h0 => hRemoveElement grow h0 s i) := by
  have sub : ∀ a j, (s.since (i + 1)).Owns a j → s.Owns a j := by
    rintro a j ⟨rfl, h1, h2⟩
    simp only [Slice.since] at h1 h2
    exact ⟨rfl, by omega, by omega⟩
  refine safe_bind _ _ _ (safe_load (by simp only [Slice.since]; omega) (fun a j h => .inl (ho a j (sub a j h))) ?_)
  refine safe_mono ?_ _ _ _ (safe_append_side grow (s := s.upTo i) (by simp only [Slice.upTo]; omega) ho hn _)
  intro h' own' s' hd
  refine hd.congr fun h0 hr => ?_
  rw [hRemoveElement, hr.load (by simp only [Slice.since]; omega) fun a j h => .inl (ho a j (sub a j h))]

theorem append_len (h : Heap Row) (s : Slice) (xs : List Row) :
    (h.append grow s xs).2.len = s.len + xs.length ∧ (h.append grow s xs).2.len ≤ (h.append grow s xs).2.cap := by
  unfold Heap.append
  simp only
  split
  · rename_i h; exact ⟨rfl, h⟩
  · exact ⟨rfl, by simp⟩

theorem safe_upsert (before : Row → Bool) (p v : Fl) (hw : s.len ≤ s.cap) (ho : OwnsAll own s)
    (hn : ∀ a i, own a i ∨ view a i → a < h.next) :
    Safe view (upsertP grow before s p v) h own (SideDone view own h fun h0 => hUpsert grow before h0 s p v) := by
  have ld : ∀ h0, Rely (fun a i => own a i ∨ view a i) h h0 → h0.load s = h.load s := fun h0 hr => hr.load hw ho.read
  refine safe_bind _ _ _ (safe_find hw ho.read ?_)
  cases hf : (h.load s).findIdx? (fun r => Fl.eq r.price p) with
  | some i =>
    have hi : i < s.len := by have := findIdx?_lt hf; rwa [length_load] at this
    refine ⟨ho _ _ ⟨rfl, by omega, by omega⟩, h, Rely.refl h, ?_, fun _ _ h => h, ho, fun a i h => hn a i (.inl h)⟩
    show _ = hUpsert grow before h s p v
    unfold hUpsert
    rw [hf]; rfl
  | none =>
    have none0 : ∀ h0, Rely (fun a i => own a i ∨ view a i) h h0 →
        (h0.load s).findIdx? (fun r => Fl.eq r.price p) = none := fun h0 hr => by rw [ld h0 hr, hf]
    by_cases l0 : s.len = 0
    · simp only [if_pos l0]
      refine safe_mono (fun _ _ _ hd => hd.congr fun h0 hr => ?_) _ _ _ (safe_append_side grow hw ho hn _)
      unfold hUpsert
      rw [none0 h0 hr]; simp only [if_pos l0]
    · by_cases l1 : s.len = 1
      · simp only [if_neg l0, if_pos l1]
        have e0 : (h.load s)[0]? = some (h.cell s.arr s.off) := load_getElem h (by omega)
        refine ⟨first_read (i := 0) ho.read hw (by omega), ?_⟩
        cases hb : before (h.cell s.arr s.off) with
        | true =>
          beta_reduce
          rw [if_pos hb]
          refine ⟨first_read (i := 0) ho.read hw (by omega), safe_bind _ _ _ ?_⟩
          refine safe_mono ?_ _ _ _ (safe_append_side grow hw ho hn [h.cell s.arr s.off])
          rintro h' own' s' ⟨h0, hr, he, hm, ho', hn'⟩
          beta_reduce at he
          obtain ⟨e1, e2⟩ := pair_parts he
          subst e1 e2
          have hl := append_len grow h0 s [h.cell s.arr s.off]
          refine ⟨ho' _ _ ⟨rfl, by omega, by simp only [List.length_singleton] at hl; omega⟩, h0, hr, ?_, hm, ho', hn'⟩
          show _ = hUpsert grow before h0 s p v
          unfold hUpsert
          rw [none0 h0 hr]
          simp only [if_neg l0, if_pos l1]
          rw [ld h0 hr, e0]
          simp only [hb, if_true]
          rfl
        | false =>
          beta_reduce
          rw [if_neg (by rw [hb]; simp)]
          refine safe_mono (fun _ _ _ hd => hd.congr fun h0 hr => ?_) _ _ _ (safe_append_side grow hw ho hn _)
          unfold hUpsert
          rw [none0 h0 hr]
          simp only [if_neg l0, if_pos l1]
          rw [ld h0 hr, e0]
          simp only [hb, Bool.false_eq_true, if_false]
      · simp only [if_neg l0, if_neg l1]
        refine safe_bind _ _ _ (safe_find hw ho.read ?_)
        cases hg : (h.load s).findIdx? before with
        | none =>
          refine safe_mono (fun _ _ _ hd => hd.congr fun h0 hr => ?_) _ _ _ (safe_append_side grow hw ho hn _)
          unfold hUpsert
          rw [none0 h0 hr]
          simp only [if_neg l0, if_neg l1]
          rw [ld h0 hr, hg]
        | some i =>
          have hi : i < s.len := by have := findIdx?_lt hg; rwa [length_load] at this
          refine safe_bind _ _ _ (safe_mono ?_ _ _ _ (safe_append_side grow hw ho hn [zeroRow]))
          rintro h' own' s' ⟨h0, hr, he, hm, ho', hn'⟩
          beta_reduce at he
          obtain ⟨e1, e2⟩ := pair_parts he
          subst e1 e2
          have hl := append_len grow h0 s [zeroRow]
          simp only [List.length_singleton] at hl
          refine safe_bind _ _ _ (safe_copyShift hl.2 (by omega) ho' ?_)
          refine ⟨ho' _ _ ⟨rfl, by omega, by omega⟩, h0, hr, ?_, hm, ho', hn'⟩
          show _ = hUpsert grow before h0 s p v
          unfold hUpsert
          rw [none0 h0 hr]
          simp only [if_neg l0, if_neg l1]
          rw [ld h0 hr, hg]
          rfl

end

/-- A goroutine owns a book: the memory shows `b` through the headers `hb`, in cells the goroutine owns. -/
structure Spec.Has (view : Cells) (h : Heap Row) (own : Cells) (hb : HBook) (b : Book) : Prop where
  shows : Shows h hb b
  asks : OwnsAll own hb.asks
  bids : OwnsAll own hb.bids
  old : ∀ a i, own a i ∨ view a i → a < h.next

theorem Shows.rely {keep : Cells} {h h' : Heap Row} {hb : HBook} {b : Book} (hr : Rely keep h h') (hs : Shows h hb b)
    (ha : OwnsAll keep hb.asks) (hb' : OwnsAll keep hb.bids) : Shows h' hb b :=
  ⟨hs.time, hs.depth, (hr.load hs.wfa.1 ha).trans hs.asks, (hr.load hs.wfb.1 hb').trans hs.bids,
    ⟨hs.wfa.1, fun h0 => lt_of_lt_of_le (hs.wfa.2 h0) hr.next⟩, ⟨hs.wfb.1, fun h0 => lt_of_lt_of_le (hs.wfb.2 h0) hr.next⟩, hs.sep⟩

/-- The result of a goroutine that updates a book agrees with the same on values. -/
def Spec.SameOutcome (view : Cells) (h : Heap Row) (own : Cells) : Res HBook → Res Book → Prop
  | .ok hb, .ok b => Has view h own hb b
  | .err c hb, .err c' b => c = c' ∧ Has view h own hb b
  | .panic, .panic => True
  | _, _ => False

theorem sameOutcome_stable (view : Cells) (r : Res Book) : Stable view fun h own x => SameOutcome view h own x r := by
  have key : ∀ {h h' : Heap Row} {own : Cells} {hb : HBook} {b : Book}, Rely (fun a i => own a i ∨ view a i) h h' →
      Has view h own hb b → Has view h' own hb b := fun hr hh =>
    ⟨Shows.rely hr hh.shows (fun a i h => .inl (hh.asks a i h)) (fun a i h => .inl (hh.bids a i h)), hh.asks, hh.bids,
      fun a i h => lt_of_lt_of_le (hh.old a i h) hr.next⟩
  intro h h' own x hr hp
  cases x <;> cases r <;> simp only [SameOutcome] at hp ⊢
  · exact key hr hp
  · exact ⟨hp.1, key hr hp.2⟩

/-- `limit` only shortens the headers. -/
theorem limit_owns {own : Cells} {h h' : Heap Row} {b b' : HBook} (e : HBook.limit h b = .ok (h', b'))
    (ha : OwnsAll own b.asks) (hb : OwnsAll own b.bids) : h' = h ∧ OwnsAll own b'.asks ∧ OwnsAll own b'.bids := by
  have side : ∀ {s s' : Slice}, hLimitSide s b.maxDepth = some s' → OwnsAll own s → OwnsAll own s' := by
    intro s s' e ho
    unfold hLimitSide at e
    split at e
    · unfold hSliceTo at e
      split at e
      · cases e
      · cases e; exact ho
    · cases e; exact ho
  unfold HBook.limit at e
  split at e
  · rename_i asks bids e1 e2
    simp only [Res.ok.injEq, Prod.mk.injEq] at e
    obtain ⟨rfl, rfl⟩ := e
    exact ⟨rfl, side e1 ha, side e2 hb⟩
  · cases e

/-- The last step of an update, from a memory reached by the functions of `Model/HeapBook.lean`. -/
theorem safe_limit {view own' : Cells} {h1 : Heap Row} {hb' : HBook} {r : Res Book}
    {h0 : Heap Row} {hb0 : HBook} (hag : Agree h0 hb0 (HBook.limit h1 hb') r) (ha : OwnsAll own' hb'.asks) (hb : OwnsAll own' hb'.bids)
    (hn : ∀ a i, own' a i ∨ view a i → a < h1.next) :
    Safe view (limitP hb') h1 own' (fun h own x => SameOutcome view h own x r) := by
  show SameOutcome view h1 own' _ r
  cases e : HBook.limit h1 hb' with
  | ok x =>
    obtain ⟨h2, hb2⟩ := x
    rw [e] at hag
    obtain ⟨rfl, o1, o2⟩ := limit_owns e ha hb
    unfold HBook.limit at e
    split at e
    · rename_i asks bids e1 e2
      simp only [e1, e2]
      simp only [Res.ok.injEq, Prod.mk.injEq] at e
      obtain ⟨-, rfl⟩ := e
      cases r with
      | ok b => exact ⟨hag.1, o1, o2, hn⟩
      | err c b => exact hag
      | panic => exact hag
    · cases e
  | err c x => unfold HBook.limit at e; split at e <;> cases e
  | panic =>
    rw [e] at hag
    unfold HBook.limit at e
    split at e
    · cases e
    · rename_i hne
      split
      · rename_i asks bids e1 e2; exact absurd e2 (hne _ _ e1)
      · cases r <;> simp only [Agree, SameOutcome] at hag ⊢

/-- The cells of a reslice of a slice. -/
theorem removeInvalid_owns {own : Cells} {h : Heap Row} {s : Slice} (ho : OwnsAll own s) (price : Fl) :
    OwnsAll own (hRemoveInvalidAsk h s price) ∧ OwnsAll own (hRemoveInvalidBid h s price) := by
  have since : ∀ n, OwnsAll own (s.since n) := by
    rintro n a i ⟨rfl, h1, h2⟩
    simp only [Slice.since] at h1 h2
    exact ho _ _ ⟨rfl, by omega, by omega⟩
  have emp : OwnsAll own Slice.empty := by
    rintro a i ⟨-, h1, h2⟩
    simp only [Slice.empty] at h1 h2
    omega
  unfold hRemoveInvalidAsk hRemoveInvalidBid
  constructor
  · split
    · exact ho
    · split
      · exact ho
      · split
        · exact since _
        · exact emp
  · split
    · exact ho
    · split
      · exact ho
      · split
        · exact since _
        · exact emp

theorem removeInvalid_rely {keep : Cells} {h h0 : Heap Row} {s : Slice} (hr : Rely keep h h0) (hw : s.len ≤ s.cap)
    (ho : OwnsAll keep s) (price : Fl) :
    hRemoveInvalidAsk h0 s price = hRemoveInvalidAsk h s price ∧ hRemoveInvalidBid h0 s price = hRemoveInvalidBid h s price := by
  unfold hRemoveInvalidAsk hRemoveInvalidBid
  rw [hr.load hw ho]
  exact ⟨rfl, rfl⟩

/-- One update by a goroutine that owns the book. -/
theorem safe_applyUpdate (grow : Nat → Nat → Nat) {view own : Cells} {h : Heap Row} {hb : HBook} {b : Book}
    (hh : Has view h own hb b) (u : Update) :
    Safe view (applyUpdateP grow hb u) h own (fun h' own' x => SameOutcome view h' own' x (b.applyUpdate u)) := by
  have wa := hh.shows.wfa.1
  have wb := hh.shows.wfb.1
  have keep : ∀ {s : Slice}, OwnsAll own s → OwnsAll (fun a i => own a i ∨ view a i) s := fun ho a i h => .inl (ho a i h)
  have agree : ∀ h0, Rely (fun a i => own a i ∨ view a i) h h0 →
      Agree h0 hb (HBook.applyUpdate grow h0 hb u) (b.applyUpdate u) := fun h0 hr =>
    agree_update grow (Shows.rely hr hh.shows (keep hh.asks) (keep hh.bids)) u
  have old : ∀ {own' : Cells} {h0 h' : Heap Row}, Rely (fun a i => own a i ∨ view a i) h h0 → h0.next ≤ h'.next →
      (∀ a i, own' a i → a < h'.next) → ∀ a i, own' a i ∨ view a i → a < h'.next := by
    rintro own' h0 h' hr hle hn a i (h1 | h1)
    · exact hn a i h1
    · exact lt_of_lt_of_le (lt_of_lt_of_le (hh.old a i (.inr h1)) hr.next) hle
  unfold applyUpdateP
  by_cases h1 : u.side = "ask"
  · rw [if_pos h1]
    by_cases hv : Fl.ne u.volume (.fin 0) = true
    · rw [if_pos hv]
      refine safe_bind _ _ _ (safe_removeInvalidBid wb hh.bids.read u.price ?_)
      refine safe_bind _ _ _ (safe_mono ?_ _ _ _ (safe_upsert grow _ u.price u.volume wa hh.asks hh.old))
      rintro h' own' s' ⟨h0, hr, he, hm, ho', hn'⟩
      have ag := agree h0 hr
      have st := (step_upsert grow (fun r => Fl.gt r.price u.price) (h := h0) (s := hb.asks)
        ⟨wa, fun h => lt_of_lt_of_le (hh.shows.wfa.2 h) hr.next⟩ u.price u.volume).1
      unfold HBook.applyUpdate at ag
      rw [if_pos h1, if_pos hv] at ag
      simp only [(removeInvalid_rely hr wb (keep hh.bids) u.price).2] at ag
      beta_reduce at he
      obtain ⟨e1, e2⟩ := pair_parts he
      subst e1 e2
      exact safe_limit ag ho' (fun a i h => hm a i ((removeInvalid_owns hh.bids u.price).2 a i h)) (old hr st.next hn')
    · rw [if_neg hv]
      refine safe_bind _ _ _ (safe_find wa hh.asks.read ?_)
      cases hf : (h.load hb.asks).findIdx? (fun r => Fl.eq r.price u.price) with
      | none =>
        have ag := agree h (Rely.refl h)
        unfold HBook.applyUpdate at ag
        rw [if_pos h1, if_neg hv, hf] at ag
        show SameOutcome view h own (.ok hb) _
        cases hu : b.applyUpdate u <;> rw [hu] at ag <;> simp only [Agree, SameOutcome] at ag ⊢
        exact ⟨ag.1, hh.asks, hh.bids, hh.old⟩
      | some i =>
        have hi : i < hb.asks.len := by have := findIdx?_lt hf; rwa [length_load] at this
        refine safe_bind _ _ _ (safe_mono ?_ _ _ _ (safe_removeElement grow wa hh.asks hh.old hi))
        rintro h' own' s' ⟨h0, hr, he, hm, ho', hn'⟩
        have ag := agree h0 hr
        have st := (step_removeElement grow (h := h0) (s := hb.asks)
          ⟨wa, fun h => lt_of_lt_of_le (hh.shows.wfa.2 h) hr.next⟩ hi).1
        unfold HBook.applyUpdate at ag
        rw [if_pos h1, if_neg hv, hr.load wa (keep hh.asks), hf] at ag
        simp only at ag
        beta_reduce at he
        obtain ⟨e1, e2⟩ := pair_parts he
        subst e1 e2
        exact safe_limit ag ho' (fun a i h => hm a i (hh.bids a i h)) (old hr st.next hn')
  · rw [if_neg h1]
    by_cases h2 : u.side = "bid"
    · rw [if_pos h2]
      by_cases hv : Fl.ne u.volume (.fin 0) = true
      · rw [if_pos hv]
        refine safe_bind _ _ _ (safe_removeInvalidAsk wa hh.asks.read u.price ?_)
        refine safe_bind _ _ _ (safe_mono ?_ _ _ _ (safe_upsert grow _ u.price u.volume wb hh.bids hh.old))
        rintro h' own' s' ⟨h0, hr, he, hm, ho', hn'⟩
        have ag := agree h0 hr
        have st := (step_upsert grow (fun r => Fl.lt r.price u.price) (h := h0) (s := hb.bids)
          ⟨wb, fun h => lt_of_lt_of_le (hh.shows.wfb.2 h) hr.next⟩ u.price u.volume).1
        unfold HBook.applyUpdate at ag
        rw [if_neg h1, if_pos h2, if_pos hv] at ag
        simp only [(removeInvalid_rely hr wa (keep hh.asks) u.price).1] at ag
        beta_reduce at he
        obtain ⟨e1, e2⟩ := pair_parts he
        subst e1 e2
        exact safe_limit ag (fun a i h => hm a i ((removeInvalid_owns hh.asks u.price).1 a i h)) ho' (old hr st.next hn')
      · rw [if_neg hv]
        refine safe_bind _ _ _ (safe_find wb hh.bids.read ?_)
        cases hf : (h.load hb.bids).findIdx? (fun r => Fl.eq r.price u.price) with
        | none =>
          have ag := agree h (Rely.refl h)
          unfold HBook.applyUpdate at ag
          rw [if_neg h1, if_pos h2, if_neg hv, hf] at ag
          show SameOutcome view h own (.ok hb) _
          cases hu : b.applyUpdate u <;> rw [hu] at ag <;> simp only [Agree, SameOutcome] at ag ⊢
          exact ⟨ag.1, hh.asks, hh.bids, hh.old⟩
        | some i =>
          have hi : i < hb.bids.len := by have := findIdx?_lt hf; rwa [length_load] at this
          refine safe_bind _ _ _ (safe_mono ?_ _ _ _ (safe_removeElement grow wb hh.bids hh.old hi))
          rintro h' own' s' ⟨h0, hr, he, hm, ho', hn'⟩
          have ag := agree h0 hr
          have st := (step_removeElement grow (h := h0) (s := hb.bids)
            ⟨wb, fun h => lt_of_lt_of_le (hh.shows.wfb.2 h) hr.next⟩ hi).1
          unfold HBook.applyUpdate at ag
          rw [if_neg h1, if_pos h2, if_neg hv, hr.load wb (keep hh.bids), hf] at ag
          simp only at ag
          beta_reduce at he
          obtain ⟨e1, e2⟩ := pair_parts he
          subst e1 e2
          exact safe_limit ag (fun a i h => hm a i (hh.asks a i h)) ho' (old hr st.next hn')
    · rw [if_neg h2]
      have ag := agree h (Rely.refl h)
      unfold HBook.applyUpdate at ag
      rw [if_neg h1, if_neg h2] at ag
      show SameOutcome view h own (.err .einvalid hb) _
      cases hu : b.applyUpdate u <;> rw [hu] at ag <;> simp only [Agree, SameOutcome] at ag ⊢
      exact ⟨ag.1, ag.2.1, hh.asks, hh.bids, hh.old⟩

/-- A history of updates. -/
theorem safe_applyAll (grow : Nat → Nat → Nat) {view : Cells} : ∀ (us : List Update) {own : Cells} {h : Heap Row}
    {hb : HBook} {b : Book}, Has view h own hb b →
    Safe view (applyAllP grow hb us) h own (fun h' own' x => SameOutcome view h' own' x (b.applyAll us))
  | [], _, _, _, _, hh => hh
  | u :: us, own, h, hb, b, hh => by
    refine safe_bind _ _ _ (safe_mono ?_ _ _ _ (safe_applyUpdate grow hh u))
    intro h' own' x hx
    unfold Book.applyAll
    cases hu : b.applyUpdate u with
    | ok b' =>
      rw [hu] at hx
      cases x with
      | ok hb' => exact safe_applyAll grow us hx
      | err c hb' => exact hx.elim
      | panic => exact hx.elim
    | err c b' =>
      rw [hu] at hx
      cases x with
      | ok hb' => exact hx.elim
      | err c hb' => exact safe_applyAll grow us hx.2
      | panic => exact hx.elim
    | panic =>
      rw [hu] at hx
      cases x with
      | ok hb' => exact hx.elim
      | err c hb' => exact hx.elim
      | panic => trivial

/-! ## Making a book -/

section
variable {view own : Cells}

theorem safe_accum {S : FloatSem} {s : Slice} (hw : s.len ≤ s.cap) (ho : OwnsAll own s) : ∀ (n i : Nat) (h : Heap Row),
    i + n = s.len → ∀ {post : Heap Row → Cells → Unit → Prop},
    post (h.store s.arr s.off ((h.load s).take i ++
      accumulate S (if i = 0 then none else some (h.cell s.arr (s.off + (i - 1))).accum) ((h.load s).drop i))) own () →
    Safe view (accumP S s n i) h own post
  | 0, i, h, e, post, hp => by
    have hl := length_load h s
    rw [List.drop_eq_nil_of_le (by omega), List.take_of_length_le (by omega)] at hp
    have : ∀ o, accumulate S o [] = [] := by rintro (_ | _) <;> rfl
    rw [this, List.append_nil, Go.Sort.store_load] at hp
    exact hp
  | n + 1, i, h, e, post, hp => by
    have hl := length_load h s
    have mine : ∀ k, k < s.len → own s.arr (s.off + k) := fun k hk => ho _ _ ⟨rfl, by omega, by omega⟩
    have step : ∀ r' : Row, post (h.store s.arr s.off ((h.load s).take i ++ r' ::
          accumulate S (some r'.accum) ((h.load s).drop (i + 1)))) own () →
        Safe view (accumP S s n (i + 1)) (h.store s.arr (s.off + i) [r']) own post := by
      intro r' hp
      have e1 : h.store s.arr (s.off + i) [r'] = h.store s.arr s.off ((h.load s).set i r') := by
        rw [← Go.Sort.store_set h hl (by omega), Go.Sort.store_load]
      have hs : ((h.load s).set i r').length = s.len := by rw [List.length_set, hl]
      rw [e1]
      refine safe_accum hw ho n (i + 1) _ (by omega) ?_
      have ec : ((h.store s.arr s.off ((h.load s).set i r')).cell s.arr (s.off + (i + 1 - 1))) = r' := by
        have := getElem?_load (h.store s.arr s.off ((h.load s).set i r')) s i
        rw [Go.Sort.load_store_all hs, if_pos (by omega), List.getElem?_set_self (by omega)] at this
        rw [Nat.add_sub_cancel]
        exact (Option.some.inj this).symm
      rw [Go.Sort.load_store_all hs, if_neg (by omega), ec, Go.Sort.store_store h (by
        rw [hs, List.length_append, accumulate_length, ← List.length_append, List.take_append_drop, hs])]
      have t1 : ((h.load s).set i r').take (i + 1) = (h.load s).take i ++ [r'] := by
        rw [List.take_add_one, List.getElem?_set_self (by omega), List.take_set_of_le le_rfl]; rfl
      have t2 : ((h.load s).set i r').drop (i + 1) = (h.load s).drop (i + 1) := by
        rw [List.drop_set_of_lt (by omega)]
      rw [t1, t2, List.append_assoc]
      exact hp
    rw [show (h.load s).drop i = h.cell s.arr (s.off + i) :: (h.load s).drop (i + 1) by
      rw [List.drop_eq_getElem_cons (by omega)]
      congr 1
      have := load_getElem h (s := s) (i := i) (by omega)
      rw [List.getElem?_eq_getElem (by omega)] at this
      exact Option.some.inj this] at hp
    refine ⟨.inl (mine i (by omega)), ?_⟩
    by_cases h0 : i = 0
    · rw [if_pos h0] at hp
      simp only [if_pos h0]
      exact ⟨mine i (by omega), step _ hp⟩
    · rw [if_neg h0] at hp
      simp only [if_neg h0]
      exact ⟨.inl (mine (i - 1) (by omega)), mine i (by omega), step _ hp⟩

theorem sliceStable_some (lt : Row → Row → Bool) (l : List Row) : Go.Sort.sliceStable lt l = some (sliceStable lt l) := by
  obtain ⟨c, e, -⟩ := Go.Sort.sliceStable_at lt (fun _ => (0 : Nat)) l
  unfold sliceStable
  rw [e]; rfl

/-- `NewOrderBook` by a goroutine that owns the rows. -/
theorem safe_new {S : FloatSem} {h : Heap Row} {asks bids : Slice} (wa : asks.len ≤ asks.cap) (wb : bids.len ≤ bids.cap)
    (oa : OwnsAll own asks) (ob : OwnsAll own bids) (now d : Int) {post : Heap Row → Cells → Res HBook → Prop}
    (hp : match hNewOrderBook S h now asks bids d with
      | .ok (h', hb) => post h' own (.ok hb)
      | .err _ _ => False
      | .panic => ∀ h', post h' own .panic) :
    Safe view (newOrderBookP S now asks bids d) h own post := by
  unfold hNewOrderBook HBook.sort at hp
  simp only at hp
  refine safe_bind _ _ _ (Go.Sort.safe_sliceStable wa _ oa (sliceStable_some _ _) ?_)
  refine safe_bind _ _ _ (Go.Sort.safe_sliceStable wb _ ob (sliceStable_some _ _) ?_)
  simp only
  have cut : ∀ {s s' : Slice} {n : Int}, hSliceTo s n = some s' → s'.len ≤ s'.cap ∧ (OwnsAll own s → OwnsAll own s') := by
    intro s s' n e
    unfold hSliceTo at e
    split at e
    · cases e
    · rename_i hc
      cases e
      simp only [Slice.upTo]
      exact ⟨by omega, fun ho => ho⟩
  split
  · rename_i A B e1 e2
    rw [e1, e2] at hp
    simp only at hp
    refine safe_bind _ _ _ (safe_accum (cut e1).1 ((cut e1).2 oa) _ 0 _ (by omega) ?_)
    refine safe_bind _ _ _ (safe_accum (cut e2).1 ((cut e2).2 ob) _ 0 _ (by omega) ?_)
    simpa [Safe] using hp
  · rename_i hne
    split at hp
    · rename_i heq; split at heq
      · rename_i A B e1 e2; exact absurd e2 (hne A B e1)
      · cases heq
    · exact hp.elim
    · exact hp _

/-- A book made of rows and then updated. -/
def Spec.makeAll (S : FloatSem) (now : Int) (asks bids : List Row) (d : Int) (us : List Update) : Res Book :=
  match newOrderBook S now asks bids d with
  | .ok b => b.applyAll us
  | .err c b => .err c b
  | .panic => .panic

theorem safe_make (grow : Nat → Nat → Nat) {S : FloatSem} (hS : Lawful S) {h : Heap Row} {asks bids : Slice} (wa : WF h asks)
    (wb : WF h bids) (sep : asks.Separate bids) (la : asks.len < 2 ^ 53) (lb : bids.len < 2 ^ 53) {d : Int} (hd : 0 ≤ d)
    (now : Int) (us : List Update) (oa : OwnsAll own asks) (ob : OwnsAll own bids)
    (old : ∀ a i, own a i ∨ view a i → a < h.next) :
    Safe view (makeP grow S now asks bids d us) h own
      (fun h' own' x => SameOutcome view h' own' x (makeAll S now (h.load asks) (h.load bids) d us)) := by
  obtain ⟨h', e, st, -⟩ := hNew_run hS wa wb sep la lb hd now
  obtain ⟨h2, hb2, b, e2, eb, hsh⟩ := C100_new_as_value hS wa wb sep la lb hd now
  rw [e] at e2
  cases e2
  refine safe_bind _ _ _ (safe_new wa.1 wb.1 oa ob now d ?_)
  rw [e]
  unfold makeAll
  rw [eb]
  exact safe_applyAll grow us ⟨hsh, oa, ob, fun a i hi => lt_of_lt_of_le (old a i hi) st.next⟩

end

/-! ## Readers -/

section
variable {view own : Cells} {h : Heap Row}

theorem head_load (h : Heap Row) {s : Slice} (hs : s.len ≠ 0) : (h.load s).head? = some (h.cell s.arr s.off) := by
  rw [List.head?_eq_getElem?, load_getElem h (by omega)]; rfl

theorem last_load (h : Heap Row) {s : Slice} (hs : s.len ≠ 0) :
    (h.load s).getLast? = some (h.cell s.arr (s.off + (s.len - 1))) := by
  rw [List.getLast?_eq_getElem?, length_load, load_getElem h (by omega)]

/-- A book that the goroutine may read. -/
structure Spec.Sees (view own : Cells) (h : Heap Row) (hb : HBook) (b : Book) : Prop where
  asks : h.load hb.asks = b.asks
  bids : h.load hb.bids = b.bids
  wa : hb.asks.len ≤ hb.asks.cap
  wb : hb.bids.len ≤ hb.bids.cap
  ra : MayRead own view hb.asks
  rb : MayRead own view hb.bids

theorem safe_getDepth {hb : HBook} {b : Book} (hs : Sees view own h hb b) (price : Fl) :
    Safe view (getDepthP hb price) h own (fun _ _ x => x = b.getDepth price) := by
  have la : b.asks.length = hb.asks.len := by rw [← hs.asks, length_load]
  have lb : b.bids.length = hb.bids.len := by rw [← hs.bids, length_load]
  unfold getDepthP Book.getDepth
  by_cases hp : Fl.le price (.fin 0) = true
  · rw [if_pos hp, if_pos hp]; rfl
  rw [if_neg hp, if_neg hp]
  by_cases h0 : hb.asks.len = 0 ∨ hb.bids.len = 0
  · rw [if_pos h0]
    show Res.panic = _
    rcases h0 with h0 | h0
    · rw [List.eq_nil_of_length_eq_zero (la.trans h0)]; rfl
    · rw [List.eq_nil_of_length_eq_zero (lb.trans h0)]
      cases b.asks.head? <;> cases b.asks.getLast? <;> rfl
  rw [if_neg h0]
  push Not at h0
  obtain ⟨na, nb⟩ := h0
  rw [← hs.asks, ← hs.bids, head_load h na, last_load h na, head_load h nb, last_load h nb]
  refine ⟨first_read (i := 0) hs.ra hs.wa (by omega), first_read hs.ra hs.wa (by omega),
    first_read (i := 0) hs.rb hs.wb (by omega), first_read hs.rb hs.wb (by omega), ?_⟩
  simp only
  split
  · refine safe_bind _ _ _ (safe_find hs.wa hs.ra ?_)
    cases hf : (h.load hb.asks).findIdx? (fun r => Fl.gt r.price price) with
    | none => rfl
    | some k =>
      have hk : k < hb.asks.len := by have := findIdx?_lt hf; rwa [length_load] at this
      simp only
      rw [load_getElem h (by omega)]
      exact ⟨first_read hs.ra hs.wa (by omega), rfl⟩
  · split
    · refine safe_bind _ _ _ (safe_find hs.wb hs.rb ?_)
      cases hf : (h.load hb.bids).findIdx? (fun r => Fl.lt r.price price) with
      | none => rfl
      | some k =>
        have hk : k < hb.bids.len := by have := findIdx?_lt hf; rwa [length_load] at this
        simp only
        rw [load_getElem h (by omega)]
        exact ⟨first_read hs.rb hs.wb (by omega), rfl⟩
    · rfl

theorem safe_printAsks {s : Slice} (hw : s.len ≤ s.cap) (ho : MayRead own view s) : ∀ (n : Nat), n ≤ s.len →
    ∀ {post : Heap Row → Cells → List PrintLine → Prop},
    post h own (((h.load s).take n).reverse.map .row) → Safe view (printAsksP s n) h own post
  | 0, _, _, hp => by simpa [printAsksP, Safe] using hp
  | n + 1, hn, post, hp => by
    refine ⟨first_read ho hw (by omega), safe_bind _ _ _ (safe_printAsks hw ho n (by omega) ?_)⟩
    rw [List.take_add_one, load_getElem h (by omega)] at hp
    simpa [Safe] using hp

theorem print_asks (l : List Row) : (List.range l.length).filterMap (fun i => (l[l.length - 1 - i]?).map PrintLine.row) =
    l.reverse.map .row := by
  have e : (List.range l.length).filterMap (fun i => (l[l.length - 1 - i]?).map PrintLine.row) =
      ((List.range l.length).filterMap (fun i => l[l.length - 1 - i]?)).map .row := by
    rw [List.map_filterMap]
  rw [e]
  congr 1
  have e2 : (List.range l.length).filterMap (fun i => l[l.length - 1 - i]?) =
      (List.range l.length).filterMap (fun i => l.reverse[i]?) := by
    apply List.filterMap_congr
    intro i hi
    rw [List.getElem?_reverse (List.mem_range.1 hi)]
  rw [e2, ← List.length_reverse]
  generalize l.reverse = m
  induction m with
  | nil => rfl
  | cons a m ih =>
    rw [List.length_cons, List.range_succ_eq_map, List.filterMap_cons_some (b := a) (by simp), List.filterMap_map]
    congr 1

theorem safe_print {hb : HBook} {b : Book} (hs : Sees view own h hb b) :
    Safe view (printP hb) h own (fun _ _ x => x = b.print) := by
  refine safe_bind _ _ _ (safe_printAsks hs.wa hs.ra _ le_rfl ?_)
  refine safe_bind _ _ _ (safe_load hs.wb hs.rb ?_)
  show _ = b.print
  unfold Book.print
  rw [print_asks, ← hs.asks, ← hs.bids, List.take_of_length_le (by rw [length_load])]

theorem drop_load (h : Heap Row) {s : Slice} {i : Nat} (hi : i < s.len) :
    (h.load s).drop i = h.cell s.arr (s.off + i) :: (h.load s).drop (i + 1) := by
  have hl := length_load h s
  rw [List.drop_eq_getElem_cons (by omega)]
  congr 1
  have := load_getElem h hi
  rw [List.getElem?_eq_getElem (by omega)] at this
  exact Option.some.inj this

theorem safe_overlapScan {S : FloatSem} {s o : Slice} (stop : Row → Row → Bool) (hw : s.len ≤ s.cap)
    (ho : MayRead own view s) (hwo : o.len ≤ o.cap) (hoo : MayRead own view o) (h0 : o.len ≠ 0) :
    ∀ (n i : Nat) (acc : Fl), i + n = s.len → ∀ {post : Heap Row → Cells → Fl × Nat → Prop},
    post h own (overlapScan S (fun r => stop r (h.cell o.arr o.off)) ((h.load s).drop i) i acc) →
    Safe view (overlapScanP S stop s o n i acc) h own post
  | 0, i, acc, e, _, hp => by
    rw [List.drop_eq_nil_of_le (by rw [length_load]; omega)] at hp
    exact hp
  | n + 1, i, acc, e, post, hp => by
    rw [drop_load h (by omega)] at hp
    refine ⟨first_read ho hw (by omega), first_read (i := 0) hoo hwo (by omega), ?_⟩
    simp only [overlapScan] at hp
    beta_reduce
    split
    · rename_i hc; rw [if_pos hc] at hp; exact hp
    · rename_i hc
      rw [if_neg hc] at hp
      exact ⟨first_read ho hw (by omega), safe_overlapScan stop hw ho hwo hoo h0 n (i + 1) _ (by omega) hp⟩

theorem safe_overlapFill {S : FloatSem} {s : Slice} (target : Fl) (hw : s.len ≤ s.cap) (ho : MayRead own view s) :
    ∀ (n : Nat) (vol res : Fl), n ≤ s.len → ∀ {post : Heap Row → Cells → Fl → Prop},
    post h own (overlapFill S target ((h.load s).take n).reverse vol res) →
    Safe view (overlapFillP S target s n vol res) h own post
  | 0, _, _, _, _, hp => by simpa [overlapFill, overlapFillP, Safe] using hp
  | n + 1, vol, res, hn, post, hp => by
    rw [List.take_add_one, load_getElem h (by omega)] at hp
    simp only [Option.toList_some, List.reverse_append, List.reverse_singleton, List.singleton_append, overlapFill] at hp
    refine ⟨first_read ho hw (by omega), ?_⟩
    beta_reduce
    split
    · rename_i hc; rw [if_pos hc] at hp; exact hp
    · rename_i hc
      rw [if_neg hc] at hp
      exact safe_overlapFill target hw ho n _ _ (by omega) hp

theorem safe_overlapCost {S : FloatSem} {s : Slice} (hw : s.len ≤ s.cap) (ho : MayRead own view s) :
    ∀ (n i : Nat) (res : Fl), i + n ≤ s.len → ∀ {post : Heap Row → Cells → Fl → Prop},
    post h own (overlapCost S (((h.load s).drop i).take n) res) → Safe view (overlapCostP S s n i res) h own post
  | 0, _, _, _, _, hp => by simpa [overlapCost, overlapCostP, Safe] using hp
  | n + 1, i, res, hn, post, hp => by
    rw [drop_load h (by omega), List.take_succ_cons] at hp
    exact ⟨first_read ho hw (by omega), safe_overlapCost hw ho n (i + 1) _ (by omega) hp⟩

theorem overlapScan_le {S : FloatSem} (stop : Row → Bool) : ∀ (l : List Row) (i : Nat) (acc : Fl),
    (overlapScan S stop l i acc).2 ≤ i + l.length
  | [], _, _ => by simp [overlapScan]
  | r :: l, i, acc => by
    unfold overlapScan
    split
    · simp
    · have := overlapScan_le (S := S) stop l (i + 1) (S.add acc r.volume)
      simp only [List.length_cons]; omega

theorem safe_overlapCalculation {S : FloatSem} {hA hB : HBook} {A B : Book} (sA : Sees view own h hA A)
    (sB : Sees view own h hB B) (na : hA.asks.len ≠ 0) (nb : hB.bids.len ≠ 0) :
    Safe view (overlapCalculationP S hA hB) h own (fun _ _ x => x = overlapCalculation S A B) := by
  have ha := head_load h na
  have hb := head_load h nb
  rw [sA.asks] at ha
  rw [sB.bids] at hb
  obtain ⟨ta, ea⟩ : ∃ t, A.asks = h.cell hA.asks.arr hA.asks.off :: t := by
    cases e : A.asks with
    | nil => rw [e] at ha; cases ha
    | cons x t => rw [e] at ha; cases ha; exact ⟨t, rfl⟩
  obtain ⟨tb, eb⟩ : ∃ t, B.bids = h.cell hB.bids.arr hB.bids.off :: t := by
    cases e : B.bids with
    | nil => rw [e] at hb; cases hb
    | cons x t => rw [e] at hb; cases hb; exact ⟨t, rfl⟩
  have spec : overlapCalculation S A B =
      .ok (Fl.abs (S.sub
        (overlapCost S (A.asks.take (overlapScan S (fun r => Fl.gt r.price (h.cell hB.bids.arr hB.bids.off).price) A.asks 0 (.fin 0)).2) (.fin 0))
        (overlapFill S (overlapScan S (fun r => Fl.gt r.price (h.cell hB.bids.arr hB.bids.off).price) A.asks 0 (.fin 0)).1
          (B.bids.take (overlapScan S (fun r => Fl.lt r.price (h.cell hA.asks.arr hA.asks.off).price) B.bids 0 (.fin 0)).2).reverse
          (.fin 0) (.fin 0)))) := by
    unfold overlapCalculation
    rw [ea, eb]
  rw [spec]
  refine safe_bind _ _ _ (safe_overlapScan _ sA.wa sA.ra sB.wb sB.rb nb _ 0 _ (by omega) ?_)
  refine safe_bind _ _ _ (safe_overlapScan _ sB.wb sB.rb sA.wa sA.ra na _ 0 _ (by omega) ?_)
  simp only [List.drop_zero, sA.asks, sB.bids]
  have lA : A.asks.length = hA.asks.len := by rw [← sA.asks, length_load]
  have lB : B.bids.length = hB.bids.len := by rw [← sB.bids, length_load]
  refine safe_bind _ _ _ (safe_overlapFill _ sB.wb sB.rb _ _ _ ?_ ?_)
  · have := overlapScan_le (S := S) (fun r => Fl.lt r.price (h.cell hA.asks.arr hA.asks.off).price) B.bids 0 (.fin 0)
    omega
  refine safe_bind _ _ _ (safe_overlapCost sA.wa sA.ra _ 0 _ ?_ ?_)
  · have := overlapScan_le (S := S) (fun r => Fl.gt r.price (h.cell hB.bids.arr hB.bids.off).price) A.asks 0 (.fin 0)
    omega
  rw [List.drop_zero, sA.asks, sB.bids]
  rfl

theorem safe_calculateOverlap {S : FloatSem} {hA hB : HBook} {A B : Book} (sA : Sees view own h hA A)
    (sB : Sees view own h hB B) :
    Safe view (calculateOverlapP S hA hB) h own (fun _ _ x => x = calculateOverlap S A B) := by
  have nilOf : ∀ {s : Slice} {l : List Row}, h.load s = l → s.len = 0 → l = [] := by
    intro s l e h0
    rw [← e]; exact List.eq_nil_of_length_eq_zero (by rw [length_load, h0])
  have consOf : ∀ {s : Slice} {l : List Row}, h.load s = l → s.len ≠ 0 → ∃ t, l = h.cell s.arr s.off :: t := by
    intro s l e h0
    have := head_load h h0
    rw [e] at this
    cases l with
    | nil => cases this
    | cons x t => cases this; exact ⟨t, rfl⟩
  unfold calculateOverlapP
  by_cases h0 : hA.asks.len = 0 ∨ hB.bids.len = 0
  · rw [if_pos h0]
    show Res.panic = _
    unfold calculateOverlap
    rcases h0 with h0 | h0
    · rw [nilOf sA.asks h0]
    · rw [nilOf sB.bids h0]; cases A.asks <;> rfl
  rw [if_neg h0]
  push Not at h0
  obtain ⟨t1, e1⟩ := consOf sA.asks h0.1
  obtain ⟨t2, e2⟩ := consOf sB.bids h0.2
  refine ⟨first_read (i := 0) sA.ra sA.wa (by omega), first_read (i := 0) sB.rb sB.wb (by omega), ?_⟩
  beta_reduce
  by_cases c1 : Fl.lt (h.cell hA.asks.arr hA.asks.off).price (h.cell hB.bids.arr hB.bids.off).price = true
  · rw [if_pos c1]
    refine ⟨first_read (i := 0) sA.ra sA.wa (by omega), first_read (i := 0) sB.rb sB.wb (by omega), ?_⟩
    beta_reduce
    rw [if_pos c1]
    have : calculateOverlap S A B = overlapCalculation S A B := by
      unfold calculateOverlap; rw [e1, e2]; simp only [if_pos c1]
    rw [this]
    exact safe_overlapCalculation sA sB h0.1 h0.2
  · rw [if_neg c1]
    by_cases h3 : hA.bids.len = 0 ∨ hB.asks.len = 0
    · rw [if_pos h3]
      show Res.panic = _
      unfold calculateOverlap
      rw [e1, e2]
      simp only [if_neg c1]
      rcases h3 with h3 | h3
      · rw [nilOf sA.bids h3]
      · rw [nilOf sB.asks h3]; cases A.bids <;> rfl
    rw [if_neg h3]
    have h3' := h3
    push Not at h3'
    obtain ⟨t3, e3⟩ := consOf sA.bids h3'.1
    obtain ⟨t4, e4⟩ := consOf sB.asks h3'.2
    refine ⟨first_read (i := 0) sA.rb sA.wb (by omega), first_read (i := 0) sB.ra sB.wa (by omega), ?_⟩
    beta_reduce
    by_cases c2 : Fl.gt (h.cell hA.bids.arr hA.bids.off).price (h.cell hB.asks.arr hB.asks.off).price = true
    · rw [if_pos c2]
      refine ⟨first_read (i := 0) sA.ra sA.wa (by omega), first_read (i := 0) sB.rb sB.wb (by omega), ?_⟩
      beta_reduce
      rw [if_neg c1, if_neg h3]
      refine ⟨first_read (i := 0) sA.rb sA.wb (by omega), first_read (i := 0) sB.ra sB.wa (by omega), ?_⟩
      beta_reduce
      rw [if_pos c2]
      have : calculateOverlap S A B = overlapCalculation S B A := by
        unfold calculateOverlap; rw [e1, e2, e3, e4]; simp only [if_neg c1, if_pos c2]
      rw [this]
      exact safe_overlapCalculation sB sA h3'.2 h3'.1
    · rw [if_neg c2]
      show _ = _
      unfold calculateOverlap
      rw [e1, e2, e3, e4]
      simp only [if_neg c1, if_neg c2]

end

/-! ## The goroutines together -/

/-- The cells of a book. -/
def Spec.CellsOf (hb : HBook) : Cells := fun a i => hb.asks.Owns a i ∨ hb.bids.Owns a i

/-- The rows of a book at one moment. -/
def Spec.bookAt (h : Heap Row) (hb : HBook) : Book := ⟨hb.time, h.load hb.asks, h.load hb.bids, hb.maxDepth⟩

/-- The outcome of updates in memory is that of the updates of a value. -/
def Spec.Ends (h : Heap Row) : Res HBook → Res Book → Prop
  | .ok hb, .ok b => Shows h hb b
  | .panic, .panic => True
  | _, _ => False

theorem ends_of_make {S : FloatSem} {view own : Cells} {h : Heap Row} {x : Res HBook} {now d : Int} {asks bids : List Row}
    {us : List Update} (hx : SameOutcome view h own x (makeAll S now asks bids d us)) : Ends h x (makeAll S now asks bids d us) := by
  cases hu : makeAll S now asks bids d us with
  | ok b' => rw [hu] at hx; cases x <;> simp only [SameOutcome, Ends] at hx ⊢; exact hx.shows
  | err c b' =>
    exfalso
    unfold makeAll at hu
    split at hu
    · exact applyAll_not_err _ _ _ _ hu
    · rename_i e
      unfold newOrderBook Book.sort at e
      simp only at e
      split at e <;> cases e
    · cases hu
  | panic => rw [hu] at hx; cases x <;> simp only [SameOutcome, Ends] at hx ⊢

theorem ends_of_same {view own : Cells} {h : Heap Row} {x : Res HBook} {b : Book} {us : List Update}
    (hx : SameOutcome view h own x (b.applyAll us)) : Ends h x (b.applyAll us) := by
  cases hu : b.applyAll us with
  | ok b' => rw [hu] at hx; cases x <;> simp only [SameOutcome, Ends] at hx ⊢; exact hx.shows
  | err c b' => exact absurd hu (applyAll_not_err _ _ _ _)
  | panic => rw [hu] at hx; cases x <;> simp only [SameOutcome, Ends] at hx ⊢

section
variable {ι : Type} [DecidableEq ι]

theorem cellsOf_old {h : Heap Row} {hb : HBook} {b : Book} (hs : Shows h hb b) : ∀ a i, CellsOf hb a i → a < h.next := by
  rintro a i (⟨rfl, h1, h2⟩ | ⟨rfl, h1, h2⟩)
  · exact hs.wfa.2 (by omega)
  · exact hs.wfb.2 (by omega)

omit [DecidableEq ι] in
/-- The books of goroutines that update them. -/
theorem updaters_safe (grow : Nat → Nat → Nat) {h : Heap Row} {hb : ι → HBook} {b : ι → Book}
    (hs : ∀ i, Shows h (hb i) (b i)) (sep : ∀ i j, i ≠ j → ∀ a c, CellsOf (hb i) a c → ¬ CellsOf (hb j) a c)
    (us : ι → List Update) :
    AllSafe (R := fun _ => Res HBook) (fun _ _ => False)
      (fun i h own x => SameOutcome (fun _ _ => False) h own x ((b i).applyAll (us i)))
      ⟨h, fun i => applyAllP grow (hb i) (us i)⟩ (fun i => CellsOf (hb i)) where
  safe i := safe_applyAll grow (us i) ⟨hs i, fun _ _ => .inl, fun _ _ => .inr, fun a c ho =>
    ho.elim (cellsOf_old (hs i) a c) False.elim⟩
  apart := sep
  unseen _ _ _ _ := id
  old i := cellsOf_old (hs i)
  oldView _ _ := False.elim

/-- **C204.** Goroutines that update order books, each its own: in every interleaving of their single reads and writes a
goroutine that has finished holds the book that the updates give when nobody else runs, or has panicked as they do. -/
theorem C204_updates (grow : Nat → Nat → Nat) {h : Heap Row} {hb : ι → HBook} {b : ι → Book}
    (hs : ∀ i, Shows h (hb i) (b i)) (sep : ∀ i j, i ≠ j → ∀ a c, CellsOf (hb i) a c → ¬ CellsOf (hb j) a c)
    (us : ι → List Update) {t : Threads ι Row (fun _ => Res HBook)}
    (run : Relation.ReflTransGen ThreadStep ⟨h, fun i => applyAllP grow (hb i) (us i)⟩ t) {i : ι} {r : Res HBook}
    (done : t.prog i = .done r) : Ends t.heap r ((b i).applyAll (us i)) := by
  obtain ⟨own, hall⟩ := safe_all (fun i => sameOutcome_stable _ _) (updaters_safe grow hs sep us) run
  have := hall.safe i
  rw [done] at this
  exact ends_of_same this

/-- **C204.** The books of two goroutines that have finished still share no memory. -/
theorem C204_apart (grow : Nat → Nat → Nat) {h : Heap Row} {hb : ι → HBook} {b : ι → Book}
    (hs : ∀ i, Shows h (hb i) (b i)) (sep : ∀ i j, i ≠ j → ∀ a c, CellsOf (hb i) a c → ¬ CellsOf (hb j) a c)
    (us : ι → List Update) {t : Threads ι Row (fun _ => Res HBook)}
    (run : Relation.ReflTransGen ThreadStep ⟨h, fun i => applyAllP grow (hb i) (us i)⟩ t) {i j : ι} (hij : i ≠ j)
    {bi bj : HBook} (di : t.prog i = .done (.ok bi)) (dj : t.prog j = .done (.ok bj)) :
    ∀ a c, CellsOf bi a c → ¬ CellsOf bj a c := by
  obtain ⟨own, hall⟩ := safe_all (fun i => sameOutcome_stable _ _) (updaters_safe grow hs sep us) run
  have key : ∀ k bk, t.prog k = .done (.ok bk) → ∀ a c, CellsOf bk a c → own k a c := by
    intro k bk dk a c hc
    have := hall.safe k
    rw [dk] at this
    change SameOutcome _ _ _ (.ok bk) ((b k).applyAll (us k)) at this
    cases e : (b k).applyAll (us k) <;> rw [e] at this <;> simp only [SameOutcome] at this
    exact hc.elim (this.asks a c) (this.bids a c)
  exact fun a c h1 h2 => hall.apart i j hij a c (key i bi di a c h1) (key j bj dj a c h2)

/-- **C204.** No two of them are ever about to use the same row, one of them writing. -/
theorem C204_no_race (grow : Nat → Nat → Nat) {h : Heap Row} {hb : ι → HBook} {b : ι → Book}
    (hs : ∀ i, Shows h (hb i) (b i)) (sep : ∀ i j, i ≠ j → ∀ a c, CellsOf (hb i) a c → ¬ CellsOf (hb j) a c)
    (us : ι → List Update) {t : Threads ι Row (fun _ => Res HBook)}
    (run : Relation.ReflTransGen ThreadStep ⟨h, fun i => applyAllP grow (hb i) (us i)⟩ t) {i j : ι} (hij : i ≠ j)
    {a c : Nat} (hw : WritesCell (t.prog i) a c) : ¬ ReadsCell (t.prog j) a c ∧ ¬ WritesCell (t.prog j) a c := by
  obtain ⟨own, hall⟩ := safe_all (fun i => sameOutcome_stable _ _) (updaters_safe grow hs sep us) run
  exact hall.no_race hij hw

/-- **C204.** At every moment every goroutine can come to its end. -/
theorem C204_finish (s : Threads ι Row (fun _ => Res HBook)) (i : ι) :
    ∃ t r, Relation.ReflTransGen ThreadStep s t ∧ t.prog i = .done r := by
  obtain ⟨t, r, h1, h2, -⟩ := threads_finish i (s.prog i) s rfl
  exact ⟨t, r, h1, h2⟩

/-- The books that a call uses. -/
def Spec.booksOf : BookTask → List HBook
  | .make now asks bids d _ => [⟨now, asks, bids, d⟩]
  | .update b _ => [b]
  | .depth b _ => [b]
  | .print b => [b]
  | .overlap a b => [a, b]

/-- The cells that a call may change. -/
def Spec.Changes : BookTask → Cells
  | .make now asks bids d _ => CellsOf ⟨now, asks, bids, d⟩
  | .update b _ => CellsOf b
  | _ => fun _ _ => False

/-- `NewOrderBook` is called with a depth that is not negative and less than 2^53 rows. -/
def Spec.Fits : BookTask → Prop
  | .make _ asks bids d _ => 0 ≤ d ∧ asks.len < 2 ^ 53 ∧ bids.len < 2 ^ 53
  | _ => True

/-- The cells that a call reads. -/
def Spec.Uses (t : BookTask) : Cells := fun a i => ∃ hb ∈ booksOf t, CellsOf hb a i

/-- The answer of a call is the one it gives alone, on the books as they were in memory `h0` at the start. -/
def Spec.Answers (S : FloatSem) (h0 : Heap Row) (h : Heap Row) : BookTask → BookAnswer → Prop
  | .make now asks bids d us, .make r => Ends h r (makeAll S now (h0.load asks) (h0.load bids) d us)
  | .update hb us, .update r => Ends h r ((bookAt h0 hb).applyAll us)
  | .depth hb price, .depth r => r = (bookAt h0 hb).getDepth price
  | .print hb, .print r => r = (bookAt h0 hb).print
  | .overlap a b, .overlap r => r = calculateOverlap S (bookAt h0 a) (bookAt h0 b)
  | _, _ => False

/-- `Answers`, with the cells of the goroutine. -/
def TaskPost (S : FloatSem) (view : Cells) (h0 : Heap Row) (t : BookTask) (h : Heap Row) (own : Cells) (x : BookAnswer) : Prop :=
  match t, x with
  | .make now asks bids d us, .make r => SameOutcome view h own r (makeAll S now (h0.load asks) (h0.load bids) d us)
  | .update hb us, .update r => SameOutcome view h own r ((bookAt h0 hb).applyAll us)
  | .depth hb price, .depth r => r = (bookAt h0 hb).getDepth price
  | .print hb, .print r => r = (bookAt h0 hb).print
  | .overlap a b, .overlap r => r = calculateOverlap S (bookAt h0 a) (bookAt h0 b)
  | _, _ => False

theorem taskPost_stable (S : FloatSem) (view : Cells) (h0 : Heap Row) (t : BookTask) : Stable view (TaskPost S view h0 t) := by
  intro h h' own x hr hp
  cases t <;> cases x <;> simp only [TaskPost] at hp ⊢ <;> first
    | exact hp
    | exact sameOutcome_stable _ _ h h' own _ hr hp

theorem tasks_safe (grow : Nat → Nat → Nat) {S : FloatSem} (hS : Lawful S) {h : Heap Row} {task : ι → BookTask}
    (hf : ∀ i, Fits (task i))
    (hs : ∀ i, ∀ hb ∈ booksOf (task i), Shows h hb (bookAt h hb))
    (sep : ∀ i j, i ≠ j → ∀ a c, Changes (task i) a c → ¬ Uses (task j) a c) :
    ∃ view, AllSafe view (fun i => TaskPost S view h (task i)) ⟨h, fun i => (task i).prog grow S⟩ (fun i => Changes (task i)) := by
  have old : ∀ i a c, Uses (task i) a c → a < h.next := by
    rintro i a c ⟨hb, hm, hc⟩
    exact cellsOf_old (hs i hb hm) a c hc
  have chUses : ∀ {t : BookTask} {a c}, Changes t a c → Uses t a c := by
    intro t a c hc
    cases t <;> simp only [Changes] at hc <;> exact ⟨_, List.mem_singleton.2 rfl, hc⟩
  let view : Cells := fun a c => ∃ i, Uses (task i) a c ∧ ¬ Changes (task i) a c
  have sees : ∀ i hb, hb ∈ booksOf (task i) → (∀ a c, ¬ Changes (task i) a c) →
      Sees view (Changes (task i)) h hb (bookAt h hb) := fun i hb hm hn =>
    ⟨rfl, rfl, (hs i hb hm).wfa.1, (hs i hb hm).wfb.1,
      fun a c ho => .inr ⟨i, ⟨hb, hm, .inl ho⟩, hn a c⟩, fun a c ho => .inr ⟨i, ⟨hb, hm, .inr ho⟩, hn a c⟩⟩
  refine ⟨view, fun i => ?_, ?_, ?_, ?_, ?_⟩
  · show Safe view ((task i).prog grow S) h (Changes (task i)) (TaskPost S view h (task i))
    have hsi := hs i
    have hfi := hf i
    have se := sees i
    have oi := old i
    have ov : ∀ a c, view a c → a < h.next := fun a c ⟨j, hu, _⟩ => old j a c hu
    generalize task i = tk at hsi hfi se oi
    cases tk with
    | make now asks bids d us =>
      have hsh := hsi _ (List.mem_singleton.2 rfl)
      exact safe_bind _ _ _ (safe_make grow hS hsh.wfa hsh.wfb hsh.sep hfi.2.1 hfi.2.2 hfi.1 now us (fun _ _ => .inl)
        (fun _ _ => .inr) fun a c ho => ho.elim (fun hc => oi a c (chUses hc)) (ov a c))
    | update hb us =>
      exact safe_bind _ _ _ (safe_applyAll grow us ⟨hsi hb (List.mem_singleton.2 rfl), fun _ _ => .inl, fun _ _ => .inr,
        fun a c ho => ho.elim (fun hc => oi a c (chUses hc)) (ov a c)⟩)
    | depth hb price =>
      exact safe_bind _ _ _ (safe_getDepth (se hb (List.mem_singleton.2 rfl) fun _ _ => id) price)
    | print hb =>
      exact safe_bind _ _ _ (safe_print (se hb (List.mem_singleton.2 rfl) fun _ _ => id))
    | overlap a b =>
      exact safe_bind _ _ _ (safe_calculateOverlap (se a (by simp [booksOf]) fun _ _ => id)
        (se b (by simp [booksOf]) fun _ _ => id))
  · exact fun i j hij a c h1 h2 => sep i j hij a c h1 (chUses h2)
  · rintro i a c h1 ⟨j, hu, hn⟩
    by_cases e : i = j
    · subst e; exact hn h1
    · exact sep i j e a c h1 hu
  · exact fun i a c h1 => old i a c (chUses h1)
  · exact fun a c ⟨j, hu, _⟩ => old j a c hu

/-- **C205.** Goroutines that make, update, search, print and compare order books: as long as a book that one of them makes or
updates (or a row it makes a book of) is used by no other, every answer is the one given when nobody else runs, in every interleaving. Books that are only
read may be shared by any number of goroutines. -/
theorem C205_answers (grow : Nat → Nat → Nat) {S : FloatSem} (hS : Lawful S) {h : Heap Row} {task : ι → BookTask}
    (hf : ∀ i, Fits (task i))
    (hs : ∀ i, ∀ hb ∈ booksOf (task i), Shows h hb (bookAt h hb))
    (sep : ∀ i j, i ≠ j → ∀ a c, Changes (task i) a c → ¬ Uses (task j) a c)
    {t : Threads ι Row (fun _ => BookAnswer)}
    (run : Relation.ReflTransGen ThreadStep ⟨h, fun i => (task i).prog grow S⟩ t) {i : ι} {r : BookAnswer}
    (done : t.prog i = .done r) : Answers S h t.heap (task i) r := by
  obtain ⟨view, h0⟩ := tasks_safe grow hS hf hs sep
  obtain ⟨own, hall⟩ := safe_all (fun i => taskPost_stable S view h (task i)) h0 run
  have := hall.safe i
  rw [done] at this
  change TaskPost S view h (task i) t.heap (own i) r at this
  generalize task i = tk at this
  cases tk <;> cases r <;> simp only [TaskPost, Answers] at this ⊢ <;> first
    | exact this
    | exact ends_of_same this
    | exact ends_of_make this

/-- **C205.** And there is no race between them. -/
theorem C205_no_race (grow : Nat → Nat → Nat) {S : FloatSem} (hS : Lawful S) {h : Heap Row} {task : ι → BookTask}
    (hf : ∀ i, Fits (task i))
    (hs : ∀ i, ∀ hb ∈ booksOf (task i), Shows h hb (bookAt h hb))
    (sep : ∀ i j, i ≠ j → ∀ a c, Changes (task i) a c → ¬ Uses (task j) a c)
    {t : Threads ι Row (fun _ => BookAnswer)}
    (run : Relation.ReflTransGen ThreadStep ⟨h, fun i => (task i).prog grow S⟩ t) {i j : ι} (hij : i ≠ j)
    {a c : Nat} (hw : WritesCell (t.prog i) a c) : ¬ ReadsCell (t.prog j) a c ∧ ¬ WritesCell (t.prog j) a c := by
  obtain ⟨view, h0⟩ := tasks_safe grow hS hf hs sep
  obtain ⟨own, hall⟩ := safe_all (fun i => taskPost_stable S view h (task i)) h0 run
  exact hall.no_race hij hw

end

/-- Asks 2 and 3 with room for one more, and the bid 1. -/
def sharedHeap : Heap Row :=
  ⟨fun a i => if a = 0 then (if i = 0 then ⟨.fin 2, .fin 1, .fin 0⟩ else ⟨.fin 3, .fin 1, .fin 0⟩) else ⟨.fin 1, .fin 1, .fin 0⟩, 2⟩
/-- See `sharedHeap`. -/
def sharedBook : HBook := ⟨0, ⟨0, 0, 2, 3⟩, ⟨1, 0, 1, 1⟩, 5⟩
/-- An ask at 3/2. -/
def sharedUpdate : Update := ⟨.fin (3 / 2), .fin 1, "ask"⟩
theorem sharedShows : Shows sharedHeap sharedBook (bookAt sharedHeap sharedBook) := by
  refine ⟨rfl, rfl, rfl, rfl, ⟨by decide, fun _ => by decide⟩, ⟨by decide, fun _ => by decide⟩, ?_⟩
  rintro a i ⟨rfl, -, -⟩ ⟨h1, -, -⟩
  exact absurd h1 (by decide)

/-- **C205.** The condition is needed: a goroutine that prints a book while another inserts one level can write rows that the
book had neither before nor after. -/
theorem C205_sharing :
    ∃ (h : Heap Row) (hb : HBook) (b b' : Book) (u : Update) (t : Threads Bool Row (fun _ => BookAnswer)) (ls : List PrintLine),
      Shows h hb b ∧ b.applyUpdate u = .ok b' ∧
      Relation.ReflTransGen ThreadStep
        ⟨h, fun i => ((if i then .print hb else .update hb [u] : BookTask)).prog (fun _ _ => 0) .exact⟩ t ∧
      t.prog true = .done (.print ls) ∧ ls ≠ b.print ∧ ls ≠ b'.print := by
  refine ⟨sharedHeap, sharedBook, bookAt sharedHeap sharedBook, ⟨0, [⟨.fin (3 / 2), .fin 1, .fin 0⟩, ⟨.fin 2, .fin 1, .fin 0⟩,
    ⟨.fin 3, .fin 1, .fin 0⟩], [⟨.fin 1, .fin 1, .fin 0⟩], 5⟩, sharedUpdate, _,
    [.title, .row ⟨.fin 3, .fin 1, .fin 0⟩, .row ⟨.fin (3 / 2), .fin 1, .fin 0⟩, .separator, .row ⟨.fin 1, .fin 1, .fin 0⟩],
    sharedShows, by decide +kernel,
    Threads.steps_run ([true] ++ List.replicate 12 false ++ [true, true]) _, HProg.result_done (by decide +kernel),
    by decide +kernel, by decide +kernel⟩

/-- The books of two goroutines: that of `Props/HeapBook.lean`, and one in arrays 2 and 3. -/
def twoHeap : Heap Row := { exHeap with next := 4 }
def twoBooks : Bool → HBook
  | true => exHBook
  | false => ⟨0, ⟨2, 0, 2, 2⟩, ⟨3, 0, 1, 5⟩, 5⟩
def twoUpdates : Bool → List Update
  | true => [⟨.fin 4, .fin 7, "ask"⟩, ⟨.fin (5 / 2), .fin 1, "bid"⟩]
  | false => [⟨.fin 3, .fin 1, "ask"⟩, ⟨.fin 2, .fin 0, "bid"⟩, ⟨.fin 9, .fin 9, "x"⟩]

theorem twoShows : ∀ i, Shows twoHeap (twoBooks i) (bookAt twoHeap (twoBooks i)) := by
  rintro (_ | _) <;>
  · refine ⟨rfl, rfl, rfl, rfl, ⟨by decide, fun _ => by decide⟩, ⟨by decide, fun _ => by decide⟩, ?_⟩
    rintro a i ⟨rfl, -, -⟩ ⟨h1, -, -⟩
    exact absurd h1 (by decide)

theorem twoApart : ∀ i j, i ≠ j → ∀ a c, CellsOf (twoBooks i) a c → ¬ CellsOf (twoBooks j) a c := by
  rintro (_ | _) (_ | _) hij a c (⟨rfl, -, -⟩ | ⟨rfl, -, -⟩) (⟨h1, -, -⟩ | ⟨h1, -, -⟩) <;>
    first | exact hij rfl | exact absurd h1 (by decide)

/-- The goroutines in turn, step by step. -/
def twoRun : Threads Bool Row (fun _ => Res HBook) :=
  ((List.replicate 40 [true, false]).flatten).foldl Threads.step
    ⟨twoHeap, fun i => applyAllP (fun c _ => c) (twoBooks i) (twoUpdates i)⟩

/-- C204: both make new arrays on the way. -/
example : Relation.ReflTransGen ThreadStep ⟨twoHeap, fun i => applyAllP (fun c _ => c) (twoBooks i) (twoUpdates i)⟩ twoRun ∧
    twoRun.prog true = .done (.ok ⟨0, ⟨0, 0, 3, 3⟩, ⟨5, 0, 3, 5⟩, 5⟩) ∧
    twoRun.prog false = .done (.ok ⟨0, ⟨4, 0, 3, 5⟩, ⟨3, 0, 0, 5⟩, 5⟩) ∧
    bookAt twoRun.heap ⟨0, ⟨0, 0, 3, 3⟩, ⟨5, 0, 3, 5⟩, 5⟩ =
      ⟨0, [⟨.fin 3, .fin 1, .fin 0⟩, ⟨.fin 4, .fin 7, .fin 0⟩, ⟨.fin 5, .fin 2, .fin 0⟩],
        [⟨.fin (5 / 2), .fin 1, .fin 0⟩, ⟨.fin 2, .fin 1, .fin 0⟩, ⟨.fin 1, .fin 4, .fin 0⟩], 5⟩ :=
  ⟨Threads.steps_run _ _, HProg.result_done (by decide +kernel), HProg.result_done (by decide +kernel), by decide +kernel⟩

/-- C204: a moment at which one goroutine is about to write. -/
example : ∃ t, Relation.ReflTransGen ThreadStep ⟨twoHeap, fun i => applyAllP (fun c _ => c) (twoBooks i) (twoUpdates i)⟩ t ∧
    WritesCell (t.prog true) 0 2 :=
  ⟨_, Threads.steps_run [true, false, true, true, true, false, true] _, HProg.writes_target (by decide +kernel)⟩

/-- C205: one goroutine updates its book, two others read the other one. -/
def threeTasks : Option Bool → BookTask
  | none => .update exHBook (twoUpdates true)
  | some true => .print (twoBooks false)
  | some false => .overlap (twoBooks false) (twoBooks false)

example : (∀ i, ∀ hb ∈ booksOf (threeTasks i), Shows twoHeap hb (bookAt twoHeap hb)) ∧
    (∀ i j, i ≠ j → ∀ a c, Changes (threeTasks i) a c → ¬ Uses (threeTasks j) a c) ∧
    (((List.replicate 40 [some true, none, some false]).flatten).foldl Threads.step
      (⟨twoHeap, fun i => (threeTasks i).prog (fun c _ => c) .exact⟩ : Threads (Option Bool) Row (fun _ => BookAnswer))).prog
        (some true) = .done (.print [.title, .row ⟨.fin 1, .fin 4, .fin 0⟩, .row ⟨.fin 2, .fin 1, .fin 0⟩, .separator,
          .row ⟨.fin 2, .fin 1, .fin 0⟩]) := by
  refine ⟨?_, ?_, HProg.result_done (by decide +kernel)⟩
  · rintro (_ | _ | _) hb hm <;> simp only [threeTasks, booksOf, List.mem_cons, List.not_mem_nil, or_false, or_self] at hm <;>
      subst hm
    · exact twoShows true
    · exact twoShows false
    · exact twoShows false
  · rintro (_ | _ | _) j hij a c hc ⟨hb, hm, hu⟩ <;> simp only [threeTasks, Changes] at hc
    rcases j with _ | _ | _
    · exact hij rfl
    all_goals
      simp only [threeTasks, booksOf, List.mem_cons, List.not_mem_nil, or_false, or_self] at hm
      subst hm
      exact twoApart true false (by decide) a c hc hu

end Finmod
