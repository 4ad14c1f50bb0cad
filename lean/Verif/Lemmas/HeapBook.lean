import Verif.Spec.HeapBook
import Verif.Lemmas.Sort

/-! # The order book over shared memory follows the order book over lists -/

namespace Finmod
open Go Go.Heap Spec

/-- From `(h, hb)` to `(h', hb')` only cells of the book and fresh arrays were touched. -/
structure BStep (h : Heap Row) (hb : HBook) (h' : Heap Row) (hb' : HBook) : Prop where
  next : h.next ≤ h'.next
  frame : ∀ a i, a < h.next → ¬ hb.asks.Owns a i → ¬ hb.bids.Owns a i → h'.cell a i = h.cell a i
  inherits : ∀ a i, hb'.asks.Owns a i ∨ hb'.bids.Owns a i → hb.asks.Owns a i ∨ hb.bids.Owns a i ∨ h.next ≤ a

theorem BStep.refl (h : Heap Row) (hb : HBook) : BStep h hb h hb :=
  ⟨le_rfl, fun _ _ _ _ _ => rfl, fun _ _ h => h.elim Or.inl fun h => Or.inr (Or.inl h)⟩

theorem BStep.trans {h h1 h2 : Heap Row} {b b1 b2 : HBook} (p : BStep h b h1 b1) (q : BStep h1 b1 h2 b2) :
    BStep h b h2 b2 := by
  refine ⟨p.next.trans q.next, ?_, ?_⟩
  · intro a i ha n1 n2
    have key : ¬ (b1.asks.Owns a i ∨ b1.bids.Owns a i) := by
      intro ho
      rcases p.inherits a i ho with h | h | h
      · exact n1 h
      · exact n2 h
      · omega
    rw [q.frame a i (lt_of_lt_of_le ha p.next) (fun h => key (Or.inl h)) (fun h => key (Or.inr h)),
      p.frame a i ha n1 n2]
  · intro a i ho
    rcases q.inherits a i ho with h | h | h
    · exact p.inherits a i (Or.inl h)
    · exact p.inherits a i (Or.inr h)
    · have := p.next; right; right; omega

theorem Spec.Shows.ask {h h' : Heap Row} {hb : HBook} {b : Book} {s : Slice} {rows : List Row} (hs : Shows h hb b)
    (st : Step h hb.asks h' s) (hl : h'.load s = rows) :
    Shows h' { hb with asks := s } { b with asks := rows } ∧ BStep h hb h' { hb with asks := s } := by
  obtain ⟨h1, h2, h3⟩ := st.other hs.wfb hs.sep
  refine ⟨⟨hs.time, hs.depth, hl, h1.trans hs.bids, st.wf, h2, h3⟩, st.next, ?_, ?_⟩
  · intro a i ha n _; exact st.frame a i ha n
  · rintro a i (ho | ho)
    · rcases st.inherits a i ho with h | h
      · exact Or.inl h
      · exact Or.inr (Or.inr h)
    · exact Or.inr (Or.inl ho)

theorem Spec.Shows.bid {h h' : Heap Row} {hb : HBook} {b : Book} {s : Slice} {rows : List Row} (hs : Shows h hb b)
    (st : Step h hb.bids h' s) (hl : h'.load s = rows) :
    Shows h' { hb with bids := s } { b with bids := rows } ∧ BStep h hb h' { hb with bids := s } := by
  obtain ⟨h1, h2, h3⟩ := st.other hs.wfa (separate_comm hs.sep)
  refine ⟨⟨hs.time, hs.depth, h1.trans hs.asks, hl, h2, st.wf, separate_comm h3⟩, st.next, ?_, ?_⟩
  · intro a i ha _ n; exact st.frame a i ha n
  · rintro a i (ho | ho)
    · exact Or.inl ho
    · rcases st.inherits a i ho with h | h
      · exact Or.inr (Or.inl h)
      · exact Or.inr (Or.inr h)

/-! ## Operations on one side -/

theorem step_copyShift {h : Heap Row} {s : Slice} (hw : WF h s) {i : Nat} (hi : i < s.len) :
    Step h s (h.copyShift s i) s ∧ (h.copyShift s i).load s = shiftRight (h.load s) i := by
  have hl := length_load h s
  have hx : (((h.load s).drop i).take (s.len - (i + 1))).length = s.len - (i + 1) := by
    rw [List.length_take, List.length_drop, hl]; omega
  refine ⟨step_store hw (by rw [hx]; have := hw.1; omega) s.len hw.1, ?_⟩
  have := load_store (h := h) (s := s) (i := i + 1) (n := s.len)
    (xs := ((h.load s).drop i).take (s.len - (i + 1))) (by omega) (by rw [hx]; omega)
  refine this.trans ?_
  rw [hx, shiftRight, hl, List.drop_eq_nil_of_le (i := i + 1 + (s.len - (i + 1))) (by omega), List.append_nil]

theorem step_removeElement (grow : Nat → Nat → Nat) {h : Heap Row} {s : Slice} (hw : WF h s) {i : Nat} (hi : i < s.len) :
    Step h s (hRemoveElement grow h s i).1 (hRemoveElement grow h s i).2 ∧
    (hRemoveElement grow h s i).1.load (hRemoveElement grow h s i).2 = removeElement (h.load s) i := by
  obtain ⟨a1, a2⟩ := step_upTo hw (n := i) (by omega)
  obtain ⟨b1, b2⟩ := step_append grow a1.wf (h.load (s.since (i + 1)))
  refine ⟨a1.trans b1, ?_⟩
  rw [hRemoveElement, b2, a2, (step_since hw (n := i + 1) (by omega)).2, removeElement]

/-- The list version of `hUpsert`. -/
def listUpsert (before : Row → Bool) (rows : List Row) (p v : Fl) : List Row :=
  match rows.findIdx? (fun r => Fl.eq r.price p) with
  | some i => rows.set i (mkRow p v)
  | none =>
    match rows with
    | [] => rows ++ [mkRow p v]
    | [a0] => if before a0 then (rows ++ [a0]).set 0 (mkRow p v) else rows ++ [mkRow p v]
    | _ =>
      match rows.findIdx? before with
      | some i => (shiftRight (rows ++ [zeroRow]) i).set i (mkRow p v)
      | none => rows ++ [mkRow p v]

theorem upsertAsk_list (rows : List Row) (p v : Fl) :
    upsertAsk rows p v = listUpsert (fun r => Fl.gt r.price p) rows p v := by
  unfold upsertAsk listUpsert
  rcases rows with - | ⟨a, - | ⟨b, l⟩⟩ <;> rfl

theorem upsertBid_list (rows : List Row) (p v : Fl) :
    upsertBid rows p v = listUpsert (fun r => Fl.lt r.price p) rows p v := by
  unfold upsertBid listUpsert
  rcases rows with - | ⟨a, - | ⟨b, l⟩⟩ <;> rfl

theorem findIdx?_lt {α : Type} {q : α → Bool} {l : List α} {i : Nat} (h : l.findIdx? q = some i) : i < l.length := by
  rw [List.findIdx?_eq_some_iff_getElem] at h
  exact h.1

theorem step_upsert (grow : Nat → Nat → Nat) (before : Row → Bool) {h : Heap Row} {s : Slice} (hw : WF h s) (p v : Fl) :
    Step h s (hUpsert grow before h s p v).1 (hUpsert grow before h s p v).2 ∧
    (hUpsert grow before h s p v).1.load (hUpsert grow before h s p v).2 = listUpsert before (h.load s) p v := by
  have hl := length_load h s
  unfold hUpsert listUpsert
  cases hf : (h.load s).findIdx? (fun r => Fl.eq r.price p) with
  | some i =>
    have := findIdx?_lt hf
    exact step_put hw _ (by omega)
  | none =>
    dsimp only
    generalize hrows : h.load s = rows at *
    rcases rows with - | ⟨a, - | ⟨b, l⟩⟩
    · rw [if_pos (by simpa using hl.symm)]
      have := step_append grow hw [mkRow p v]
      rw [hrows] at this
      exact this
    · have h1 : s.len = 1 := by simpa using hl.symm
      rw [if_neg (by omega), if_pos h1]
      dsimp only [List.getElem?_cons_zero]
      cases hb : before a with
      | true =>
        simp only [if_true]
        obtain ⟨x1, x2⟩ := step_append grow hw [a]
        rw [hrows] at x2
        have hl2 : (h.append grow s [a]).2.len = 2 := by rw [← length_load (h.append grow s [a]).1, x2]; rfl
        obtain ⟨y1, y2⟩ := step_put x1.wf (mkRow p v) (i := 0) (by omega)
        rw [x2] at y2
        exact ⟨x1.trans y1, y2⟩
      | false =>
        have := step_append grow hw [mkRow p v]
        rw [hrows] at this
        exact this
    · have h1 : s.len = l.length + 2 := by simpa using hl.symm
      rw [if_neg (by omega), if_neg (by omega)]
      cases hi : (a :: b :: l).findIdx? before with
      | some i =>
        dsimp only
        have hi' : i < s.len := by have := findIdx?_lt hi; rw [← hl]; exact this
        obtain ⟨x1, x2⟩ := step_append grow hw [zeroRow]
        rw [hrows] at x2
        have hl2 : (h.append grow s [zeroRow]).2.len = s.len + 1 := by
          rw [← length_load (h.append grow s [zeroRow]).1, x2]; simp; omega
        obtain ⟨y1, y2⟩ := step_copyShift x1.wf (i := i) (by omega)
        obtain ⟨z1, z2⟩ := step_put y1.wf (mkRow p v) (i := i) (by omega)
        rw [y2, x2] at z2
        exact ⟨(x1.trans y1).trans z1, z2⟩
      | none =>
        have := step_append grow hw [mkRow p v]
        rw [hrows] at this
        exact this

theorem step_removeInvalidAsk {h : Heap Row} {s : Slice} (hw : WF h s) (price : Fl) :
    Step h s h (hRemoveInvalidAsk h s price) ∧
    h.load (hRemoveInvalidAsk h s price) = (removeInvalidAsk (h.load s) price).1 := by
  have hl := length_load h s
  unfold hRemoveInvalidAsk removeInvalidAsk
  cases hrows : h.load s with
  | nil => exact ⟨Step.refl hw, hrows⟩
  | cons first l =>
    dsimp only [List.getElem?_cons_zero]
    split_ifs with hc
    · exact ⟨Step.refl hw, hrows⟩
    · rw [← hrows]
      cases (h.load s).findIdx? (fun r => !(Fl.lt r.price price)) with
      | some i =>
        have := step_since hw (n := min (i + 1) (s.len - 1)) (by omega)
        rw [← hl] at this
        rw [hl] at this ⊢
        exact this
      | none => exact step_empty h s

theorem step_removeInvalidBid {h : Heap Row} {s : Slice} (hw : WF h s) (price : Fl) :
    Step h s h (hRemoveInvalidBid h s price) ∧
    h.load (hRemoveInvalidBid h s price) = (removeInvalidBid (h.load s) price).1 := by
  have hl := length_load h s
  unfold hRemoveInvalidBid removeInvalidBid
  cases hrows : h.load s with
  | nil => exact ⟨Step.refl hw, hrows⟩
  | cons first l =>
    dsimp only [List.getElem?_cons_zero]
    split_ifs with hc
    · exact ⟨Step.refl hw, hrows⟩
    · rw [← hrows]
      cases (h.load s).findIdx? (fun r => !(Fl.gt r.price price)) with
      | some i =>
        have := step_since hw (n := min (i + 1) (s.len - 1)) (by omega)
        rw [← hl] at this
        rw [hl] at this ⊢
        exact this
      | none => exact step_empty h s

/-- `s[:n]` for `n` up to the length. -/
theorem step_sliceTo {h : Heap Row} {s : Slice} (hw : WF h s) {n : Int} (hn : n ≤ s.len) :
    match hSliceTo s n, sliceTo (h.load s) n with
    | some s', some rows => Step h s h s' ∧ h.load s' = rows ∧ s' = s.upTo n.toNat
    | none, none => n < 0
    | _, _ => False := by
  have h1 := hw.1
  unfold hSliceTo sliceTo
  by_cases h0 : n < 0
  · rw [if_pos (Or.inl h0), if_pos h0]; exact h0
  · rw [if_neg (by omega), if_neg h0]
    exact ⟨(step_upTo hw (by omega)).1, (step_upTo hw (by omega)).2, rfl⟩

theorem step_limitSide {h : Heap Row} {s : Slice} (hw : WF h s) (d : Int) :
    match hLimitSide s d, limitSide (h.load s) d with
    | some s', some rows => Step h s h s' ∧ h.load s' = rows
    | none, none => True
    | _, _ => False := by
  unfold hLimitSide limitSide
  rw [length_load]
  split_ifs with hc
  · have := step_sliceTo hw (n := d) (by omega)
    revert this
    cases hSliceTo s d <;> cases sliceTo (h.load s) d <;> simp
    exact fun a b _ => ⟨a, b⟩
  · exact ⟨Step.refl hw, rfl⟩

/-- The two runs agree: same outcome, and the memory shows the list-level book. -/
def Agree (h0 : Heap Row) (hb0 : HBook) : Res (Heap Row × HBook) → Res Book → Prop
  | .ok r, .ok b => Shows r.1 r.2 b ∧ BStep h0 hb0 r.1 r.2
  | .err c r, .err c' b => c = c' ∧ Shows r.1 r.2 b ∧ BStep h0 hb0 r.1 r.2
  | .panic, .panic => True
  | _, _ => False

theorem Agree.from {h0 h1 : Heap Row} {b0 b1 : HBook} {r : Res (Heap Row × HBook)} {b : Res Book}
    (p : BStep h0 b0 h1 b1) (q : Agree h1 b1 r b) : Agree h0 b0 r b := by
  cases r <;> cases b <;> simp only [Agree] at q ⊢
  · exact ⟨q.1, p.trans q.2⟩
  · exact ⟨q.1, q.2.1, p.trans q.2.2⟩

theorem agree_limit {h : Heap Row} {hb : HBook} {b : Book} (hs : Shows h hb b) :
    Agree h hb (HBook.limit h hb) (Book.limit b) := by
  unfold HBook.limit Book.limit
  have h1 := step_limitSide hs.wfa b.maxDepth
  have h2 := step_limitSide hs.wfb b.maxDepth
  rw [hs.asks] at h1
  rw [hs.bids] at h2
  rw [hs.depth]
  cases e1 : hLimitSide hb.asks b.maxDepth <;> cases e2 : limitSide b.asks b.maxDepth <;>
    cases e3 : hLimitSide hb.bids b.maxDepth <;> cases e4 : limitSide b.bids b.maxDepth <;>
    rw [e1, e2] at h1 <;> rw [e3, e4] at h2 <;> simp only [Agree] <;> simp only at h1 h2
  obtain ⟨p1, p2⟩ := hs.ask h1.1 h1.2
  obtain ⟨q1, q2⟩ := p1.bid h2.1 h2.2
  have q := p2.trans q2
  simp only [hs.depth] at q1 q
  exact ⟨q1, q⟩

theorem agree_update (grow : Nat → Nat → Nat) {h : Heap Row} {hb : HBook} {b : Book} (hs : Shows h hb b) (u : Update) :
    Agree h hb (HBook.applyUpdate grow h hb u) (Book.applyUpdate b u) := by
  unfold HBook.applyUpdate Book.applyUpdate
  by_cases h1 : u.side = "ask"
  · rw [if_pos h1, if_pos h1]
    by_cases hv : Fl.ne u.volume (.fin 0) = true
    · rw [if_pos hv, if_pos hv]
      obtain ⟨a1, a2⟩ := step_removeInvalidBid hs.wfb u.price
      rw [hs.bids] at a2
      obtain ⟨p1, p2⟩ := hs.bid a1 a2
      obtain ⟨b1, b2⟩ := step_upsert grow (fun r => Fl.gt r.price u.price) p1.wfa u.price u.volume
      rw [p1.asks, ← upsertAsk_list] at b2
      obtain ⟨q1, q2⟩ := p1.ask b1 b2
      exact (agree_limit q1).from (p2.trans q2)
    · rw [if_neg hv, if_neg hv, hs.asks]
      cases hf : b.asks.findIdx? (fun r => Fl.eq r.price u.price) with
      | none => exact ⟨hs, BStep.refl _ _⟩
      | some i =>
        have hi := findIdx?_lt hf
        rw [← hs.asks, length_load] at hi
        obtain ⟨b1, b2⟩ := step_removeElement grow hs.wfa hi
        rw [hs.asks] at b2
        obtain ⟨q1, q2⟩ := hs.ask b1 b2
        exact (agree_limit q1).from q2
  · rw [if_neg h1, if_neg h1]
    by_cases h2 : u.side = "bid"
    · rw [if_pos h2, if_pos h2]
      by_cases hv : Fl.ne u.volume (.fin 0) = true
      · rw [if_pos hv, if_pos hv]
        obtain ⟨a1, a2⟩ := step_removeInvalidAsk hs.wfa u.price
        rw [hs.asks] at a2
        obtain ⟨p1, p2⟩ := hs.ask a1 a2
        obtain ⟨b1, b2⟩ := step_upsert grow (fun r => Fl.lt r.price u.price) p1.wfb u.price u.volume
        rw [p1.bids, ← upsertBid_list] at b2
        obtain ⟨q1, q2⟩ := p1.bid b1 b2
        exact (agree_limit q1).from (p2.trans q2)
      · rw [if_neg hv, if_neg hv, hs.bids]
        cases hf : b.bids.findIdx? (fun r => Fl.eq r.price u.price) with
        | none => exact ⟨hs, BStep.refl _ _⟩
        | some i =>
          have hi := findIdx?_lt hf
          rw [← hs.bids, length_load] at hi
          obtain ⟨b1, b2⟩ := step_removeElement grow hs.wfb hi
          rw [hs.bids] at b2
          obtain ⟨q1, q2⟩ := hs.bid b1 b2
          exact (agree_limit q1).from q2
    · rw [if_neg h2, if_neg h2]
      exact ⟨rfl, hs, BStep.refl _ _⟩

theorem agree_all (grow : Nat → Nat → Nat) (us : List Update) : ∀ {h : Heap Row} {hb : HBook} {b : Book},
    Shows h hb b → Agree h hb (HBook.applyAll grow h hb us) (Book.applyAll b us) := by
  induction us with
  | nil => intro h hb b hs; exact ⟨hs, BStep.refl _ _⟩
  | cons u us ih =>
    intro h hb b hs
    have := agree_update grow hs u
    unfold HBook.applyAll Book.applyAll
    cases e1 : HBook.applyUpdate grow h hb u <;> cases e2 : Book.applyUpdate b u <;> rw [e1, e2] at this <;>
      simp only [Agree] at this
    · exact (ih this.1).from this.2
    · exact (ih this.2.1).from this.2.2
    · trivial

end Finmod

namespace Finmod
open Go Go.Heap Spec

theorem sliceStable_length (less : Row → Row → Bool) (l : List Row) : (sliceStable less l).length = l.length :=
  (sliceStable_perm less l).length_eq

/-- Overwriting the first elements. -/
theorem step_storePrefix {h : Heap Row} {s : Slice} (hw : WF h s) {xs : List Row} (hx : xs.length ≤ s.len) :
    Step h s (h.store s.arr s.off xs) s ∧ (h.store s.arr s.off xs).load s = xs ++ (h.load s).drop xs.length := by
  have hl := length_load h s
  refine ⟨step_store hw (i := 0) (by have := hw.1; omega) s.len hw.1, ?_⟩
  have := load_store (h := h) (s := s) (i := 0) (n := s.len) (xs := xs) (by omega) (by omega)
  refine this.trans ?_
  simp

/-- `NewOrderBook` on separate slices: the caller's slices hold the sorted rows, with running totals
in the part the book keeps. -/
theorem hNew_run {S : FloatSem} (hS : Lawful S) {h : Heap Row} {asks bids : Slice} (wa : WF h asks) (wb : WF h bids)
    (sep : asks.Separate bids) (la : asks.len < 2 ^ 53) (lb : bids.len < 2 ^ 53) {d : Int} (hd : 0 ≤ d) (now : Int) :
    ∃ h', hNewOrderBook S h now asks bids d =
        .ok (h', ⟨now, asks.upTo (min asks.len d.toNat), bids.upTo (min bids.len d.toNat), d⟩) ∧
      BStep h ⟨now, asks, bids, d⟩ h' ⟨now, asks, bids, d⟩ ∧ WF h' asks ∧ WF h' bids ∧
      h'.load asks = accumulate S none ((sliceStable (fun x y => Fl.lt x.price y.price) (h.load asks)).take
          (min asks.len d.toNat)) ++
        (sliceStable (fun x y => Fl.lt x.price y.price) (h.load asks)).drop (min asks.len d.toNat) ∧
      h'.load bids = accumulate S none ((sliceStable (fun x y => Fl.gt x.price y.price) (h.load bids)).take
          (min bids.len d.toNat)) ++
        (sliceStable (fun x y => Fl.gt x.price y.price) (h.load bids)).drop (min bids.len d.toNat) := by
  set nA := min asks.len d.toNat with hnA
  set nB := min bids.len d.toNat with hnB
  set sA := sliceStable (fun x y => Fl.lt x.price y.price) (h.load asks) with hsA
  set sB := sliceStable (fun x y => Fl.gt x.price y.price) (h.load bids) with hsB
  have lA : sA.length = asks.len := by rw [hsA, sliceStable_length, length_load]
  have lB : sB.length = bids.len := by rw [hsB, sliceStable_length, length_load]
  have s0 : Shows h ⟨now, asks, bids, d⟩ ⟨now, h.load asks, h.load bids, d⟩ := ⟨rfl, rfl, rfl, rfl, wa, wb, sep⟩
  obtain ⟨a1, a2⟩ := step_storeAll wa lA
  obtain ⟨s1, t1⟩ := s0.ask a1 a2
  obtain ⟨b1, b2⟩ := step_storeAll s1.wfb lB
  obtain ⟨s2, t2⟩ := s1.bid b1 b2
  set h1 := h.store asks.arr asks.off sA with hh1
  set h2 := h1.store bids.arr bids.off sB with hh2
  have u1 : h2.load asks = sA := s2.asks
  have u2 : h2.load bids = sB := s2.bids
  have c1 := (step_upTo s2.wfa (n := nA) (by show min asks.len d.toNat ≤ asks.len; omega)).2
  rw [u1] at c1
  have xA : (accumulate S none (sA.take nA)).length = nA := by rw [accumulate_length, List.length_take]; omega
  have xB : (accumulate S none (sB.take nB)).length = nB := by rw [accumulate_length, List.length_take]; omega
  obtain ⟨d1, d2⟩ := step_storePrefix s2.wfa (xs := accumulate S none (sA.take nA))
    (by rw [xA]; show min asks.len d.toNat ≤ asks.len; omega)
  rw [u1, xA] at d2
  obtain ⟨s3, t3⟩ := s2.ask d1 d2
  set h3 := h2.store asks.arr asks.off (accumulate S none (sA.take nA)) with hh3
  have u3 : h3.load bids = sB := s3.bids
  have c2 := (step_upTo s3.wfb (n := nB) (by show min bids.len d.toNat ≤ bids.len; omega)).2
  rw [u3] at c2
  obtain ⟨e1, e2⟩ := step_storePrefix s3.wfb (xs := accumulate S none (sB.take nB))
    (by rw [xB]; show min bids.len d.toNat ≤ bids.len; omega)
  rw [u3, xB] at e2
  obtain ⟨s4, t4⟩ := s3.bid e1 e2
  refine ⟨_, ?_, ((t1.trans t2).trans t3).trans t4, s4.wfa, s4.wfb, s4.asks, s4.bids⟩
  have k1 : h1.load bids = h.load bids := s1.bids
  have e1 : hSliceTo asks (depthCut S asks.len d) = some (asks.upTo nA) := by
    have := wa.1
    rw [depthCut_eq hS la hd, hSliceTo, if_neg (by omega)]
    congr 2; omega
  have e2 : hSliceTo bids (depthCut S bids.len d) = some (bids.upTo nB) := by
    have := wb.1
    rw [depthCut_eq hS lb hd, hSliceTo, if_neg (by omega)]
    congr 2; omega
  unfold hNewOrderBook HBook.sort
  dsimp only
  rw [← hsA, ← hh1, k1, ← hsB, ← hh2, e1, e2]
  dsimp only
  rw [c1]
  have : h2.store (asks.upTo nA).arr (asks.upTo nA).off (accumulate S none (sA.take nA)) = h3 := rfl
  rw [this, c2]
  rfl

end Finmod
