import Verif.Props.HeapBook
import Verif.Lemmas.Book

/-!
# C150: what a copied book shows after an update of the original

C106 is false of the code: a copy shares the arrays. One update is enough to say exactly what the
copy shows afterwards and when it is still right.
-/

namespace Finmod
open Go Go.Heap Spec

theorem load_shared {h : Heap Row} {s t : Slice} (ha : t.arr = s.arr) (ho : t.off = s.off)
    (hl : s.len ≤ t.len) : h.load s = (h.load t).take s.len := by
  apply List.ext_getElem?
  intro j
  rw [List.getElem?_take, getElem?_load, getElem?_load, ha, ho]
  by_cases hj : j < s.len
  · rw [if_pos hj, if_pos hj, if_pos (by omega)]
  · rw [if_neg hj, if_neg hj]

theorem append_shared (grow : Nat → Nat → Nat) (h : Heap Row) {s : Slice} {x : Row} (hc : s.len < s.cap) :
    (h.append grow s [x]).2 = { s with len := s.len + 1 } := by
  unfold Heap.append
  simp only [List.length_cons, List.length_nil]
  rw [if_pos (by omega)]

theorem append_moved (grow : Nat → Nat → Nat) (h : Heap Row) {s : Slice} {x : Row} (hc : ¬ s.len < s.cap) :
    (h.append grow s [x]).2.arr = h.next ∧
      ∀ a i, a ≠ h.next → (h.append grow s [x]).1.cell a i = h.cell a i := by
  unfold Heap.append
  simp only [List.length_cons, List.length_nil]
  rw [if_neg (by omega)]
  refine ⟨rfl, fun a i ha => ?_⟩
  simp only [store]
  rw [if_neg (by omega)]

theorem store_other (h : Heap Row) (a k : Nat) (xs : List Row) {c : Nat} (hc : c ≠ a) (i : Nat) :
    (h.store a k xs).cell c i = h.cell c i := by
  simp only [store]
  rw [if_neg (by omega)]

theorem load_of_other {h h' : Heap Row} {s : Slice} (hw : WF h s)
    (e : ∀ a i, a ≠ h.next → h'.cell a i = h.cell a i) : h'.load s = h.load s := by
  apply load_congr
  intro i hi
  apply e
  have := hw.2 (by have := hw.1; omega)
  omega

/-- The old window after an upsert: the new rows cut to the old length if the array is shared, the
old rows otherwise. -/
theorem upsert_view (grow : Nat → Nat → Nat) (before : Row → Bool) {h : Heap Row} {s : Slice}
    (hw : WF h s) (p v : Fl) :
    (hUpsert grow before h s p v).1.load s =
      if (∃ r ∈ h.load s, Fl.eq r.price p = true) ∨ s.len < s.cap then
        (listUpsert before (h.load s) p v).take s.len
      else h.load s := by
  have hl := length_load h s
  have st := (step_upsert grow before hw p v).2
  cases hf : (h.load s).findIdx? (fun r => Fl.eq r.price p) with
  | some i =>
    have hex : ∃ r ∈ h.load s, Fl.eq r.price p = true := by
      obtain ⟨hi, h1, _⟩ := List.findIdx?_eq_some_iff_getElem.1 hf
      exact ⟨_, List.getElem_mem hi, h1⟩
    rw [if_pos (.inl hex), ← st]
    have : (hUpsert grow before h s p v).2 = s := by unfold hUpsert; rw [hf]
    rw [this, ← load_shared rfl rfl (le_refl _)]
  | none =>
    have hno : ¬ ∃ r ∈ h.load s, Fl.eq r.price p = true := by
      rintro ⟨r, hr, he⟩
      rw [List.findIdx?_eq_none_iff] at hf
      rw [hf r hr] at he; exact absurd he (by simp)
    have hshape : (s.len < s.cap → (hUpsert grow before h s p v).2 = { s with len := s.len + 1 }) ∧
        (¬ s.len < s.cap → ∀ a i, a ≠ h.next →
          (hUpsert grow before h s p v).1.cell a i = h.cell a i) := by
      unfold hUpsert
      rw [hf]
      dsimp only
      split_ifs with h0 h1
      · exact ⟨append_shared grow h, fun hc => (append_moved grow h hc).2⟩
      · cases hg : (h.load s)[0]? with
        | none =>
          rw [getElem?_load, if_pos (by omega)] at hg; exact absurd hg (by simp)
        | some r0 =>
          dsimp only
          split_ifs with hb
          · refine ⟨append_shared grow h, fun hc a i ha => ?_⟩
            obtain ⟨m1, m2⟩ := append_moved grow h (x := r0) hc
            rw [put, m1, store_other _ _ _ _ ha, m2 a i ha]
          · exact ⟨append_shared grow h, fun hc => (append_moved grow h hc).2⟩
      · split
        · dsimp only
          refine ⟨append_shared grow h, fun hc a i ha => ?_⟩
          obtain ⟨m1, m2⟩ := append_moved grow h (x := zeroRow) hc
          rw [put, copyShift, m1, store_other _ _ _ _ ha, store_other _ _ _ _ ha, m2 a i ha]
        · exact ⟨append_shared grow h, fun hc => (append_moved grow h hc).2⟩
    by_cases hc : s.len < s.cap
    · rw [if_pos (.inr hc), ← st, hshape.1 hc]
      exact load_shared (t := { s with len := s.len + 1 }) rfl rfl (by show s.len ≤ s.len + 1; omega)
    · rw [if_neg (by rintro (h1 | h1); exacts [hno h1, hc h1])]
      exact load_of_other hw (hshape.2 hc)

/-- The old window after a deletion: the remaining rows, and the last row once more. -/
theorem remove_view (grow : Nat → Nat → Nat) {h : Heap Row} {s : Slice} (hw : WF h s) {i : Nat}
    (hi : i < s.len) :
    (hRemoveElement grow h s i).1.load s = removeElement (h.load s) i ++ (h.load s).drop (s.len - 1) := by
  have hl := length_load h s
  have hx : (h.load (s.since (i + 1))) = (h.load s).drop (i + 1) := (step_since hw (by omega)).2
  have hxl : ((h.load s).drop (i + 1)).length = s.len - (i + 1) := by rw [List.length_drop, hl]
  have hc := hw.1
  unfold hRemoveElement
  rw [hx]
  unfold Heap.append
  dsimp only
  rw [hxl, if_pos (by show i + (s.len - (i + 1)) ≤ s.cap; omega)]
  show (h.store s.arr (s.off + i) ((h.load s).drop (i + 1))).load s = _
  have := load_store (h := h) (s := s) (i := i) (n := s.len) (xs := (h.load s).drop (i + 1)) (by omega)
    (by rw [hxl]; omega)
  refine this.trans ?_
  rw [hxl, removeElement, show i + (s.len - (i + 1)) = s.len - 1 by omega]

/-! ## When the view is unchanged -/

section
variable {lt : Fl → Fl → Bool} {α : Type} [LinearOrder α] {k : Fl → α} (O : SideOrd lt k)
include O

theorem set_view_iff {rows : List Row} {p v : Fl} (hn : NoNaN rows) (hp : p ≠ .nan)
    (hs : GSorted lt rows) (room : Prop) [Decidable room] :
    (if (∃ r ∈ rows, Fl.eq r.price p = true) ∨ room then
        (rows.filter (fun r => lt r.price p) ++ [mkRow p v] ++ rows.filter (fun r => lt p r.price)).take
          rows.length
      else rows) = rows ↔
    mkRow p v ∈ rows ∨
      ((∀ r ∈ rows, Fl.eq r.price p = false) ∧ (¬ room ∨ ∀ r ∈ rows, lt r.price p = true)) := by
  have hpp : Fl.eq p p = true := (O.eq_iff p p hp hp).2 rfl
  rw [← gUpsert_eq O hn hp hs]
  by_cases hex : ∃ r ∈ rows, Fl.eq r.price p = true
  · rw [if_pos (.inl hex)]
    cases hf : rows.findIdx? (fun r => Fl.eq r.price p) with
    | none =>
      obtain ⟨r, hr, he⟩ := hex
      rw [List.findIdx?_eq_none_iff] at hf
      rw [hf r hr] at he; exact absurd he (by simp)
    | some i =>
      have hU : gUpsert lt rows p v = rows.set i (mkRow p v) := by unfold gUpsert; rw [hf]
      obtain ⟨l1, x, l2, rfl, rfl, hx, hall⟩ := findIdx?_some_split hf
      rw [hU, set_append_cons, List.take_of_length_le (by simp)]
      have hxn : x.price ≠ .nan := hn x (by simp)
      have hkx := (O.eq_iff _ _ hxn hp).1 hx
      unfold GSorted at hs
      rw [List.pairwise_append, List.pairwise_cons] at hs
      constructor
      · intro h
        have := List.append_cancel_left h
        left; rw [(List.cons.inj this).1]; simp
      · rintro (h | h)
        · rcases List.mem_append.1 h with h | h
          · have := (O.lt_iff _ _ hp hxn).1 (hs.2.2 _ h x (by simp))
            rw [hkx] at this
            exact absurd this (lt_irrefl _)
          · rcases List.mem_cons.1 h with h | h
            · rw [h]
            · have := hs.2.1.1 _ h
              have this' := (O.lt_iff _ _ hxn hp).1 this
              rw [hkx] at this'
              exact absurd this' (lt_irrefl _)
        · have := h.1 x (by simp)
          rw [hx] at this; exact absurd this (by simp)
  · have hnone : ∀ r ∈ rows, Fl.eq r.price p = false := by
      intro r hr
      by_contra hc
      exact hex ⟨r, hr, by simpa using hc⟩
    have hnew : mkRow p v ∉ rows := fun hm => by
      have := hnone _ hm
      rw [show (mkRow p v).price = p from rfl, hpp] at this; exact absurd this (by simp)
    by_cases hroom : room
    · rw [if_pos (.inr hroom), gUpsert_eq O hn hp hs]
      set A := rows.filter (fun r => lt r.price p) with hA
      set B := rows.filter (fun r => lt p r.price) with hB
      have hAB : A ++ B = rows := by
        have tri : ∀ r ∈ rows, lt p r.price = !(lt r.price p) := by
          intro r hr
          have hrn := hn r hr
          have hne := (O.eq_false_iff hrn hp).1 (hnone r hr)
          rcases lt_or_gt_of_ne hne with h1 | h1
          · rw [(O.lt_iff _ _ hrn hp).2 h1, (O.lt_false_iff hp hrn).2 h1.le]; rfl
          · rw [(O.lt_iff _ _ hp hrn).2 h1, (O.lt_false_iff hrn hp).2 h1.le]; rfl
        have hB' : B = rows.filter (fun r => !(lt r.price p)) := List.filter_congr tri
        rw [hA, hB']
        clear hnew hnone hex hB hB' hA tri
        clear A B
        induction rows with
        | nil => rfl
        | cons r rs ih =>
          unfold GSorted at hs
          rw [List.pairwise_cons] at hs
          have ih' := ih (fun x hx => hn x (by simp [hx])) hs.2
          by_cases hr : lt r.price p = true
          · simp [hr, ih']
          · have hall : ∀ x ∈ rs, lt x.price p = false := by
              intro x hx
              have hrn := hn r (by simp)
              have hxn := hn x (by simp [hx])
              have h1 := (O.lt_iff _ _ hrn hxn).1 (hs.1 x hx)
              have h2 := (O.lt_false_iff hrn hp).1 (by simpa using hr)
              exact (O.lt_false_iff hxn hp).2 (h2.trans h1.le)
            have e1 : rs.filter (fun r => lt r.price p) = [] := by
              rw [List.filter_eq_nil_iff]; intro x hx; simp [hall x hx]
            have e2 : rs.filter (fun r => !(lt r.price p)) = rs := by
              rw [List.filter_eq_self]; intro x hx; simp [hall x hx]
            simp [hr, e1, e2]
      have hlen : rows.length = A.length + B.length := by rw [← hAB]; simp
      have hiff : ((A ++ [mkRow p v] ++ B).take rows.length = rows) ↔ B = [] := by
        constructor
        · intro h
          by_contra hB0
          obtain ⟨y, t, hy⟩ := List.exists_cons_of_ne_nil hB0
          apply hnew
          rw [← h, hlen, hy]
          rw [List.append_assoc, List.take_append]
          simp
        · intro h
          rw [h] at hAB hlen ⊢
          simp only [List.append_nil] at hAB ⊢
          rw [hlen, hAB]; simp [← hAB]
      rw [hiff]
      constructor
      · intro h
        right
        refine ⟨hnone, .inr fun r hr => ?_⟩
        rw [h, List.append_nil] at hAB
        rw [← hAB, hA] at hr
        exact (List.mem_filter.1 hr).2
      · rintro (h | ⟨-, h | h⟩)
        · exact absurd h hnew
        · exact absurd hroom h
        · rw [hB, List.filter_eq_nil_iff]
          intro r hr
          have hrn := hn r hr
          rw [(O.lt_false_iff hp hrn).2 ((O.lt_iff _ _ hrn hp).1 (h r hr)).le]; simp
    · rw [if_neg (by rintro (h | h); exacts [hex h, hroom h])]
      exact ⟨fun _ => .inr ⟨hnone, .inl hroom⟩, fun _ => rfl⟩

theorem delete_view_iff {rows : List Row} {p : Fl} {i : Nat} (hn : NoNaN rows) (hp : p ≠ .nan)
    (hs : GSorted lt rows) (hf : rows.findIdx? (fun r => Fl.eq r.price p) = some i) :
    removeElement rows i ++ rows.drop (rows.length - 1) = rows ↔
      ∃ r, rows.getLast? = some r ∧ Fl.eq r.price p = true := by
  obtain ⟨l1, x, l2, rfl, rfl, hx, hall⟩ := findIdx?_some_split hf
  have hxn : x.price ≠ .nan := hn x (by simp)
  have hkx := (O.eq_iff _ _ hxn hp).1 hx
  unfold GSorted at hs
  rw [List.pairwise_append, List.pairwise_cons] at hs
  rcases List.eq_nil_or_concat l2 with rfl | ⟨t, y, rfl⟩
  · refine ⟨fun _ => ⟨x, by simp, hx⟩, fun _ => ?_⟩
    simp [removeElement]
  · have hy := hs.2.1.1 y (by simp)
    have hyn := hn y (by simp)
    have hlt := (O.lt_iff _ _ hxn hyn).1 hy
    have e1 : (l1 ++ x :: (t ++ [y])).getLast? = some y := by
      rw [show l1 ++ x :: (t ++ [y]) = (l1 ++ x :: t) ++ [y] by simp, List.getLast?_concat]
    rw [List.concat_eq_append] at *
    rw [e1]
    constructor
    · intro h
      exfalso
      have h2 : removeElement (l1 ++ x :: (t ++ [y])) l1.length = l1 ++ (t ++ [y]) := by
        simp [removeElement]
      rw [h2, List.append_assoc] at h
      have h3 := List.append_cancel_left h
      have : (t ++ [y] : List Row) ≠ [] := by simp
      obtain ⟨z, w, hz⟩ := List.exists_cons_of_ne_nil this
      rw [hz, List.cons_append] at h3
      have hzx := (List.cons.inj h3).1
      have hlt' := hs.2.1.1 z (by rw [hz]; simp)
      rw [hzx] at hlt'
      exact absurd ((O.lt_iff _ _ hxn hxn).1 hlt') (lt_irrefl _)
    · rintro ⟨r, hr, he⟩
      obtain rfl := Option.some.inj hr
      have := (O.eq_iff _ _ hyn hp).1 he
      rw [this, ← hkx] at hlt
      exact absurd hlt (lt_irrefl _)

end

/-! ## The book -/

theorem limit_heap {h h' : Heap Row} {b b' : HBook} (e : HBook.limit h b = .ok (h', b')) : h' = h := by
  unfold HBook.limit at e
  split at e
  · simp only [Res.ok.injEq, Prod.mk.injEq] at e; exact e.1.symm
  · simp at e

/-- What the update leaves in the window of a copy: `set` is the side with the level set. -/
def Spec.copySet (set rows : List Row) (p : Fl) (s : Slice) : List Row :=
  if (∃ r ∈ rows, Fl.eq r.price p = true) ∨ s.len < s.cap then set.take rows.length else rows

/-- The rest of the side and its last row once more, if the level was there. -/
def Spec.copyDelete (rows : List Row) (p : Fl) : List Row :=
  if ∃ r ∈ rows, Fl.eq r.price p = true then deleteLevel rows p ++ rows.getLast?.toList else rows

theorem drop_last {rows : List Row} : rows.drop (rows.length - 1) = rows.getLast?.toList := by
  rcases List.eq_nil_or_concat rows with rfl | ⟨t, y, rfl⟩
  · rfl
  · simp

section
variable (grow : Nat → Nat → Nat) {h h' : Heap Row} {hb hb' : HBook} {b : Book} {u : Update}

/-- **C150.** An update with a volume is applied to a book of which a copy was taken. The copy's
other side is as before. On the side of the update it shows the new rows cut to the old number of
rows if the level was there or the array had room, and the old rows otherwise. -/
theorem C150_copy_after_set (hs : Shows h hb b) (hw : WellFormed b) (hp : u.price ≠ .nan)
    (hv : Fl.ne u.volume (.fin 0) = true) (he : HBook.applyUpdate grow h hb u = .ok (h', hb')) :
    (u.side = "ask" → h'.load hb.bids = b.bids ∧
      h'.load hb.asks = copySet (setAsk b.asks u.price u.volume) b.asks u.price hb.asks) ∧
    (u.side = "bid" → h'.load hb.asks = b.asks ∧
      h'.load hb.bids = copySet (setBid b.bids u.price u.volume) b.bids u.price hb.bids) := by
  constructor
  · intro hside
    unfold HBook.applyUpdate at he
    rw [if_pos hside, if_pos hv] at he
    have hh := limit_heap he
    subst hh
    have hl : hb.asks.len = b.asks.length := by rw [← hs.asks, length_load]
    refine ⟨?_, ?_⟩
    · rw [((step_upsert grow _ hs.wfa u.price u.volume).1.other hs.wfb hs.sep).1, hs.bids]
    · refine (upsert_view grow _ hs.wfa u.price u.volume).trans ?_
      rw [hs.asks, ← upsertAsk_list, upsertAsk_set hw hp, copySet, hl]
  · intro hside
    unfold HBook.applyUpdate at he
    rw [if_neg (by rw [hside]; decide), if_pos hside, if_pos hv] at he
    have hh := limit_heap he
    subst hh
    have hl : hb.bids.len = b.bids.length := by rw [← hs.bids, length_load]
    refine ⟨?_, ?_⟩
    · rw [((step_upsert grow _ hs.wfb u.price u.volume).1.other hs.wfa (separate_comm hs.sep)).1, hs.asks]
    · refine (upsert_view grow _ hs.wfb u.price u.volume).trans ?_
      rw [hs.bids, ← upsertBid_list, upsertBid_set hw hp, copySet, hl]

/-- **C150.** After a deletion the copy shows the remaining rows and the last row twice. -/
theorem C150_copy_after_delete (hs : Shows h hb b) (hw : WellFormed b) (hp : u.price ≠ .nan)
    (hv : Fl.eq u.volume (.fin 0) = true) (he : HBook.applyUpdate grow h hb u = .ok (h', hb')) :
    (u.side = "ask" → h'.load hb.bids = b.bids ∧ h'.load hb.asks = copyDelete b.asks u.price) ∧
    (u.side = "bid" → h'.load hb.asks = b.asks ∧ h'.load hb.bids = copyDelete b.bids u.price) := by
  have hv' : ¬ Fl.ne u.volume (.fin 0) = true := by simp [Fl.ne, hv]
  have some_iff : ∀ {rows : List Row} {i : Nat}, rows.findIdx? (fun r => Fl.eq r.price u.price) = some i →
      ∃ r ∈ rows, Fl.eq r.price u.price = true := by
    intro rows i hf
    obtain ⟨hi, h1, _⟩ := List.findIdx?_eq_some_iff_getElem.1 hf
    exact ⟨_, List.getElem_mem hi, h1⟩
  have none_iff : ∀ {rows : List Row}, rows.findIdx? (fun r => Fl.eq r.price u.price) = none →
      ¬ ∃ r ∈ rows, Fl.eq r.price u.price = true := by
    rintro rows hf ⟨r, hr, he⟩
    rw [List.findIdx?_eq_none_iff] at hf
    rw [hf r hr] at he; exact absurd he (by simp)
  constructor
  · intro hside
    unfold HBook.applyUpdate at he
    rw [if_pos hside, if_neg hv'] at he
    have hl : hb.asks.len = b.asks.length := by rw [← hs.asks, length_load]
    rw [hs.asks] at he
    cases hf : b.asks.findIdx? (fun r => Fl.eq r.price u.price) with
    | none =>
      rw [hf] at he
      simp only [Res.ok.injEq, Prod.mk.injEq] at he
      rw [← he.1, copyDelete, if_neg (none_iff hf)]
      exact ⟨hs.bids, hs.asks⟩
    | some i =>
      rw [hf] at he
      have hh := limit_heap he
      subst hh
      have hi : i < hb.asks.len := by rw [hl]; exact findIdx?_lt hf
      refine ⟨?_, ?_⟩
      · rw [((step_removeElement grow hs.wfa hi).1.other hs.wfb hs.sep).1, hs.bids]
      · rw [remove_view grow hs.wfa hi, hs.asks, copyDelete, if_pos (some_iff hf), hl, drop_last,
          removeElement_eq askOrd hw.asks_num hp hw.askSorted hf]
  · intro hside
    unfold HBook.applyUpdate at he
    rw [if_neg (by rw [hside]; decide), if_pos hside, if_neg hv'] at he
    have hl : hb.bids.len = b.bids.length := by rw [← hs.bids, length_load]
    rw [hs.bids] at he
    cases hf : b.bids.findIdx? (fun r => Fl.eq r.price u.price) with
    | none =>
      rw [hf] at he
      simp only [Res.ok.injEq, Prod.mk.injEq] at he
      rw [← he.1, copyDelete, if_neg (none_iff hf)]
      exact ⟨hs.asks, hs.bids⟩
    | some i =>
      rw [hf] at he
      have hh := limit_heap he
      subst hh
      have hi : i < hb.bids.len := by rw [hl]; exact findIdx?_lt hf
      refine ⟨?_, ?_⟩
      · rw [((step_removeElement grow hs.wfb hi).1.other hs.wfa (separate_comm hs.sep)).1, hs.asks]
      · rw [remove_view grow hs.wfb hi, hs.bids, copyDelete, if_pos (some_iff hf), hl, drop_last,
          removeElement_eq bidOrd hw.bids_num hp hw.bidSorted hf]

/-- **C150.** Exactly when a copy is still right after an update of the original: the row written
was there already, or the level is new and either the array was full or the level is the worst;
for a deletion, when there was no such level or it was the worst. -/
theorem C150_copy_unchanged_iff (hs : Shows h hb b) (hw : WellFormed b) (hp : u.price ≠ .nan)
    (he : HBook.applyUpdate grow h hb u = .ok (h', hb')) :
    (u.side = "ask" → Fl.ne u.volume (.fin 0) = true →
      (h'.load hb.asks = b.asks ∧ h'.load hb.bids = b.bids ↔
        ⟨u.price, u.volume, .fin 0⟩ ∈ b.asks ∨
        ((∀ r ∈ b.asks, Fl.eq r.price u.price = false) ∧
          (hb.asks.len = hb.asks.cap ∨ ∀ r ∈ b.asks, Fl.lt r.price u.price = true)))) ∧
    (u.side = "bid" → Fl.ne u.volume (.fin 0) = true →
      (h'.load hb.asks = b.asks ∧ h'.load hb.bids = b.bids ↔
        ⟨u.price, u.volume, .fin 0⟩ ∈ b.bids ∨
        ((∀ r ∈ b.bids, Fl.eq r.price u.price = false) ∧
          (hb.bids.len = hb.bids.cap ∨ ∀ r ∈ b.bids, Fl.gt r.price u.price = true)))) ∧
    (u.side = "ask" → Fl.eq u.volume (.fin 0) = true →
      (h'.load hb.asks = b.asks ∧ h'.load hb.bids = b.bids ↔
        ∀ r ∈ b.asks.dropLast, Fl.eq r.price u.price = false)) ∧
    (u.side = "bid" → Fl.eq u.volume (.fin 0) = true →
      (h'.load hb.asks = b.asks ∧ h'.load hb.bids = b.bids ↔
        ∀ r ∈ b.bids.dropLast, Fl.eq r.price u.price = false)) := by
  have full : ∀ {s : Slice}, WF h s → (¬ s.len < s.cap ↔ s.len = s.cap) := by
    intro s w; have := w.1; omega
  have del : ∀ {lt : Fl → Fl → Bool} {α : Type} [LinearOrder α] {k : Fl → α} (O : SideOrd lt k)
      {rows : List Row}, NoNaN rows → GSorted lt rows →
      (copyDelete rows u.price = rows ↔ ∀ r ∈ rows.dropLast, Fl.eq r.price u.price = false) := by
    intro lt α _ k O rows hn hsorted
    unfold copyDelete
    by_cases hex : ∃ r ∈ rows, Fl.eq r.price u.price = true
    · rw [if_pos hex]
      cases hf : rows.findIdx? (fun r => Fl.eq r.price u.price) with
      | none =>
        obtain ⟨r, hr, he⟩ := hex
        rw [List.findIdx?_eq_none_iff] at hf
        rw [hf r hr] at he; exact absurd he (by simp)
      | some i =>
        rw [← removeElement_eq O hn hp hsorted hf, ← drop_last, delete_view_iff O hn hp hsorted hf]
        rcases List.eq_nil_or_concat rows with rfl | ⟨t, y, rfl⟩
        · simp at hf
        · rw [List.concat_eq_append] at *
          rw [List.getLast?_concat, List.dropLast_concat]
          unfold GSorted at hsorted
          rw [List.pairwise_append] at hsorted
          constructor
          · rintro ⟨r, hr, he⟩ z hz
            obtain rfl := Option.some.inj hr
            have h1 := hsorted.2.2 z hz y (by simp)
            have hzn := hn z (by simp [hz])
            have hyn := hn y (by simp)
            rw [O.eq_false_iff hzn hp, ← (O.eq_iff _ _ hyn hp).1 he]
            exact ((O.lt_iff _ _ hzn hyn).1 h1).ne
          · intro h1
            obtain ⟨r, hr, he⟩ := hex
            rcases List.mem_append.1 hr with hr | hr
            · rw [h1 r hr] at he; exact absurd he (by simp)
            · rw [List.mem_singleton] at hr; subst hr; exact ⟨r, rfl, he⟩
    · rw [if_neg hex]
      refine ⟨fun _ r hr => ?_, fun _ => rfl⟩
      by_contra hc
      exact hex ⟨r, List.dropLast_subset _ hr, by simpa using hc⟩
  refine ⟨?_, ?_, ?_, ?_⟩
  · intro hside hv
    obtain ⟨e1, e2⟩ := (C150_copy_after_set grow hs hw hp hv he).1 hside
    have hl : hb.asks.len = b.asks.length := by rw [← hs.asks, length_load]
    have key := set_view_iff askOrd (v := u.volume) hw.asks_num hp hw.askSorted (hb.asks.len < hb.asks.cap)
    rw [full hs.wfa] at key
    rw [e1, e2]
    refine Iff.trans ⟨fun h => h.1, fun h => ⟨h, rfl⟩⟩ key
  · intro hside hv
    obtain ⟨e1, e2⟩ := (C150_copy_after_set grow hs hw hp hv he).2 hside
    have key := set_view_iff bidOrd (v := u.volume) hw.bids_num hp hw.bidSorted (hb.bids.len < hb.bids.cap)
    rw [full hs.wfb] at key
    rw [e1, e2]
    refine Iff.trans ⟨fun h => h.2, fun h => ⟨rfl, h⟩⟩ key
  · intro hside hv
    obtain ⟨e1, e2⟩ := (C150_copy_after_delete grow hs hw hp hv he).1 hside
    rw [e1, e2]
    exact Iff.trans ⟨fun h => h.1, fun h => ⟨h, rfl⟩⟩ (del askOrd hw.asks_num hw.askSorted)
  · intro hside hv
    obtain ⟨e1, e2⟩ := (C150_copy_after_delete grow hs hw hp hv he).2 hside
    rw [e1, e2]
    exact Iff.trans ⟨fun h => h.2, fun h => ⟨rfl, h⟩⟩ (del bidOrd hw.bids_num hw.bidSorted)

end

/-- Asks 3, 5 with room: after the original inserts 4, the copy has lost its row at 5. -/
example : ∃ h' hb', HBook.applyUpdate (fun c _ => c) exHeap exHBook ⟨.fin 4, .fin 7, "ask"⟩ = .ok (h', hb') ∧
    h'.load exHBook.asks = [⟨.fin 3, .fin 1, .fin 0⟩, ⟨.fin 4, .fin 7, .fin 0⟩] :=
  ⟨_, _, rfl, by decide +kernel⟩

/-- Bids 2, 1 without room: after the original inserts 3/2 the copy is as before. -/
example : (match HBook.applyUpdate (fun c _ => c) exHeap exHBook ⟨.fin (3 / 2), .fin 7, "bid"⟩ with
    | .ok (h', hb') => decide (h'.load exHBook.bids = exBook.bids ∧ hb'.bids.len = 3)
    | _ => false) = true := by decide +kernel

/-- After a deletion of the best ask the copy shows the other one twice. -/
example : ∃ h' hb', HBook.applyUpdate (fun c _ => c) exHeap exHBook ⟨.fin 3, .fin 0, "ask"⟩ = .ok (h', hb') ∧
    h'.load exHBook.asks = [⟨.fin 5, .fin 2, .fin 0⟩, ⟨.fin 5, .fin 2, .fin 0⟩] :=
  ⟨_, _, rfl, by decide +kernel⟩

/-- The hypotheses hold of that memory. -/
example : Shows exHeap exHBook exBook ∧ WellFormed exBook := ⟨exShows, by decide +kernel⟩

end Finmod
