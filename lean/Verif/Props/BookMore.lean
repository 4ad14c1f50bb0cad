import Verif.Props.BookNew
import Verif.Props.BookHistory
import Verif.Lemmas.Print5
import Verif.Lemmas.Err

/-!
# C116–C119: more about books

Row order does not matter, rebuilding a book, limited and unlimited views, accumulated volumes.
-/

namespace Finmod
open Go Spec

/-- No two rows have the same price. -/
def Spec.DistinctPrices (rows : List Row) : Prop := rows.Pairwise (fun a b => Fl.eq a.price b.price = false)

instance (rows) : Decidable (DistinctPrices rows) := by unfold DistinctPrices; infer_instance

/-! ### C116: the order of the rows passed in -/

theorem sliceStable_order {lt : Fl → Fl → Bool} {α : Type} [LinearOrder α] {k : Fl → α} (O : SideOrd lt k)
    {l l' : List Row} (hp : l.Perm l') (hn : NumPrices l) (hd : DistinctPrices l) :
    sliceStable (lessOf lt) l = sliceStable (lessOf lt) l' := by
  have hn' : NumPrices l' := fun r hr => hn r (hp.symm.subset hr)
  have hd' : DistinctPrices l' :=
    (hp.pairwise_iff (fun {a b} h => by rw [fl_eq_comm]; exact h)).1 hd
  refine sorted_ext O (sliceStable_strict O hn hd) (sliceStable_strict O hn' hd')
    (sliceStable_num _ hn) (sliceStable_num _ hn') ?_
  intro r
  rw [(sliceStable_perm _ l).mem_iff, (sliceStable_perm _ l').mem_iff, hp.mem_iff]

/-- **C116** With pairwise different prices, `NewOrderBook` gives the same book for every order of
the rows passed in. -/
theorem C116_row_order_irrelevant (S : FloatSem) (now : Int) (asks asks' bids bids' : List Row) (d : Int)
    (ha : asks.Perm asks') (hb : bids.Perm bids') (hna : NumPrices asks) (hnb : NumPrices bids)
    (hda : DistinctPrices asks) (hdb : DistinctPrices bids) :
    newOrderBook S now asks bids d = newOrderBook S now asks' bids' d := by
  have e1 := sliceStable_order askOrd ha hna hda
  have e2 := sliceStable_order bidOrd hb hnb hdb
  unfold newOrderBook Book.sort
  change sliceStable (fun x y => Fl.lt x.price y.price) asks = sliceStable (fun x y => Fl.lt x.price y.price) asks' at e1
  change sliceStable (fun x y => Fl.gt x.price y.price) bids = sliceStable (fun x y => Fl.gt x.price y.price) bids' at e2
  simp only [e1, e2]

/-! ### C117: rebuilding -/

theorem accumulate_eq_self {S : FloatSem} {rows : List Row} (h : AccumOk S rows) :
    accumulate S none rows = rows := by
  apply List.ext_getElem (accumulate_length _ _ _)
  intro i h1 h2
  have e1 := accumulate_ok S rows i h1
  have e2 := h i h2
  have hpv := accumulate_pv S none rows
  have e3 : ((accumulate S none rows).map (fun r => (r.price, r.volume)))[i]'(by simpa using h1) =
      (rows.map (fun r => (r.price, r.volume)))[i]'(by simpa using h2) := by
    congr 1
  simp only [List.getElem_map, Prod.mk.injEq] at e3
  have e4 : ((accumulate S none rows).take (i + 1)).map (·.volume) = (rows.take (i + 1)).map (·.volume) := by
    have : ∀ l : List Row, l.map (·.volume) = (l.map (fun r => (r.price, r.volume))).map (·.2) := by
      intro l; simp
    rw [List.map_take, List.map_take, this, this rows, hpv]
  rw [e4] at e1
  have e5 := e1.trans e2.symm
  generalize (accumulate S none rows)[i] = x at *
  generalize rows[i] = y at *
  cases x; cases y
  simp only at e3 e5
  simp [e3.1, e3.2, e5]

/-- Sorting a sorted side changes nothing. -/
theorem sliceStable_sorted_self {lt : Fl → Fl → Bool} {α : Type} [LinearOrder α] {k : Fl → α} (O : SideOrd lt k)
    {l : List Row} (hn : NumPrices l) (hs : GSorted lt l) : sliceStable (lessOf lt) l = l := by
  have hd : DistinctPrices l := by
    refine List.Pairwise.imp_of_mem ?_ hs
    intro a b ha hb h
    exact (O.eq_false_iff (hn a ha) (hn b hb)).2 (ne_of_lt ((O.lt_iff _ _ (hn a ha) (hn b hb)).1 h))
  refine sorted_ext O (sliceStable_strict O hn hd) hs (sliceStable_num _ hn) hn ?_
  intro r
  exact (sliceStable_perm _ l).mem_iff

theorem rebuild_eq {S : FloatSem} (hS : Lawful S) (now : Int) (b : Book) (h : WellFormed b) (hd : 0 ≤ b.maxDepth)
    (hb : DepthOk b) (hl : b.maxDepth < 2 ^ 53) :
    newOrderBook S now b.asks b.bids b.maxDepth = .ok
      { time := now, maxDepth := b.maxDepth, asks := accumulate S none b.asks, bids := accumulate S none b.bids } := by
  obtain ⟨h1, h2⟩ := hb
  rw [newOrderBook_eq hS hd (by omega) (by omega)]
  have e1 := sliceStable_sorted_self askOrd h.asks_num h.askSorted
  have e2 := sliceStable_sorted_self bidOrd h.bids_num h.bidSorted
  change sliceStable (fun x y => Fl.lt x.price y.price) b.asks = b.asks at e1
  change sliceStable (fun x y => Fl.gt x.price y.price) b.bids = b.bids at e2
  rw [e1, e2, List.take_of_length_le (by omega), List.take_of_length_le (by omega)]

/-- **C117** After any updates, passing the sides to `NewOrderBook` gives a book with the same prices
and volumes in which every `AccumVolume` is the running volume. -/
theorem C117_rebuild_repairs {S : FloatSem} (hS : Lawful S) (now : Int) (b : Book) (h : WellFormed b)
    (hd : 0 ≤ b.maxDepth) (hb : DepthOk b) (hl : b.maxDepth < 2 ^ 53) (us : List Update) (hu : NumUpdates us) :
    ∃ b' b'', b.applyAll us = .ok b' ∧ newOrderBook S now b'.asks b'.bids b'.maxDepth = .ok b'' ∧
      b''.asks.map Row.pv = b'.asks.map Row.pv ∧ b''.bids.map Row.pv = b'.bids.map Row.pv ∧
      b''.maxDepth = b'.maxDepth ∧ b''.time = now ∧ AccumOk S b''.asks ∧ AccumOk S b''.bids := by
  obtain ⟨b', h1, hg, hm, _⟩ := applyAll_good (P := fun _ => True) hu (fun _ _ _ _ _ _ _ => trivial)
    ⟨h, hd, hb⟩ trivial
  refine ⟨b', _, h1, rebuild_eq hS now b' hg.wf hg.depth hg.bound (by omega), accumulate_pv _ _ _,
    accumulate_pv _ _ _, rfl, rfl, accumulate_ok _ _, accumulate_ok _ _⟩

/-- **C117**, second part: rebuilding a book whose `AccumVolume`s are right changes only the time. -/
theorem C117_rebuild_idempotent {S : FloatSem} (hS : Lawful S) (now : Int) (b : Book) (h : WellFormed b)
    (hd : 0 ≤ b.maxDepth) (hb : DepthOk b) (hl : b.maxDepth < 2 ^ 53)
    (ha : AccumOk S b.asks) (hbi : AccumOk S b.bids) :
    newOrderBook S now b.asks b.bids b.maxDepth = .ok { b with time := now } := by
  rw [rebuild_eq hS now b h hd hb hl, accumulate_eq_self ha, accumulate_eq_self hbi]

/-! ### C118: limited and deeper books -/

/-- `b` shows the best rows of the deeper book `B`. -/
def Spec.TopOf (b B : Book) : Prop :=
  b.asks = B.asks.take b.maxDepth.toNat ∧ b.bids = B.bids.take b.maxDepth.toNat

instance (b B) : Decidable (TopOf b B) := by unfold TopOf; infer_instance

/-- The full claim: a limited book goes on showing the best rows of the deeper one. -/
def Spec.C118_claim : Prop :=
  ∀ b B : Book, WellFormed B → DepthOk B → 0 ≤ b.maxDepth → b.maxDepth ≤ B.maxDepth → TopOf b B →
    ∀ us, NumUpdates us → ∀ b' B', b.applyAll us = .ok b' → B.applyAll us = .ok B' → TopOf b' B'

/-- **C118 is false of the code**: after a deletion the limited book lacks the next row. -/
theorem C118_limited_view_violated : ¬ C118_claim := by
  intro h
  have := h ⟨0, [⟨.fin 10, .fin 1, .fin 1⟩], [], 1⟩
    ⟨0, [⟨.fin 10, .fin 1, .fin 1⟩, ⟨.fin 11, .fin 1, .fin 2⟩], [], 5⟩
    (by decide +kernel) (by decide +kernel) (by decide) (by decide) (by decide +kernel)
    [⟨.fin 10, .fin 0, "ask"⟩] (by decide +kernel) ⟨0, [], [], 1⟩ ⟨0, [⟨.fin 11, .fin 1, .fin 2⟩], [], 5⟩
    (by decide +kernel) (by decide +kernel)
  revert this
  decide +kernel

section take
variable {lt : Fl → Fl → Bool} {α : Type} [LinearOrder α] {k : Fl → α} (O : SideOrd lt k)
include O

theorem gSet_take {rows : List Row} {p v : Fl} (hn : NoNaN rows) (hp : p ≠ .nan) (hs : GSorted lt rows) (d : Nat) :
    (gSet lt (rows.take d) p v).take d = (gSet lt rows p v).take d := by
  by_cases hle : rows.length ≤ d
  · rw [List.take_of_length_le hle]
  have hlen : (rows.take d).length = d := by rw [List.length_take]; omega
  have hsplit : rows = rows.take d ++ rows.drop d := (List.take_append_drop d rows).symm
  generalize rows.take d = A at *
  generalize rows.drop d = R at *
  subst hsplit
  clear hle
  unfold GSorted at hs
  rw [List.pairwise_append] at hs
  obtain ⟨sA, sR, sAR⟩ := hs
  have nA : ∀ r ∈ A, r.price ≠ .nan := fun r hr => hn r (by simp [hr])
  have nR : ∀ r ∈ R, r.price ≠ .nan := fun r hr => hn r (by simp [hr])
  unfold gSet
  simp only [List.filter_append]
  cases hf : R.filter (fun r => lt r.price p) with
  | cons x xs =>
    have hx : x ∈ R ∧ lt x.price p = true := by
      have : x ∈ R.filter (fun r => lt r.price p) := by rw [hf]; simp
      simpa using this
    have hall : A.filter (fun r => lt r.price p) = A := by
      rw [List.filter_eq_self]
      intro a ha
      have h1 := (O.lt_iff _ _ (nA a ha) (nR x hx.1)).1 (sAR a ha x hx.1)
      have h2 := (O.lt_iff _ _ (nR x hx.1) hp).1 hx.2
      exact (O.lt_iff _ _ (nA a ha) hp).2 (h1.trans h2)
    rw [hall]
    simp only [List.append_assoc]
    rw [List.take_append_of_le_length (by omega), List.take_append_of_le_length (by omega)]
  | nil =>
    have hge : d ≤ (A.filter (fun r => lt r.price p) ++ [(⟨p, v, .fin 0⟩ : Row)] ++
        A.filter (fun r => lt p r.price)).length := by
      have key : A.length ≤ (A.filter (fun r => lt r.price p)).length + 1 + (A.filter (fun r => lt p r.price)).length := by
        clear hlen hf sAR hn
        induction A with
        | nil => simp
        | cons a A ih =>
          have p1 := List.pairwise_cons.1 sA
          have nA' : ∀ r ∈ A, r.price ≠ .nan := fun r hr => nA r (by simp [hr])
          have na := nA a (by simp)
          have ih := ih p1.2 nA'
          rw [List.filter_cons, List.filter_cons]
          by_cases h1 : lt a.price p = true
          · rw [if_pos h1]; split <;> simp only [List.length_cons] <;> omega
          · rw [if_neg h1]
            by_cases h2 : lt p a.price = true
            · rw [if_pos h2]; simp only [List.length_cons]; omega
            · rw [if_neg h2]
              have hk1 : k p ≤ k a.price := by
                rw [Bool.not_eq_true] at h1; exact (O.lt_false_iff na hp).1 h1
              have e : A.filter (fun r => lt p r.price) = A := by
                rw [List.filter_eq_self]
                intro r hr
                have := (O.lt_iff _ _ na (nA' r hr)).1 (p1.1 r hr)
                exact (O.lt_iff _ _ hp (nA' r hr)).2 (lt_of_le_of_lt hk1 this)
              rw [e]; simp only [List.length_cons]; omega
      simp only [List.length_append, List.length_singleton]; omega
    rw [List.append_nil, ← List.append_assoc, List.take_append_of_le_length hge]

end take

/-- What one non-crossing update does to the two sides. -/
theorem step_plain {b : Book} {u : Update} (hg : Good b) (hp : u.price ≠ .nan)
    (hna : u.side = "ask" → Fl.ne u.volume (.fin 0) = true → ∀ r ∈ b.bids, Fl.lt r.price u.price = true)
    (hnb : u.side = "bid" → Fl.ne u.volume (.fin 0) = true → ∀ r ∈ b.asks, Fl.lt u.price r.price = true) :
    ∃ b', (b.applyUpdate u = .ok b' ∨ ∃ c, b.applyUpdate u = .err c b') ∧ Good b' ∧ b'.maxDepth = b.maxDepth ∧
      b'.asks = (if u.side = "ask" then
        (if Fl.ne u.volume (.fin 0) = true then (gSet Fl.lt b.asks u.price u.volume).take b.maxDepth.toNat
         else deleteLevel b.asks u.price) else b.asks) ∧
      b'.bids = (if u.side = "bid" then
        (if Fl.ne u.volume (.fin 0) = true then (gSet (fun x y => Fl.lt y x) b.bids u.price u.volume).take b.maxDepth.toNat
         else deleteLevel b.bids u.price) else b.bids) := by
  obtain ⟨b', h1, hst⟩ := step_to hg hp
  obtain ⟨g1, g2, _⟩ := stepTo_good hg hp hst
  refine ⟨b', h1, g1, g2, ?_⟩
  cases hst with
  | askSet hs hv =>
    have : (removeInvalidBid b.bids u.price).1 = b.bids := by
      rw [removeInvalidBid_eq]
      apply gRemove_noop
      intro r hr
      exact hna hs hv r (List.mem_of_mem_head? hr)
    simp [hs, hv, setAsk_eq, this]
  | askDel hs hv => simp [hs, hv]
  | bidSet hs hv =>
    have : (removeInvalidAsk b.asks u.price).1 = b.asks := by
      rw [removeInvalidAsk_eq]
      apply gRemove_noop
      intro r hr
      exact hnb hs hv r (List.mem_of_mem_head? hr)
    simp [hs, hv, setBid_eq, this]
  | bidDel hs hv => simp [hs, hv]
  | other o1 o2 => simp [o1, o2]

theorem applyAll_cons_of {b b' : Book} {u : Update} {us : List Update}
    (h : b.applyUpdate u = .ok b' ∨ ∃ c, b.applyUpdate u = .err c b') : b.applyAll (u :: us) = b'.applyAll us := by
  rcases h with h | ⟨c, h⟩ <;> simp only [Book.applyAll, h]

/-- **C118** (partial): holds for histories that delete nothing and cross nothing. -/
theorem C118_limited_view_partial (b B : Book) (h : WellFormed B) (hb : DepthOk B) (hd : 0 ≤ b.maxDepth)
    (hD : b.maxDepth ≤ B.maxDepth) (ht : TopOf b B) (us : List Update) (hu : NumUpdates us)
    (hv : ∀ u ∈ us, Fl.ne u.volume (.fin 0) = true) (hnc : NonCrossing B us) :
    ∃ b' B', b.applyAll us = .ok b' ∧ B.applyAll us = .ok B' ∧ TopOf b' B' := by
  have hg : Good B := ⟨h, by omega, hb⟩
  clear h hb
  induction us generalizing b B with
  | nil => exact ⟨b, B, rfl, rfl, ht⟩
  | cons u us ih =>
    obtain ⟨hn1, hn2, hn3⟩ := hnc
    have hp := hu u (by simp)
    have hvu := hv u (by simp)
    obtain ⟨t1, t2⟩ := ht
    have hgb : Good b := by
      refine ⟨⟨?_, ?_, ?_, ?_⟩, hd, ?_, ?_⟩
      · rw [t1]; exact take_num hg.wf.asks_num
      · rw [t2]; exact take_num hg.wf.bids_num
      · rw [t1]; exact take_sorted (lt := Fl.lt) hg.wf.askSorted
      · rw [t2]; exact take_sorted (lt := fun a b => Fl.lt b a) hg.wf.bidSorted
      · rw [t1, List.length_take]; omega
      · rw [t2, List.length_take]; omega
    obtain ⟨B1, sB, gB, mB, aB, bB⟩ := step_plain hg hp hn1 hn2
    obtain ⟨b1, sb, gb, mb, ab, bb⟩ := step_plain hgb hp
      (fun e1 e2 r hr => hn1 e1 e2 r (List.mem_of_mem_take (by rw [← t2]; exact hr)))
      (fun e1 e2 r hr => hn2 e1 e2 r (List.mem_of_mem_take (by rw [← t1]; exact hr)))
    have ht1 : TopOf b1 B1 := by
      unfold TopOf
      rw [ab, bb, aB, bB, mb, hvu]
      simp only [if_true]
      have m : min b.maxDepth.toNat B.maxDepth.toNat = b.maxDepth.toNat := by omega
      constructor
      · split
        · rw [List.take_take, m, t1, gSet_take askOrd hg.wf.asks_num hp hg.wf.askSorted]
        · exact t1
      · split
        · rw [List.take_take, m, t2, gSet_take bidOrd hg.wf.bids_num hp hg.wf.bidSorted]
        · exact t2
    rw [applyAll_cons_of sB, applyAll_cons_of sb]
    exact ih b1 B1 (by omega) (by omega) ht1 (fun w hw => hu w (by simp [hw])) (fun w hw => hv w (by simp [hw]))
      (hn3 B1 sB) gB

/-- **C118** (partial): with deletions, but without crossings, and with room in the deeper book,
every row of the limited book is still a row of the deeper one. -/
theorem C118_rows_partial (b B : Book) (h : WellFormed B) (hb : DepthOk B) (hd : 0 ≤ b.maxDepth)
    (hD : b.maxDepth ≤ B.maxDepth) (ht : TopOf b B) (us : List Update) (hu : NumUpdates us)
    (ra : (B.asks.length : Int) + us.length ≤ B.maxDepth) (rb : (B.bids.length : Int) + us.length ≤ B.maxDepth)
    (hnc : NonCrossing B us) :
    ∃ b' B', b.applyAll us = .ok b' ∧ B.applyAll us = .ok B' ∧
      (∀ r ∈ b'.asks, r ∈ B'.asks) ∧ (∀ r ∈ b'.bids, r ∈ B'.bids) := by
  have hg : Good B := ⟨h, by omega, hb⟩
  obtain ⟨t1, t2⟩ := ht
  have hgb : Good b := by
    refine ⟨⟨?_, ?_, ?_, ?_⟩, hd, ?_, ?_⟩
    · rw [t1]; exact take_num hg.wf.asks_num
    · rw [t2]; exact take_num hg.wf.bids_num
    · rw [t1]; exact take_sorted (lt := Fl.lt) hg.wf.askSorted
    · rw [t2]; exact take_sorted (lt := fun a b => Fl.lt b a) hg.wf.bidSorted
    · rw [t1, List.length_take]; omega
    · rw [t2, List.length_take]; omega
  have s1 : ∀ r ∈ b.asks, r ∈ B.asks := fun r hr => List.mem_of_mem_take (by rw [← t1]; exact hr)
  have s2 : ∀ r ∈ b.bids, r ∈ B.bids := fun r hr => List.mem_of_mem_take (by rw [← t2]; exact hr)
  clear t1 t2 hD hd h hb
  induction us generalizing b B with
  | nil => exact ⟨b, B, rfl, rfl, s1, s2⟩
  | cons u us ih =>
    obtain ⟨hn1, hn2, hn3⟩ := hnc
    have hp := hu u (by simp)
    simp only [List.length_cons] at ra rb
    push_cast at ra rb
    obtain ⟨B1, sB, gB, mB, aB, bB⟩ := step_plain hg hp hn1 hn2
    obtain ⟨b1, sb, gb, mb, ab, bb⟩ := step_plain hgb hp
      (fun e1 e2 r hr => hn1 e1 e2 r (s2 r hr)) (fun e1 e2 r hr => hn2 e1 e2 r (s1 r hr))
    have la := setAsk_length B.asks u.price u.volume hg.wf.asks_num
    have lb := setBid_length B.bids u.price u.volume hg.wf.bids_num
    rw [setAsk_eq] at la
    rw [setBid_eq] at lb
    have da := deleteLevel_length B.asks u.price
    have db := deleteLevel_length B.bids u.price
    have hla : (B1.asks.length : Int) + us.length ≤ B1.maxDepth := by
      rw [aB, mB]
      split
      · split
        · rw [List.length_take]; omega
        · omega
      · omega
    have hlb : (B1.bids.length : Int) + us.length ≤ B1.maxDepth := by
      rw [bB, mB]
      split
      · split
        · rw [List.length_take]; omega
        · omega
      · omega
    have u1 : ∀ r ∈ b1.asks, r ∈ B1.asks := by
      rw [ab, aB]
      intro r hr
      split at hr
      · rename_i e; rw [if_pos e]
        split at hr
        · rename_i e; rw [if_pos e, List.take_of_length_le (by omega), mem_gSet askOrd hg.wf.asks_num hp]
          rcases (mem_gSet askOrd hgb.wf.asks_num hp).1 (List.mem_of_mem_take hr) with h | ⟨h1, h2⟩
          · exact .inl h
          · exact .inr ⟨s1 r h1, h2⟩
        · rename_i e; rw [if_neg e]
          unfold deleteLevel at hr ⊢
          rw [List.mem_filter] at hr ⊢
          exact ⟨s1 r hr.1, hr.2⟩
      · rename_i e; rw [if_neg e]; exact s1 r hr
    have u2 : ∀ r ∈ b1.bids, r ∈ B1.bids := by
      rw [bb, bB]
      intro r hr
      split at hr
      · rename_i e; rw [if_pos e]
        split at hr
        · rename_i e; rw [if_pos e, List.take_of_length_le (by omega), mem_gSet bidOrd hg.wf.bids_num hp]
          rcases (mem_gSet bidOrd hgb.wf.bids_num hp).1 (List.mem_of_mem_take hr) with h | ⟨h1, h2⟩
          · exact .inl h
          · exact .inr ⟨s2 r h1, h2⟩
        · rename_i e; rw [if_neg e]
          unfold deleteLevel at hr ⊢
          rw [List.mem_filter] at hr ⊢
          exact ⟨s2 r hr.1, hr.2⟩
      · rename_i e; rw [if_neg e]; exact s2 r hr
    rw [applyAll_cons_of sB, applyAll_cons_of sb]
    exact ih b1 B1 (fun w hw => hu w (by simp [hw])) hla hlb (hn3 B1 sB) gB gb u1 u2

/-! ### C119: accumulated volumes -/

theorem add_ge_left {S : FloatSem} (hS : Lawful S) {x y : Fl} (hr : S.Rep x) (hx : Fl.le (.fin 0) x = true)
    (hy : Fl.le (.fin 0) y = true) : Fl.le x (S.add x y) = true := by
  rcases nonneg_cases hx with rfl | ⟨a, ha, ha0⟩
  · cases y <;> first | (simp [Fl.le, Fl.isNaN] at hy; done) | skip
    all_goals first
      | (simp [FloatSem.add, Fl.le, Fl.isNaN, Fl.key]; done)
      | (rename_i c; cases c <;> simp_all [FloatSem.add, Fl.le, Fl.isNaN, Fl.key])
  · rcases nonneg_cases hy with rfl | ⟨b, hb, hb0⟩
    · cases x <;> simp_all [FloatSem.add, Fl.le, Fl.isNaN, Fl.key]
    · rcases FloatSem.add_is (S := S) ha hb with h | ⟨h, h1, h2⟩
      · rw [h]
        have m := hS.r64.mono a (a + b) (by linarith)
        have hx0 : x.key = (S.rnd a).key := by
          rcases ha with rfl | ⟨rfl, rfl⟩
          · rw [hr a rfl]
          · have : S.rnd ((0 : ℤ) : ℚ) = .fin ((0 : ℤ) : ℚ) := hS.r64.int 0 (by norm_num)
            rw [Int.cast_zero] at this
            rw [this]; simp [Fl.key]
        rw [← hx0] at m
        exact Fl.le_iff.2 ⟨ha.ne_nan, hS.r64.not_nan _, m⟩
      · rw [h, ha.le Fl.is_negZero]
        have := h1
        have e : a = 0 := by linarith [h2]
        simp [e]

theorem runningSum_snoc (S : FloatSem) (vs : List Fl) (h : vs ≠ []) (v : Fl) :
    runningSum S (vs ++ [v]) = S.add (runningSum S vs) v := by
  cases vs with
  | nil => exact absurd rfl h
  | cons a vs => simp [runningSum]

theorem runningSum_props {S : FloatSem} (hS : Lawful S) {vs : List Fl} (hr : ∀ v ∈ vs, S.Rep v)
    (hv : ∀ v ∈ vs, Fl.le (.fin 0) v = true) (hne : vs ≠ []) :
    S.Rep (runningSum S vs) ∧ Fl.le (.fin 0) (runningSum S vs) = true := by
  induction vs using List.reverseRecOn with
  | nil => exact absurd rfl hne
  | append_singleton vs v ih =>
    by_cases h0 : vs = []
    · subst h0
      simp only [List.nil_append, runningSum, List.foldl_nil]
      exact ⟨hr v (by simp), hv v (by simp)⟩
    · rw [runningSum_snoc S vs h0]
      obtain ⟨_, h2⟩ := ih (fun w hw => hr w (by simp [hw])) (fun w hw => hv w (by simp [hw])) h0
      exact ⟨rep_add hS, add_nonneg_fl hS h2 (hv v (by simp))⟩

/-- A side whose volumes are non-negative floats. -/
def Spec.VolumesOk (S : FloatSem) (rows : List Row) : Prop :=
  ∀ r ∈ rows, S.Rep r.volume ∧ Fl.le (.fin 0) r.volume = true

theorem accum_le {S : FloatSem} (hS : Lawful S) {rows : List Row} (ha : AccumOk S rows) (hv : VolumesOk S rows)
    (i j : Nat) (hij : i ≤ j) (hj : j < rows.length) :
    Fl.le (.fin 0) (rows[i]'(by omega)).accum = true ∧ Fl.le (rows[i]'(by omega)).accum rows[j].accum = true := by
  have props : ∀ m, m < rows.length → S.Rep (runningSum S ((rows.take (m + 1)).map (·.volume))) ∧
      Fl.le (.fin 0) (runningSum S ((rows.take (m + 1)).map (·.volume))) = true := by
    intro m hm
    apply runningSum_props hS
    · intro v hv'
      obtain ⟨r, hr, rfl⟩ := List.mem_map.1 hv'
      exact (hv r (List.mem_of_mem_take hr)).1
    · intro v hv'
      obtain ⟨r, hr, rfl⟩ := List.mem_map.1 hv'
      exact (hv r (List.mem_of_mem_take hr)).2
    · have : rows ≠ [] := by rintro rfl; simp at hm
      simp [this]
  have hi : i < rows.length := by omega
  rw [ha i hi, ha j hj]
  refine ⟨(props i hi).2, ?_⟩
  obtain ⟨n, rfl⟩ := Nat.exists_eq_add_of_le hij
  clear hij
  induction n with
  | zero =>
    have := (props i hi).2
    exact fl_le_refl (Fl.le_iff.1 this).2.1
  | succ n ih =>
    have h1 := ih (by omega)
    refine fl_le_trans h1 ?_
    have e : (rows.take (i + (n + 1) + 1)).map (·.volume) =
        (rows.take (i + n + 1)).map (·.volume) ++ [rows[i + n + 1].volume] := by
      rw [← List.map_singleton (f := fun r : Row => r.volume), ← List.map_append, List.take_append_getElem]
      rfl
    rw [e, runningSum_snoc]
    · exact add_ge_left hS (props (i + n) (by omega)).1 (props (i + n) (by omega)).2
        (hv _ (List.getElem_mem _)).2
    · have : rows ≠ [] := by rintro rfl; simp at hi
      simp [this]

theorem newOrderBook_volumes {S : FloatSem} {now : Int} {asks bids : List Row} {d : Int} {b : Book}
    (h : newOrderBook S now asks bids d = .ok b) :
    (∀ r ∈ b.asks, ∃ r' ∈ asks, r'.volume = r.volume) ∧ (∀ r ∈ b.bids, ∃ r' ∈ bids, r'.volume = r.volume) := by
  have cut : ∀ {l l' : List Row} {n : Int}, sliceTo l n = some l' → ∀ r ∈ l', r ∈ l := by
    intro l l' n h r hr
    unfold sliceTo at h
    split at h
    · cases h
    · cases h; exact List.mem_of_mem_take hr
  unfold newOrderBook Book.sort at h
  simp only at h
  split at h
  · rename_i A B hA hB
    simp only [Res.ok.injEq] at h
    subst h
    constructor
    · intro r hr
      obtain ⟨r', h1, _, h2⟩ := accumulate_mem_price _ _ _ _ hr
      exact ⟨r', (sliceStable_perm _ _).subset (cut hA r' h1), h2⟩
    · intro r hr
      obtain ⟨r', h1, _, h2⟩ := accumulate_mem_price _ _ _ _ hr
      exact ⟨r', (sliceStable_perm _ _).subset (cut hB r' h1), h2⟩
  · simp at h

/-- **C119** In a new book with non-negative volumes, `AccumVolume` is non-negative and never
decreases from the best row down, in every lawful arithmetic. -/
theorem C119_accum_monotone {S : FloatSem} (hS : Lawful S) (now : Int) (asks bids : List Row) (d : Int)
    (b : Book) (h : newOrderBook S now asks bids d = .ok b) (hva : VolumesOk S asks) (hvb : VolumesOk S bids) :
    (∀ i j (_ : i ≤ j) (hj : j < b.asks.length), Fl.le (.fin 0) (b.asks[i]'(by omega)).accum = true ∧
      Fl.le (b.asks[i]'(by omega)).accum b.asks[j].accum = true) ∧
    (∀ i j (_ : i ≤ j) (hj : j < b.bids.length), Fl.le (.fin 0) (b.bids[i]'(by omega)).accum = true ∧
      Fl.le (b.bids[i]'(by omega)).accum b.bids[j].accum = true) := by
  obtain ⟨h1, h2⟩ := C02_accum_volume_running_sum S now asks bids d b h
  obtain ⟨m1, m2⟩ := newOrderBook_volumes h
  exact ⟨fun i j hij hj => accum_le hS h1 (fun r hr => by
      obtain ⟨r', hr', e⟩ := m1 r hr; rw [← e]; exact hva r' hr') i j hij hj,
    fun i j hij hj => accum_le hS h2 (fun r hr => by
      obtain ⟨r', hr', e⟩ := m2 r hr; rw [← e]; exact hvb r' hr') i j hij hj⟩

theorem runningSum_near {xs : List Fl} {as : List ℚ} (hx : List.Forall₂ IsF xs as)
    (hn : 2 * (xs.length : ℚ) * uR ≤ 1) (hB : 2 * (as.map abs).sum ≤ huge) :
    ∃ r, IsF (runningSum ieee xs) r ∧ |r - as.sum| ≤ 2 * (xs.length : ℚ) * uR * (as.map abs).sum := by
  cases hx with
  | nil => exact ⟨0, isF_zero, by simp⟩
  | @cons x a xs as hxa hrest =>
    have hs : 0 ≤ (as.map abs).sum := List.sum_nonneg (by
      intro y hy; obtain ⟨z, _, rfl⟩ := List.mem_map.1 hy; exact abs_nonneg z)
    have h0 := abs_nonneg a
    have hu := uR_pos
    have hl : (0 : ℚ) ≤ xs.length := Nat.cast_nonneg _
    simp only [List.length_cons, List.map_cons, List.sum_cons] at hn hB ⊢
    push_cast at hn ⊢
    obtain ⟨r, h1, h2⟩ := sum_near_aux hrest x a a |a| 0 hxa (by simp) le_rfl
      (by simp only [Nat.zero_add]; linarith) hB
    refine ⟨r, h1, h2.trans ?_⟩
    simp only [Nat.zero_add]
    apply mul_le_mul_of_nonneg_right _ (by linarith)
    linarith

/-- **C119**, accuracy: in float64 each `AccumVolume` of a new book is within `2 n 2^-53` times the
total of the true sum of the first `n` volumes, for finite volumes of a total up to `2^900`. -/
theorem C119_accum_accurate (now : Int) (asks bids : List Row) (d : Int) (b : Book)
    (h : newOrderBook ieee now asks bids d = .ok b)
    (hv : ∀ r ∈ asks ++ bids, ieee.Rep r.volume ∧ Fl.le (.fin 0) r.volume = true ∧ r.volume.isFinite = true)
    (rows : List Row) (hrows : rows = b.asks ∨ rows = b.bids) (n : Nat) (hn : n < rows.length) (hn2 : n < 2 ^ 51)
    (htot : ((rows.take (n + 1)).map (fun r => r.volume.toRat)).sum ≤ 2 ^ (900 : ℤ)) :
    let total := ((rows.take (n + 1)).map (fun r => r.volume.toRat)).sum
    rows[n].accum.isFinite = true ∧ |rows[n].accum.toRat - total| ≤ 2 * (n + 1) * 2 ^ (-53 : ℤ) * total := by
  intro total
  obtain ⟨h1, h2⟩ := C02_accum_volume_running_sum ieee now asks bids d b h
  obtain ⟨m1, m2⟩ := newOrderBook_volumes h
  have hrv : ∀ r ∈ rows, ieee.Rep r.volume ∧ Fl.le (.fin 0) r.volume = true ∧ r.volume.isFinite = true := by
    intro r hr
    rcases hrows with rfl | rfl
    · obtain ⟨r', hr', e⟩ := m1 r hr; rw [← e]; exact hv r' (by simp [hr'])
    · obtain ⟨r', hr', e⟩ := m2 r hr; rw [← e]; exact hv r' (by simp [hr'])
  have hacc : AccumOk ieee rows := by rcases hrows with rfl | rfl <;> assumption
  have hF : List.Forall₂ IsF ((rows.take (n + 1)).map (·.volume)) ((rows.take (n + 1)).map (fun r => r.volume.toRat)) := by
    rw [List.forall₂_map_left_iff, List.forall₂_map_right_iff, List.forall₂_same]
    intro r hr
    obtain ⟨a, _, c⟩ := hrv r (List.mem_of_mem_take hr)
    exact isF_of_rep (Fl.isFinite_is c) a
  have habs : (((rows.take (n + 1)).map (fun r => r.volume.toRat)).map abs).sum = total := by
    rw [List.map_map]
    refine congrArg List.sum (List.map_congr_left ?_)
    intro r hr
    obtain ⟨_, h0, c⟩ := hrv r (List.mem_of_mem_take hr)
    rw [(Fl.is_fin 0).le (Fl.isFinite_is c)] at h0
    exact abs_of_nonneg (by simpa using h0)
  have hlen : ((rows.take (n + 1)).map (fun r : Row => r.volume)).length = n + 1 := by
    rw [List.length_map, List.length_take]; omega
  have hus : uR = 1 / 2 ^ 53 := by rw [uR_eq]; norm_num
  obtain ⟨r, hr, hre⟩ := runningSum_near hF (by
    rw [hlen, hus]
    have : ((n + 1 : ℕ) : ℚ) ≤ 2 ^ 51 := by exact_mod_cast (by omega : n + 1 ≤ 2 ^ 51)
    have := mul_le_mul_of_nonneg_right this (by norm_num : (0 : ℚ) ≤ 1 / 2 ^ 53)
    have e : (2 : ℚ) ^ 51 * (1 / 2 ^ 53) = 1 / 4 := by norm_num
    linarith) (by
    rw [habs]
    have e : (2 : ℚ) ^ (901 : ℤ) = 2 * 2 ^ (900 : ℤ) := by
      rw [show (901 : ℤ) = 1 + 900 by norm_num, zpow_add₀ (by norm_num)]; norm_num
    have : (2 : ℚ) ^ (901 : ℤ) ≤ huge := by
      rw [huge_eq]; exact zpow_le_zpow_right₀ (by norm_num) (by norm_num)
    rw [e] at this
    exact (mul_le_mul_of_nonneg_left htot (by norm_num)).trans this)
  rw [habs, hlen, uR_eq] at hre
  rw [hacc n hn]
  have hi := Fl.is_iff.1 hr.1
  refine ⟨hi.1, ?_⟩
  rw [hi.2]
  push_cast at hre
  exact hre

/-! ### Examples -/

def exRows : List Row := [⟨.fin 12, .fin 3, .fin 0⟩, ⟨.fin 10, .fin 1, .fin 7⟩, ⟨.fin 11, .fin 2, .fin 0⟩]

/-- C116: three rows and the same in the other order. -/
example : exRows.Perm exRows.reverse ∧ NumPrices exRows ∧ DistinctPrices exRows := by
  refine ⟨?_, by decide +kernel, by decide +kernel⟩
  exact (List.reverse_perm _).symm

example : newOrderBook ieee 5 exRows [] 2 = .ok ⟨5, [⟨.fin 10, .fin 1, .fin 1⟩, ⟨.fin 11, .fin 2, .fin 3⟩], [], 2⟩ := by
  decide +kernel

/-- C117: a book and an update that crosses. -/
example : WellFormed Ex.book ∧ 0 ≤ Ex.book.maxDepth ∧ DepthOk Ex.book ∧ Ex.book.maxDepth < 2 ^ 53 ∧
    NumUpdates [⟨.fin 9, .fin 2, "ask"⟩] := by decide +kernel

/-- C118: a book of depth 2 and a deeper one, and two updates that insert a row and replace one. -/
example : TopOf ⟨0, [⟨.fin 10, .fin 1, .fin 1⟩, ⟨.fin 12, .fin 1, .fin 2⟩], [], 2⟩
      ⟨0, [⟨.fin 10, .fin 1, .fin 1⟩, ⟨.fin 12, .fin 1, .fin 2⟩, ⟨.fin 13, .fin 4, .fin 6⟩], [], 9⟩ ∧
    (Book.applyAll ⟨0, [⟨.fin 10, .fin 1, .fin 1⟩, ⟨.fin 12, .fin 1, .fin 2⟩], [], 2⟩
      [⟨.fin 11, .fin 3, "ask"⟩, ⟨.fin 13, .fin 5, "ask"⟩]) =
        .ok ⟨0, [⟨.fin 10, .fin 1, .fin 1⟩, ⟨.fin 11, .fin 3, .fin 0⟩], [], 2⟩ := by decide +kernel

example : NonCrossing ⟨0, [⟨.fin 10, .fin 1, .fin 1⟩], [], 9⟩ [⟨.fin 11, .fin 3, "ask"⟩] := by
  refine ⟨by simp, by simp, fun _ _ => trivial⟩

example : VolumesOk ieee exRows := by
  intro r hr
  simp only [exRows, List.mem_cons, List.not_mem_nil, or_false] at hr
  rcases hr with rfl | rfl | rfl
  all_goals
    refine ⟨?_, by decide +kernel⟩
    intro q hq
    cases hq
    decide +kernel

end Finmod
