import Verif.Go.IEEE
import Verif.Lemmas.NewBook

/-!
# C01–C04: `NewOrderBook`, depth bound, sortedness
-/

namespace Finmod
open Go Spec

/-- Price and volume of a row. -/
abbrev Row.pv (r : Row) : Fl × Fl := (r.price, r.volume)

/-- `F` is the stable sort of `L` by price in the order `le` ("first argument comes no later"). -/
structure Spec.StableSort (le : Fl → Fl → Prop) (L F : List Row) : Prop where
  perm : F.Perm L
  sorted : F.Pairwise (fun a b => le a.price b.price)
  stable : ∀ p : Fl, F.filter (fun r => Fl.eq r.price p) = L.filter (fun r => Fl.eq r.price p)

theorem filter_eq_key {l : List Row} {p : Fl} (hn : NumPrices l) :
    l.filter (fun r => Fl.eq r.price p) =
      if p = .nan then [] else l.filter (fun r => decide (r.price.key = p.key)) := by
  split_ifs with hp
  · subst hp
    rw [List.filter_eq_nil_iff]
    intro a _; simp [Fl.eq, Fl.isNaN]
  · apply List.filter_congr
    intro r hr
    exact Fl.eq_of_num (hn r hr) hp

theorem stableSort_asks {l : List Row} (hn : NumPrices l) :
    StableSort (fun x y => Fl.le x y = true) l
      (sliceStable (fun x y => Fl.lt x.price y.price) l) where
  perm := sliceStable_perm _ _
  sorted := by
    refine List.Pairwise.imp_of_mem ?_ (sliceStable_sorted askOrd hn)
    intro a b ha hb h
    have hnn := sliceStable_num (lessOf Fl.lt) hn
    exact Fl.le_iff.2 ⟨hnn a ha, hnn b hb, h⟩
  stable := by
    intro p
    have hnn := sliceStable_num (lessOf Fl.lt) hn
    rw [filter_eq_key hn, filter_eq_key hnn]
    split_ifs
    · rfl
    · exact sliceStable_stable askOrd hn p.key

theorem stableSort_bids {l : List Row} (hn : NumPrices l) :
    StableSort (fun x y => Fl.ge x y = true) l
      (sliceStable (fun x y => Fl.gt x.price y.price) l) where
  perm := sliceStable_perm _ _
  sorted := by
    refine List.Pairwise.imp_of_mem ?_ (sliceStable_sorted bidOrd hn)
    intro a b ha hb h
    have hnn := sliceStable_num (lessOf (fun a b => Fl.lt b a)) hn
    exact Fl.le_iff.2 ⟨hnn b hb, hnn a ha, h⟩
  stable := by
    intro p
    have hnn := sliceStable_num (lessOf (fun a b => Fl.lt b a)) hn
    rw [filter_eq_key hn, filter_eq_key hnn]
    split_ifs
    · rfl
    · exact sliceStable_stable bidOrd hn (OrderDual.toDual p.key)

/-- **C01** `NewOrderBook` keeps the first `d` rows of the stable sort of each side. -/
theorem C01_new_order_book_keeps_best {S : FloatSem} (hS : Lawful S) (now : Int)
    (asks bids : List Row) (d : Int) (hd : 0 ≤ d)
    (ha : asks.length < 2 ^ 53) (hb : bids.length < 2 ^ 53)
    (hna : NumPrices asks) (hnb : NumPrices bids) :
    ∃ b FA FB, newOrderBook S now asks bids d = .ok b ∧ b.time = now ∧ b.maxDepth = d ∧
      StableSort (fun x y => Fl.le x y = true) asks FA ∧
      StableSort (fun x y => Fl.ge x y = true) bids FB ∧
      b.asks.map Row.pv = (FA.take d.toNat).map Row.pv ∧
      b.bids.map Row.pv = (FB.take d.toNat).map Row.pv :=
  ⟨_, _, _, newOrderBook_eq hS hd ha hb, rfl, rfl, stableSort_asks hna, stableSort_bids hnb,
    accumulate_pv _ _ _, accumulate_pv _ _ _⟩

/-- The stable sort is unique, so `C01_new_order_book_keeps_best` determines the book. -/
theorem C01_stable_sort_unique {le : Fl → Fl → Prop} {L F G : List Row}
    (hle : ∀ x y, le x y → le y x → Fl.eq x y = true)
    (hirr : ∀ x ∈ L, Fl.eq x.price x.price = true)
    (hF : StableSort le L F) (hG : StableSort le L G) : F = G := by
  have hlen : F.length = G.length := hF.perm.length_eq.trans hG.perm.length_eq.symm
  have hst : ∀ p, F.filter (fun r => Fl.eq r.price p) = G.filter (fun r => Fl.eq r.price p) :=
    fun p => (hF.stable p).trans (hG.stable p).symm
  have hFi : ∀ x ∈ F, Fl.eq x.price x.price = true := fun x hx => hirr x (hF.perm.subset hx)
  have hGi : ∀ x ∈ G, Fl.eq x.price x.price = true := fun x hx => hirr x (hG.perm.subset hx)
  have sF := hF.sorted
  have sG := hG.sorted
  have hp : F.Perm G := hF.perm.trans hG.perm.symm
  clear hF hG hirr
  induction F generalizing G with
  | nil => exact (List.length_eq_zero_iff.1 hlen.symm).symm
  | cons a F ih =>
    cases G with
    | nil => simp at hlen
    | cons c G =>
      have pF := List.pairwise_cons.1 sF
      have pG := List.pairwise_cons.1 sG
      have hac : Fl.eq c.price a.price = true := by
        by_cases e : a = c
        · subst e; exact hFi a (by simp)
        · have h1 : c ∈ F := by
            have := hp.symm.subset (List.mem_cons_self (a := c))
            rcases List.mem_cons.1 this with h | h
            · exact absurd h.symm e
            · exact h
          have h2 : a ∈ G := by
            have := hp.subset (List.mem_cons_self (a := a))
            rcases List.mem_cons.1 this with h | h
            · exact absurd h e
            · exact h
          exact hle _ _ (pG.1 a h2) (pF.1 c h1)
      have haa : Fl.eq a.price a.price = true := hFi a (by simp)
      have hh := hst a.price
      simp only [List.filter_cons, haa, hac, if_true, List.cons.injEq] at hh
      obtain ⟨rfl, _⟩ := hh
      congr 1
      refine ih (by simpa using hlen) ?_ (fun x hx => hFi x (by simp [hx]))
        (fun x hx => hGi x (by simp [hx])) pF.2 pG.2 ((List.perm_cons a).1 hp)
      intro p
      have := hst p
      simp only [List.filter_cons] at this
      split at this
      · simpa using this
      · exact this

theorem accumulate_ok (S : FloatSem) (rows : List Row) : AccumOk S (accumulate S none rows) := by
  intro i h
  rw [accumulate_none]
  have : ∀ l : List Row, l.map (·.volume) = (l.map (fun r => (r.price, r.volume))).map (·.2) := by
    intro l; simp
  rw [List.map_take, List.map_take, this, this (accumulate S none rows), accumulate_pv]

/-- **C02** In any book `NewOrderBook` returns, every `AccumVolume` is the running volume. -/
theorem C02_accum_volume_running_sum (S : FloatSem) (now : Int) (asks bids : List Row) (d : Int)
    (b : Book) (h : newOrderBook S now asks bids d = .ok b) :
    AccumOk S b.asks ∧ AccumOk S b.bids := by
  unfold newOrderBook Book.sort at h
  simp only at h
  split at h
  · simp only [Res.ok.injEq] at h
    subst h
    exact ⟨accumulate_ok _ _, accumulate_ok _ _⟩
  · simp at h

theorem newOrderBook_depth {S : FloatSem} (hS : Lawful S) (now : Int)
    (asks bids : List Row) (d : Int) (hd : 0 ≤ d)
    (ha : asks.length < 2 ^ 53) (hb : bids.length < 2 ^ 53) :
    ∃ b, newOrderBook S now asks bids d = .ok b ∧ DepthOk b ∧ b.maxDepth = d := by
  refine ⟨_, newOrderBook_eq hS hd ha hb, ⟨?_, ?_⟩, rfl⟩ <;>
  · simp only [accumulate_length, List.length_take]; omega

/-- **C03** No side ever exceeds `MaxDepth` and nothing panics, for any rows and any history. -/
theorem C03_book_depth_bounded {S : FloatSem} (hS : Lawful S) (now : Int)
    (asks bids : List Row) (d : Int) (hd : 0 ≤ d)
    (ha : asks.length < 2 ^ 53) (hb : bids.length < 2 ^ 53) (us : List Update) :
    ∃ b b', newOrderBook S now asks bids d = .ok b ∧ b.applyAll us = .ok b' ∧
      (b'.asks.length : Int) ≤ d ∧ (b'.bids.length : Int) ≤ d := by
  obtain ⟨b, h, h0⟩ := newOrderBook_depth hS now asks bids d hd ha hb
  obtain ⟨b', h1, h2⟩ := applyAll_inv (P := fun c => DepthOk c ∧ c.maxDepth = d) (us := us) (by
    rintro c ⟨hc, hcd⟩ u _
    obtain ⟨c', h1, h2, _, h3⟩ := step_depth (by omega) hc u
    exact ⟨c', h1, h3, by omega⟩) h0
  refine ⟨b, b', h, h1, ?_, ?_⟩
  · have := h2.1.1; omega
  · have := h2.1.2; omega

/-- **C04** With distinct real prices the sides stay strictly sorted for any history. -/
theorem C04_sides_stay_sorted {S : FloatSem} (hS : Lawful S) (now : Int)
    (asks bids : List Row) (d : Int) (hd : 0 ≤ d)
    (ha : asks.length < 2 ^ 53) (hb : bids.length < 2 ^ 53)
    (hna : NumPrices asks) (hnb : NumPrices bids)
    (hda : asks.Pairwise (fun a b => Fl.eq a.price b.price = false))
    (hdb : bids.Pairwise (fun a b => Fl.eq a.price b.price = false))
    (us : List Update) (hu : NumUpdates us) :
    ∃ b b', newOrderBook S now asks bids d = .ok b ∧ b.applyAll us = .ok b' ∧
      AskSorted b'.asks ∧ BidSorted b'.bids := by
  obtain ⟨b, h1, h2, _⟩ := newOrderBook_good hS (now := now) hd ha hb hna hnb hda hdb
  obtain ⟨b', h3, h4, _⟩ := applyAll_good (P := fun _ => True) hu (fun _ _ _ _ _ _ _ => trivial)
    h2 trivial
  exact ⟨b, b', h1, h3, h4.wf.asks_sorted, h4.wf.bids_sorted⟩

/-! ### Concrete cases -/

namespace Ex
/-- Asks in no order, with a price tie. -/
def asks0 : List Row :=
  [⟨.fin 13, .fin 2, .fin 0⟩, ⟨.fin 11, .fin 1, .fin 0⟩, ⟨.fin 12, .fin 4, .fin 0⟩, ⟨.fin 11, .fin 7, .fin 9⟩]
def asks1 : List Row := [⟨.fin 13, .fin 2, .fin 0⟩, ⟨.fin 11, .fin 1, .fin 0⟩, ⟨.fin 12, .fin 4, .fin 0⟩]
def bids1 : List Row := [⟨.fin 8, .fin 3, .fin 0⟩, ⟨.fin (19/2), .fin 1, .fin 0⟩, ⟨.fin 9, .fin 5, .fin 0⟩]
def upd1 : List Update :=
  [⟨.fin 10, .fin 2, "bid"⟩, ⟨.fin 11, .fin 0, "ask"⟩, ⟨.fin (21/2), .fin 6, "ask"⟩,
   ⟨.fin 12, .fin 1, "bid"⟩, ⟨.fin 5, .fin 1, "foo"⟩]
end Ex

example := C01_new_order_book_keeps_best ieee_lawful 0 Ex.asks0 Ex.bids1 2 (by decide)
  (by decide) (by decide) (by decide +kernel) (by decide +kernel)

/-- The tie at 11 keeps its input order and the two dearest asks are cut. -/
example : (newOrderBook FloatSem.exact 0 Ex.asks0 Ex.bids1 2) = .ok
    { time := 0, maxDepth := 2,
      asks := [⟨.fin 11, .fin 1, .fin 1⟩, ⟨.fin 11, .fin 7, .fin 8⟩],
      bids := [⟨.fin (19/2), .fin 1, .fin 1⟩, ⟨.fin 9, .fin 5, .fin 6⟩] } := by decide +kernel

/-- A returned book, so `C02_accum_volume_running_sum` applies; here three asks of volume
1, 7, 4 show 1, 8, 12. -/
example : newOrderBook ieee 0 Ex.asks0 Ex.bids1 3 = .ok
    { time := 0, maxDepth := 3,
      asks := [⟨.fin 11, .fin 1, .fin 1⟩, ⟨.fin 11, .fin 7, .fin 8⟩, ⟨.fin 12, .fin 4, .fin 12⟩],
      bids := [⟨.fin (19/2), .fin 1, .fin 1⟩, ⟨.fin 9, .fin 5, .fin 6⟩, ⟨.fin 8, .fin 3, .fin 9⟩] } := by
  decide +kernel

example := C03_book_depth_bounded ieee_lawful 0 Ex.asks0 Ex.bids1 2 (by decide)
  (by decide) (by decide) Ex.upd1

example := C04_sides_stay_sorted ieee_lawful 0 Ex.asks1 Ex.bids1 3 (by decide)
  (by decide) (by decide) (by decide +kernel) (by decide +kernel) (by decide +kernel)
  (by decide +kernel) Ex.upd1 (by decide +kernel)

end Finmod
