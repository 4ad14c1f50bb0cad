import Verif.Model.PositionThreads
import Verif.Model.Records
import Verif.Props.HeapPosition

/-!
# C223: positions used by several goroutines
-/

namespace Finmod
open Go Go.Heap Spec

/-- The position at address `a` of memory is `p`; its log is in the slice `s`, which is not part of the position. -/
structure Spec.Held (h : Heap PCell) (a : Nat) (p : Position) (s : Slice) : Prop where
  cells : ∀ i c, (positionCells p s)[i]? = some c → h.cell a i = c
  log : h.load s = p.trades.map .str
  wf : WF h s
  addr : a < h.next
  apart : ∀ i, ¬ s.Owns a i

/-- A goroutine has position `p` at `a` for itself. -/
structure Spec.PosHas (view : Cells) (h : Heap PCell) (own : Cells) (a : Nat) (p : Position) (s : Slice) : Prop where
  held : Held h a p s
  mine : ∀ i, i < 15 → own a i
  log : OwnsAll own s
  old : ∀ b i, own b i ∨ view b i → b < h.next

section
variable {view own : Cells} {h h' : Heap PCell} {a : Nat} {p p' : Position} {s s' : Slice}

theorem Spec.Held.rely {keep : Cells} (hr : Rely keep h h') (hh : Held h a p s) (hk : ∀ i, i < 15 → keep a i)
    (hs : OwnsAll keep s) : Held h' a p s where
  cells i c e := by
    have hi : i < 15 := by
      by_contra hc
      rw [List.getElem?_eq_none (by simp [positionCells]; omega)] at e
      cases e
    rw [hr.same a i (hk i hi)]; exact hh.cells i c e
  log := (hr.load hh.wf.1 hs).trans hh.log
  wf := ⟨hh.wf.1, fun h0 => lt_of_lt_of_le (hh.wf.2 h0) hr.next⟩
  addr := lt_of_lt_of_le hh.addr hr.next
  apart := hh.apart

theorem Spec.PosHas.rely (hr : Rely (fun a i => own a i ∨ view a i) h h') (hh : PosHas view h own a p s) :
    PosHas view h' own a p s :=
  ⟨hh.held.rely hr (fun i hi => .inl (hh.mine i hi)) fun b i hb => .inl (hh.log b i hb), hh.mine, hh.log,
    fun b i hb => lt_of_lt_of_le (hh.old b i hb) hr.next⟩

theorem store_cell (h : Heap PCell) (a i : Nat) (x : PCell) (b j : Nat) :
    (h.store a i [x]).cell b j = if b = a ∧ j = i then x else h.cell b j := by
  simp only [Heap.store]
  by_cases hb : b = a
  · rcases Nat.lt_trichotomy j i with hj | hj | hj
    · rw [if_neg (by omega), if_neg (by omega)]
    · subst hj; simp [hb]
    · rw [if_pos ⟨hb, by omega⟩, if_neg (by omega), List.getElem?_eq_none (by simp; omega)]; rfl
  · rw [if_neg (by tauto), if_neg (by tauto)]

/-- A field other than `Trades` is written. -/
theorem Spec.Held.put (hh : Held h a p s) {i : Nat} {x : PCell} (e : positionCells p' s = (positionCells p s).set i x)
    (ht : p'.trades = p.trades) : Held (h.store a i [x]) a p' s where
  cells j c ej := by
    rw [store_cell]
    rw [e, List.getElem?_set] at ej
    split at ej
    · rename_i hij
      split at ej
      · rw [if_pos ⟨rfl, hij.symm⟩]; exact Option.some.inj ej
      · cases ej
    · rename_i hij
      rw [if_neg (by tauto)]; exact hh.cells j c ej
  log := by
    rw [ht, ← hh.log]
    refine load_congr fun j hj => ?_
    rw [store_cell, if_neg]
    rintro ⟨h1, -⟩
    exact hh.apart (s.off + j) ⟨h1.symm, by omega, by have := hh.wf.1; omega⟩
  wf := hh.wf
  addr := hh.addr
  apart := hh.apart

theorem Spec.PosHas.put (hh : PosHas view h own a p s) {i : Nat} {x : PCell}
    (e : positionCells p' s = (positionCells p s).set i x) (ht : p'.trades = p.trades) :
    PosHas view (h.store a i [x]) own a p' s := ⟨hh.held.put e ht, hh.mine, hh.log, hh.old⟩

/-- A field that is known is read. -/
theorem safe_getF {R : Type} {post : Heap PCell → Cells → R → Prop} (hh : Held h a p s) {i : Nat} {c : PCell}
    (e : (positionCells p s)[i]? = some c) (hr : own a i ∨ view a i) {k : PCell → HProg PCell R}
    (hs : Safe view (k c) h own post) : Safe view (.get a i k) h own post :=
  ⟨hr, by rw [hh.cells i c e]; exact hs⟩

theorem safe_getO {R : Type} {post : Heap PCell → Cells → R → Prop} (hh : PosHas view h own a p s) {i : Nat} {c : PCell}
    (e : (positionCells p s)[i]? = some c) {k : PCell → HProg PCell R}
    (hs : Safe view (k c) h own post) : Safe view (.get a i k) h own post := by
  refine safe_getF hh.held e (.inl (hh.mine i ?_)) hs
  by_contra hc
  rw [List.getElem?_eq_none (by simp [positionCells]; omega)] at e
  cases e

/-- A field of one's own is written. -/
theorem safe_putO {R : Type} {post : Heap PCell → Cells → R → Prop} (hh : PosHas view h own a p s) (p' : Position) {i : Nat}
    {x : PCell} (hi : i < 15) (e : positionCells p' s = (positionCells p s).set i x) (ht : p'.trades = p.trades) {k : HProg PCell R}
    (hs : ∀ h1, PosHas view h1 own a p' s → Safe view k h1 own post) : Safe view (.put a i x k) h own post :=
  ⟨hh.mine i hi, hs _ (hh.put e ht)⟩

theorem safe_if {R : Type} {post : Heap PCell → Cells → R → Prop} {c : Prop} [Decidable c] {k l : HProg PCell R}
    (h1 : c → Safe view k h own post) (h2 : ¬ c → Safe view l h own post) : Safe view (if c then k else l) h own post := by
  by_cases hc : c
  · rw [if_pos hc]; exact h1 hc
  · rw [if_neg hc]; exact h2 hc

variable {S : FloatSem} {grow : Nat → Nat → Nat}

/-- The memory after the ID of a trade has been logged. -/
theorem held_log (hh : Held h a p s) (t : Trade) :
    Held ((h.append grow s [.str t.id]).1.store a fTrades [.log (h.append grow s [.str t.id]).2]) a
      { p with trades := p.trades ++ [t.id] } (h.append grow s [.str t.id]).2 := by
  obtain ⟨st, ld⟩ := step_append grow hh.wf [PCell.str t.id]
  change _ = _ at ld
  refine ⟨?_, ?_, st.wf, lt_of_lt_of_le hh.addr st.next, ?_⟩
  · intro i c e
    rw [store_cell]
    by_cases hi : i = fTrades
    · rw [if_pos ⟨rfl, hi⟩]; subst hi; exact Option.some.inj e
    · rw [if_neg (by tauto), st.frame a i hh.addr (hh.apart i)]
      refine hh.cells i c ?_
      have : positionCells { p with trades := p.trades ++ [t.id] } (h.append grow s [.str t.id]).2 =
          (positionCells p s).set fTrades (.log (h.append grow s [.str t.id]).2) := rfl
      rw [← e, this, List.getElem?_set_ne (Ne.symm hi)]
  · have : ((h.append grow s [PCell.str t.id]).1.store a fTrades [.log (h.append grow s [PCell.str t.id]).2]).load
        (h.append grow s [PCell.str t.id]).2 = (h.append grow s [PCell.str t.id]).1.load (h.append grow s [PCell.str t.id]).2 := by
      refine load_congr fun j hj => ?_
      rw [store_cell, if_neg]
      rintro ⟨h1, -⟩
      rcases st.inherits a ((h.append grow s [PCell.str t.id]).2.off + j) ⟨h1.symm, by omega, by have := st.wf.1; omega⟩ with h2 | h2
      · exact hh.apart _ h2
      · have := hh.addr; omega
    rw [this, ld, hh.log]; simp
  · intro i hi
    rcases st.inherits a i hi with h2 | h2
    · exact hh.apart _ h2
    · have := hh.addr; omega

theorem safe_log (hh : PosHas view h own a p s) (t : Trade) {post : Heap PCell → Cells → Unit → Prop}
    (hp : ∀ h1 own1 s1, PosHas view h1 own1 a { p with trades := p.trades ++ [t.id] } s1 → post h1 own1 ()) :
    Safe view (logP grow a t) h own post := by
  refine safe_getO hh (i := fTrades) rfl (safe_bind _ _ _ (safe_append grow hh.held.wf.1 hh.log _ hh.old ?_))
  intro h0 own' hr hm ho hn
  have hh0 := hh.rely hr
  obtain ⟨st, -⟩ := step_append grow hh0.held.wf [PCell.str t.id]
  refine ⟨hm _ _ (hh.mine _ (by decide)), hp _ _ _ ⟨held_log hh0.held t, fun i hi => hm _ _ (hh.mine i hi), ho, ?_⟩⟩
  rintro b i (hb | hb)
  · exact hn b i hb
  · exact lt_of_lt_of_le (lt_of_lt_of_le (hh.old b i (.inr hb)) hr.next) st.next

theorem safe_add (hh : PosHas view h own a p s) (t : Trade) {post : Heap PCell → Cells → Unit → Prop}
    (hp : ∀ h1 own1 s1, PosHas view h1 own1 a (posAdd S p t) s1 → post h1 own1 ()) :
    Safe view (addP S grow a t) h own post := by
  refine safe_getO hh (i := fQuantity) rfl (safe_getO hh (i := fOpenPrice) rfl (safe_getO hh (i := fQuantity) rfl ?_))
  refine safe_putO hh { p with openPrice := (posAdd S p t).openPrice } (by decide) rfl rfl fun h1 hh1 => ?_
  refine safe_putO hh1 { p with openPrice := (posAdd S p t).openPrice, quantity := (posAdd S p t).quantity }
    (by decide) rfl rfl fun h2 hh2 => ?_
  exact safe_log hh2 t hp

theorem safe_substract (hh : PosHas view h own a p s) (t : Trade) {post : Heap PCell → Cells → Unit → Prop}
    (hp : ∀ h1 own1 s1, PosHas view h1 own1 a (posSubstract' S p t) s1 → post h1 own1 ()) :
    Safe view (substractP S grow a t) h own post := by
  refine safe_getO hh (i := fQuantity) rfl ?_
  unfold posSubstract' posSubstract at hp
  simp only at hp
  refine safe_if (fun hc => ?_) fun hc => ?_
  · simp only [PCell.asNum] at hc
    rw [if_pos hc] at hp
    exact hp h own s hh
  · simp only [PCell.asNum] at hc
    rw [if_neg hc] at hp
    refine safe_if (fun hc2 => ?_) fun hc2 => ?_
    · simp only [PCell.asNum] at hc2
      rw [if_pos hc2] at hp
      refine safe_putO hh { p with closePrice := t.price } (by decide) rfl rfl fun h1 hh1 => ?_
      refine safe_getO hh1 (i := fType) rfl ?_
      refine safe_if (fun hl => ?_) fun hl => ?_
      · simp only [PCell.asStr] at hl
        simp only [if_pos hl] at hp
        refine safe_getO hh1 (i := fClosePrice) rfl (safe_getO hh1 (i := fOpenPrice) rfl (safe_getO hh1 (i := fQuantity) rfl ?_))
        refine safe_putO hh1 { p with closePrice := t.price, profit := S.mul (S.sub t.price p.openPrice) p.quantity }
          (by decide) rfl rfl fun h2 hh2 => ?_
        refine safe_putO hh2 { p with closePrice := t.price, profit := S.mul (S.sub t.price p.openPrice) p.quantity, opened := false }
          (by decide) rfl rfl fun h3 hh3 => ?_
        refine safe_putO hh3 { p with closePrice := t.price, profit := S.mul (S.sub t.price p.openPrice) p.quantity, opened := false, closeTime := t.executionTime }
          (by decide) rfl rfl fun h4 hh4 => ?_
        exact safe_log hh4 t hp
      · simp only [PCell.asStr] at hl
        simp only [if_neg hl] at hp
        refine safe_getO hh1 (i := fOpenPrice) rfl (safe_getO hh1 (i := fClosePrice) rfl (safe_getO hh1 (i := fQuantity) rfl ?_))
        refine safe_putO hh1 { p with closePrice := t.price, profit := S.mul (S.sub p.openPrice t.price) p.quantity }
          (by decide) rfl rfl fun h2 hh2 => ?_
        refine safe_putO hh2 { p with closePrice := t.price, profit := S.mul (S.sub p.openPrice t.price) p.quantity, opened := false }
          (by decide) rfl rfl fun h3 hh3 => ?_
        refine safe_putO hh3 { p with closePrice := t.price, profit := S.mul (S.sub p.openPrice t.price) p.quantity, opened := false, closeTime := t.executionTime }
          (by decide) rfl rfl fun h4 hh4 => ?_
        exact safe_log hh4 t hp
    · simp only [PCell.asNum] at hc2
      rw [if_neg hc2] at hp
      refine safe_getO hh (i := fOpenPrice) rfl (safe_getO hh (i := fQuantity) rfl (safe_getO hh (i := fQuantity) rfl ?_))
      refine safe_putO hh { p with openPrice := S.div (S.mul (S.sub p.openPrice
        (S.mul t.price (S.div t.quantity p.quantity))) p.quantity) (S.sub p.quantity t.quantity) } (by decide) rfl rfl fun h1 hh1 => ?_
      refine safe_putO hh1 { p with openPrice := S.div (S.mul (S.sub p.openPrice
        (S.mul t.price (S.div t.quantity p.quantity))) p.quantity) (S.sub p.quantity t.quantity), quantity := S.sub p.quantity t.quantity }
        (by decide) rfl rfl fun h2 hh2 => ?_
      exact safe_log hh2 t hp

/-- The error that a call of `Modify` returns. -/
def Spec.errorOf {α : Type} : Res α → Option ErrCode
  | .ok _ => none
  | .err c _ => some c
  | .panic => none

theorem safe_modify (hh : PosHas view h own a p s) (t : Trade) {post : Heap PCell → Cells → Option ErrCode → Prop}
    (hp : ∀ h1 own1 s1, PosHas view h1 own1 a (modified S p t) s1 → post h1 own1 (errorOf (modify S p t))) :
    Safe view (modifyP S grow a t) h own post := by
  refine safe_getO hh (i := fPair) rfl ?_
  unfold modified modify at hp
  refine safe_if (fun c0 => ?_) fun c0 => ?_ <;> simp only [PCell.asPair] at c0
  · rw [if_pos c0] at hp; exact hp h own s hh
  rw [if_neg c0] at hp
  refine safe_getO hh (i := fType) rfl (safe_if (fun c1 => ?_) fun c1 => ?_) <;> simp only [PCell.asStr] at c1
  · rw [if_pos c1] at hp; exact safe_bind _ _ _ (safe_add hh t hp)
  rw [if_neg c1] at hp
  refine safe_getO hh (i := fType) rfl (safe_if (fun c2 => ?_) fun c2 => ?_) <;> simp only [PCell.asStr] at c2
  · rw [if_pos c2] at hp; exact safe_bind _ _ _ (safe_substract hh t hp)
  rw [if_neg c2] at hp
  refine safe_getO hh (i := fType) rfl (safe_if (fun c3 => ?_) fun c3 => ?_) <;> simp only [PCell.asStr] at c3
  · rw [if_pos c3] at hp; exact safe_bind _ _ _ (safe_substract hh t hp)
  rw [if_neg c3] at hp
  refine safe_getO hh (i := fType) rfl (safe_if (fun c4 => ?_) fun c4 => ?_) <;> simp only [PCell.asStr] at c4
  · rw [if_pos c4] at hp; exact safe_bind _ _ _ (safe_add hh t hp)
  rw [if_neg c4] at hp
  exact hp h own s hh

/-- The errors of a history of `Modify` calls. -/
def Spec.errorsOf (S : FloatSem) (p : Position) : List Trade → List (Option ErrCode)
  | [] => []
  | t :: ts => errorOf (modify S p t) :: errorsOf S (modified S p t) ts

theorem safe_modifyAll : ∀ (ts : List Trade) {own : Cells} {h : Heap PCell} {p : Position} {s : Slice}
    {post : Heap PCell → Cells → List (Option ErrCode) → Prop}, PosHas view h own a p s →
    (∀ h1 own1 s1, PosHas view h1 own1 a (modifiedAll S p ts) s1 → post h1 own1 (errorsOf S p ts)) →
    Safe view (modifyAllP S grow a ts) h own post
  | [], _, _, _, _, _, hh, hp => hp _ _ _ hh
  | t :: ts, _, _, _, _, _, hh, hp =>
    safe_bind _ _ _ (safe_modify hh t fun _ _ _ hh1 => safe_bind _ _ _ (safe_modifyAll ts hh1 hp))

/-! ## Making, reading and copying positions -/

theorem safe_newPosition (old : ∀ b i, own b i ∨ view b i → b < h.next) (id : String) (zeroTime : Int) (t : Trade)
    {post : Heap PCell → Cells → Nat → Prop}
    (hp : ∀ h1 own1 a s, PosHas view h1 own1 a (newPosition id zeroTime t) s → post h1 own1 a) :
    Safe view (newPositionP id zeroTime t) h own post := by
  intro h1 hr1
  refine ⟨.inr rfl, ?_⟩
  intro h2 hr2
  have hn : h1.next < h2.next := hr2.next
  have l0 : h2.cell h1.next 0 = .str t.id := by
    rw [hr2.same _ _ (.inl (.inr rfl)), store_cell, if_pos ⟨rfl, rfl⟩]
  refine safe_bind _ _ _ (safe_writeAll _ _ _ (fun j _ _ => .inr rfl) (hp _ _ h2.next ⟨h1.next, 0, 1, 1⟩ ?_))
  refine ⟨⟨?_, ?_, ⟨le_rfl, fun _ => ?_⟩, ?_, ?_⟩, fun i _ => .inr rfl, ?_, ?_⟩
  · intro i c e
    simp only [Heap.store, Nat.zero_le, if_true, Nat.sub_zero, and_true, e, Option.getD_some]
  · show [_] = [_]
    simp only [Heap.store, Nat.zero_le, Nat.add_zero]
    rw [if_neg (by omega), l0]
  · show h1.next < h2.next + 1; omega
  · show h2.next < h2.next + 1; omega
  · rintro i ⟨h3, -, -⟩; simp only at h3; omega
  · rintro b i ⟨rfl, -, -⟩; exact .inl (.inr rfl)
  · rintro b i (((hb | rfl) | rfl) | hb)
    · show b < h2.next + 1; have := old b i (.inl hb); have := hr1.next; omega
    · show h1.next < h2.next + 1; omega
    · show h2.next < h2.next + 1; omega
    · show b < h2.next + 1; have := old b i (.inr hb); have := hr1.next; omega

theorem safe_unrealizedProfit (hh : Held h a p s) (hr : ∀ i, i < 15 → own a i ∨ view a i) (price : Fl) :
    Safe view (unrealizedProfitP S a price) h own (fun _ _ x => x = unrealizedProfit S p price) := by
  refine safe_getF hh (i := fType) rfl (hr _ (by decide)) (safe_if (fun hl => ?_) fun hl => ?_)
  all_goals
    simp only [PCell.asStr] at hl
    refine safe_getF hh (i := fOpenPrice) rfl (hr _ (by decide)) (safe_getF hh (i := fQuantity) rfl (hr _ (by decide)) ?_)
    show _ = _
    unfold unrealizedProfit
  · rw [if_pos hl]; rfl
  · rw [if_neg hl]; rfl

theorem safe_getID (hh : Held h a p s) (hr : ∀ i, i < 15 → own a i ∨ view a i) :
    Safe view (getIDP a) h own (fun _ _ x => x = p.getID) :=
  safe_getF hh (i := fId) rfl (hr _ (by decide)) rfl

theorem safe_string (F : Fmt) (hh : Held h a p s) (hr : ∀ i, i < 15 → own a i ∨ view a i) :
    Safe view (stringP F a) h own (fun _ _ x => x = p.string F) := by
  have hl : s.len = p.trades.length := by rw [← length_load h s, hh.log, List.length_map]
  refine safe_getF hh (i := fId) rfl (hr _ (by decide)) (safe_if (fun hc => ?_) fun hc => ?_)
  · simp only [PCell.asStr] at hc
    show _ = _
    unfold Position.string
    rw [if_pos hc]
  · simp only [PCell.asStr] at hc
    refine safe_getF hh (i := fType) rfl (hr _ (by decide)) (safe_getF hh (i := fPair) rfl (hr _ (by decide))
      (safe_getF hh (i := fOpen) rfl (hr _ (by decide)) (safe_getF hh (i := fOpenPrice) rfl (hr _ (by decide))
      (safe_getF hh (i := fClosePrice) rfl (hr _ (by decide)) (safe_getF hh (i := fQuantity) rfl (hr _ (by decide))
      (safe_getF hh (i := fProfit) rfl (hr _ (by decide)) (safe_getF hh (i := fOpenTime) rfl (hr _ (by decide))
      (safe_getF hh (i := fCloseTime) rfl (hr _ (by decide)) (safe_getF hh (i := fTrades) rfl (hr _ (by decide)) ?_)))))))))
    show Position.string F _ = Position.string F _
    unfold Position.string
    simp only [PCell.asStr, PCell.asPair, PCell.asFlag, PCell.asNum, PCell.asTime, PCell.asLog, List.length_replicate, hl]

theorem safe_update {b : Nat} (hh : Held h b p s) (hr : ∀ i, i < 15 → own b i ∨ view b i) (ha : ∀ i, i < 15 → own a i)
    {post : Heap PCell → Cells → Unit → Prop}
    (hp : ∀ h1, (∀ i c, (positionCells p s)[i]? = some c → h1.cell a i = c) → post h1 own ()) :
    Safe view (updateP a b) h own post := by
  refine safe_bind _ _ _ (safe_readAll 15 0 (fun j _ hj => hr j (by omega)) ?_)
  refine safe_writeAll _ _ _ (fun j _ hj => ha j (by simpa using hj)) (hp _ ?_)
  intro i c e
  have hi : i < 15 := by
    by_contra hc
    rw [List.getElem?_eq_none (by simp [positionCells]; omega)] at e
    cases e
  simp only [Heap.store, Nat.zero_le, and_self, if_true, Nat.sub_zero]
  rw [List.getElem?_map, List.getElem?_range hi]
  simp only [Option.map_some, Option.getD_some, Nat.zero_add]
  exact hh.cells i c e

end

/-! ## The goroutines together -/

/-- The positions that a call uses, by address. -/
def Spec.addrsOf : PosTask → List Nat
  | .make .. => []
  | .modify a _ => [a]
  | .update a b => [a, b]
  | .mark a _ => [a]
  | .ident a => [a]
  | .text a => [a]

/-- The fields of the position at `a`. -/
def Spec.FieldsOf (a : Nat) : Cells := fun b i => b = a ∧ i < 15

/-- The memory of the trades of the position at `a`. -/
def Spec.LogOf (h : Heap PCell) (a : Nat) : Cells := fun b i => (h.cell a fTrades).asLog.Owns b i

/-- The cells that a call may change: `Modify` writes to a position and to its trades, `Update` to a position. -/
def Spec.PosChanges (h : Heap PCell) : PosTask → Cells
  | .modify a _ => fun b i => FieldsOf a b i ∨ LogOf h a b i
  | .update a _ => FieldsOf a
  | _ => fun _ _ => False

/-- The cells that a call reads or changes. -/
def Spec.PosUses (h : Heap PCell) (t : PosTask) : Cells :=
  fun b i => PosChanges h t b i ∨ ∃ a ∈ addrsOf t, FieldsOf a b i

/-- The answer of a call is the one it gives alone, and the position it has made or changed is as it would be then; `pos`
are the positions at the start, in memory `h0`. -/
def Spec.PosAnswers (S : FloatSem) (F : Fmt) (pos : Nat → Position) (h0 h : Heap PCell) : PosTask → PosAnswer → Prop
  | .make id zeroTime t ts, .make a es =>
      (∃ s, Held h a (modifiedAll S (newPosition id zeroTime t) ts) s) ∧ es = errorsOf S (newPosition id zeroTime t) ts
  | .modify a ts, .modify es => (∃ s, Held h a (modifiedAll S (pos a) ts) s) ∧ es = errorsOf S (pos a) ts
  | .update a b, .update => ∃ s, Held h0 b (pos b) s ∧ ∀ i c, (positionCells (pos b) s)[i]? = some c → h.cell a i = c
  | .mark a price, .mark x => x = unrealizedProfit S (pos a) price
  | .ident a, .ident x => x = (pos a).getID
  | .text a, .text x => x = (pos a).string F
  | _, _ => False

/-- `PosAnswers`, with the cells of the goroutine. -/
def PosPost (S : FloatSem) (F : Fmt) (pos : Nat → Position) (h0 : Heap PCell) (view : Cells) (t : PosTask) (h : Heap PCell) (own : Cells)
    (x : PosAnswer) : Prop :=
  match t, x with
  | .make id zeroTime t ts, .make a es =>
      (∃ s, PosHas view h own a (modifiedAll S (newPosition id zeroTime t) ts) s) ∧ es = errorsOf S (newPosition id zeroTime t) ts
  | .modify a ts, .modify es => (∃ s, PosHas view h own a (modifiedAll S (pos a) ts) s) ∧ es = errorsOf S (pos a) ts
  | .update a b, .update =>
      (∀ i, i < 15 → own a i) ∧ ∃ s, Held h0 b (pos b) s ∧ ∀ i c, (positionCells (pos b) s)[i]? = some c → h.cell a i = c
  | .mark a price, .mark x => x = unrealizedProfit S (pos a) price
  | .ident a, .ident x => x = (pos a).getID
  | .text a, .text x => x = (pos a).string F
  | _, _ => False

theorem posPost_stable (S : FloatSem) (F : Fmt) (pos : Nat → Position) (h0 : Heap PCell) (view : Cells) (t : PosTask) :
    Stable view (PosPost S F pos h0 view t) := by
  intro h h' own x hr hp
  cases t <;> cases x <;> simp only [PosPost] at hp ⊢ <;> try exact hp
  · obtain ⟨⟨s, hs⟩, he⟩ := hp; exact ⟨⟨s, hs.rely hr⟩, he⟩
  · obtain ⟨⟨s, hs⟩, he⟩ := hp; exact ⟨⟨s, hs.rely hr⟩, he⟩
  · obtain ⟨ho, s, hb, hs⟩ := hp
    refine ⟨ho, s, hb, fun i c e => ?_⟩
    have hi : i < 15 := by
      by_contra hc
      rw [List.getElem?_eq_none (by simp [positionCells]; omega)] at e
      cases e
    rw [hr.same _ _ (.inl (ho i hi))]; exact hs i c e

section
variable {ι : Type} [DecidableEq ι] {S : FloatSem} {grow : Nat → Nat → Nat} {F : Fmt} {h : Heap PCell} {pos : Nat → Position}
  {task : ι → PosTask}

omit [DecidableEq ι] in
theorem posTasks_safe (hs : ∀ i, ∀ a ∈ addrsOf (task i), ∃ s, Held h a (pos a) s)
    (sep : ∀ i j, i ≠ j → ∀ b c, PosChanges h (task i) b c → ¬ PosUses h (task j) b c) :
    ∃ view, AllSafe view (fun i => PosPost S F pos h view (task i)) ⟨h, fun i => (task i).prog S grow F⟩
      (fun i => PosChanges h (task i)) := by
  have old : ∀ i b c, PosUses h (task i) b c → b < h.next := by
    intro i b c hu
    have hsi := hs i
    rcases hu with hu | ⟨a, ha, rfl, -⟩
    · generalize task i = tk at hu hsi
      cases tk <;> simp only [PosChanges] at hu
      · obtain ⟨s, hh⟩ := hsi _ (List.mem_singleton.2 rfl)
        rcases hu with ⟨rfl, -⟩ | hu
        · exact hh.addr
        · unfold LogOf at hu
          rw [hh.cells fTrades _ rfl] at hu
          obtain ⟨rfl, h1, h2⟩ := hu
          simp only [PCell.asLog] at h1 h2 ⊢
          exact hh.wf.2 (by omega)
      · obtain ⟨s, hh⟩ := hsi _ (List.mem_cons_self ..)
        obtain ⟨rfl, -⟩ := hu
        exact hh.addr
    · obtain ⟨s, hh⟩ := hsi _ ha; exact hh.addr
  let view : Cells := fun b c => ∃ i, PosUses h (task i) b c ∧ ¬ PosChanges h (task i) b c
  have ov : ∀ b c, view b c → b < h.next := fun b c ⟨j, hu, _⟩ => old j b c hu
  have reads : ∀ i a, a ∈ addrsOf (task i) → ∀ c, c < 15 → PosChanges h (task i) a c ∨ view a c := by
    intro i a ha c hc
    by_cases hch : PosChanges h (task i) a c
    · exact .inl hch
    · exact .inr ⟨i, .inr ⟨a, ha, rfl, hc⟩, hch⟩
  refine ⟨view, fun i => ?_, ?_, ?_, ?_, ?_⟩
  · show Safe view ((task i).prog S grow F) h (PosChanges h (task i)) (PosPost S F pos h view (task i))
    have hsi := hs i
    have ri := reads i
    have oi : ∀ b c, PosChanges h (task i) b c ∨ view b c → b < h.next := fun b c hb =>
      hb.elim (fun hb => old i b c (.inl hb)) (ov b c)
    generalize task i = tk at hsi ri oi
    cases tk with
    | make id zeroTime t ts =>
      exact safe_bind _ _ _ (safe_newPosition oi id zeroTime t fun h1 own1 a s hh =>
        safe_bind _ _ _ (safe_modifyAll ts hh fun h2 own2 s2 hh2 => ⟨⟨s2, hh2⟩, rfl⟩))
    | modify a ts =>
      obtain ⟨s, hh⟩ := hsi a (List.mem_singleton.2 rfl)
      refine safe_bind _ _ _ (safe_modifyAll ts (s := s) ⟨hh, fun i hi => .inl ⟨rfl, hi⟩, fun b c ho => .inr ?_, oi⟩
        fun h2 own2 s2 hh2 => ⟨⟨s2, hh2⟩, rfl⟩)
      unfold LogOf
      rw [hh.cells fTrades _ rfl]; exact ho
    | update a b =>
      obtain ⟨s, hh⟩ := hsi b (by simp [addrsOf])
      exact safe_bind _ _ _ (safe_update hh (ri b (by simp [addrsOf])) (fun i hi => ⟨rfl, hi⟩) fun h1 hc =>
        ⟨fun i hi => ⟨rfl, hi⟩, s, hh, hc⟩)
    | mark a price =>
      obtain ⟨s, hh⟩ := hsi a (List.mem_singleton.2 rfl)
      exact safe_bind _ _ _ (safe_unrealizedProfit hh (ri a (List.mem_singleton.2 rfl)) price)
    | ident a =>
      obtain ⟨s, hh⟩ := hsi a (List.mem_singleton.2 rfl)
      exact safe_bind _ _ _ (safe_getID hh (ri a (List.mem_singleton.2 rfl)))
    | text a =>
      obtain ⟨s, hh⟩ := hsi a (List.mem_singleton.2 rfl)
      exact safe_bind _ _ _ (safe_string F hh (ri a (List.mem_singleton.2 rfl)))
  · exact fun i j hij b c h1 h2 => sep i j hij b c h1 (.inl h2)
  · rintro i b c h1 ⟨j, hu, hn⟩
    by_cases e : i = j
    · subst e; exact hn h1
    · exact sep i j e b c h1 hu
  · exact fun i b c h1 => old i b c (.inl h1)
  · exact ov

/-- **C223.** Goroutines that make, modify, copy, mark and print positions: as long as a position that one of them changes
(and its trades, if it is modified) is used by no other, every answer is the one given when nobody else runs, and every
position made or changed is the one got then, in every interleaving. Positions that are only read may be shared. -/
theorem C223_answers (hs : ∀ i, ∀ a ∈ addrsOf (task i), ∃ s, Held h a (pos a) s)
    (sep : ∀ i j, i ≠ j → ∀ b c, PosChanges h (task i) b c → ¬ PosUses h (task j) b c)
    {t : Threads ι PCell (fun _ => PosAnswer)}
    (run : Relation.ReflTransGen ThreadStep ⟨h, fun i => (task i).prog S grow F⟩ t) {i : ι} {r : PosAnswer}
    (done : t.prog i = .done r) : PosAnswers S F pos h t.heap (task i) r := by
  obtain ⟨view, h0⟩ := posTasks_safe (S := S) (grow := grow) (F := F) hs sep
  obtain ⟨own, hall⟩ := safe_all (fun i => posPost_stable S F pos h view (task i)) h0 run
  have := hall.safe i
  rw [done] at this
  change PosPost S F pos h view (task i) t.heap (own i) r at this
  generalize task i = tk at this
  cases tk <;> cases r <;> simp only [PosPost, PosAnswers] at this ⊢ <;> try exact this
  · obtain ⟨⟨s, hs⟩, he⟩ := this; exact ⟨⟨s, hs.held⟩, he⟩
  · obtain ⟨⟨s, hs⟩, he⟩ := this; exact ⟨⟨s, hs.held⟩, he⟩
  · exact this.2

/-- **C223.** And there is no race between them. -/
theorem C223_no_race (hs : ∀ i, ∀ a ∈ addrsOf (task i), ∃ s, Held h a (pos a) s)
    (sep : ∀ i j, i ≠ j → ∀ b c, PosChanges h (task i) b c → ¬ PosUses h (task j) b c)
    {t : Threads ι PCell (fun _ => PosAnswer)}
    (run : Relation.ReflTransGen ThreadStep ⟨h, fun i => (task i).prog S grow F⟩ t) {i j : ι} (hij : i ≠ j)
    {b c : Nat} (hw : WritesCell (t.prog i) b c) : ¬ ReadsCell (t.prog j) b c ∧ ¬ WritesCell (t.prog j) b c := by
  obtain ⟨view, h0⟩ := posTasks_safe (S := S) (grow := grow) (F := F) hs sep
  obtain ⟨own, hall⟩ := safe_all (fun i => posPost_stable S F pos h view (task i)) h0 run
  exact hall.no_race hij hw

/-- The position that a call has made or modified. -/
def Spec.madeAt (S : FloatSem) (pos : Nat → Position) : PosTask → PosAnswer → Option (Nat × Position)
  | .make id zeroTime t ts, .make a _ => some (a, modifiedAll S (newPosition id zeroTime t) ts)
  | .modify a ts, .modify _ => some (a, modifiedAll S (pos a) ts)
  | _, _ => none

/-- **C223.** The positions made or modified by two goroutines share no memory, not even for their trades. -/
theorem C223_apart (hs : ∀ i, ∀ a ∈ addrsOf (task i), ∃ s, Held h a (pos a) s)
    (sep : ∀ i j, i ≠ j → ∀ b c, PosChanges h (task i) b c → ¬ PosUses h (task j) b c)
    {t : Threads ι PCell (fun _ => PosAnswer)}
    (run : Relation.ReflTransGen ThreadStep ⟨h, fun i => (task i).prog S grow F⟩ t) {i j : ι} (hij : i ≠ j)
    {ri rj : PosAnswer} (di : t.prog i = .done ri) (dj : t.prog j = .done rj) {a b : Nat} {p q : Position}
    (ei : madeAt S pos (task i) ri = some (a, p)) (ej : madeAt S pos (task j) rj = some (b, q)) :
    a ≠ b ∧ ∃ s s', Held t.heap a p s ∧ Held t.heap b q s' ∧ s.Separate s' := by
  obtain ⟨view, h0⟩ := posTasks_safe (S := S) (grow := grow) (F := F) hs sep
  obtain ⟨own, hall⟩ := safe_all (fun i => posPost_stable S F pos h view (task i)) h0 run
  have key : ∀ {k : ι} {r : PosAnswer} {a : Nat} {p : Position}, t.prog k = .done r →
      madeAt S pos (task k) r = some (a, p) → ∃ s, PosHas view t.heap (own k) a p s := by
    intro k r a p dk ek
    have := hall.safe k
    rw [dk] at this
    change PosPost S F pos h view (task k) t.heap (own k) r at this
    generalize task k = tk at this ek
    cases tk <;> cases r <;> simp only [madeAt, PosPost, reduceCtorEq, Option.some.injEq, Prod.mk.injEq] at this ek
    · obtain ⟨rfl, rfl⟩ := ek; exact this.1
    · obtain ⟨rfl, rfl⟩ := ek; exact this.1
  obtain ⟨s, hi⟩ := key di ei
  obtain ⟨s', hj⟩ := key dj ej
  refine ⟨?_, s, s', hi.held, hj.held, fun x c h1 h2 => hall.apart i j hij x c (hi.log x c h1) (hj.log x c h2)⟩
  rintro rfl
  exact hall.apart i j hij a 0 (hi.mine 0 (by decide)) (hj.mine 0 (by decide))

/-- **C223.** At every moment every goroutine can come to its end. -/
theorem C223_finish (s : Threads ι PCell (fun _ => PosAnswer)) (i : ι) :
    ∃ t r, Relation.ReflTransGen ThreadStep s t ∧ t.prog i = .done r := by
  obtain ⟨t, r, h1, h2, -⟩ := threads_finish i (s.prog i) s rfl
  exact ⟨t, r, h1, h2⟩

end

/-- A long position of one unit at 10 with one trade, at address 0 with its log in array 1, and a short one at address 2 with
its log in array 3, which has room for two more. -/
def pairUsd : Pair := ⟨⟨"Bitcoin", "BTC", ""⟩, ⟨"US Dollar", "USD", ""⟩⟩
/-- See `pairUsd`. -/
def tradeOf (id action : String) (price quantity : Fl) : Trade :=
  ⟨id, 5, action, "limit", pairUsd, price, quantity, .fin 0, .fin 0, ""⟩
/-- See `pairUsd`. -/
def positionsAt : Nat → Position
  | 0 => newPosition "position-0" 0 (tradeOf "t0" "buy" (.fin 10) (.fin 1))
  | _ => newPosition "position-1" 0 (tradeOf "t1" "sell" (.fin 10) (.fin 2))
/-- See `pairUsd`. -/
def positionsHeap : Heap PCell :=
  ⟨fun a i => match a with
    | 0 => ((positionCells (positionsAt 0) ⟨1, 0, 1, 1⟩)[i]?).getD (.num .nan)
    | 1 => .str "t0"
    | 2 => ((positionCells (positionsAt 2) ⟨3, 0, 1, 3⟩)[i]?).getD (.num .nan)
    | _ => .str "t1", 4⟩

theorem positionsHeld : Held positionsHeap 0 (positionsAt 0) ⟨1, 0, 1, 1⟩ ∧ Held positionsHeap 2 (positionsAt 2) ⟨3, 0, 1, 3⟩ := by
  refine ⟨⟨fun i c e => ?_, rfl, ⟨by decide, fun _ => by decide⟩, by decide, fun i ho => ?_⟩,
    ⟨fun i c e => ?_, rfl, ⟨by decide, fun _ => by decide⟩, by decide, fun i ho => ?_⟩⟩
  · show ((positionCells (positionsAt 0) ⟨1, 0, 1, 1⟩)[i]?).getD (.num .nan) = c
    rw [e]; rfl
  · exact absurd ho.1 (by decide)
  · show ((positionCells (positionsAt 2) ⟨3, 0, 1, 3⟩)[i]?).getD (.num .nan) = c
    rw [e]; rfl
  · exact absurd ho.1 (by decide)

/-- Some formatting. -/
def plainFmt : Fmt := ⟨fun _ _ => "", fun _ => "", fun _ => "", fun _ => "", fun _ => "", fun _ => ""⟩

/-- Four goroutines: one trades on the first position, two read the second, one makes a third. -/
def fourTasks : Fin 4 → PosTask
  | 0 => .modify 0 [tradeOf "t2" "buy" (.fin 20) (.fin 1), tradeOf "t3" "sell" (.fin 30) (.fin 2)]
  | 1 => .mark 2 (.fin 7)
  | 2 => .text 2
  | 3 => .make "position-2" 0 (tradeOf "t4" "sell" (.fin 8) (.fin 1)) [tradeOf "t5" "buy" (.fin 6) (.fin 1)]

example : (∀ i, ∀ a ∈ addrsOf (fourTasks i), ∃ s, Held positionsHeap a (positionsAt a) s) ∧
    (∀ i j, i ≠ j → ∀ b c, PosChanges positionsHeap (fourTasks i) b c → ¬ PosUses positionsHeap (fourTasks j) b c) ∧
    -- the first goroutine, run after the others have taken a few steps: closed with a profit of 30
    (((List.replicate 3 (1 : Fin 4) ++ List.replicate 3 2 ++ List.replicate 60 3 ++ List.replicate 60 0 ++ List.replicate 3 1).foldl
      Threads.step (⟨positionsHeap, fun i => (fourTasks i).prog .exact doubling plainFmt⟩ : Threads (Fin 4) PCell fun _ => PosAnswer)).prog 0).result =
      some (.modify [none, none]) := by
  refine ⟨?_, ?_, by decide +kernel⟩
  · intro i a ha
    match i with
    | 0 => obtain rfl := List.mem_singleton.1 ha; exact ⟨_, positionsHeld.1⟩
    | 1 => obtain rfl := List.mem_singleton.1 ha; exact ⟨_, positionsHeld.2⟩
    | 2 => obtain rfl := List.mem_singleton.1 ha; exact ⟨_, positionsHeld.2⟩
    | 3 => cases ha
  · intro i j hij b c hc hu
    match i with
    | 0 =>
      have hb : b = 0 ∨ b = 1 := hc.elim (fun h => .inl h.1) fun h => .inr h.1
      match j with
      | 0 => exact hij rfl
      | 1 => rcases hu with hu | ⟨a, ha, h1, -⟩
             · exact hu
             · obtain rfl := List.mem_singleton.1 ha; omega
      | 2 => rcases hu with hu | ⟨a, ha, h1, -⟩
             · exact hu
             · obtain rfl := List.mem_singleton.1 ha; omega
      | 3 => rcases hu with hu | ⟨a, ha, h1, -⟩
             · exact hu
             · cases ha
    | 1 => exact hc
    | 2 => exact hc
    | 3 => exact hc

end Finmod
