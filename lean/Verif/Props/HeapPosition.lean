import Verif.Model.HeapPosition
import Verif.Go.IEEE

/-!
# C101: copies of a position and their trade logs
-/

namespace Finmod
open Go Go.Heap

/-! ## `append` of one element -/

/-- The spare cells of a slice: where `append` writes in place. -/
def Spare (s : Slice) (a i : Nat) : Prop := a = s.arr ∧ s.off + s.len ≤ i ∧ i < s.off + s.cap

theorem owns_lt {h : Heap String} {s : Slice} {a i : Nat} (w : WF h s) (ho : s.Owns a i) : a < h.next := by
  obtain ⟨rfl, h1, h2⟩ := ho
  exact w.2 (by omega)

theorem spare_owns {s : Slice} {a i : Nat} (h : Spare s a i) : s.Owns a i := ⟨h.1, by have := h.2.1; omega, h.2.2⟩

theorem append_spare (grow : Nat → Nat → Nat) {h : Heap String} {s : Slice} (x : String) :
    (∀ a i, a < h.next → ¬ Spare s a i → (h.append grow s [x]).1.cell a i = h.cell a i) ∧
    (∀ a i, Spare (h.append grow s [x]).2 a i → Spare s a i ∨ h.next ≤ a) ∧
    (∀ a i, (h.append grow s [x]).2.Owns a i → s.Owns a i ∨ h.next ≤ a) ∧
    (((h.append grow s [x]).2.arr = s.arr ∧ (h.append grow s [x]).2.off = s.off) ∨
      h.next ≤ (h.append grow s [x]).2.arr) := by
  unfold append
  dsimp only [List.length_cons, List.length_nil]
  split_ifs with hc
  · refine ⟨?_, ?_, fun a i ho => Or.inl ho, Or.inl ⟨rfl, rfl⟩⟩
    · intro a i _ hn
      simp only [store]
      split_ifs with h1
      · obtain ⟨rfl, h2⟩ := h1
        rw [List.getElem?_eq_none]
        · rfl
        · by_contra hlt
          simp only [List.length_cons, List.length_nil] at hlt
          exact hn ⟨rfl, by omega, by omega⟩
      · rfl
    · rintro a i ⟨h1, h2, h3⟩
      dsimp only at h1 h2 h3
      exact Or.inl ⟨h1, by omega, h3⟩
  · refine ⟨?_, ?_, ?_, Or.inr le_rfl⟩
    · intro a i ha _
      simp only [store]
      rw [if_neg (by omega)]
    · rintro a i ⟨rfl, -, -⟩; exact Or.inr le_rfl
    · rintro a i ⟨rfl, -, -⟩; exact Or.inr le_rfl

/-! ## One call of `Modify` -/

/-- What `Modify` does to the memory: nothing, or one `append` of the trade's ID, as in the list-level model. -/
theorem hModify_cases (S : FloatSem) (grow : Nat → Nat → Nat) (h : Heap String) (p : HPosition) (t : Trade) :
    ((hModify S grow h p t).1 = h ∧ (hModify S grow h p t).2.log = p.log ∧
      (hModify S grow h p t).2.rest = modified S p.rest t ∧ (modified S p.rest t).trades = p.rest.trades) ∨
    ((hModify S grow h p t).1 = (h.append grow p.log [t.id]).1 ∧
      (hModify S grow h p t).2.log = (h.append grow p.log [t.id]).2 ∧
      (hModify S grow h p t).2.rest = modified S p.rest t ∧
      (modified S p.rest t).trades = p.rest.trades ++ [t.id]) := by
  have sub : ∀ r, (hSubstract S grow h p t) = r → modified S p.rest t = posSubstract' S p.rest t →
      (r.1 = h ∧ r.2.log = p.log ∧ r.2.rest = modified S p.rest t ∧ (modified S p.rest t).trades = p.rest.trades) ∨
      (r.1 = (h.append grow p.log [t.id]).1 ∧ r.2.log = (h.append grow p.log [t.id]).2 ∧
        r.2.rest = modified S p.rest t ∧ (modified S p.rest t).trades = p.rest.trades ++ [t.id]) := by
    rintro r rfl hm
    rw [hm]
    unfold hSubstract posSubstract' posSubstract
    dsimp only
    split_ifs
    · left; exact ⟨rfl, rfl, rfl, rfl⟩
    all_goals right; exact ⟨rfl, rfl, rfl, rfl⟩
  by_cases h0 : p.rest.pair ≠ t.pair
  · left
    have e : modified S p.rest t = p.rest := by unfold modified modify; rw [if_pos h0]
    rw [e]; unfold hModify; rw [if_pos h0]; exact ⟨rfl, rfl, rfl, rfl⟩
  by_cases h1 : p.rest.type = longPosition ∧ t.action = buyAction
  · right
    have e : modified S p.rest t = posAdd S p.rest t := by unfold modified modify; rw [if_neg h0, if_pos h1]
    rw [e]; unfold hModify; rw [if_neg h0, if_pos h1]; exact ⟨rfl, rfl, rfl, rfl⟩
  by_cases h2 : p.rest.type = longPosition ∧ t.action = sellAction
  · refine sub _ ?_ ?_
    · unfold hModify; rw [if_neg h0, if_neg h1, if_pos h2]
    · unfold modified modify; rw [if_neg h0, if_neg h1, if_pos h2]
  by_cases h3 : p.rest.type = shortPosition ∧ t.action = buyAction
  · refine sub _ ?_ ?_
    · unfold hModify; rw [if_neg h0, if_neg h1, if_neg h2, if_pos h3]
    · unfold modified modify; rw [if_neg h0, if_neg h1, if_neg h2, if_pos h3]
  by_cases h4 : p.rest.type = shortPosition ∧ t.action = sellAction
  · right
    have e : modified S p.rest t = posAdd S p.rest t := by
      unfold modified modify; rw [if_neg h0, if_neg h1, if_neg h2, if_neg h3, if_pos h4]
    rw [e]; unfold hModify; rw [if_neg h0, if_neg h1, if_neg h2, if_neg h3, if_pos h4]; exact ⟨rfl, rfl, rfl, rfl⟩
  · left
    have e : modified S p.rest t = p.rest := by
      unfold modified modify; rw [if_neg h0, if_neg h1, if_neg h2, if_neg h3, if_neg h4]
    rw [e]; unfold hModify; rw [if_neg h0, if_neg h1, if_neg h2, if_neg h3, if_neg h4]; exact ⟨rfl, rfl, rfl, rfl⟩

/-- The log in memory is the log of the list-level position. -/
def Spec.LogShows (h : Heap String) (p : HPosition) : Prop := WF h p.log ∧ h.load p.log = p.rest.trades

open Spec

/-- The trades addressed to one of two positions. -/
def Spec.tradesTo (which : Bool) (ts : List (Bool × Trade)) : List Trade :=
  (ts.filter (fun t => t.1 == which)).map (·.2)

theorem modify_self (S : FloatSem) (grow : Nat → Nat → Nat) {h : Heap String} {p : HPosition} (hp : LogShows h p)
    (t : Trade) : LogShows (hModify S grow h p t).1 (hModify S grow h p t).2 ∧
      (hModify S grow h p t).2.rest = modified S p.rest t ∧ h.next ≤ (hModify S grow h p t).1.next := by
  rcases hModify_cases S grow h p t with ⟨e1, e2, e3, e4⟩ | ⟨e1, e2, e3, e4⟩
  · unfold LogShows; rw [e1, e2, e3, e4]; exact ⟨hp, rfl, le_rfl⟩
  · obtain ⟨s1, s2⟩ := step_append grow hp.1 [t.id]
    unfold LogShows; rw [e1, e2, e3, e4, ← hp.2]; exact ⟨⟨s1.wf, s2⟩, rfl, s1.next⟩

/-- **C101** (memory side of one position). With nothing else sharing its array, the log in memory
is the list-level log, after any trades. -/
theorem C101_own_log (S : FloatSem) (grow : Nat → Nat → Nat) (ts : List Trade) :
    ∀ {h : Heap String} {p : HPosition}, LogShows h p →
    LogShows (hModifyAll S grow h p ts).1 (hModifyAll S grow h p ts).2 ∧
      (hModifyAll S grow h p ts).2.rest = modifiedAll S p.rest ts := by
  induction ts with
  | nil => intro h p hp; exact ⟨hp, rfl⟩
  | cons t ts ih =>
    intro h p hp
    obtain ⟨a, b, -⟩ := modify_self S grow hp t
    have := ih a
    unfold hModifyAll modifiedAll
    rw [List.foldl_cons, ← b]
    exact this

/-- **C101**: a new position's log holds the opening trade, in an array of its own. -/
theorem C101_new_log (h : Heap String) (id : String) (zeroTime : Int) (t : Trade) :
    LogShows (hNewPosition h id zeroTime t).1 (hNewPosition h id zeroTime t).2 := by
  refine ⟨⟨le_rfl, fun _ => Nat.lt_succ_self _⟩, ?_⟩
  show [_] = [_]
  simp [store, newPosition, hNewPosition]

/-- **C101**, the claim: a copy of any position made by `NewPosition` and `Modify` keeps its own log, and so
does the original, under any interleaving of later trades. -/
def Spec.C101_claim (S : FloatSem) (grow : Nat → Nat → Nat) : Prop :=
  ∀ (h : Heap String) (id : String) (zeroTime : Int) (first : Trade) (before : List Trade) (ts : List (Bool × Trade)),
    let n := hNewPosition h id zeroTime first
    let p := hModifyAll S grow n.1 n.2 before
    let r := hModifyTwo S grow p.1 p.2 p.2 ts
    LogShows r.1 r.2.1 ∧ LogShows r.1 r.2.2

/-- Go's growth of small slices: doubling. -/
def doubling (cap n : Nat) : Nat := 2 * cap - n

/-- **C101** is false of the code: after three entries the array has room for a fourth, and the two copies
write it both. -/
theorem C101_copies_violated : ¬ Spec.C101_claim Go.ieee doubling := by
  intro hc
  let pr : Pair := ⟨⟨"", "", ""⟩, ⟨"", "", ""⟩⟩
  let t : String → Trade := fun id => ⟨id, 0, "buy", "", pr, .fin 1, .fin 1, .fin 0, .fin 1, ""⟩
  have := (hc ⟨fun _ _ => "", 0⟩ "" 0 (t "a") [t "b", t "c"] [(true, t "d"), (false, t "e")]).1.2
  revert this
  decide +kernel

/-! ## What holds of copies -/

/-- No append of `p` can write into the elements or the spare room of `q`. -/
def NoClash (p q : Slice) : Prop := ∀ a i, Spare p a i → ¬ q.Owns a i

/-- One call of `Modify` on `p` beside `q`. -/
theorem modify_beside (S : FloatSem) (grow : Nat → Nat → Nat) {h : Heap String} {p q : HPosition} (hp : LogShows h p)
    (hq : LogShows h q) (c1 : NoClash p.log q.log) (c2 : NoClash q.log p.log) (t : Trade) :
    LogShows (hModify S grow h p t).1 q ∧ NoClash (hModify S grow h p t).2.log q.log ∧
      NoClash q.log (hModify S grow h p t).2.log := by
  rcases hModify_cases S grow h p t with ⟨e1, e2, -, -⟩ | ⟨e1, e2, -, -⟩
  · rw [e1, e2]; exact ⟨hq, c1, c2⟩
  · obtain ⟨f1, f2, f3, -⟩ := append_spare grow (h := h) (s := p.log) t.id
    have hnext : h.next ≤ (h.append grow p.log [t.id]).1.next := (step_append grow hp.1 [t.id]).1.next
    rw [e1, e2]
    refine ⟨⟨⟨hq.1.1, fun h0 => lt_of_lt_of_le (hq.1.2 h0) hnext⟩, ?_⟩, ?_, ?_⟩
    · rw [← hq.2]
      apply load_congr
      intro i hi
      have ho : q.log.Owns q.log.arr (q.log.off + i) := ⟨rfl, by omega, by have := hq.1.1; omega⟩
      exact f1 _ _ (owns_lt hq.1 ho) (fun hs => c1 _ _ hs ho)
    · intro a i hs ho
      rcases f2 a i hs with h1 | h1
      · exact c1 a i h1 ho
      · have := owns_lt hq.1 ho; omega
    · intro a i hs ho
      rcases f3 a i ho with h1 | h1
      · exact c2 a i hs h1
      · have := owns_lt hq.1 (spare_owns hs); omega

/-- **C101**, what is true: two positions whose spare room is not shared stay independent under
any interleaving of trades, for any growth policy. -/
theorem C101_independent_partial (S : FloatSem) (grow : Nat → Nat → Nat) (ts : List (Bool × Trade)) :
    ∀ {h : Heap String} {p q : HPosition}, LogShows h p → LogShows h q → NoClash p.log q.log → NoClash q.log p.log →
    let r := hModifyTwo S grow h p q ts
    LogShows r.1 r.2.1 ∧ LogShows r.1 r.2.2 ∧
      r.2.1.rest = modifiedAll S p.rest (tradesTo true ts) ∧ r.2.2.rest = modifiedAll S q.rest (tradesTo false ts) := by
  induction ts with
  | nil => intro h p q hp hq _ _; exact ⟨hp, hq, rfl, rfl⟩
  | cons t ts ih =>
    intro h p q hp hq c1 c2
    obtain ⟨w, t⟩ := t
    cases w with
    | true =>
      obtain ⟨a, b, -⟩ := modify_self S grow hp t
      obtain ⟨d, e, f⟩ := modify_beside S grow hp hq c1 c2 t
      have := ih a d e f
      rw [b] at this
      exact this
    | false =>
      obtain ⟨a, b, -⟩ := modify_self S grow hq t
      obtain ⟨d, e, f⟩ := modify_beside S grow hq hp c2 c1 t
      have := ih d a f e
      rw [b] at this
      exact this

/-- **C101**: a copy made when the array is full (for example a freshly opened position) and its original are independent
ever after. -/
theorem C101_full_copy_partial (S : FloatSem) (grow : Nat → Nat → Nat) {h : Heap String} {p : HPosition}
    (hp : LogShows h p) (full : p.log.len = p.log.cap) (ts : List (Bool × Trade)) :
    let r := hModifyTwo S grow h p p ts
    LogShows r.1 r.2.1 ∧ LogShows r.1 r.2.2 ∧
      r.2.1.rest = modifiedAll S p.rest (tradesTo true ts) ∧ r.2.2.rest = modifiedAll S p.rest (tradesTo false ts) := by
  have nc : NoClash p.log p.log := by
    rintro a i ⟨-, h1, h2⟩ -
    omega
  exact C101_independent_partial S grow ts hp hp nc nc

/-- No append of `p` can write into the first `n` elements of `q`. -/
def KeepsFirst (n : Nat) (p q : Slice) : Prop := ∀ i, i < n → ¬ Spare p q.arr (q.off + i)

/-- One call of `Modify` on `p` keeps the first `n` entries of `p` and of `q`. -/
theorem modify_first (S : FloatSem) (grow : Nat → Nat → Nat) {h : Heap String} {p q : HPosition} {n : Nat}
    {init : List String} (wp : WF h p.log) (wq : WF h q.log) (np : n ≤ p.log.len) (nq : n ≤ q.log.len)
    (ip : (h.load p.log).take n = init) (iq : (h.load q.log).take n = init)
    (c1 : KeepsFirst n p.log q.log) (c2 : KeepsFirst n q.log p.log) (t : Trade) :
    let r := hModify S grow h p t
    WF r.1 r.2.log ∧ WF r.1 q.log ∧ n ≤ r.2.log.len ∧ (r.1.load r.2.log).take n = init ∧
      (r.1.load q.log).take n = init ∧ KeepsFirst n r.2.log q.log ∧ KeepsFirst n q.log r.2.log := by
  intro r
  rcases hModify_cases S grow h p t with ⟨e1, e2, -, -⟩ | ⟨e1, e2, -, -⟩
  · show WF (hModify S grow h p t).1 (hModify S grow h p t).2.log ∧ _
    rw [show r = hModify S grow h p t from rfl, e1, e2]; exact ⟨wp, wq, np, ip, iq, c1, c2⟩
  · obtain ⟨f1, f2, f3, f4⟩ := append_spare grow (h := h) (s := p.log) t.id
    obtain ⟨s1, s2⟩ := step_append grow wp [t.id]
    rw [show r = hModify S grow h p t from rfl, e1, e2]
    have hl : (h.append grow p.log [t.id]).2.len = p.log.len + 1 := by
      rw [← length_load (h.append grow p.log [t.id]).1, s2, List.length_append, length_load]; rfl
    refine ⟨s1.wf, ⟨wq.1, fun h0 => lt_of_lt_of_le (wq.2 h0) s1.next⟩, by omega, ?_, ?_, ?_, ?_⟩
    · rw [s2, List.take_append_of_le_length (by rw [length_load]; exact np), ip]
    · rw [← iq]
      apply List.ext_getElem?
      intro i
      rw [List.getElem?_take, List.getElem?_take, getElem?_load, getElem?_load]
      by_cases hi : i < n
      · rw [if_pos hi, if_pos hi, if_pos (by omega), if_pos (by omega)]
        have ho : q.log.Owns q.log.arr (q.log.off + i) := ⟨rfl, by omega, by have := wq.1; omega⟩
        rw [f1 _ _ (owns_lt wq ho) (c1 i hi)]
      · rw [if_neg hi, if_neg hi]
    · intro i hi hs
      rcases f2 _ _ hs with h1 | h1
      · exact c1 i hi h1
      · have ho : q.log.Owns q.log.arr (q.log.off + i) := ⟨rfl, by omega, by have := wq.1; omega⟩
        have := owns_lt wq ho
        omega
    · intro i hi hs
      rcases f4 with ⟨h1, h2⟩ | h1
      · rw [h1, h2] at hs; exact c2 i hi hs
      · have := owns_lt wq (spare_owns hs); omega

/-- **C101**: whatever happens later, the original and the copy keep the entries present at the copy. -/
theorem C101_first_entries_partial (S : FloatSem) (grow : Nat → Nat → Nat) {h : Heap String} {p : HPosition}
    (hp : LogShows h p) (ts : List (Bool × Trade)) :
    let r := hModifyTwo S grow h p p ts
    (r.1.load r.2.1.log).take p.rest.trades.length = p.rest.trades ∧
      (r.1.load r.2.2.log).take p.rest.trades.length = p.rest.trades := by
  have gen : ∀ (ts : List (Bool × Trade)) {h : Heap String} {p q : HPosition} {n : Nat} {init : List String},
      WF h p.log → WF h q.log → n ≤ p.log.len → n ≤ q.log.len → (h.load p.log).take n = init →
      (h.load q.log).take n = init → KeepsFirst n p.log q.log → KeepsFirst n q.log p.log →
      let r := hModifyTwo S grow h p q ts
      (r.1.load r.2.1.log).take n = init ∧ (r.1.load r.2.2.log).take n = init := by
    intro ts
    induction ts with
    | nil => intro h p q n init _ _ _ _ ip iq _ _; exact ⟨ip, iq⟩
    | cons t ts ih =>
      intro h p q n init wp wq np nq ip iq c1 c2
      obtain ⟨w, t⟩ := t
      cases w with
      | true =>
        obtain ⟨a1, a2, a3, a4, a5, a6, a7⟩ := modify_first S grow wp wq np nq ip iq c1 c2 t
        exact ih a1 a2 a3 nq a4 a5 a6 a7
      | false =>
        obtain ⟨a1, a2, a3, a4, a5, a6, a7⟩ := modify_first S grow wq wp nq np iq ip c2 c1 t
        exact ih a2 a1 np a3 a5 a4 a7 a6
  have hl : p.rest.trades.length = p.log.len := by rw [← hp.2, length_load]
  have it : (h.load p.log).take p.rest.trades.length = p.rest.trades := by rw [hp.2, List.take_length]
  have kf : KeepsFirst p.rest.trades.length p.log p.log := by
    rintro i hi ⟨-, h1, -⟩
    omega
  exact gen ts hp.1 hp.1 hl.le hl.le it it kf kf

/-- **C101**: while only one of the two is modified, both logs are right. -/
theorem C101_one_sided_partial (S : FloatSem) (grow : Nat → Nat → Nat) {h : Heap String} {p : HPosition}
    (hp : LogShows h p) (ts : List Trade) :
    LogShows (hModifyAll S grow h p ts).1 (hModifyAll S grow h p ts).2 ∧
    LogShows (hModifyAll S grow h p ts).1 p := by
  refine ⟨(C101_own_log S grow ts hp).1, ?_⟩
  have e : ∀ (ts : List Trade) (h : Heap String) (p q : HPosition),
      hModifyTwo S grow h p q (ts.map fun t => (true, t)) =
        ((hModifyAll S grow h p ts).1, (hModifyAll S grow h p ts).2, q) := by
    intro ts
    induction ts with
    | nil => intro h p q; rfl
    | cons t ts ih => intro h p q; exact ih _ _ _
  have nx : ∀ (ts : List Trade) {h : Heap String} {p : HPosition}, LogShows h p →
      h.next ≤ (hModifyAll S grow h p ts).1.next := by
    intro ts
    induction ts with
    | nil => intro h p _; exact le_rfl
    | cons t ts ih =>
      intro h p hp
      obtain ⟨a, -, b⟩ := modify_self S grow hp t
      exact b.trans (ih a)
  have := (C101_first_entries_partial S grow hp (ts.map fun t => (true, t))).2
  rw [e] at this
  dsimp only at this
  refine ⟨⟨hp.1.1, fun h0 => lt_of_lt_of_le (hp.1.2 h0) (nx ts hp)⟩, ?_⟩
  have hl : p.rest.trades.length = p.log.len := by rw [← hp.2, length_load]
  rw [← this, List.take_of_length_le (by rw [length_load, hl])]

/-- A position just opened is full; one with three entries (under doubling) is not. -/
example : ∃ h p, LogShows h p ∧ p.log.len = p.log.cap ∧ p.rest.trades = ["a"] :=
  ⟨_, _, C101_new_log ⟨fun _ _ => "", 0⟩ "" 0 ⟨"a", 0, "buy", "", ⟨⟨"", "", ""⟩, ⟨"", "", ""⟩⟩, .fin 1, .fin 1, .fin 0, .fin 1, ""⟩,
    rfl, rfl⟩

/-- Two positions opened one after the other do not clash. -/
example : ∃ h p q, LogShows h p ∧ LogShows h q ∧ NoClash p.log q.log ∧ NoClash q.log p.log ∧ p.log.arr ≠ q.log.arr := by
  let t : Trade := ⟨"a", 0, "buy", "", ⟨⟨"", "", ""⟩, ⟨"", "", ""⟩⟩, .fin 1, .fin 1, .fin 0, .fin 1, ""⟩
  let n := hNewPosition ⟨fun _ _ => "", 0⟩ "" 0 t
  let m := hNewPosition n.1 "" 0 t
  refine ⟨m.1, n.2, m.2, ⟨⟨le_rfl, fun _ => by decide⟩, ?_⟩, C101_new_log n.1 "" 0 t, ?_, ?_, by decide⟩
  · decide +kernel
  · rintro a i ⟨-, h1, h2⟩ -
    have e1 : n.2.log.len = 1 := rfl
    have e2 : n.2.log.cap = 1 := rfl
    omega
  · rintro a i ⟨-, h1, h2⟩ -
    have e1 : m.2.log.len = 1 := rfl
    have e2 : m.2.log.cap = 1 := rfl
    omega

end Finmod
