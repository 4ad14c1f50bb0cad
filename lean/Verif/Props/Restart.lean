import Verif.Props.Json
import Verif.Lemmas.Position

/-!
# C180: books and positions can be stored at any time and taken up again
-/

namespace Finmod.Json
open Go Finmod Finmod.Spec Spec

/-! ### Books -/

theorem mem_upsertAsk {rows : List Row} {p v : Fl} {r : Row} (h : r ∈ upsertAsk rows p v) :
    r = mkRow p v ∨ r ∈ rows ∨ r = zeroRow := by
  unfold upsertAsk at h
  have hset : ∀ {l : List Row} {i : Nat}, r ∈ l.set i (mkRow p v) → r = mkRow p v ∨ r ∈ l :=
    fun h => (List.mem_or_eq_of_mem_set h).symm
  have hsh : ∀ {l : List Row} {i : Nat}, r ∈ shiftRight l i → r ∈ l := by
    intro l i h
    unfold shiftRight at h
    rcases List.mem_append.1 h with h | h
    · exact List.mem_of_mem_take h
    · exact List.mem_of_mem_drop (List.mem_of_mem_take h)
  split at h
  · rcases hset h with h | h <;> simp [h]
  · split at h
    · simp only [List.nil_append, List.mem_singleton] at h; exact .inl h
    · rename_i a0 _ _
      split at h
      · rcases hset h with h | h
        · exact .inl h
        · simp only [List.cons_append, List.nil_append, List.mem_cons, List.not_mem_nil, or_false, or_self] at h
          exact .inr (.inl (by simp [h]))
      · rcases List.mem_append.1 h with h | h
        · exact .inr (.inl h)
        · exact .inl (List.mem_singleton.1 h)
    · split at h
      · rcases hset h with h | h
        · exact .inl h
        · rcases List.mem_append.1 (hsh h) with h | h
          · exact .inr (.inl h)
          · exact .inr (.inr (List.mem_singleton.1 h))
      · rcases List.mem_append.1 h with h | h
        · exact .inr (.inl h)
        · exact .inl (List.mem_singleton.1 h)

theorem mem_upsertBid {rows : List Row} {p v : Fl} {r : Row} (h : r ∈ upsertBid rows p v) :
    r = mkRow p v ∨ r ∈ rows ∨ r = zeroRow := by
  unfold upsertBid at h
  have hset : ∀ {l : List Row} {i : Nat}, r ∈ l.set i (mkRow p v) → r = mkRow p v ∨ r ∈ l :=
    fun h => (List.mem_or_eq_of_mem_set h).symm
  have hsh : ∀ {l : List Row} {i : Nat}, r ∈ shiftRight l i → r ∈ l := by
    intro l i h
    unfold shiftRight at h
    rcases List.mem_append.1 h with h | h
    · exact List.mem_of_mem_take h
    · exact List.mem_of_mem_drop (List.mem_of_mem_take h)
  split at h
  · rcases hset h with h | h <;> simp [h]
  · split at h
    · simp only [List.nil_append, List.mem_singleton] at h; exact .inl h
    · rename_i a0 _ _
      split at h
      · rcases hset h with h | h
        · exact .inl h
        · simp only [List.cons_append, List.nil_append, List.mem_cons, List.not_mem_nil, or_false, or_self] at h
          exact .inr (.inl (by simp [h]))
      · rcases List.mem_append.1 h with h | h
        · exact .inr (.inl h)
        · exact .inl (List.mem_singleton.1 h)
    · split at h
      · rcases hset h with h | h
        · exact .inl h
        · rcases List.mem_append.1 (hsh h) with h | h
          · exact .inr (.inl h)
          · exact .inr (.inr (List.mem_singleton.1 h))
      · rcases List.mem_append.1 h with h | h
        · exact .inr (.inl h)
        · exact .inl (List.mem_singleton.1 h)

theorem mem_removeInvalidAsk {rows : List Row} {p : Fl} {r : Row} (h : r ∈ (removeInvalidAsk rows p).1) : r ∈ rows := by
  unfold removeInvalidAsk at h
  split at h
  · exact h
  · split at h
    · exact h
    · split at h
      · exact List.mem_of_mem_drop h
      · cases h

theorem mem_removeInvalidBid {rows : List Row} {p : Fl} {r : Row} (h : r ∈ (removeInvalidBid rows p).1) : r ∈ rows := by
  unfold removeInvalidBid at h
  split at h
  · exact h
  · split at h
    · exact h
    · split at h
      · exact List.mem_of_mem_drop h
      · cases h

theorem mem_limitSide {rows rows' : List Row} {d : Int} (h : limitSide rows d = some rows') :
    ∀ r ∈ rows', r ∈ rows := by
  intro r hr
  unfold limitSide sliceTo at h
  split at h
  · split at h
    · cases h
    · cases h; exact List.mem_of_mem_take hr
  · cases h; exact hr

theorem limit_ok {b b' : Book} (h : b.limit = .ok b') :
    b'.time = b.time ∧ b'.maxDepth = b.maxDepth ∧ (∀ r ∈ b'.asks, r ∈ b.asks) ∧ ∀ r ∈ b'.bids, r ∈ b.bids := by
  unfold Book.limit at h
  split at h
  · rename_i h1 h2
    cases h
    exact ⟨rfl, rfl, mem_limitSide h1, mem_limitSide h2⟩
  · cases h

theorem limit_not_err {b b' : Book} {e : ErrCode} : b.limit ≠ .err e b' := by
  unfold Book.limit
  split <;> simp

theorem mem_removeElement {rows : List Row} {i : Nat} {r : Row} (h : r ∈ removeElement rows i) : r ∈ rows := by
  unfold removeElement at h
  rcases List.mem_append.1 h with h | h
  · exact List.mem_of_mem_take h
  · exact List.mem_of_mem_drop h

theorem fin0 {E : Env} (hE : Good E) : Fin64 E (.fin 0) := by
  refine .inr ⟨0, rfl, ?_⟩
  have := hE.1.r64.int 0 (by norm_num)
  simpa using this

/-- One update, whatever it returns: the book stays one that JSON can carry. -/
theorem update_ok {E : Env} (hE : Good E) {b b' : Book} {u : Update} (hb : BookOk E b) (hu : UpdateOk E u)
    (h : b.applyUpdate u = .ok b' ∨ ∃ e, b.applyUpdate u = .err e b') : BookOk E b' := by
  obtain ⟨h1, h2, h3, h4⟩ := hb
  have hrow : ∀ {rows : List Row} {r : Row}, (∀ r ∈ rows, RowOk E r) →
      r = mkRow u.price u.volume ∨ r ∈ rows ∨ r = zeroRow → RowOk E r := by
    intro rows r hr hc
    rcases hc with rfl | hc | rfl
    · exact ⟨hu.1, hu.2, fin0 hE⟩
    · exact hr r hc
    · exact ⟨fin0 hE, fin0 hE, fin0 hE⟩
  unfold Book.applyUpdate at h
  split at h
  · split at h
    · rcases h with h | ⟨e, h⟩
      · obtain ⟨a, b1, c, d⟩ := limit_ok h
        refine ⟨by rw [a]; exact h1, fun r hr => ?_, fun r hr => ?_, by rw [b1]; exact h4⟩
        · exact hrow h2 (mem_upsertAsk (c r hr))
        · exact h3 r (mem_removeInvalidBid (d r hr))
      · exact absurd h limit_not_err
    · split at h
      · rcases h with h | ⟨e, h⟩
        · obtain ⟨a, b1, c, d⟩ := limit_ok h
          exact ⟨by rw [a]; exact h1, fun r hr => h2 r (mem_removeElement (c r hr)), fun r hr => h3 r (d r hr),
            by rw [b1]; exact h4⟩
        · exact absurd h limit_not_err
      · rcases h with h | ⟨e, h⟩ <;> cases h
        exact ⟨h1, h2, h3, h4⟩
  · split at h
    · split at h
      · rcases h with h | ⟨e, h⟩
        · obtain ⟨a, b1, c, d⟩ := limit_ok h
          refine ⟨by rw [a]; exact h1, fun r hr => ?_, fun r hr => ?_, by rw [b1]; exact h4⟩
          · exact h2 r (mem_removeInvalidAsk (c r hr))
          · exact hrow h3 (mem_upsertBid (d r hr))
        · exact absurd h limit_not_err
      · split at h
        · rcases h with h | ⟨e, h⟩
          · obtain ⟨a, b1, c, d⟩ := limit_ok h
            exact ⟨by rw [a]; exact h1, fun r hr => h2 r (c r hr), fun r hr => h3 r (mem_removeElement (d r hr)),
              by rw [b1]; exact h4⟩
          · exact absurd h limit_not_err
        · rcases h with h | ⟨e, h⟩ <;> cases h
          exact ⟨h1, h2, h3, h4⟩
    · rcases h with h | ⟨e, h⟩ <;> cases h
      exact ⟨h1, h2, h3, h4⟩

theorem history_ok {E : Env} (hE : Good E) {b b' : Book} {us : List Update} (hb : BookOk E b)
    (hu : ∀ u ∈ us, UpdateOk E u) (h : b.applyAll us = .ok b') : BookOk E b' := by
  induction us generalizing b with
  | nil => cases h; exact hb
  | cons u us ih =>
    unfold Book.applyAll at h
    have hu0 := hu u (by simp)
    have hus : ∀ u ∈ us, UpdateOk E u := fun v hv => hu v (by simp [hv])
    cases hs : b.applyUpdate u with
    | ok c => rw [hs] at h; exact ih (update_ok hE hb hu0 (.inl hs)) hus h
    | err e c => rw [hs] at h; exact ih (update_ok hE hb hu0 (.inr ⟨e, hs⟩)) hus h
    | panic => rw [hs] at h; cases h

theorem applyAll_append (b : Book) (us vs : List Update) {b1 : Book} (h : b.applyAll us = .ok b1) :
    b.applyAll (us ++ vs) = b1.applyAll vs := by
  induction us generalizing b with
  | nil => cases h; rfl
  | cons u us ih =>
    rw [List.cons_append]
    simp only [Book.applyAll] at h ⊢
    cases hs : b.applyUpdate u with
    | ok c => rw [hs] at h; exact ih c h
    | err e c => rw [hs] at h; exact ih c h
    | panic => rw [hs] at h; cases h

/-- **C180.** A book of finite float64 values, after any updates of finite float64 values, can be written
as JSON; the book read back, into any variable, goes on exactly like the original. -/
theorem C180_book {E : Env} (hE : Good E) {b b1 : Book} (hb : BookOk E b) {us vs : List Update}
    (hu : ∀ u ∈ us, UpdateOk E u) (h : b.applyAll us = .ok b1) (short : Bool) :
    ∃ s, E.book.marshal short b1 = some s ∧ ∀ old, ∃ b2, E.book.unmarshal old s = (b2, false) ∧
      b2.applyAll vs = b.applyAll (us ++ vs) := by
  obtain ⟨s, hs, hr⟩ := (C161_book hE b1).1 (history_ok hE hb hu h) short
  exact ⟨s, hs, fun old => ⟨b1, hr old, (applyAll_append b us vs h).symm⟩⟩

/-! ### Positions -/

/-- A value that a float64 variable can hold: a finite one, NaN or an infinity. -/
def Rep (E : Env) (x : Fl) : Prop := Fin64 E x ∨ NotFinite x

theorem rep_rnd {E : Env} (hE : Good E) (q : ℚ) : Rep E (E.S.rnd q) := by
  cases h : E.S.rnd q with
  | nan => exact .inr (.inl rfl)
  | inf b => exact .inr (.inr ⟨b, rfl⟩)
  | negZero => exact .inl (.inl rfl)
  | fin r => exact .inl (.inr ⟨r, rfl, hE.1.r64.idem q r h⟩)

theorem rep_nan (E : Env) : Rep E .nan := .inr (.inl rfl)
theorem rep_inf (E : Env) (b : Bool) : Rep E (.inf b) := .inr (.inr ⟨b, rfl⟩)
theorem rep_negZero (E : Env) : Rep E .negZero := .inl (.inl rfl)
theorem rep_zero {E : Env} (hE : Good E) (b : Bool) : Rep E (Fl.zero b) := by
  cases b
  · exact .inl (fin0 hE)
  · exact rep_negZero E

theorem rep_add {E : Env} (hE : Good E) (x y : Fl) : Rep E (E.S.add x y) := by
  cases x <;> cases y <;> simp only [FloatSem.add] <;> (try split) <;>
    first | exact rep_rnd hE _ | exact rep_nan E | exact rep_inf E _ | exact rep_negZero E

theorem rep_sub {E : Env} (hE : Good E) (x y : Fl) : Rep E (E.S.sub x y) := rep_add hE _ _

theorem rep_mul {E : Env} (hE : Good E) (x y : Fl) : Rep E (E.S.mul x y) := by
  cases x <;> cases y <;> simp only [FloatSem.mul] <;> (try split) <;>
    first | exact rep_rnd hE _ | exact rep_nan E | exact rep_inf E _ | exact rep_zero hE _

theorem rep_div {E : Env} (hE : Good E) (x y : Fl) : Rep E (E.S.div x y) := by
  cases x <;> cases y <;> simp only [FloatSem.div] <;> (repeat' split) <;>
    first | exact rep_rnd hE _ | exact rep_nan E | exact rep_inf E _ | exact rep_zero hE _

/-- A position as the program can have it: every number is one a float64 holds, the take profit and the
stop loss are finite, and the times are ones JSON can carry. -/
def PositionRep (E : Env) (p : Position) : Prop :=
  PositionCloseOrderOk E p.takeProfit ∧ PositionCloseOrderOk E p.stopLoss ∧ Rep E p.openPrice ∧
    Rep E p.closePrice ∧ Rep E p.quantity ∧ Rep E p.profit ∧ TimeOk E p.openTime ∧ TimeOk E p.closeTime

/-- The four numbers a position computes are finite. -/
def FinitePosition (p : Position) : Prop :=
  p.openPrice.isFinite ∧ p.closePrice.isFinite ∧ p.quantity.isFinite ∧ p.profit.isFinite

theorem new_rep {E : Env} (hE : Good E) {id : String} {z : Int} {t : Trade} (hz : TimeOk E z) (ht : TradeOk E t) :
    PositionRep E (newPosition id z t) :=
  ⟨fin0 hE, fin0 hE, .inl ht.2.1, .inl (fin0 hE), .inl ht.2.2.1, .inl (fin0 hE), ht.1, hz⟩

theorem posAdd_rep {E : Env} (hE : Good E) {p : Position} (t : Trade) (hp : PositionRep E p) :
    PositionRep E (posAdd E.S p t) := by
  obtain ⟨h1, h2, h3, h4, h5, h6, h7, h8⟩ := hp
  exact ⟨h1, h2, rep_add hE _ _, h4, rep_add hE _ _, h6, h7, h8⟩

theorem posSubstract_rep {E : Env} (hE : Good E) {p : Position} {t : Trade} (hp : PositionRep E p)
    (ht : TradeOk E t) : PositionRep E (posSubstract' E.S p t) := by
  have hp0 := hp
  obtain ⟨h1, h2, h3, h4, h5, h6, h7, h8⟩ := hp
  unfold posSubstract' posSubstract
  dsimp only
  by_cases c1 : (Fl.lt (E.S.sub p.quantity t.quantity) (.fin 0) &&
      Fl.lt (E.S.sub p.quantity t.quantity) (E.S.const (-1 / 10000))) = true
  · simp only [c1, if_true]; exact hp0
  · simp only [c1]
    by_cases c2 : Fl.le (E.S.sub p.quantity t.quantity) (.fin 0) = true
    · simp only [c2, if_true]
      refine ⟨h1, h2, h3, .inl ht.2.1, h5, ?_, h7, ht.1⟩
      change Rep E (if _ then _ else _)
      split <;> exact rep_mul hE _ _
    · simp only [c2]
      exact ⟨h1, h2, rep_div hE _ _, h4, rep_sub hE _ _, h6, h7, h8⟩

theorem modified_rep {E : Env} (hE : Good E) {p : Position} {t : Trade} (hp : PositionRep E p)
    (ht : TradeOk E t) : PositionRep E (modified E.S p t) := by
  unfold modified modify
  split
  · rename_i h
    repeat' split at h
    all_goals cases h
    · exact posAdd_rep hE t hp
    · exact posSubstract_rep hE hp ht
    · exact posSubstract_rep hE hp ht
    · exact posAdd_rep hE t hp
    · exact hp
  · rename_i h
    repeat' split at h
    all_goals cases h
    exact hp
  · exact hp

theorem modifiedAll_rep {E : Env} (hE : Good E) {p : Position} {h : List Trade} (hp : PositionRep E p)
    (ht : ∀ t ∈ h, TradeOk E t) : PositionRep E (modifiedAll E.S p h) := by
  induction h generalizing p with
  | nil => exact hp
  | cons t h ih => exact ih (modified_rep hE hp (ht t (by simp))) fun u hu => ht u (by simp [hu])

theorem rep_finite {E : Env} {x : Fl} (h : Rep E x) : (x.isFinite = true → Fin64 E x) ∧
    (x.isFinite = false ↔ NotFinite x) := by
  rcases h with h | h
  · refine ⟨fun _ => h, ?_⟩
    rcases h with rfl | ⟨q, rfl, _⟩ <;> simp [Fl.isFinite, NotFinite]
  · refine ⟨fun hf => ?_, ?_⟩
    · rcases h with rfl | ⟨b, rfl⟩ <;> simp [Fl.isFinite] at hf
    · rcases h with rfl | ⟨b, rfl⟩ <;> simp [Fl.isFinite, NotFinite]

/-- **C180.** A position opened by a trade and modified by any trades of finite float64 values can be written as
JSON exactly when its four computed numbers are finite; read back, into any variable, it is the same position
and goes on under further trades as the original does. -/
theorem C180_position {E : Env} (hE : Good E) {id : String} {z : Int} {t : Trade} (hz : TimeOk E z)
    (ht : TradeOk E t) {h g : List Trade} (hh : ∀ u ∈ h, TradeOk E u) (short : Bool) :
    (FinitePosition (modifiedAll E.S (newPosition id z t) h) →
      ∃ s, E.position.marshal short (modifiedAll E.S (newPosition id z t) h) = some s ∧
        ∀ old, ∃ q, E.position.unmarshal old s = (q, false) ∧
          modifiedAll E.S q g = modifiedAll E.S (newPosition id z t) (h ++ g)) ∧
    (¬ FinitePosition (modifiedAll E.S (newPosition id z t) h) →
      E.position.marshal short (modifiedAll E.S (newPosition id z t) h) = none) := by
  have hr := modifiedAll_rep hE (new_rep (id := id) hE hz ht) hh
  have happ : modifiedAll E.S (newPosition id z t) (h ++ g) =
      modifiedAll E.S (modifiedAll E.S (newPosition id z t) h) g := by
    unfold modifiedAll; rw [List.foldl_append]
  rw [happ]
  generalize modifiedAll E.S (newPosition id z t) h = p at hr
  obtain ⟨h1, h2, h3, h4, h5, h6, h7, h8⟩ := hr
  constructor
  · rintro ⟨f1, f2, f3, f4⟩
    obtain ⟨s, hs, hu⟩ := (C161_position hE p).1 ⟨h1, h2, (rep_finite h3).1 f1, (rep_finite h4).1 f2,
      (rep_finite h5).1 f3, (rep_finite h6).1 f4, h7, h8⟩ short
    exact ⟨s, hs, fun old => ⟨p, hu old, rfl⟩⟩
  · intro hn
    refine (C161_position hE p).2.2 ?_ short
    unfold PositionBad
    rw [← (rep_finite h3).2, ← (rep_finite h4).2, ← (rep_finite h5).2, ← (rep_finite h6).2]
    by_contra hc
    refine hn ⟨?_, ?_, ?_, ?_⟩ <;> (by_contra hf; simp only [Bool.not_eq_true] at hf; simp [hf] at hc)

/-- Updates for the example: the only ask is deleted, the only bid gets a new row. -/
def restartUpdates : List Update := [⟨.fin (5 / 2), .fin 0, "ask"⟩, ⟨.fin (5 / 2), .fin (5 / 2), "bid"⟩]

example : ∃ b1 s, sampleBook.applyAll restartUpdates = .ok b1 ∧ exampleEnv.book.marshal true b1 = some s ∧
    ∀ old, ∃ b2, exampleEnv.book.unmarshal old s = (b2, false) ∧
      b2.applyAll [sampleUpdate] = sampleBook.applyAll (restartUpdates ++ [sampleUpdate]) := by
  have hu : ∀ u ∈ restartUpdates, UpdateOk exampleEnv u := by
    intro u hu
    simp only [restartUpdates, List.mem_cons, List.not_mem_nil, or_false] at hu
    rcases hu with rfl | rfl
    · exact ⟨example_float, fin0 exampleEnv_good⟩
    · exact ⟨example_float, example_float⟩
  have h : sampleBook.applyAll restartUpdates = .ok ⟨1600000000, [], [mkRow (.fin (5 / 2)) (.fin (5 / 2))], 1600000000⟩ := by
    decide +kernel
  obtain ⟨s, h1, h2⟩ := C180_book exampleEnv_good sampleBook_ok (vs := [sampleUpdate]) hu h true
  exact ⟨_, s, h, h1, h2⟩

/-- Trades for the example. -/
def restartTrade (action : String) (q : Fl) : Trade := ⟨"t", 7, action, "limit", samplePair, .fin (5 / 2), q, .fin 0, .fin 0, ""⟩

theorem restartTrade_ok (a : String) {q : Fl} (hq : Fin64 exampleEnv q) : TradeOk exampleEnv (restartTrade a q) :=
  ⟨example_time, example_float, hq, fin0 exampleEnv_good, fin0 exampleEnv_good⟩

example : ∃ s, exampleEnv.position.marshal true
      (modifiedAll ieee (newPosition "p" 7 (restartTrade "buy" (.fin (5 / 2)))) [restartTrade "buy" (.fin (5 / 2))]) = some s ∧
    ∀ old, ∃ q, exampleEnv.position.unmarshal old s = (q, false) ∧
      modifiedAll ieee q [restartTrade "sell" (.fin 5)] =
        modifiedAll ieee (newPosition "p" 7 (restartTrade "buy" (.fin (5 / 2))))
          [restartTrade "buy" (.fin (5 / 2)), restartTrade "sell" (.fin 5)] :=
  (C180_position exampleEnv_good example_time (restartTrade_ok "buy" example_float)
    (g := [restartTrade "sell" (.fin 5)])
    (by intro u hu; rw [List.mem_singleton.1 hu]; exact restartTrade_ok _ example_float) true).1
    (by unfold FinitePosition; decide +kernel)

example : exampleEnv.position.marshal true
    (modifiedAll ieee (newPosition "p" 7 (restartTrade "buy" (.fin 0))) [restartTrade "buy" (.fin 0)]) = none :=
  (C180_position exampleEnv_good example_time (restartTrade_ok "buy" (fin0 exampleEnv_good)) (g := [])
    (by intro u hu; rw [List.mem_singleton.1 hu]; exact restartTrade_ok _ (fin0 exampleEnv_good)) true).2
    (by unfold FinitePosition; decide +kernel)

end Finmod.Json
