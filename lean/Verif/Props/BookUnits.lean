import Verif.Lemmas.GoSort
import Verif.Lemmas.Side
import Verif.Go.IEEE

/-!
# C181: books in other units

`ApplyUpdate` and `GetDepth` only compare prices and test volumes for zero, so a change of units that keeps the
order of the prices that occur can be made before or after them. `NewOrderBook` adds volumes,
`CalculateOverlap` multiplies them with prices.
-/

namespace Finmod
open Go

namespace Spec

/-- On the values satisfying `P`, `f` keeps the outcome of `<` and `==`. -/
def KeepsOrder (P : Fl → Prop) (f : Fl → Fl) : Prop :=
  ∀ x y, P x → P y → Fl.lt (f x) (f y) = Fl.lt x y ∧ Fl.eq (f x) (f y) = Fl.eq x y

/-- A row in other units. -/
def rowIn (f g h : Fl → Fl) (r : Row) : Row := ⟨f r.price, g r.volume, h r.accum⟩

/-- A book in other units. -/
def bookIn (f g h : Fl → Fl) (b : Book) : Book :=
  { b with asks := b.asks.map (rowIn f g h), bids := b.bids.map (rowIn f g h) }

/-- An update in other units. -/
def updateIn (f g : Fl → Fl) (u : Update) : Update := ⟨f u.price, g u.volume, u.side⟩

/-- What a call returns, with the value changed. -/
def onValue {α β : Type} (k : α → β) : Res α → Res β
  | .ok v => .ok (k v)
  | .err e v => .err e (k v)
  | .panic => .panic

/-- All prices of the book satisfy `P`. -/
def Prices (P : Fl → Prop) (b : Book) : Prop := (∀ r ∈ b.asks, P r.price) ∧ ∀ r ∈ b.bids, P r.price

end Spec
open Spec

section
variable {P : Fl → Prop} {f g h : Fl → Fl} {lt : Fl → Fl → Bool}

theorem findIdx?_units {p q : Row → Bool} : ∀ {rows : List Row}, (∀ r ∈ rows, q (rowIn f g h r) = p r) →
    (rows.map (rowIn f g h)).findIdx? q = rows.findIdx? p
  | [], _ => rfl
  | r :: rows, hr => by
    rw [List.map_cons, List.findIdx?_cons, List.findIdx?_cons, hr r (by simp),
      findIdx?_units (rows := rows) fun s hs => hr s (by simp [hs])]

/-- The same for either direction of comparing. -/
def KeepsLt (P : Fl → Prop) (f : Fl → Fl) (lt : Fl → Fl → Bool) : Prop :=
  ∀ x y, P x → P y → lt (f x) (f y) = lt x y ∧ Fl.eq (f x) (f y) = Fl.eq x y

theorem keeps_ask (hf : KeepsOrder P f) : KeepsLt P f Fl.lt := hf

theorem keeps_bid (hf : KeepsOrder P f) : KeepsLt P f (fun a b => Fl.lt b a) :=
  fun x y hx hy => ⟨(hf y x hy hx).1, (hf x y hx hy).2⟩

theorem gUpsert_split {rows : List Row} {p v : Fl} :
    gUpsert lt rows p v = match rows.findIdx? (fun r => Fl.eq r.price p) with
      | some i => rows.set i (mkRow p v)
      | none => match rows.findIdx? (fun r => lt p r.price) with
        | some i => rows.take i ++ mkRow p v :: rows.drop i
        | none => rows ++ [mkRow p v] := by
  unfold gUpsert
  cases he : rows.findIdx? (fun r => Fl.eq r.price p) with
  | some i => rfl
  | none =>
    dsimp only
    match rows, he with
    | [], _ => rfl
    | [a0], _ =>
      by_cases c : lt p a0.price = true <;> simp [List.findIdx?_cons, c]
    | a :: c :: rows, _ =>
      dsimp only
      cases hi : (a :: c :: rows).findIdx? (fun r => lt p r.price) with
      | none => rfl
      | some i =>
        obtain ⟨l1, x, l2, hl, rfl, -, -⟩ := findIdx?_some_split hi
        dsimp only
        rw [hl, shiftRight_append, set_append_cons]
        simp

theorem gUpsert_units (hf : KeepsLt P f lt) {rows : List Row} {p v : Fl} (hr : ∀ r ∈ rows, P r.price) (hp : P p)
    (h0 : h (.fin 0) = .fin 0) :
    gUpsert lt (rows.map (rowIn f g h)) (f p) (g v) = (gUpsert lt rows p v).map (rowIn f g h) := by
  have hm : mkRow (f p) (g v) = rowIn f g h (mkRow p v) := by simp [mkRow, rowIn, h0]
  rw [gUpsert_split, gUpsert_split,
    findIdx?_units (p := fun r => Fl.eq r.price p) (fun r hq => (hf _ _ (hr r hq) hp).2),
    findIdx?_units (p := fun r => lt p r.price) (fun r hq => (hf _ _ hp (hr r hq)).1), hm]
  split
  · rw [List.map_set]
  · split
    · simp
    · simp

theorem gUpsert_mem {rows : List Row} {p v : Fl} {r : Row} (hr : r ∈ gUpsert lt rows p v) :
    r = mkRow p v ∨ r ∈ rows := by
  rw [gUpsert_split] at hr
  split at hr
  · exact (List.mem_or_eq_of_mem_set hr).symm
  · split at hr
    · rcases List.mem_append.1 hr with hr | hr
      · exact .inr (List.mem_of_mem_take hr)
      · rcases List.mem_cons.1 hr with hr | hr
        · exact .inl hr
        · exact .inr (List.mem_of_mem_drop hr)
    · rcases List.mem_append.1 hr with hr | hr
      · exact .inr hr
      · exact .inl (List.mem_singleton.1 hr)

theorem gRemove_units (hf : KeepsLt P f lt) {rows : List Row} {p : Fl} (hr : ∀ r ∈ rows, P r.price) (hp : P p) :
    (gRemove lt (rows.map (rowIn f g h)) (f p)).1 = (gRemove lt rows p).1.map (rowIn f g h) := by
  cases rows with
  | nil => rfl
  | cons a rows =>
    unfold gRemove
    rw [findIdx?_units (p := fun r => !(lt r.price p)) (fun r hq => by
      show (!lt (f r.price) (f p)) = _
      rw [(hf _ _ (hr r hq) hp).1])]
    simp only [List.map_cons, rowIn]
    rw [(hf _ _ hp (hr a (by simp))).1]
    split
    · simp [rowIn]
    · split
      · simp only [List.map_drop, List.length_cons, List.length_map, List.map_cons, rowIn]
      · rfl

theorem gRemove_mem {rows : List Row} {p : Fl} {r : Row} (hr : r ∈ (gRemove lt rows p).1) : r ∈ rows := by
  unfold gRemove at hr
  split at hr
  · exact hr
  · split at hr
    · exact hr
    · split at hr
      · exact List.mem_of_mem_drop hr
      · cases hr

theorem limitSide_units (rows : List Row) (d : Int) :
    limitSide (rows.map (rowIn f g h)) d = (limitSide rows d).map (List.map (rowIn f g h)) := by
  unfold limitSide sliceTo
  rw [List.length_map]
  split
  · split
    · rfl
    · simp [List.map_take]
  · rfl

theorem limit_units (b : Book) : (bookIn f g h b).limit = onValue (bookIn f g h) b.limit := by
  unfold Book.limit
  simp only [bookIn, limitSide_units]
  cases limitSide b.asks b.maxDepth <;> cases limitSide b.bids b.maxDepth <;> rfl

theorem limitSide_mem {rows rows' : List Row} {d : Int} (hl : limitSide rows d = some rows') :
    ∀ r ∈ rows', r ∈ rows := by
  intro r hr
  unfold limitSide sliceTo at hl
  split at hl
  · split at hl
    · cases hl
    · cases hl; exact List.mem_of_mem_take hr
  · cases hl; exact hr

theorem limit_prices {b : Book} (hb : Prices P b) :
    ∃ b', (b.limit = .ok b' ∧ Prices P b') ∨ b.limit = .panic := by
  unfold Book.limit
  cases ha : limitSide b.asks b.maxDepth with
  | none => exact ⟨b, .inr rfl⟩
  | some as =>
    cases hbd : limitSide b.bids b.maxDepth with
    | none => exact ⟨b, .inr rfl⟩
    | some bs =>
      exact ⟨_, .inl ⟨rfl, fun r hr => hb.1 r (limitSide_mem ha r hr), fun r hr => hb.2 r (limitSide_mem hbd r hr)⟩⟩

theorem removeElement_units (rows : List Row) (i : Nat) :
    removeElement (rows.map (rowIn f g h)) i = (removeElement rows i).map (rowIn f g h) := by
  simp [removeElement, List.map_take, List.map_drop]

theorem removeElement_mem {rows : List Row} {i : Nat} {r : Row} (hr : r ∈ removeElement rows i) : r ∈ rows := by
  unfold removeElement at hr
  rcases List.mem_append.1 hr with hr | hr
  · exact List.mem_of_mem_take hr
  · exact List.mem_of_mem_drop hr

end

/-- The prices stay among those of the book and the update, whatever `ApplyUpdate` returns. -/
theorem update_prices {P : Fl → Prop} {b : Book} {u : Update} (hb : Prices P b) (hu : P u.price) :
    (∃ b', b.applyUpdate u = .ok b' ∧ Prices P b') ∨ (∃ e, b.applyUpdate u = .err e b) ∨ b.applyUpdate u = .panic := by
  have fin : ∀ {c : Book}, Prices P c → (∃ b', c.limit = .ok b' ∧ Prices P b') ∨ (∃ e, c.limit = .err e b) ∨ c.limit = .panic := by
    intro c hc
    obtain ⟨b', h | h⟩ := limit_prices hc
    · exact .inl ⟨b', h⟩
    · exact .inr (.inr h)
  unfold Book.applyUpdate
  split
  · split
    · refine fin ⟨fun r hr => ?_, fun r hr => hb.2 r (gRemove_mem (lt := fun a b => Fl.lt b a) hr)⟩
      rcases gUpsert_mem (lt := Fl.lt) hr with rfl | hr
      · exact hu
      · exact hb.1 r hr
    · split
      · exact fin ⟨fun r hr => hb.1 r (removeElement_mem hr), hb.2⟩
      · exact .inl ⟨b, rfl, hb⟩
  · split
    · split
      · refine fin ⟨fun r hr => hb.1 r (gRemove_mem (lt := Fl.lt) hr), fun r hr => ?_⟩
        rcases gUpsert_mem (lt := fun a b => Fl.lt b a) hr with rfl | hr
        · exact hu
        · exact hb.2 r hr
      · split
        · exact fin ⟨hb.1, fun r hr => hb.2 r (removeElement_mem hr)⟩
        · exact .inl ⟨b, rfl, hb⟩
    · exact .inr (.inl ⟨_, rfl⟩)

/-- **C181.** `ApplyUpdate` on a book in other units: the result in other units. -/
theorem C181_update {P : Fl → Prop} {f g h : Fl → Fl} (hf : KeepsOrder P f) (h0 : h (.fin 0) = .fin 0)
    {b : Book} {u : Update} (hb : Prices P b) (hu : P u.price)
    (hv : Fl.eq (g u.volume) (.fin 0) = Fl.eq u.volume (.fin 0)) :
    (bookIn f g h b).applyUpdate (updateIn f g u) = onValue (bookIn f g h) (b.applyUpdate u) := by
  have ne : Fl.ne (g u.volume) (.fin 0) = Fl.ne u.volume (.fin 0) := by unfold Fl.ne; rw [hv]
  unfold Book.applyUpdate
  simp only [updateIn, ne]
  split
  · split
    · rw [← limit_units]
      congr 1
      simp only [Book.removeInvalid, bookIn, String.reduceEq, if_false, if_true]
      rw [removeInvalidBid_eq, upsertAsk_eq]
      exact congrArg₂ (fun x y => Book.mk b.time x y b.maxDepth) (gUpsert_units (keeps_ask hf) hb.1 hu h0)
        (gRemove_units (keeps_bid hf) hb.2 hu)
    · rw [show (bookIn f g h b).asks = b.asks.map (rowIn f g h) from rfl,
        findIdx?_units (p := fun r => Fl.eq r.price u.price) (fun r hq => (hf _ _ (hb.1 r hq) hu).2)]
      split
      · rw [← limit_units, removeElement_units]; rfl
      · rfl
  · split
    · split
      · rw [← limit_units]
        congr 1
        simp only [Book.removeInvalid, bookIn, if_true]
        rw [removeInvalidAsk_eq, upsertBid_eq]
        exact congrArg₂ (fun x y => Book.mk b.time x y b.maxDepth) (gRemove_units (keeps_ask hf) hb.1 hu)
          (gUpsert_units (keeps_bid hf) hb.2 hu h0)
      · rw [show (bookIn f g h b).bids = b.bids.map (rowIn f g h) from rfl,
          findIdx?_units (p := fun r => Fl.eq r.price u.price) (fun r hq => (hf _ _ (hb.2 r hq) hu).2)]
        split
        · rw [← limit_units, removeElement_units]; rfl
        · rfl
    · rfl

/-- **C181.** The same for any history of updates. -/
theorem C181_history {P : Fl → Prop} {f g h : Fl → Fl} (hf : KeepsOrder P f) (h0 : h (.fin 0) = .fin 0)
    {b : Book} {us : List Update} (hb : Prices P b) (hu : ∀ u ∈ us, P u.price)
    (hv : ∀ u ∈ us, Fl.eq (g u.volume) (.fin 0) = Fl.eq u.volume (.fin 0)) :
    (bookIn f g h b).applyAll (us.map (updateIn f g)) = onValue (bookIn f g h) (b.applyAll us) := by
  induction us generalizing b with
  | nil => rfl
  | cons u us ih =>
    have ih := fun {b : Book} (hb : Prices P b) => ih (b := b) hb (fun w hw => hu w (by simp [hw])) fun w hw => hv w (by simp [hw])
    rw [List.map_cons]
    simp only [Book.applyAll]
    rw [C181_update hf h0 hb (hu u (by simp)) (hv u (by simp))]
    rcases update_prices hb (hu u (by simp)) with ⟨b', e, hb'⟩ | ⟨_, e⟩ | e <;> rw [e] <;> simp only [onValue]
    · exact ih hb'
    · exact ih hb

theorem keeps_le {P : Fl → Prop} {f : Fl → Fl} (hf : KeepsOrder P f) {x y : Fl} (hx : P x) (hy : P y) :
    Fl.le (f x) (f y) = Fl.le x y := by
  have key : ∀ a b : Fl, Fl.le a b = (Fl.lt a b || Fl.eq a b) := by
    intro a b
    unfold Fl.le Fl.lt Fl.eq
    cases a.isNaN <;> cases b.isNaN <;> simp [le_iff_lt_or_eq]
  rw [key, key, (hf x y hx hy).1, (hf x y hx hy).2]

/-- **C181.** `GetDepth` in other units: the price found, in other units; errors and their value stay. -/
theorem C181_depth {P : Fl → Prop} {f g h : Fl → Fl} (hf : KeepsOrder P f) {b : Book} {p : Fl} (hb : Prices P b)
    (hp : P p) (hz : P (.fin 0)) (hz0 : f (.fin 0) = .fin 0) :
    (bookIn f g h b).getDepth (f p) = onValue f (b.getDepth p) := by
  have hle := keeps_le hf hp hz
  rw [hz0] at hle
  unfold Book.getDepth
  rw [hle]
  split
  · rw [onValue, hz0]
  · simp only [bookIn, List.head?_map, List.getLast?_map]
    cases h1 : b.asks.head? with
    | none => simp [onValue]
    | some a =>
    cases h2 : b.asks.getLast? with
    | none => simp [onValue]
    | some a' =>
    cases h3 : b.bids.head? with
    | none => simp [onValue]
    | some c =>
    cases h4 : b.bids.getLast? with
    | none => simp [onValue]
    | some c' =>
      simp only [Option.map_some]
      have pa := hb.1 a (List.mem_of_head? h1)
      have pa' := hb.1 a' (List.mem_of_getLast? h2)
      have pc := hb.2 c (List.mem_of_head? h3)
      have pc' := hb.2 c' (List.mem_of_getLast? h4)
      rw [findIdx?_units (p := fun r => Fl.gt r.price p) (fun r hq => (hf _ _ hp (hb.1 r hq)).1),
        findIdx?_units (p := fun r => Fl.lt r.price p) (fun r hq => (hf _ _ (hb.2 r hq) hp).1)]
      simp only [rowIn, keeps_le hf pa hp, keeps_le hf hp pa', keeps_le hf pc' hp, keeps_le hf hp pc]
      split
      · split
        · rename_i k _
          simp only [List.getElem?_map]
          cases b.asks[k - 1]? <;> rfl
        · rfl
      · split
        · split
          · rename_i k _
            simp only [List.getElem?_map]
            cases b.bids[k - 1]? <;> rfl
          · rfl
        · rw [onValue, hz0]

/-! ### Books made and compared -/

theorem sliceStable_units {P : Fl → Prop} {f g h : Fl → Fl} {lt : Fl → Fl → Bool} (hf : KeepsLt P f lt) {rows : List Row}
    (hr : ∀ r ∈ rows, P r.price) :
    sliceStable (fun a b => lt a.price b.price) (rows.map (rowIn f g h)) =
      (sliceStable (fun a b => lt a.price b.price) rows).map (rowIn f g h) := by
  unfold sliceStable
  rw [Go.Sort.sliceStable_map_of (lt := fun a b : Row => lt a.price b.price)
    (lt' := fun a b : Row => lt a.price b.price) (φ := rowIn f g h)
    fun x hx y hy => (hf x.price y.price (hr x hx) (hr y hy)).1]
  cases Go.Sort.sliceStable (fun a b : Row => lt a.price b.price) rows <;> rfl

theorem accumulate_units {S : FloatSem} {f g : Fl → Fl} (hg : ∀ x y, S.add (g x) (g y) = g (S.add x y)) (h : Fl → Fl) :
    ∀ (rows : List Row) (o : Option Fl), accumulate S (o.map g) (rows.map (rowIn f g h)) =
      (accumulate S o rows).map (rowIn f g g)
  | [], o => by cases o <;> rfl
  | r :: rows, none => by
    have := accumulate_units (S := S) (f := f) hg h rows (some r.volume)
    simp only [List.map_cons, Option.map_none, accumulate]
    exact congrArg₂ _ rfl this
  | r :: rows, some a => by
    have := accumulate_units (S := S) (f := f) hg h rows (some (S.add r.volume a))
    simp only [List.map_cons, Option.map_some, accumulate]
    refine congrArg₂ _ ?_ ?_
    · simp [rowIn, hg]
    · simpa [rowIn, hg] using this

/-- **C181.** `NewOrderBook` in other units, for volumes changed by a `g` that adds up. -/
theorem C181_new {S : FloatSem} {P : Fl → Prop} {f g h : Fl → Fl} (hf : KeepsOrder P f)
    (hg : ∀ x y, S.add (g x) (g y) = g (S.add x y)) {now : Int} {asks bids : List Row} {d : Int}
    (ha : ∀ r ∈ asks, P r.price) (hb : ∀ r ∈ bids, P r.price) :
    newOrderBook S now (asks.map (rowIn f g h)) (bids.map (rowIn f g h)) d =
      onValue (bookIn f g g) (newOrderBook S now asks bids d) := by
  unfold newOrderBook Book.sort
  dsimp only
  rw [sliceStable_units (lt := Fl.lt) (keeps_ask hf) ha, sliceStable_units (lt := fun a b => Fl.lt b a) (keeps_bid hf) hb,
    List.length_map, List.length_map]
  have cut : ∀ (rows : List Row) (n : Int), sliceTo (rows.map (rowIn f g h)) n =
      (sliceTo rows n).map (List.map (rowIn f g h)) := by
    intro rows n
    unfold sliceTo
    split
    · rfl
    · simp [List.map_take]
  rw [cut, cut]
  generalize sliceTo (sliceStable (fun a b => Fl.lt a.price b.price) asks) _ = o1
  generalize sliceTo (sliceStable (fun a b => Fl.lt b.price a.price) bids) _ = o2
  cases o1 <;> cases o2 <;> try rfl
  rename_i x y
  simp only [Option.map_some, onValue, bookIn, Res.ok.injEq, Book.mk.injEq, true_and, and_true]
  exact ⟨accumulate_units hg h x none, accumulate_units hg h y none⟩

/-- `k` times a float; NaN, infinities and -0 stay. -/
def Spec.times (k : ℚ) : Fl → Fl
  | .fin q => .fin (k * q)
  | x => x

theorem mul_neg_left_iff {k q : ℚ} (hk : 0 < k) : k * q < 0 ↔ q < 0 := by
  constructor
  · intro h; by_contra hq; push Not at hq; exact absurd h (not_lt.2 (mul_nonneg hk.le hq))
  · intro h; exact mul_neg_of_pos_of_neg hk h

theorem times_keeps {k : ℚ} (hk : 0 < k) : KeepsOrder (fun _ => True) (times k) := by
  intro x y _ _
  have hz : ∀ q : ℚ, k * q = 0 ↔ q = 0 := fun q => by
    constructor
    · intro h; rcases mul_eq_zero.1 h with h | h
      · exact absurd h hk.ne'
      · exact h
    · rintro rfl; exact mul_zero k
  constructor
  · rw [Bool.eq_iff_iff, Fl.lt_iff, Fl.lt_iff]
    rcases x with _ | (_ | _) | q | _ <;> rcases y with _ | (_ | _) | r | _ <;>
      simp [times, Fl.key, mul_lt_mul_iff_right₀ hk, mul_pos_iff_of_pos_left hk, mul_neg_left_iff hk]
  · unfold Fl.eq
    rcases x with _ | (_ | _) | q | _ <;> rcases y with _ | (_ | _) | r | _ <;>
      simp [times, Fl.key, Fl.isNaN, hk.ne', hz, eq_comm]

theorem times_add {k : ℚ} (x y : Fl) :
    FloatSem.exact.add (times k x) (times k y) = times k (FloatSem.exact.add x y) := by
  rcases x with _ | a | q | _ <;> rcases y with _ | b | r | _ <;>
    simp only [times, FloatSem.add, FloatSem.exact, Fl.toRat] <;> (try split) <;> simp [mul_add]

theorem times_neg {k : ℚ} (hk : 0 < k) (x : Fl) : Fl.neg (times k x) = times k (Fl.neg x) := by
  rcases x with _ | a | q | _ <;> simp only [times, Fl.neg]
  · by_cases h : q = 0
    · subst h; simp
    · simp [h, hk.ne']
  · simp

theorem times_sub {k : ℚ} (hk : 0 < k) (x y : Fl) :
    FloatSem.exact.sub (times k x) (times k y) = times k (FloatSem.exact.sub x y) := by
  unfold FloatSem.sub
  rw [times_neg hk, times_add]

theorem times_sgn {k : ℚ} (hk : 0 < k) (x : Fl) : (times k x).sgn = x.sgn := by
  rcases x with _ | a | q | _ <;> simp [times, Fl.sgn, mul_neg_left_iff hk]

theorem times_isZero {k : ℚ} (hk : 0 < k) (x : Fl) : (times k x).isZero = x.isZero := by
  rcases x with _ | a | q | _ <;> simp [times, Fl.isZero, hk.ne']

theorem times_toRat (k : ℚ) (x : Fl) : (times k x).toRat = k * x.toRat := by
  rcases x with _ | a | q | _ <;> simp [times, Fl.toRat]

theorem times_finite (k : ℚ) (x : Fl) : (times k x).isFinite = x.isFinite := by
  rcases x with _ | a | q | _ <;> rfl

theorem exact_mul_eq {x y : Fl} (hx : x.isFinite = true) (hy : y.isFinite = true) :
    FloatSem.exact.mul x y =
      if x.toRat * y.toRat = 0 then Fl.zero (xor x.sgn y.sgn) else .fin (x.toRat * y.toRat) := by
  cases x <;> cases y <;> first | (simp [Fl.isFinite] at hx; done) | (simp [Fl.isFinite] at hy; done) | rfl

theorem times_mul {c d : ℚ} (hc : 0 < c) (hd : 0 < d) (x y : Fl) :
    FloatSem.exact.mul (times c x) (times d y) = times (c * d) (FloatSem.exact.mul x y) := by
  have hz : ∀ b, times (c * d) (Fl.zero b) = Fl.zero b := by intro b; cases b <;> simp [Fl.zero, times]
  have hi : ∀ (p : Bool) (b : Bool), times (c * d) (if p = true then Fl.nan else .inf b) = if p = true then Fl.nan else .inf b := by
    intro p b; cases p <;> rfl
  by_cases hx : x.isFinite = true
  · by_cases hy : y.isFinite = true
    · rw [exact_mul_eq hx hy, exact_mul_eq (by rwa [times_finite]) (by rwa [times_finite]), times_toRat, times_toRat,
        times_sgn hc, times_sgn hd, show c * x.toRat * (d * y.toRat) = c * d * (x.toRat * y.toRat) by ring]
      by_cases h : x.toRat * y.toRat = 0
      · rw [if_pos h, if_pos (by rw [h, mul_zero]), hz]
      · rw [if_neg h, if_neg (mul_ne_zero (mul_pos hc hd).ne' h)]; rfl
    · have h1 := times_sgn hc x
      have h3 := times_isZero hc x
      rcases y with _ | b | r | _
      · cases x <;> rfl
      · rcases x with _ | a | q | _
        · simp [Fl.isFinite] at hx
        · simp [Fl.isFinite] at hx
        · exact (by simp only [times] at h1 h3; simp only [times, FloatSem.mul, h1, h3]; exact (hi _ _).symm)
        · rfl
      · simp [Fl.isFinite] at hy
      · simp [Fl.isFinite] at hy
  · have h2 := times_sgn hd y
    have h4 := times_isZero hd y
    rcases x with _ | a | q | _
    · cases y <;> rfl
    · rcases y with _ | b | r | _
      · rfl
      · rfl
      · exact (by simp only [times] at h2 h4; simp only [times, FloatSem.mul, h2, h4]; exact (hi _ _).symm)
      · rfl
    · simp [Fl.isFinite] at hx
    · simp [Fl.isFinite] at hx

theorem times_abs {k : ℚ} (hk : 0 < k) (x : Fl) : Fl.abs (times k x) = times k (Fl.abs x) := by
  rcases x with _ | a | q | _ <;> simp [times, Fl.abs, abs_mul, abs_of_pos hk]

theorem overlapScan_units {c d : ℚ} {h : Fl → Fl} {stop stop' : Row → Bool} : ∀ {rows : List Row},
    (∀ r ∈ rows, stop' (rowIn (times c) (times d) h r) = stop r) → ∀ (i : Nat) (acc : Fl),
    overlapScan FloatSem.exact stop' (rows.map (rowIn (times c) (times d) h)) i (times d acc) =
      (times d (overlapScan FloatSem.exact stop rows i acc).1, (overlapScan FloatSem.exact stop rows i acc).2)
  | [], _, _, _ => rfl
  | r :: rows, hs, i, acc => by
    rw [List.map_cons, overlapScan, overlapScan, hs r (by simp)]
    split
    · rfl
    · rw [show (rowIn (times c) (times d) h r).volume = times d r.volume from rfl, times_add]
      exact overlapScan_units (fun s h => hs s (by simp [h])) _ _

theorem overlapFill_units {c d : ℚ} (hc : 0 < c) (hd : 0 < d) {h : Fl → Fl} (target : Fl) : ∀ (rows : List Row) (vol res : Fl),
    overlapFill FloatSem.exact (times d target) (rows.map (rowIn (times c) (times d) h)) (times d vol) (times (c * d) res) =
      times (c * d) (overlapFill FloatSem.exact target rows vol res)
  | [], _, _ => rfl
  | r :: rows, vol, res => by
    rw [List.map_cons, overlapFill, overlapFill, show (rowIn (times c) (times d) h r).volume = times d r.volume from rfl,
      show (rowIn (times c) (times d) h r).price = times c r.price from rfl, times_add,
      show Fl.gt (times d (FloatSem.exact.add vol r.volume)) (times d target) = Fl.gt (FloatSem.exact.add vol r.volume) target
        from (times_keeps hd _ _ trivial trivial).1]
    split
    · rw [times_sub hd, times_mul hd hc, mul_comm d c, times_add]
    · rw [times_mul hc hd, times_add]
      exact overlapFill_units hc hd target rows _ _

theorem overlapCost_units {c d : ℚ} (hc : 0 < c) (hd : 0 < d) {h : Fl → Fl} : ∀ (rows : List Row) (res : Fl),
    overlapCost FloatSem.exact (rows.map (rowIn (times c) (times d) h)) (times (c * d) res) =
      times (c * d) (overlapCost FloatSem.exact rows res)
  | [], _ => rfl
  | r :: rows, res => by
    rw [List.map_cons, overlapCost, overlapCost, show (rowIn (times c) (times d) h r).volume = times d r.volume from rfl,
      show (rowIn (times c) (times d) h r).price = times c r.price from rfl, times_mul hc hd, times_add]
    exact overlapCost_units hc hd rows _

/-- What `CalculateOverlap` returns in other units: the value is multiplied, the -1 of the error is not. -/
def Spec.overlapIn (k : ℚ) : Res Fl → Res Fl
  | .ok v => .ok (times k v)
  | r => r

theorem overlapCalculation_units {c d : ℚ} (hc : 0 < c) (hd : 0 < d) (h : Fl → Fl) (x y : Book) :
    overlapCalculation FloatSem.exact (bookIn (times c) (times d) h x) (bookIn (times c) (times d) h y) =
      overlapIn (c * d) (overlapCalculation FloatSem.exact x y) := by
  have z : ∀ k, times k (.fin 0) = .fin 0 := fun k => by simp [times]
  obtain ⟨_, xa, _, _⟩ := x
  obtain ⟨_, _, yb, _⟩ := y
  unfold overlapCalculation
  simp only [bookIn]
  cases xa with
  | nil => rfl
  | cons a xa =>
    cases yb with
    | nil => rfl
    | cons b yb =>
      simp only [List.map_cons]
      simp only [← List.map_cons]
      have s1 := overlapScan_units (c := c) (d := d) (h := h)
        (stop := fun r => Fl.gt r.price b.price) (stop' := fun r => Fl.gt r.price (rowIn (times c) (times d) h b).price)
        (rows := a :: xa) (fun r _ => (times_keeps hc _ _ trivial trivial).1) 0 (.fin 0)
      have s2 := overlapScan_units (c := c) (d := d) (h := h)
        (stop := fun r => Fl.lt r.price a.price) (stop' := fun r => Fl.lt r.price (rowIn (times c) (times d) h a).price)
        (rows := b :: yb) (fun r _ => (times_keeps hc _ _ trivial trivial).1) 0 (.fin 0)
      rw [z] at s1 s2
      rw [s1, s2]
      dsimp only
      have f := overlapFill_units hc hd (h := h)
        (overlapScan FloatSem.exact (fun r => Fl.gt r.price b.price) (a :: xa) 0 (.fin 0)).1
        ((b :: yb).take (overlapScan FloatSem.exact (fun r => Fl.lt r.price a.price) (b :: yb) 0 (.fin 0)).2).reverse (.fin 0) (.fin 0)
      have g := overlapCost_units hc hd (h := h)
        ((a :: xa).take (overlapScan FloatSem.exact (fun r => Fl.gt r.price b.price) (a :: xa) 0 (.fin 0)).2) (.fin 0)
      rw [z, List.map_reverse, List.map_take] at f
      rw [z, List.map_take] at g
      rw [z] at f
      rw [f, g, times_sub (mul_pos hc hd), times_abs (mul_pos hc hd)]
      rfl

/-- **C181.** `CalculateOverlap` with prices in units of `1/c` and volumes in units of `1/d`: `c*d` times the
overlap, in exact arithmetic and for any two books. -/
theorem C181_overlap {c d : ℚ} (hc : 0 < c) (hd : 0 < d) (h : Fl → Fl) (x y : Book) :
    calculateOverlap FloatSem.exact (bookIn (times c) (times d) h x) (bookIn (times c) (times d) h y) =
      overlapIn (c * d) (calculateOverlap FloatSem.exact x y) := by
  have o1 := overlapCalculation_units hc hd h x y
  have o2 := overlapCalculation_units hc hd h y x
  have kl : ∀ a b, Fl.lt (times c a) (times c b) = Fl.lt a b := fun a b => (times_keeps hc a b trivial trivial).1
  unfold calculateOverlap
  rw [o1, o2]
  simp only [bookIn]
  cases hx : x.asks with
  | nil => rfl
  | cons a xa =>
    cases hy : y.bids with
    | nil => rfl
    | cons b yb =>
      simp only [List.map_cons, rowIn, kl]
      split
      · rfl
      · cases hx' : x.bids with
        | nil => rfl
        | cons a' xa' =>
          cases hy' : y.asks with
          | nil => rfl
          | cons b' yb' =>
            simp only [List.map_cons, rowIn, Fl.gt, kl]
            split
            · rfl
            · rfl

/-! ### Examples -/

/-- Prices for the examples, as float64: 0, 1.1, 1.2, 1.3. -/
def unitPrices : List Fl := [.fin 0, ieee.const (11 / 10), ieee.const (12 / 10), ieee.const (13 / 10)]

/-- Prices in cents, by float64 multiplication (110.00000000000001 for 1.1). -/
def cents (x : Fl) : Fl := ieee.mul x (.fin 100)

theorem cents_keeps : KeepsOrder (· ∈ unitPrices) cents := by
  have : ∀ x ∈ unitPrices, ∀ y ∈ unitPrices, Fl.lt (cents x) (cents y) = Fl.lt x y ∧ Fl.eq (cents x) (cents y) = Fl.eq x y := by
    decide +kernel
  exact fun x y hx hy => this x hx y hy

/-- A book for the examples. -/
def unitBook : Book :=
  ⟨0, [⟨ieee.const (12 / 10), .fin 2, .fin 2⟩, ⟨ieee.const (13 / 10), .fin 1, .fin 3⟩], [⟨ieee.const (11 / 10), .fin 4, .fin 4⟩], 5⟩

theorem unitBook_prices : Prices (· ∈ unitPrices) unitBook := by
  unfold Prices; decide +kernel

example : (bookIn cents (times 1000) id unitBook).applyUpdate ⟨cents (ieee.const (12 / 10)), .fin 7000, "bid"⟩ =
    onValue (bookIn cents (times 1000) id) (unitBook.applyUpdate ⟨ieee.const (12 / 10), .fin 7, "bid"⟩) := by
  have h := C181_update (g := times 1000) (h := id) cents_keeps rfl (u := ⟨ieee.const (12 / 10), .fin 7, "bid"⟩) unitBook_prices
    (by decide +kernel) (by decide +kernel)
  rw [← h]
  simp only [updateIn, times]
  norm_num

example : (bookIn cents (times 1000) id unitBook).applyAll
      [⟨cents (ieee.const (12 / 10)), times 1000 (.fin 7), "bid"⟩, ⟨cents (ieee.const (11 / 10)), times 1000 (.fin 0), "bid"⟩] =
    onValue (bookIn cents (times 1000) id) (unitBook.applyAll
      [⟨ieee.const (12 / 10), .fin 7, "bid"⟩, ⟨ieee.const (11 / 10), .fin 0, "bid"⟩]) :=
  C181_history (g := times 1000) (h := id) cents_keeps rfl unitBook_prices
    (us := [⟨ieee.const (12 / 10), .fin 7, "bid"⟩, ⟨ieee.const (11 / 10), .fin 0, "bid"⟩]) (by decide +kernel) (by decide +kernel)

example : (bookIn cents id id unitBook).getDepth (cents (ieee.const (13 / 10))) =
    onValue cents (unitBook.getDepth (ieee.const (13 / 10))) :=
  C181_depth cents_keeps unitBook_prices (by decide +kernel) (by decide +kernel) (by decide +kernel)

example : newOrderBook FloatSem.exact 0 (unitBook.asks.map (rowIn (times 3) (times 2) id)) (unitBook.bids.map (rowIn (times 3) (times 2) id)) 5 =
    onValue (bookIn (times 3) (times 2) (times 2)) (newOrderBook FloatSem.exact 0 unitBook.asks unitBook.bids 5) :=
  C181_new (times_keeps (by norm_num)) times_add (fun _ _ => trivial) fun _ _ => trivial

/-- A second book, crossing the first. -/
def unitBook' : Book := ⟨0, [⟨.fin 5, .fin 1, .fin 1⟩], [⟨.fin 4, .fin 1, .fin 1⟩, ⟨.fin 1, .fin 1, .fin 2⟩], 5⟩

example : ∃ v, calculateOverlap FloatSem.exact unitBook unitBook' = .ok v ∧ v ≠ .fin 0 ∧
    calculateOverlap FloatSem.exact (bookIn (times 3) (times 2) id unitBook) (bookIn (times 3) (times 2) id unitBook') = .ok (times 6 v) := by
  have h := C181_overlap (c := 3) (d := 2) (by norm_num) (by norm_num) id unitBook unitBook'
  rcases e : calculateOverlap FloatSem.exact unitBook unitBook' with v | _ | _
  · refine ⟨v, rfl, ?_, ?_⟩
    · rintro rfl
      revert e
      decide +kernel
    · rw [h, e, overlapIn]; norm_num
  · revert e
    have : (calculateOverlap FloatSem.exact unitBook unitBook').isOk = true := by decide +kernel
    intro e; rw [e] at this; cases this
  · have : (calculateOverlap FloatSem.exact unitBook unitBook').isOk = true := by decide +kernel
    rw [e] at this; cases this

end Finmod
