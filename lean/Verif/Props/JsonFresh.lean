import Verif.Props.JsonLists

/-!
# C275: what JSON does not mention is zero in a new value

An entry of a map and a value behind a nil pointer are read into fresh memory: they are what reading the same text into a
variable with all fields zero gives.
-/

namespace Finmod.Json
open Go Finmod

namespace Spec

/-- The object has one member with this name, up to case, and this is its value. -/
def OnlyMember (name : String) (ms : List (List Char × J)) (j : J) : Prop :=
  ∃ n, (ms.filter fun m => foldName m.1 == foldName name.toList) = [(n, j)]

/-- What a map holds after the members `es` have been read into it: under the key of a member, the last one with that key, what its
text gives in a variable holding `fresh`; under other keys what was there. -/
def FreshRead {α : Type} (c : Codec α) (fresh : α) (es : List (List Char × J)) (old new : GoMap α) : Prop :=
  (∀ pre k j post t, es = pre ++ (k, j) :: post → (∀ e ∈ post, e.1 ≠ k) → J.parse t = some j →
    new.get (String.ofList k) = some (c.unmarshal fresh t).1) ∧
  ∀ k : String, (∀ e ∈ es, e.1 ≠ k.toList) → new.get k = old.get k

/-- The zero values of Go, field by field. -/
def noAsset : Asset := ⟨"", "", ""⟩
def noPair : Pair := ⟨noAsset, noAsset⟩
def noCandle : Candle := ⟨0, .fin 0, .fin 0, .fin 0, .fin 0, .fin 0⟩
def noOrder (E : Env) : Order :=
  { id := "", action := "", type := "", pair := none, price := .fin 0, volume := .fin 0, executedVolume := .fin 0, fee := .fin 0, cost := .fin 0,
    status := "", openTime := E.zeroTime, closeTime := E.zeroTime, trades := [], takeProfit := .fin 0, stopLoss := .fin 0, positionID := "",
    executionID := "" }
def noPosition (E : Env) : Position :=
  { id := "", type := "", pair := noPair, opened := false, takeProfit := ⟨.fin 0, ""⟩, stopLoss := ⟨.fin 0, ""⟩, openPrice := .fin 0,
    closePrice := .fin 0, quantity := .fin 0, profit := .fin 0, openTime := E.zeroTime, closeTime := E.zeroTime, trades := [],
    executionID := "", data := "" }
def noActions : Actions :=
  { createOrders := none, updateOrders := none, cancelOrders := none, updatePositions := none, closePositions := none, annotations := [] }

end Spec
open Spec

theorem get_put_fresh {α : Type} (m : List (String × α)) (k k' : String) (v : α) :
    GoMap.get (GoMap.put (some m) k v) k' = if k' = k then some v else GoMap.get (some m) k' := by
  simp only [GoMap.put, GoMap.set, Option.getD_some, GoMap.get, List.lookup_cons]
  by_cases h : k' = k
  · simp [h]
  · simp only [h, if_false, beq_eq_false_iff_ne.2 h]
    induction m with
    | nil => rfl
    | cons e m ih =>
      rw [List.filter_cons]
      by_cases he : e.1 = k
      · rw [if_neg (by simpa using he), ih, List.lookup_cons, beq_eq_false_iff_ne.2 (by rw [he]; exact h)]
      · rw [if_pos (by simpa using he), List.lookup_cons, List.lookup_cons, ih]

theorem map_entries {α : Type} {c : Codec α} {es : List (List Char × J)} (h : ∀ e ∈ es, (c.dec c.zero e.2).2 ≠ .stop) (old : GoMap α) :
    FreshRead c c.zero es old (c.map.dec old (.obj es)).1 := by
  have key : ∀ (es : List (List Char × J)) (l : List (String × α)) (er : JErr), er ≠ .stop → (∀ e ∈ es, (c.dec c.zero e.2).2 ≠ .stop) →
      FreshRead c c.zero es (some l) (es.foldl (fun st m => next st fun l =>
        if (c.dec c.zero m.2).2 = .stop then (l, .stop)
        else (GoMap.put l (String.ofList m.1) (c.dec c.zero m.2).1, (c.dec c.zero m.2).2)) ((some l : GoMap α), er)).1 := by
    intro es
    induction es with
    | nil => intro l er _ _; exact ⟨fun pre k j post t h => by simp at h, fun k _ => rfl⟩
    | cons e es ih =>
      intro l er her hes
      have hst := hes e (by simp)
      have hnx : next ((some l : GoMap α), er) (fun l =>
          if (c.dec c.zero e.2).2 = .stop then (l, .stop)
          else (GoMap.put l (String.ofList e.1) (c.dec c.zero e.2).1, (c.dec c.zero e.2).2)) =
          (some ((String.ofList e.1, (c.dec c.zero e.2).1) :: l.filter fun x => x.1 ≠ String.ofList e.1), er.or (c.dec c.zero e.2).2) := by
        simp [next, her, hst, GoMap.put, GoMap.set]
      rw [List.foldl_cons, hnx]
      obtain ⟨i1, i2⟩ := ih ((String.ofList e.1, (c.dec c.zero e.2).1) :: l.filter fun x => x.1 ≠ String.ofList e.1) _
        (fun h => (JErr.or_eq_stop.1 h).elim her hst) (fun x hx => hes x (by simp [hx]))
      have hg : ∀ k, GoMap.get (some ((String.ofList e.1, (c.dec c.zero e.2).1) :: l.filter fun x => x.1 ≠ String.ofList e.1)) k =
          if k = String.ofList e.1 then some (c.dec c.zero e.2).1 else GoMap.get (some l) k := fun k => get_put_fresh l (String.ofList e.1) k _
      refine ⟨fun pre k j post t he hp ht => ?_, fun k hk => ?_⟩
      · cases pre with
        | nil =>
          obtain ⟨rfl, rfl⟩ : e = (k, j) ∧ es = post := by simpa using he
          rw [i2 _ (fun x hx => by simpa using hp x hx), hg, if_pos rfl]
          simp [Codec.unmarshal, ht]
        | cons p pre =>
          obtain ⟨rfl, rfl⟩ : e = p ∧ es = pre ++ (k, j) :: post := by simpa using he
          exact i1 pre k j post t rfl hp ht
      · rw [i2 k (fun x hx => hk x (by simp [hx])), hg, if_neg]
        intro h
        exact hk e (by simp) (by rw [h]; simp)
  cases old with
  | none =>
    obtain ⟨k1, k2⟩ := key es [] .none (by simp) h
    exact ⟨k1, fun k hk => by rw [show GoMap.get (none : GoMap α) k = GoMap.get (some []) k from rfl]; exact k2 k hk⟩
  | some l => exact key es l .none (by simp) h

theorem map_held {α : Type} {c : Codec α} {name : String} {ms es : List (List Char × J)} (hm : OnlyMember name ms (.obj es))
    (h : ∀ e ∈ es, (c.dec c.zero e.2).2 ≠ .stop) (old : GoMap α) : FreshRead c c.zero es old (held c.map name ms old) := by
  obtain ⟨n, hn⟩ := hm
  rw [held, hn]
  exact map_entries h old

theorem ptr_held {α : Type} {c : Codec α} {name : String} {ms : List (List Char × J)} {j : J} {t : List Char} (hm : OnlyMember name ms j)
    (hj : j ≠ .null) (ht : J.parse t = some j) : held c.ptr name ms none = some (c.unmarshal c.zero t).1 := by
  obtain ⟨n, hn⟩ := hm
  rw [held, hn]
  cases j <;> simp_all [Codec.ptr, Codec.unmarshal]

/-- **C275** The maps of `Actions`. -/
theorem C275_actions (E : Env) (old : Actions) {s : List Char} {ms es : List (List Char × J)} (hs : J.parse s = some (.obj ms)) :
    (OnlyMember "CreateOrders" ms (.obj es) →
      FreshRead E.createOrderAction ⟨"", "", "", "", .fin 0, .fin 0, .fin 0, .fin 0, .fin 0⟩ es old.createOrders (E.actions.unmarshal old s).1.createOrders) ∧
    (OnlyMember "UpdateOrders" ms (.obj es) →
      FreshRead E.updateOrderAction ⟨"", "", .fin 0, .fin 0, .fin 0, .fin 0, .fin 0⟩ es old.updateOrders (E.actions.unmarshal old s).1.updateOrders) ∧
    (OnlyMember "CancelOrders" ms (.obj es) →
      FreshRead E.cancelOrderAction ⟨"", ""⟩ es old.cancelOrders (E.actions.unmarshal old s).1.cancelOrders) ∧
    (OnlyMember "UpdatePositions" ms (.obj es) →
      FreshRead E.updatePositionAction ⟨"", "", "", "", .fin 0, .fin 0, .fin 0, .fin 0⟩ es old.updatePositions
        (E.actions.unmarshal old s).1.updatePositions) ∧
    (OnlyMember "ClosePositions" ms (.obj es) →
      FreshRead E.closePositionAction ⟨"", ""⟩ es old.closePositions (E.actions.unmarshal old s).1.closePositions) := by
  obtain ⟨h1, h2, h3, h4, h5, -⟩ := C163_actions E old hs
  rw [h1, h2, h3, h4, h5]
  exact ⟨fun hm => map_held (c := E.createOrderAction) hm (fun e _ => createOrderAction_nevers E _ _) _,
    fun hm => map_held (c := E.updateOrderAction) hm (fun e _ => updateOrderAction_nevers E _ _) _,
    fun hm => map_held (c := E.cancelOrderAction) hm (fun e _ => cancelOrderAction_nevers E _ _) _,
    fun hm => map_held (c := E.updatePositionAction) hm (fun e _ => updatePositionAction_nevers E _ _) _,
    fun hm => map_held (c := E.closePositionAction) hm (fun e _ => closePositionAction_nevers E _ _) _⟩

/-- **C275** The maps of `Tick`, where no time in the map is unreadable, and its pointers, where they were nil. -/
theorem C275_tick (E : Env) (old : TickRecord) {s : List Char} {ms l es : List (List Char × J)}
    (hs : J.parse s = some (.obj ms)) (hl : ReadPart (BadTimeInside E) ms l)
    (hes : ∀ e ∈ es, ∀ xs, e.2 = .obj xs → ∀ x ∈ xs, ¬ BadTime E ["open_time", "close_time"] x) :
    (OnlyMember "OpenOrders" l (.obj es) → FreshRead E.order (noOrder E) es old.openOrders (E.tick.unmarshal old s).1.openOrders) ∧
    (OnlyMember "OpenPositions" l (.obj es) → FreshRead E.position (noPosition E) es old.openPositions (E.tick.unmarshal old s).1.openPositions) ∧
    (OnlyMember "ClosedPositions" l (.obj es) →
      FreshRead E.position (noPosition E) es old.closedPositions (E.tick.unmarshal old s).1.closedPositions) ∧
    (∀ j t, j ≠ .null → J.parse t = some j → OnlyMember "Candle" l j → old.candle = none →
      (E.tick.unmarshal old s).1.candle = some (E.candle.unmarshal noCandle t).1) ∧
    (∀ j t, j ≠ .null → J.parse t = some j → OnlyMember "PendingActions" l j → old.pendingActions = none →
      (E.tick.unmarshal old s).1.pendingActions = some (E.actions.unmarshal noActions t).1) := by
  obtain ⟨h1, h2, h3, h4, h5, -⟩ := C163_tick E old hs hl
  rw [h1, h2, h3, h4, h5]
  have ho : ∀ e ∈ es, (E.order.dec E.order.zero e.2).2 ≠ .stop := by
    intro e he hst
    have := (map_stops (c := E.order) none (.obj es)).2 ⟨es, rfl, e, he, hst⟩
    obtain ⟨_, h0, e', he', xs, hx, x, hxs, hb⟩ := (order_map_stops E none (.obj es)).1 this
    injection h0 with h0
    exact hes e' (h0 ▸ he') xs hx x hxs hb
  have hp : ∀ e ∈ es, (E.position.dec E.position.zero e.2).2 ≠ .stop := by
    intro e he hst
    have := (map_stops (c := E.position) none (.obj es)).2 ⟨es, rfl, e, he, hst⟩
    obtain ⟨_, h0, e', he', xs, hx, x, hxs, hb⟩ := (position_map_stops E none (.obj es)).1 this
    injection h0 with h0
    exact hes e' (h0 ▸ he') xs hx x hxs hb
  refine ⟨fun hm => map_held (c := E.order) hm ho _, fun hm => map_held (c := E.position) hm hp _,
    fun hm => map_held (c := E.position) hm hp _, fun j t hj ht hm h0 => ?_, fun j t hj ht hm h0 => ?_⟩
  · rw [h0]; exact ptr_held (c := E.candle) hm hj ht
  · rw [h0]; exact ptr_held (c := E.actions) hm hj ht

/-- **C275** The pointers of an order and of a balance, where they were nil. -/
theorem C275_pointers (E : Env) {s : List Char} {ms : List (List Char × J)} (hs : J.parse s = some (.obj ms)) :
    (∀ (old : Order) l, ReadPart (BadTime E ["open_time", "close_time"]) ms l → ∀ j t, j ≠ .null → J.parse t = some j →
      OnlyMember "pair" l j → old.pair = none → (E.order.unmarshal old s).1.pair = some (E.pair.unmarshal noPair t).1) ∧
    (∀ (old : Balance) j t, j ≠ .null → J.parse t = some j → OnlyMember "asset" ms j → old.asset = none →
      (E.balance.unmarshal old s).1.asset = some (E.asset.unmarshal noAsset t).1) := by
  refine ⟨fun old l hl j t hj ht hm h0 => ?_, fun old j t hj ht hm h0 => ?_⟩
  · rw [(C163_order E old hs hl).2.2.2.1, h0]; exact ptr_held (c := E.pair) hm hj ht
  · rw [(C163_balance E old hs).1, h0]; exact ptr_held (c := E.asset) hm hj ht

example : J.parse "{}".toList = some (.obj []) ∧
    OnlyMember "OpenPositions" [("OpenPositions".toList, .obj [("a".toList, .obj [("quantity".toList, .num "2".toList)])])]
      (.obj [("a".toList, .obj [("quantity".toList, .num "2".toList)])]) ∧
    GoMap.get (exampleEnv.tick.unmarshal exampleEnv.tick.zero "{\"OpenPositions\":{\"a\":{\"quantity\":2}}}".toList).1.openPositions "a" =
      some { noPosition exampleEnv with quantity := .fin 2 } :=
  ⟨by rfl, ⟨"OpenPositions".toList, by rfl⟩, by decide +kernel⟩

end Finmod.Json
