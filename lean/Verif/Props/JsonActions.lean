import Verif.Props.JsonRead
import Verif.Lemmas.JsonMap
import Mathlib.Data.List.Sort

/-!
# C168: maps in JSON

`Actions`, `AddAnnotationsAction` and `Tick`: what `json.Marshal` accepts and writes, and what
`json.Unmarshal` makes of a variable that already holds something.
-/

set_option linter.unusedSimpArgs false

namespace Finmod.Json
open Go Finmod

namespace Spec

/-- No key twice. -/
def DistinctKeys {α : Type} (m : GoMap α) : Prop := ((m.getD []).map (·.1)).Nodup

/-- What a map variable holds after the text of the map `m` is read into it: nil for nil; otherwise the
entries of `m`, and those it had before under other keys. -/
def MapRead {α : Type} (m old new : GoMap α) : Prop :=
  (m = none → new = none) ∧
  (m ≠ none → new ≠ none ∧ ∀ k, GoMap.get new k = (GoMap.get m k).or (GoMap.get old k)) ∧
  (DistinctKeys old → DistinctKeys new)

/-- `Actions` that JSON can carry. -/
def ActionsOk (E : Env) (a : Actions) : Prop :=
  (DistinctKeys a.createOrders ∧ ∀ e ∈ a.createOrders.getD [], CreateOrderActionOk E e.2) ∧
  (DistinctKeys a.updateOrders ∧ ∀ e ∈ a.updateOrders.getD [], UpdateOrderActionOk E e.2) ∧
  DistinctKeys a.cancelOrders ∧
  (DistinctKeys a.updatePositions ∧ ∀ e ∈ a.updatePositions.getD [], UpdatePositionActionOk E e.2) ∧
  DistinctKeys a.closePositions ∧
  ∀ v ∈ a.annotations, AnnotationOk E v

/-- `Actions` that `Marshal` refuses. -/
def ActionsBad (E : Env) (a : Actions) : Prop :=
  (∃ e ∈ a.createOrders.getD [], CreateOrderActionBad E e.2) ∨
  (∃ e ∈ a.updateOrders.getD [], UpdateOrderActionBad E e.2) ∨
  (∃ e ∈ a.updatePositions.getD [], UpdatePositionActionBad E e.2) ∨
  ∃ v ∈ a.annotations, AnnotationBad E v

/-- `Actions` after the text of `a` is read into them. -/
def ActionsRead (a old new : Actions) : Prop :=
  MapRead a.createOrders old.createOrders new.createOrders ∧
  MapRead a.updateOrders old.updateOrders new.updateOrders ∧
  MapRead a.cancelOrders old.cancelOrders new.cancelOrders ∧
  MapRead a.updatePositions old.updatePositions new.updatePositions ∧
  MapRead a.closePositions old.closePositions new.closePositions ∧
  new.annotations = a.annotations

/-- An `AddAnnotationsAction` that JSON can carry. -/
def AddAnnotationsActionOk (E : Env) (r : AddAnnotationsAction) : Prop := ∀ v ∈ r.annotations, AnnotationOk E v

/-- An `AddAnnotationsAction` that `Marshal` refuses. -/
def AddAnnotationsActionBad (E : Env) (r : AddAnnotationsAction) : Prop := ∃ v ∈ r.annotations, AnnotationBad E v

/-- A `Tick` that JSON can carry. -/
def TickOk (E : Env) (t : TickRecord) : Prop :=
  (∀ c, t.candle = some c → CandleOk E c) ∧
  (∀ a, t.pendingActions = some a → ActionsOk E a) ∧
  (DistinctKeys t.openOrders ∧ ∀ e ∈ t.openOrders.getD [], OrderOk E e.2) ∧
  (DistinctKeys t.openPositions ∧ ∀ e ∈ t.openPositions.getD [], PositionOk E e.2) ∧
  (DistinctKeys t.closedPositions ∧ ∀ e ∈ t.closedPositions.getD [], PositionOk E e.2) ∧
  Fin64 E t.capital

/-- A `Tick` that `Marshal` refuses. -/
def TickBad (E : Env) (t : TickRecord) : Prop :=
  (∃ c, t.candle = some c ∧ CandleBad E c) ∨
  (∃ a, t.pendingActions = some a ∧ ActionsBad E a) ∨
  (∃ e ∈ t.openOrders.getD [], OrderBad E e.2) ∨
  (∃ e ∈ t.openPositions.getD [], PositionBad E e.2) ∨
  (∃ e ∈ t.closedPositions.getD [], PositionBad E e.2) ∨
  NotFinite t.capital

/-- A `Tick` after the text of `t` is read into it. -/
def TickRead (t old new : TickRecord) : Prop :=
  new.candle = t.candle ∧
  (t.pendingActions = none → new.pendingActions = none) ∧
  (∀ a, t.pendingActions = some a → ∃ b, new.pendingActions = some b ∧
    ActionsRead a (old.pendingActions.getD zeroActions) b) ∧
  MapRead t.openOrders old.openOrders new.openOrders ∧
  MapRead t.openPositions old.openPositions new.openPositions ∧
  MapRead t.closedPositions old.closedPositions new.closedPositions ∧
  new.capital = t.capital

/-- The value has a text; reading the text into `old` gives no error and a value related to both. -/
def ReadsBack {α : Type} (c : Codec α) (v : α) (rel : α → α → α → Prop) : Prop :=
  ∀ short, ∃ s, c.marshal short v = some s ∧ ∀ old, ∃ new, c.unmarshal old s = (new, false) ∧ rel v old new

end Spec
open Spec

/-! ### The text -/

namespace Text

/-- Entries in ascending order of their keys, or null. -/
def mapping (short : Bool) : Option (List (String × Option (List Char))) → Option (List Char)
  | none => some ['n', 'u', 'l', 'l']
  | some es => (((es.insertionSort fun a b => a.1 ≤ b.1).mapM fun (e : String × Option (List Char)) =>
      e.2.map fun t => emitStr short e.1.toList ++ ':' :: t)).map fun ts => '{' :: (List.intercalate [','] ts ++ ['}'])

/-- The entries of a map with the texts of the values. -/
def entries {α : Type} (f : α → Option (List Char)) (m : GoMap α) : Option (List (String × Option (List Char))) :=
  m.map fun l => l.map fun e => (e.1, f e.2)

/-- strategy/actions.go:4-11 `Actions`. -/
def actions (E : Env) (short : Bool) (a : Actions) : Option (List Char) := object [
  ("CreateOrders", mapping short (entries (createOrderAction E short) a.createOrders)),
  ("UpdateOrders", mapping short (entries (updateOrderAction E short) a.updateOrders)),
  ("CancelOrders", mapping short (entries (cancelOrderAction E short) a.cancelOrders)),
  ("UpdatePositions", mapping short (entries (updatePositionAction E short) a.updatePositions)),
  ("ClosePositions", mapping short (entries (closePositionAction E short) a.closePositions)),
  ("Annotations", array (E.isNil "Annotations") (a.annotations.map (annotation E short)))]

/-- strategy/annotation.go:10-12 `AddAnnotationsAction`. -/
def addAnnotationsAction (E : Env) (short : Bool) (r : AddAnnotationsAction) : Option (List Char) := object [
  ("Annotations", array (E.isNil "Annotations") (r.annotations.map (annotation E short)))]

/-- strategy/strategy.go:11-18 `Tick`. -/
def tick (E : Env) (short : Bool) (t : TickRecord) : Option (List Char) := object [
  ("Candle", pointer (t.candle.map (candle E short))),
  ("PendingActions", pointer (t.pendingActions.map (actions E short))),
  ("OpenOrders", mapping short (entries (order E short) t.openOrders)),
  ("OpenPositions", mapping short (entries (position E short) t.openPositions)),
  ("ClosedPositions", mapping short (entries (position E short) t.closedPositions)),
  ("Capital", number E t.capital)]

end Text

/-! ### Reading back -/

theorem nodup_mergeMap {α : Type} {l : List (String × α)} (h : (l.map (·.1)).Nodup) {old : GoMap α}
    (ho : DistinctKeys old) : DistinctKeys (mergeMap (some l) old) := by
  have hp : (sortMap l).reverse.Perm l := (List.reverse_perm _).trans (sortMap_perm l)
  simp only [DistinctKeys, mergeMap, Option.map_some, Option.getD_some, List.map_append]
  refine List.Nodup.append ((hp.map _).nodup_iff.2 h) ?_ ?_
  · exact ho.sublist (List.Sublist.map _ List.filter_sublist)
  · intro k h1 h2
    rw [(hp.map _).mem_iff] at h1
    obtain ⟨e, he, rfl⟩ := List.mem_map.1 h2
    have := (List.mem_filter.1 he).2
    exact (by simpa using this : e.1 ∉ l.map (·.1)) h1

theorem mapRead_merge {α : Type} {m : GoMap α} (h : DistinctKeys m) (old : GoMap α) :
    MapRead m old (mergeMap m old) := by
  cases m with
  | none => exact ⟨fun _ => rfl, fun h => absurd rfl h, fun _ => by simp [DistinctKeys, mergeMap]⟩
  | some l =>
    exact ⟨nofun, fun _ => ⟨by simp [mergeMap], fun k => get_mergeMap h old k⟩, fun ho => nodup_mergeMap h ho⟩

theorem readsBack {α : Type} {c : Codec α} {d : Nat} {v : α} {f : α → α} {rel : α → α → α → Prop} (hd : d ≤ 10000)
    (h : Reads c d v f) (hr : ∀ old, rel v old (f old)) : ReadsBack c v rel := by
  obtain ⟨j, h1, h2, h3⟩ := h
  intro short
  refine ⟨j.emit short, by simp [Codec.marshal, h1], fun old => ⟨f old, ?_, hr old⟩⟩
  simp [Codec.unmarshal, parse_emit short (Good.mono j hd h2), h3]

theorem actions_names (E : Env) : (E.actionsFields.map fun f => foldName f.name.toList).Nodup := by
  show ((["CreateOrders", "UpdateOrders", "CancelOrders", "UpdatePositions", "ClosePositions", "Annotations"] :
    List String).map fun s => foldName s.toList).Nodup
  decide +kernel

theorem addAnnotationsAction_names (E : Env) :
    (E.addAnnotationsActionFields.map fun f => foldName f.name.toList).Nodup := by
  show ((["Annotations"] : List String).map fun s => foldName s.toList).Nodup
  decide +kernel

theorem tick_names (E : Env) : (E.tickFields.map fun f => foldName f.name.toList).Nodup := by
  show ((["Candle", "PendingActions", "OpenOrders", "OpenPositions", "ClosedPositions", "Capital"] :
    List String).map fun s => foldName s.toList).Nodup
  decide +kernel

/-- `Actions` after reading. -/
def actionsAfter (a old : Actions) : Actions :=
  { createOrders := mergeMap a.createOrders old.createOrders
    updateOrders := mergeMap a.updateOrders old.updateOrders
    cancelOrders := mergeMap a.cancelOrders old.cancelOrders
    updatePositions := mergeMap a.updatePositions old.updatePositions
    closePositions := mergeMap a.closePositions old.closePositions
    annotations := a.annotations }

theorem reads_actions {E : Env} (hE : Good E) {a : Actions} (h : ActionsOk E a) :
    Reads E.actions 3 a (actionsAfter a) := by
  obtain ⟨⟨k1, h1⟩, ⟨k2, h2⟩, k3, ⟨k4, h4⟩, k5, h6⟩ := h
  have key := reads_struct (zero := zeroActions) (d := 2) (r := a) (fus := E.actionsFields.zip [
    fun s => { s with createOrders := mergeMap a.createOrders s.createOrders },
    fun s => { s with updateOrders := mergeMap a.updateOrders s.updateOrders },
    fun s => { s with cancelOrders := mergeMap a.cancelOrders s.cancelOrders },
    fun s => { s with updatePositions := mergeMap a.updatePositions s.updatePositions },
    fun s => { s with closePositions := mergeMap a.closePositions s.closePositions },
    fun s => { s with annotations := a.annotations }]) (nodup_of_fold (actions_names E)) (by
      intro p hp
      simp only [Env.actionsFields, List.zip_cons_cons, List.zip_nil_left, List.mem_cons, List.not_mem_nil, or_false] at hp
      rcases hp with rfl | rfl | rfl | rfl | rfl | rfl
      · dsimp only; exact reads_field (le_refl _) (reads_map k1 (fun e he => round_createOrderAction hE (h1 e he))) (fun _ => rfl)
      · dsimp only; exact reads_field (le_refl _) (reads_map k2 (fun e he => round_updateOrderAction hE (h2 e he))) (fun _ => rfl)
      · dsimp only; exact reads_field (le_refl _) (reads_map k3 (fun e he => round_cancelOrderAction hE)) (fun _ => rfl)
      · dsimp only; exact reads_field (le_refl _) (reads_map k4 (fun e he => round_updatePositionAction hE (h4 e he))) (fun _ => rfl)
      · dsimp only; exact reads_field (le_refl _) (reads_map k5 (fun e he => round_closePositionAction hE)) (fun _ => rfl)
      · dsimp only; exact reads_field (f := fun _ => a.annotations) (le_refl _)
          (round_slice _ _ (fun v hv => round_annotation hE (h6 v hv))).reads (fun _ => rfl))
  exact key

theorem actionsRead_after {E : Env} {a : Actions} (h : ActionsOk E a) (old : Actions) :
    ActionsRead a old (actionsAfter a old) := by
  obtain ⟨⟨k1, _⟩, ⟨k2, _⟩, k3, ⟨k4, _⟩, k5, _⟩ := h
  exact ⟨mapRead_merge k1 _, mapRead_merge k2 _, mapRead_merge k3 _, mapRead_merge k4 _, mapRead_merge k5 _, rfl⟩

theorem actions_none (E : Env) (a : Actions) : E.actions.enc a = none ↔ ActionsBad E a := by
  unfold Env.actions
  rw [struct_none (nodup_of_fold (actions_names E))]
  simp only [Env.actionsFields, List.mem_cons, List.not_mem_nil, or_false, exists_eq_or_imp, exists_eq_left, Codec.field,
    map_none, slice_none, createOrderAction_none, updateOrderAction_none, cancelOrderAction_none,
    updatePositionAction_none, closePositionAction_none, annotation_none, false_or, and_false, exists_false, ActionsBad]

/-- C168 for `Actions`: reading back. -/
theorem C168_actions {E : Env} (hE : Good E) (a : Actions) :
    (ActionsOk E a → ReadsBack E.actions a ActionsRead) ∧
    ((∀ short, E.actions.marshal short a = none) ↔ ActionsBad E a) :=
  ⟨fun h => readsBack (by omega) (reads_actions hE h) (actionsRead_after h),
    (marshal_none _ _).trans (actions_none E a)⟩

/-- `Actions` for the examples. -/
def sampleActions : Actions :=
  { createOrders := some [("b", sampleCreateOrderAction), ("a", sampleCreateOrderAction)]
    updateOrders := none, cancelOrders := some [], updatePositions := none, closePositions := none
    annotations := [sampleAnnotation] }

theorem sampleActions_ok : ActionsOk exampleEnv sampleActions := by
  refine ⟨⟨?_, ?_⟩, ⟨?_, ?_⟩, ?_, ⟨?_, ?_⟩, ?_, ?_⟩
  · show (["b", "a"] : List String).Nodup; decide
  · intro e he
    have : e = ("b", sampleCreateOrderAction) ∨ e = ("a", sampleCreateOrderAction) := by simpa [sampleActions] using he
    rcases this with rfl | rfl <;> exact sampleCreateOrderAction_ok
  · exact List.nodup_nil
  · intro e he; simp [sampleActions] at he
  · exact List.nodup_nil
  · exact List.nodup_nil
  · intro e he; simp [sampleActions] at he
  · exact List.nodup_nil
  · intro v hv; rw [List.mem_singleton.1 hv]; exact sampleAnnotation_ok

example : ReadsBack exampleEnv.actions sampleActions ActionsRead :=
  (C168_actions exampleEnv_good _).1 sampleActions_ok

/-- C168 for `AddAnnotationsAction`: reading back. -/
theorem C168_addAnnotationsAction {E : Env} (hE : Good E) (r : AddAnnotationsAction) :
    (AddAnnotationsActionOk E r → Survives E.addAnnotationsAction r) ∧
    ((∀ short, E.addAnnotationsAction.marshal short r = none) ↔ AddAnnotationsActionBad E r) := by
  constructor
  · intro h
    refine survives (d := 3) (by omega) ?_
    refine round_struct (nodup_of_fold (addAnnotationsAction_names E)) (fun _ => by
      simp only [Env.addAnnotationsActionFields, Codec.field, List.foldl_cons, List.foldl_nil]) ?_
    intro f hf
    simp only [Env.addAnnotationsActionFields, List.mem_cons, List.not_mem_nil, or_false] at hf
    subst hf
    exact round_field (le_refl _) (round_slice _ _ (fun v hv => round_annotation hE (h v hv)))
  · refine (marshal_none _ _).trans ?_
    unfold Env.addAnnotationsAction
    rw [struct_none (nodup_of_fold (addAnnotationsAction_names E))]
    simp only [Env.addAnnotationsActionFields, List.mem_cons, List.not_mem_nil, or_false, exists_eq_left, Codec.field,
      slice_none, annotation_none, AddAnnotationsActionBad]

example : Survives exampleEnv.addAnnotationsAction ⟨[sampleAnnotation, sampleAnnotation]⟩ :=
  (C168_addAnnotationsAction exampleEnv_good _).1 (by
    intro v hv; have : v = sampleAnnotation := by simpa using hv
    rw [this]; exact sampleAnnotation_ok)

/-- A `Tick` after reading. -/
def tickAfter (t old : TickRecord) : TickRecord :=
  { candle := t.candle
    pendingActions := t.pendingActions.map fun a => actionsAfter a (old.pendingActions.getD zeroActions)
    openOrders := mergeMap t.openOrders old.openOrders
    openPositions := mergeMap t.openPositions old.openPositions
    closedPositions := mergeMap t.closedPositions old.closedPositions
    capital := t.capital }

theorem reads_tick {E : Env} (hE : Good E) {t : TickRecord} (h : TickOk E t) : Reads E.tick 5 t (tickAfter t) := by
  obtain ⟨h1, h2, ⟨k3, h3⟩, ⟨k4, h4⟩, ⟨k5, h5⟩, h6⟩ := h
  have hp : Reads E.actions.ptr 3 t.pendingActions fun old => t.pendingActions.map fun a =>
      actionsAfter a (old.getD zeroActions) := by
    cases ht : t.pendingActions with
    | none => exact reads_ptr_none _ _
    | some a => exact reads_ptr (neverNull_struct _ _) (reads_actions hE (h2 a ht))
  have key := reads_struct (zero := (⟨none, none, none, none, none, .fin 0⟩ : TickRecord)) (d := 4) (r := t)
    (fus := E.tickFields.zip [
      fun s => { s with candle := t.candle },
      fun s => { s with pendingActions := t.pendingActions.map fun a => actionsAfter a (s.pendingActions.getD zeroActions) },
      fun s => { s with openOrders := mergeMap t.openOrders s.openOrders },
      fun s => { s with openPositions := mergeMap t.openPositions s.openPositions },
      fun s => { s with closedPositions := mergeMap t.closedPositions s.closedPositions },
      fun s => { s with capital := t.capital }]) (nodup_of_fold (tick_names E)) (by
      intro p hp'
      simp only [Env.tickFields, List.zip_cons_cons, List.zip_nil_left, List.mem_cons, List.not_mem_nil, or_false] at hp'
      rcases hp' with rfl | rfl | rfl | rfl | rfl | rfl
      · dsimp only; exact reads_field (d := 1) (f := fun _ => t.candle) (by omega)
          (round_ptr (neverNull_struct _ _) (fun c hc => round_candle hE (h1 c hc))).reads (fun _ => rfl)
      · dsimp only; exact reads_field (by omega) hp (fun _ => rfl)
      · dsimp only; exact reads_field (le_refl _) (reads_map k3 (fun e he => round_order hE (h3 e he))) (fun _ => rfl)
      · dsimp only; exact reads_field (le_refl _) (reads_map k4 (fun e he => round_position hE (h4 e he))) (fun _ => rfl)
      · dsimp only; exact reads_field (le_refl _) (reads_map k5 (fun e he => round_position hE (h5 e he))) (fun _ => rfl)
      · dsimp only; exact reads_field (d := 0) (f := fun _ => t.capital) (by omega) (round_float hE.1 hE.2 h6).reads (fun _ => rfl))
  exact key

theorem tickRead_after {E : Env} {t : TickRecord} (h : TickOk E t) (old : TickRecord) :
    TickRead t old (tickAfter t old) := by
  obtain ⟨_, h2, ⟨k3, _⟩, ⟨k4, _⟩, ⟨k5, _⟩, _⟩ := h
  refine ⟨rfl, ?_, ?_, mapRead_merge k3 _, mapRead_merge k4 _, mapRead_merge k5 _, rfl⟩
  · intro h; simp [tickAfter, h]
  · intro a ha
    exact ⟨actionsAfter a (old.pendingActions.getD zeroActions), by simp [tickAfter, ha], actionsRead_after (h2 a ha) _⟩

theorem tick_none (E : Env) (t : TickRecord) : E.tick.enc t = none ↔ TickBad E t := by
  unfold Env.tick
  rw [struct_none (nodup_of_fold (tick_names E))]
  simp only [Env.tickFields, List.mem_cons, List.not_mem_nil, or_false, exists_eq_or_imp, exists_eq_left, Codec.field,
    map_none, ptr_none, float_none, candle_none, actions_none, order_none, position_none, TickBad]

/-- C168 for `Tick`: reading back. -/
theorem C168_tick {E : Env} (hE : Good E) (t : TickRecord) :
    (TickOk E t → ReadsBack E.tick t TickRead) ∧ ((∀ short, E.tick.marshal short t = none) ↔ TickBad E t) :=
  ⟨fun h => readsBack (by omega) (reads_tick hE h) (tickRead_after h), (marshal_none _ _).trans (tick_none E t)⟩

/-- A `Tick` for the examples. -/
def sampleTick : TickRecord :=
  { candle := some sampleCandle, pendingActions := some sampleActions, openOrders := some [("x", sampleOrder)]
    openPositions := some [("p", samplePosition)], closedPositions := none, capital := .fin (5 / 2) }

theorem sampleTick_ok : TickOk exampleEnv sampleTick := by
  refine ⟨?_, ?_, ⟨?_, ?_⟩, ⟨?_, ?_⟩, ⟨?_, ?_⟩, example_float⟩
  · intro c hc; cases hc; exact sampleCandle_ok
  · intro a ha; cases ha; exact sampleActions_ok
  · exact List.nodup_singleton _
  · intro e he; rw [List.mem_singleton.1 he]; exact sampleOrder_ok
  · exact List.nodup_singleton _
  · intro e he; rw [List.mem_singleton.1 he]; exact samplePosition_ok
  · exact List.nodup_nil
  · intro e he; simp [sampleTick] at he

example : ReadsBack exampleEnv.tick sampleTick TickRead := (C168_tick exampleEnv_good _).1 sampleTick_ok

/-! ### What is written -/

instance : Std.Total (α := String × Option (List Char)) fun a b => a.1 ≤ b.1 := ⟨fun _ _ => String.le_total _ _⟩

instance : IsTrans (String × Option (List Char)) fun a b => a.1 ≤ b.1 := ⟨fun _ _ _ => String.le_trans⟩

theorem sort_unique {es es' : List (String × Option (List Char))} (hp : es.Perm es') (hs : es.Pairwise fun a b => a.1 < b.1) :
    es'.insertionSort (fun a b => a.1 ≤ b.1) = es := by
  have h1 : es.Pairwise fun a b => a.1 ≤ b.1 := hs.imp fun h => Std.le_of_lt h
  have hn : (es.map (·.1)).Nodup := by
    rw [List.Nodup, List.pairwise_map]; exact hs.imp fun h => Std.ne_of_lt h
  have hp' : (es'.insertionSort fun a b => a.1 ≤ b.1).Perm es := (List.perm_insertionSort _ _).trans hp.symm
  refine List.Perm.eq_of_pairwise ?_ (List.pairwise_insertionSort (fun a b : String × Option (List Char) => a.1 ≤ b.1) es') h1 hp'
  intro a b ha hb h2 h3
  exact List.inj_on_of_nodup_map hn (hp'.mem_iff.1 ha) hb (String.le_antisymm h2 h3)

theorem map_text {α : Type} (c : Codec α) (short : Bool) {m : GoMap α} (h : DistinctKeys m) :
    (c.map.enc m).map (J.emit short) =
      Text.mapping short (Text.entries (fun v => (c.enc v).map (J.emit short)) m) := by
  cases m with
  | none => simp [Codec.map, Text.mapping, Text.entries, J.emit]
  | some l =>
    have hs := sortMap_sorted (l := l) h
    have e : ((sortMap l).map fun e => (e.1, (c.enc e.2).map (J.emit short))).Pairwise fun a b => a.1 < b.1 := by
      rw [List.pairwise_map]; exact hs
    have hsort := sort_unique ((sortMap_perm l).map fun e => (e.1, (c.enc e.2).map (J.emit short))) e
    show Option.map (J.emit short) (Option.map J.obj ((sortMap l).mapM fun (e : String × α) =>
      (c.enc e.2).map fun j => (e.1.toList, j))) = _
    simp only [Text.mapping, Text.entries, Option.map_some, hsort, Option.map_map, Function.comp_def, emit_obj, List.mapM_map]
    have := mapM_map_option (fun e : String × α => (c.enc e.2).map fun j => (e.1.toList, j))
      (fun m : List Char × J => emitStr short m.1 ++ ':' :: m.2.emit short) (sortMap l)
    simp only [Option.map_map, Function.comp_def] at this
    rw [← this, Option.map_map]
    rfl

theorem actions_plain (E : Env) : ∀ f ∈ E.actionsFields, plainName f.name.toList = true := by
  have : ∀ s ∈ (["CreateOrders", "UpdateOrders", "CancelOrders", "UpdatePositions", "ClosePositions", "Annotations"] :
    List String), plainName s.toList = true := by decide +kernel
  intro f hf
  exact this f.name (List.mem_map_of_mem (f := fun f : JField Actions => f.name) hf)

theorem addAnnotationsAction_plain (E : Env) : ∀ f ∈ E.addAnnotationsActionFields, plainName f.name.toList = true := by
  have : ∀ s ∈ (["Annotations"] : List String), plainName s.toList = true := by decide +kernel
  intro f hf
  exact this f.name (List.mem_map_of_mem (f := fun f : JField AddAnnotationsAction => f.name) hf)

theorem tick_plain (E : Env) : ∀ f ∈ E.tickFields, plainName f.name.toList = true := by
  have : ∀ s ∈ (["Candle", "PendingActions", "OpenOrders", "OpenPositions", "ClosedPositions", "Capital"] :
    List String), plainName s.toList = true := by decide +kernel
  intro f hf
  exact this f.name (List.mem_map_of_mem (f := fun f : JField TickRecord => f.name) hf)

/-- All maps of `Actions` have distinct keys (always so in Go). -/
def Spec.ActionsKeys (a : Actions) : Prop :=
  DistinctKeys a.createOrders ∧ DistinctKeys a.updateOrders ∧ DistinctKeys a.cancelOrders ∧
  DistinctKeys a.updatePositions ∧ DistinctKeys a.closePositions

/-- All maps of `Tick` have distinct keys (always so in Go). -/
def Spec.TickKeys (t : TickRecord) : Prop :=
  (∀ a, t.pendingActions = some a → ActionsKeys a) ∧
  DistinctKeys t.openOrders ∧ DistinctKeys t.openPositions ∧ DistinctKeys t.closedPositions

/-- C168 for `Actions`: the text. -/
theorem C168_actions_text (E : Env) (short : Bool) {a : Actions} (h : ActionsKeys a) :
    E.actions.marshal short a = Text.actions E short a := by
  obtain ⟨h1, h2, h3, h4, h5⟩ := h
  unfold Env.actions
  rw [struct_text (nodup_of_fold (actions_names E)) (actions_plain E)]
  simp only [Env.actionsFields, List.map_cons, List.map_nil, Codec.field, map_text _ _ h1, map_text _ _ h2,
    map_text _ _ h3, map_text _ _ h4, map_text _ _ h5, slice_text, createOrderAction_enc_text,
    updateOrderAction_enc_text, cancelOrderAction_enc_text, updatePositionAction_enc_text,
    closePositionAction_enc_text, annotation_enc_text, Text.actions]

/-- `Actions` for the example of the text. -/
def sampleCancel : Actions :=
  { zeroActions with cancelOrders := some [("b", ⟨"2", "y"⟩), ("a", ⟨"1", "x"⟩)] }

example : exampleEnv.actions.marshal true sampleCancel = some ("{\"CreateOrders\":null,\"UpdateOrders\":null,".toList ++
    "\"CancelOrders\":{\"a\":{\"id\":\"1\",\"order_id\":\"x\"},\"b\":{\"id\":\"2\",\"order_id\":\"y\"}},".toList ++
    "\"UpdatePositions\":null,\"ClosePositions\":null,\"Annotations\":[]}".toList) := by
  have h : ActionsKeys sampleCancel :=
    ⟨List.nodup_nil, List.nodup_nil, by show (["b", "a"] : List String).Nodup; decide, List.nodup_nil, List.nodup_nil⟩
  rw [C168_actions_text _ _ h]
  decide +kernel

/-- C168 for `AddAnnotationsAction`: the text. -/
theorem C168_addAnnotationsAction_text (E : Env) (short : Bool) (r : AddAnnotationsAction) :
    E.addAnnotationsAction.marshal short r = Text.addAnnotationsAction E short r := by
  unfold Env.addAnnotationsAction
  rw [struct_text (nodup_of_fold (addAnnotationsAction_names E)) (addAnnotationsAction_plain E)]
  simp only [Env.addAnnotationsActionFields, List.map_cons, List.map_nil, Codec.field, slice_text, annotation_enc_text,
    Text.addAnnotationsAction]

/-- C168 for `Tick`: the text. -/
theorem C168_tick_text (E : Env) (short : Bool) {t : TickRecord} (h : TickKeys t) :
    E.tick.marshal short t = Text.tick E short t := by
  obtain ⟨h1, h2, h3, h4⟩ := h
  have hp : (t.pendingActions.map fun v => (E.actions.enc v).map (J.emit short)) =
      t.pendingActions.map (Text.actions E short) := by
    cases ht : t.pendingActions with
    | none => rfl
    | some a => exact congrArg some (C168_actions_text E short (h1 a ht))
  unfold Env.tick
  rw [struct_text (nodup_of_fold (tick_names E)) (tick_plain E)]
  simp only [Env.tickFields, List.map_cons, List.map_nil, Codec.field, map_text _ _ h2, map_text _ _ h3,
    map_text _ _ h4, ptr_text, hp, float_text, candle_enc_text, order_enc_text, position_enc_text, Text.tick]

example : TickKeys sampleTick :=
  ⟨fun a ha => by
    cases ha
    obtain ⟨⟨h1, _⟩, ⟨h2, _⟩, h3, ⟨h4, _⟩, h5, _⟩ := sampleActions_ok
    exact ⟨h1, h2, h3, h4, h5⟩,
    List.nodup_singleton _, List.nodup_singleton _, List.nodup_nil⟩

end Finmod.Json
