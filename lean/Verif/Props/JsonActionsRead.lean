import Verif.Props.JsonActions

/-!
# C163 for the structs with maps

Which members of a JSON object the fields of `Actions`, `AddAnnotationsAction` and `Tick` are read from.
-/

namespace Finmod.Json
open Go Finmod

namespace Spec

/-- The member is one of the maps of orders and positions in a tick, and one of its entries has a member
that should be a time and is not one. -/
def BadTimeInside (E : Env) (m : List Char × J) : Prop :=
  (∃ n ∈ ["OpenOrders", "OpenPositions", "ClosedPositions"], foldName m.1 = foldName n.toList) ∧
  ∃ es, m.2 = .obj es ∧ ∃ e ∈ es, ∃ ms, e.2 = .obj ms ∧ ∃ x ∈ ms, BadTime E ["open_time", "close_time"] x

end Spec
open Spec

theorem struct_stops {ρ : Type} {zero : ρ} {fs : List (JField ρ)} {bad : List Char × J → Prop}
    (hn : (fs.map (·.name)).Nodup) (ht : Stopping fs bad) (old : ρ) (j : J) :
    ((Codec.struct zero fs).dec old j).2 = .stop ↔ ∃ ms, j = .obj ms ∧ ∃ m ∈ ms, bad m := by
  cases j with
  | obj ms => simp only [Codec.struct, visible_eq hn, foldl_stops ht, J.obj.injEq, exists_eq_left']
  | _ => simp [Codec.struct]

theorem actions_never (E : Env) : ∀ f ∈ E.actionsFields, ∀ s j, (f.dec s j).2 ≠ .stop := by
  intro f hf s j
  simp only [Env.actionsFields, List.mem_cons, List.not_mem_nil, or_false] at hf
  rcases hf with rfl | rfl | rfl | rfl | rfl | rfl
  · exact (never_map (createOrderAction_nevers E)) _ _
  · exact (never_map (updateOrderAction_nevers E)) _ _
  · exact (never_map (cancelOrderAction_nevers E)) _ _
  · exact (never_map (updatePositionAction_nevers E)) _ _
  · exact (never_map (closePositionAction_nevers E)) _ _
  · exact (never_slice _ _ (annotation_nevers E)) _ _

theorem actions_nevers (E : Env) : NeverStops E.actions := never_struct _ (nodup_of_fold (actions_names E)) (actions_never E)

theorem actions_commuting (E : Env) : Commuting E.actionsFields := by
  intro f hf g hg hne s j k
  simp only [Env.actionsFields, List.mem_cons, List.not_mem_nil, or_false] at hf hg
  rcases hf with rfl | rfl | rfl | rfl | rfl | rfl <;> rcases hg with rfl | rfl | rfl | rfl | rfl | rfl <;>
    first | exact absurd rfl hne | exact ⟨rfl, rfl⟩

/-- C163 for `Actions`: the value of each field. -/
theorem C163_actions (E : Env) (old : Actions) {s : List Char} {ms : List (List Char × J)} (hs : J.parse s = some (.obj ms)) :
    (E.actions.unmarshal old s).1.createOrders = held E.createOrderAction.map "CreateOrders" ms old.createOrders ∧
    (E.actions.unmarshal old s).1.updateOrders = held E.updateOrderAction.map "UpdateOrders" ms old.updateOrders ∧
    (E.actions.unmarshal old s).1.cancelOrders = held E.cancelOrderAction.map "CancelOrders" ms old.cancelOrders ∧
    (E.actions.unmarshal old s).1.updatePositions = held E.updatePositionAction.map "UpdatePositions" ms old.updatePositions ∧
    (E.actions.unmarshal old s).1.closePositions = held E.closePositionAction.map "ClosePositions" ms old.closePositions ∧
    (E.actions.unmarshal old s).1.annotations = held (Codec.slice (E.isNil "Annotations") (E.stale _ "Annotations") E.annotation) "Annotations" ms old.annotations := by
  unfold Env.actions
  rw [unmarshal_obj (actions_names E) hs]
  refine ⟨?_, ?_, ?_, ?_, ?_, ?_⟩
  · exact read_field (actions_names E) (get := fun r : Actions => r.createOrders) (set := fun r v => { r with createOrders := v })
      (by simp [Env.actionsFields]) (fun _ _ => rfl) (by
        intro g hg hne s j
        simp only [Env.actionsFields, List.mem_cons, List.not_mem_nil, or_false] at hg
        rcases hg with rfl | rfl | rfl | rfl | rfl | rfl <;> first | exact absurd rfl hne | rfl) ms (fun m _ => calm_all (actions_never E) m) (old, .none) none_ne_stop
  · exact read_field (actions_names E) (get := fun r : Actions => r.updateOrders) (set := fun r v => { r with updateOrders := v })
      (by simp [Env.actionsFields]) (fun _ _ => rfl) (by
        intro g hg hne s j
        simp only [Env.actionsFields, List.mem_cons, List.not_mem_nil, or_false] at hg
        rcases hg with rfl | rfl | rfl | rfl | rfl | rfl <;> first | exact absurd rfl hne | rfl) ms (fun m _ => calm_all (actions_never E) m) (old, .none) none_ne_stop
  · exact read_field (actions_names E) (get := fun r : Actions => r.cancelOrders) (set := fun r v => { r with cancelOrders := v })
      (by simp [Env.actionsFields]) (fun _ _ => rfl) (by
        intro g hg hne s j
        simp only [Env.actionsFields, List.mem_cons, List.not_mem_nil, or_false] at hg
        rcases hg with rfl | rfl | rfl | rfl | rfl | rfl <;> first | exact absurd rfl hne | rfl) ms (fun m _ => calm_all (actions_never E) m) (old, .none) none_ne_stop
  · exact read_field (actions_names E) (get := fun r : Actions => r.updatePositions) (set := fun r v => { r with updatePositions := v })
      (by simp [Env.actionsFields]) (fun _ _ => rfl) (by
        intro g hg hne s j
        simp only [Env.actionsFields, List.mem_cons, List.not_mem_nil, or_false] at hg
        rcases hg with rfl | rfl | rfl | rfl | rfl | rfl <;> first | exact absurd rfl hne | rfl) ms (fun m _ => calm_all (actions_never E) m) (old, .none) none_ne_stop
  · exact read_field (actions_names E) (get := fun r : Actions => r.closePositions) (set := fun r v => { r with closePositions := v })
      (by simp [Env.actionsFields]) (fun _ _ => rfl) (by
        intro g hg hne s j
        simp only [Env.actionsFields, List.mem_cons, List.not_mem_nil, or_false] at hg
        rcases hg with rfl | rfl | rfl | rfl | rfl | rfl <;> first | exact absurd rfl hne | rfl) ms (fun m _ => calm_all (actions_never E) m) (old, .none) none_ne_stop
  · exact read_field (actions_names E) (get := fun r : Actions => r.annotations) (set := fun r v => { r with annotations := v })
      (by simp [Env.actionsFields]) (fun _ _ => rfl) (by
        intro g hg hne s j
        simp only [Env.actionsFields, List.mem_cons, List.not_mem_nil, or_false] at hg
        rcases hg with rfl | rfl | rfl | rfl | rfl | rfl <;> first | exact absurd rfl hne | rfl) ms (fun m _ => calm_all (actions_never E) m) (old, .none) none_ne_stop

/-- C163 for `Actions`: the order of the members and unknown members. -/
theorem C163_actions_order (E : Env) (s s' : List Char) :
    (Reordered s s' → SameReading E.actions s s') ∧
    (Dropped ["CreateOrders", "UpdateOrders", "CancelOrders", "UpdatePositions", "ClosePositions", "Annotations"] s s' → SameReading E.actions s s') :=
  ⟨same_reordered (actions_names E) (actions_never E) (actions_commuting E), same_dropped (actions_names E) rfl⟩

theorem addAnnotationsAction_never (E : Env) : ∀ f ∈ E.addAnnotationsActionFields, ∀ s j, (f.dec s j).2 ≠ .stop := by
  intro f hf s j
  simp only [Env.addAnnotationsActionFields, List.mem_cons, List.not_mem_nil, or_false] at hf
  rcases hf with rfl
  · exact (never_slice _ _ (annotation_nevers E)) _ _

theorem addAnnotationsAction_nevers (E : Env) : NeverStops E.addAnnotationsAction := never_struct _ (nodup_of_fold (addAnnotationsAction_names E)) (addAnnotationsAction_never E)

theorem addAnnotationsAction_commuting (E : Env) : Commuting E.addAnnotationsActionFields := by
  intro f hf g hg hne s j k
  simp only [Env.addAnnotationsActionFields, List.mem_cons, List.not_mem_nil, or_false] at hf hg
  subst hf hg
  exact absurd rfl hne

/-- C163 for `AddAnnotationsAction`: the value of each field. -/
theorem C163_addAnnotationsAction (E : Env) (old : AddAnnotationsAction) {s : List Char} {ms : List (List Char × J)} (hs : J.parse s = some (.obj ms)) :
    (E.addAnnotationsAction.unmarshal old s).1.annotations = held (Codec.slice (E.isNil "Annotations") (E.stale _ "Annotations") E.annotation) "Annotations" ms old.annotations := by
  unfold Env.addAnnotationsAction
  rw [unmarshal_obj (addAnnotationsAction_names E) hs]
  exact read_field (addAnnotationsAction_names E) (get := fun r : AddAnnotationsAction => r.annotations) (set := fun r v => { r with annotations := v })
      (by simp [Env.addAnnotationsActionFields]) (fun _ _ => rfl) (by
        intro g hg hne s j
        simp only [Env.addAnnotationsActionFields, List.mem_cons, List.not_mem_nil, or_false] at hg
        subst hg; exact absurd rfl hne) ms (fun m _ => calm_all (addAnnotationsAction_never E) m) (old, .none) none_ne_stop

/-- C163 for `AddAnnotationsAction`: the order of the members and unknown members. -/
theorem C163_addAnnotationsAction_order (E : Env) (s s' : List Char) :
    (Reordered s s' → SameReading E.addAnnotationsAction s s') ∧
    (Dropped ["Annotations"] s s' → SameReading E.addAnnotationsAction s s') :=
  ⟨same_reordered (addAnnotationsAction_names E) (addAnnotationsAction_never E) (addAnnotationsAction_commuting E), same_dropped (addAnnotationsAction_names E) rfl⟩

theorem order_map_stops (E : Env) (old : GoMap Order) (j : J) : (E.order.map.dec old j).2 = .stop ↔
    ∃ es, j = .obj es ∧ ∃ e ∈ es, ∃ ms, e.2 = .obj ms ∧ ∃ x ∈ ms, BadTime E ["open_time", "close_time"] x := by
  rw [map_stops]
  unfold Env.order
  simp only [struct_stops (nodup_of_fold (order_names E)) (order_stopping E)]

theorem position_map_stops (E : Env) (old : GoMap Position) (j : J) : (E.position.map.dec old j).2 = .stop ↔
    ∃ es, j = .obj es ∧ ∃ e ∈ es, ∃ ms, e.2 = .obj ms ∧ ∃ x ∈ ms, BadTime E ["open_time", "close_time"] x := by
  rw [map_stops]
  unfold Env.position
  simp only [struct_stops (nodup_of_fold (position_names E)) (position_stopping E)]

theorem tick_stopping (E : Env) : Stopping E.tickFields (BadTimeInside E) := by
  have key : ∀ f ∈ E.tickFields, ∀ s j, (f.dec s j).2 = .stop ↔
      f.name ∈ ["OpenOrders", "OpenPositions", "ClosedPositions"] ∧
      ∃ es, j = .obj es ∧ ∃ e ∈ es, ∃ ms, e.2 = .obj ms ∧ ∃ x ∈ ms, BadTime E ["open_time", "close_time"] x := by
    intro f hf s j
    simp only [Env.tickFields, List.mem_cons, List.not_mem_nil, or_false] at hf
    rcases hf with rfl | rfl | rfl | rfl | rfl | rfl
    · exact ⟨fun h => absurd h ((never_ptr (candle_nevers E)) _ _), fun h => absurd h.1 (by simp [Codec.field])⟩
    · exact ⟨fun h => absurd h ((never_ptr (actions_nevers E)) _ _), fun h => absurd h.1 (by simp [Codec.field])⟩
    · exact (order_map_stops E _ j).trans (by simp [Codec.field])
    · exact (position_map_stops E _ j).trans (by simp [Codec.field])
    · exact (position_map_stops E _ j).trans (by simp [Codec.field])
    · exact ⟨fun h => absurd h ((never_float _ _) _ _), fun h => absurd h.1 (by simp [Codec.field])⟩
  have hsub : ∀ n ∈ ["OpenOrders", "OpenPositions", "ClosedPositions"], ∃ f ∈ E.tickFields, f.name = n := by
    simp [Env.tickFields, Codec.field]
  intro m
  constructor
  · rintro ⟨⟨n, hn, he⟩, hb⟩ st hst
    obtain ⟨f, hf, rfl⟩ := hsub n hn
    have hk : findField E.tickFields m.1 = some f := (findField_iff (tick_names E)).2 ⟨hf, he.symm⟩
    simp only [decMember, hk, next_snd, JErr.or_eq_stop]
    exact .inr ((key f hf _ _).2 ⟨hn, hb⟩)
  · intro hb f hk s hs
    obtain ⟨hf, he⟩ := (findField_iff (tick_names E)).1 hk
    obtain ⟨h1, h2⟩ := (key f hf _ _).1 hs
    exact hb ⟨⟨_, h1, he.symm⟩, h2⟩

theorem tick_commuting (E : Env) : Commuting E.tickFields := by
  intro f hf g hg hne s j k
  simp only [Env.tickFields, List.mem_cons, List.not_mem_nil, or_false] at hf hg
  rcases hf with rfl | rfl | rfl | rfl | rfl | rfl <;> rcases hg with rfl | rfl | rfl | rfl | rfl | rfl <;>
    first | exact absurd rfl hne | exact ⟨rfl, rfl⟩

/-- C163 for `Tick`: the value of each field. Reading stops in the first
map that holds a value that should be a time and is not one. -/
theorem C163_tick (E : Env) (old : TickRecord) {s : List Char} {ms l : List (List Char × J)}
    (hs : J.parse s = some (.obj ms)) (hl : ReadPart (BadTimeInside E) ms l) :
    (E.tick.unmarshal old s).1.candle = held E.candle.ptr "Candle" l old.candle ∧
    (E.tick.unmarshal old s).1.pendingActions = held E.actions.ptr "PendingActions" l old.pendingActions ∧
    (E.tick.unmarshal old s).1.openOrders = held E.order.map "OpenOrders" l old.openOrders ∧
    (E.tick.unmarshal old s).1.openPositions = held E.position.map "OpenPositions" l old.openPositions ∧
    (E.tick.unmarshal old s).1.closedPositions = held E.position.map "ClosedPositions" l old.closedPositions ∧
    (E.tick.unmarshal old s).1.capital = held E.float "Capital" l old.capital := by
  unfold Env.tick
  rw [unmarshal_part (tick_names E) (tick_stopping E) hs hl]
  have hq := (foldl_part (tick_stopping E) hl old).2
  refine ⟨?_, ?_, ?_, ?_, ?_, ?_⟩
  · exact read_field (tick_names E) (get := fun r : TickRecord => r.candle) (set := fun r v => { r with candle := v })
      (by simp [Env.tickFields]) (fun _ _ => rfl) (by
        intro g hg hne s j
        simp only [Env.tickFields, List.mem_cons, List.not_mem_nil, or_false] at hg
        rcases hg with rfl | rfl | rfl | rfl | rfl | rfl <;> first | exact absurd rfl hne | rfl) l hq (old, .none) none_ne_stop
  · exact read_field (tick_names E) (get := fun r : TickRecord => r.pendingActions) (set := fun r v => { r with pendingActions := v })
      (by simp [Env.tickFields]) (fun _ _ => rfl) (by
        intro g hg hne s j
        simp only [Env.tickFields, List.mem_cons, List.not_mem_nil, or_false] at hg
        rcases hg with rfl | rfl | rfl | rfl | rfl | rfl <;> first | exact absurd rfl hne | rfl) l hq (old, .none) none_ne_stop
  · exact read_field (tick_names E) (get := fun r : TickRecord => r.openOrders) (set := fun r v => { r with openOrders := v })
      (by simp [Env.tickFields]) (fun _ _ => rfl) (by
        intro g hg hne s j
        simp only [Env.tickFields, List.mem_cons, List.not_mem_nil, or_false] at hg
        rcases hg with rfl | rfl | rfl | rfl | rfl | rfl <;> first | exact absurd rfl hne | rfl) l hq (old, .none) none_ne_stop
  · exact read_field (tick_names E) (get := fun r : TickRecord => r.openPositions) (set := fun r v => { r with openPositions := v })
      (by simp [Env.tickFields]) (fun _ _ => rfl) (by
        intro g hg hne s j
        simp only [Env.tickFields, List.mem_cons, List.not_mem_nil, or_false] at hg
        rcases hg with rfl | rfl | rfl | rfl | rfl | rfl <;> first | exact absurd rfl hne | rfl) l hq (old, .none) none_ne_stop
  · exact read_field (tick_names E) (get := fun r : TickRecord => r.closedPositions) (set := fun r v => { r with closedPositions := v })
      (by simp [Env.tickFields]) (fun _ _ => rfl) (by
        intro g hg hne s j
        simp only [Env.tickFields, List.mem_cons, List.not_mem_nil, or_false] at hg
        rcases hg with rfl | rfl | rfl | rfl | rfl | rfl <;> first | exact absurd rfl hne | rfl) l hq (old, .none) none_ne_stop
  · exact read_field (tick_names E) (get := fun r : TickRecord => r.capital) (set := fun r v => { r with capital := v })
      (by simp [Env.tickFields]) (fun _ _ => rfl) (by
        intro g hg hne s j
        simp only [Env.tickFields, List.mem_cons, List.not_mem_nil, or_false] at hg
        rcases hg with rfl | rfl | rfl | rfl | rfl | rfl <;> first | exact absurd rfl hne | rfl) l hq (old, .none) none_ne_stop

/-- C163 for `Tick`: the order of the members and unknown members. -/
theorem C163_tick_order (E : Env) (s s' : List Char) :
    (Reordered s s' → NoneBad (BadTimeInside E) s → SameReading E.tick s s') ∧
    (Dropped ["Candle", "PendingActions", "OpenOrders", "OpenPositions", "ClosedPositions", "Capital"] s s' → SameReading E.tick s s') :=
  ⟨same_reordered_part (tick_names E) (tick_stopping E) (tick_commuting E), same_dropped (tick_names E) rfl⟩

/-- The second order of the map has a time that cannot be read: the first one is stored, the rest of the
text is not read. -/
example : ((exampleEnv.tick.unmarshal exampleEnv.tick.zero
    "{\"openorders\":{\"a\":{\"price\":2},\"b\":{\"price\":3,\"open_time\":5},\"c\":{}},\"Capital\":9}".toList).1.openOrders.map
      fun l => l.map fun e => (e.1, e.2.price)) = some [("a", .fin 2)] ∧
    (exampleEnv.tick.unmarshal exampleEnv.tick.zero
    "{\"openorders\":{\"a\":{\"price\":2},\"b\":{\"price\":3,\"open_time\":5},\"c\":{}},\"Capital\":9}".toList).1.capital = .fin 0 := by
  decide +kernel

end Finmod.Json
