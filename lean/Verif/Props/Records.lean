import Verif.Model.Records

/-!
# C92-C94: Update, schemas and IDs of the database records
-/

namespace Finmod
open Go

/-! ## C92 -/

/-- C92 for Trade: success exactly on a non-nil `*Trade`, and then the receiver equals it. -/
theorem C92_trade_update (t : Trade) (i : AnyVal) :
    (∀ r, t.update i = .ok r ↔ i = .tradePtr (some r)) ∧
    ((∀ p, i ≠ .tradePtr p) → t.update i = .err .einvalid t) := by
  refine ⟨fun r => ?_, fun h => ?_⟩
  · cases i with
    | tradePtr p => cases p <;> simp [Trade.update, AnyVal.asTrade]
    | _ => simp [Trade.update, AnyVal.asTrade]
  · cases i with
    | tradePtr p => exact absurd rfl (h p)
    | _ => rfl

/-- C92 for Order. -/
theorem C92_order_update (o : Order) (i : AnyVal) :
    (∀ r, o.update i = .ok r ↔ i = .orderPtr (some r)) ∧
    ((∀ p, i ≠ .orderPtr p) → o.update i = .err .einvalid o) := by
  refine ⟨fun r => ?_, fun h => ?_⟩
  · cases i with
    | orderPtr p => cases p <;> simp [Order.update, AnyVal.asOrder]
    | _ => simp [Order.update, AnyVal.asOrder]
  · cases i with
    | orderPtr p => exact absurd rfl (h p)
    | _ => rfl

/-- C92 for Position. -/
theorem C92_position_update (p : Position) (i : AnyVal) :
    (∀ r, p.update i = .ok r ↔ i = .positionPtr (some r)) ∧
    ((∀ q, i ≠ .positionPtr q) → p.update i = .err .einvalid p) := by
  refine ⟨fun r => ?_, fun h => ?_⟩
  · cases i with
    | positionPtr p => cases p <;> simp [Position.update, AnyVal.asPosition]
    | _ => simp [Position.update, AnyVal.asPosition]
  · cases i with
    | positionPtr p => exact absurd rfl (h p)
    | _ => rfl

/-- C92 for Annotation. -/
theorem C92_annotation_update (a : Annotation) (i : AnyVal) :
    (∀ r, a.update i = .ok r ↔ i = .annotationPtr (some r)) ∧
    ((∀ q, i ≠ .annotationPtr q) → a.update i = .err .einvalid a) := by
  refine ⟨fun r => ?_, fun h => ?_⟩
  · cases i with
    | annotationPtr p => cases p <;> simp [Annotation.update, AnyVal.asAnnotation]
    | _ => simp [Annotation.update, AnyVal.asAnnotation]
  · cases i with
    | annotationPtr p => exact absurd rfl (h p)
    | _ => rfl

/-- Two annotations for the examples. -/
def noteA : Annotation := ⟨"a1", 5, 0, .fin 10, "e", "buy", "t"⟩
def noteB : Annotation := ⟨"b2", 6, 1, .fin 11, "f", "sell", "u"⟩

example : noteA.update (.annotationPtr (some noteB)) = .ok noteB ∧
    noteA.update (.other "strategy.Annotation") = .err .einvalid noteA ∧
    noteA.update .nilInterface = .err .einvalid noteA ∧
    noteA.update (.tradePtr none) = .err .einvalid noteA := by decide +kernel

/-! ## C93 -/

namespace Spec
/-- C93 as stated: no argument makes `Update` panic. -/
def C93_claim : Prop :=
  (∀ (t : Trade) i, t.update i ≠ .panic) ∧ (∀ (o : Order) i, o.update i ≠ .panic) ∧
  (∀ (p : Position) i, p.update i ≠ .panic) ∧ (∀ (a : Annotation) i, a.update i ≠ .panic)
end Spec

/-- C93 is false of the code: a typed nil pointer passes the type assertion and is dereferenced. -/
theorem C93_update_panics_violated : ¬ Spec.C93_claim := by
  intro h
  exact h.2.2.2 noteA (.annotationPtr none) rfl

/-- What holds: `Update` panics exactly on the nil pointer of the receiver's own type. -/
theorem C93_update_panics_iff_partial :
    (∀ (t : Trade) i, t.update i = .panic ↔ i = .tradePtr none) ∧
    (∀ (o : Order) i, o.update i = .panic ↔ i = .orderPtr none) ∧
    (∀ (p : Position) i, p.update i = .panic ↔ i = .positionPtr none) ∧
    (∀ (a : Annotation) i, a.update i = .panic ↔ i = .annotationPtr none) := by
  refine ⟨fun t i => ?_, fun t i => ?_, fun t i => ?_, fun t i => ?_⟩
  · cases i with
    | tradePtr p => cases p <;> simp [Trade.update, AnyVal.asTrade]
    | _ => simp [Trade.update, AnyVal.asTrade]
  · cases i with
    | orderPtr p => cases p <;> simp [Order.update, AnyVal.asOrder]
    | _ => simp [Order.update, AnyVal.asOrder]
  · cases i with
    | positionPtr p => cases p <;> simp [Position.update, AnyVal.asPosition]
    | _ => simp [Position.update, AnyVal.asPosition]
  · cases i with
    | annotationPtr p => cases p <;> simp [Annotation.update, AnyVal.asAnnotation]
    | _ => simp [Annotation.update, AnyVal.asAnnotation]

/-- C93: the nil pointer of the own type, of another type, and no pointer. -/
example : noteA.update (.annotationPtr none) = .panic ∧ noteA.update (.orderPtr none) = .err .einvalid noteA ∧
    noteA.update .nilInterface = .err .einvalid noteA := by decide +kernel

/-! ## C94 -/

/-- C94: four different tables, each keyed by id, whatever the record holds. -/
theorem C94_schemas (t : Trade) (o : Order) (p : Position) (a : Annotation) :
    [t.getSchema.name, o.getSchema.name, p.getSchema.name, a.getSchema.name].Nodup ∧
    t.getSchema.pkey = "id" ∧ o.getSchema.pkey = "id" ∧ p.getSchema.pkey = "id" ∧
    a.getSchema.pkey = "id" := by
  simp only [Trade.getSchema, Order.getSchema, Position.getSchema, Annotation.getSchema]
  decide +kernel

/-- C94: the table of a record never changes, and after a successful update its ID is the
argument's. -/
theorem C94_id_after_update :
    (∀ (t u r : Trade), t.update (.tradePtr (some u)) = .ok r → r.getID = u.id ∧ r.getSchema = t.getSchema) ∧
    (∀ (t u r : Order), t.update (.orderPtr (some u)) = .ok r → r.getID = u.id ∧ r.getSchema = t.getSchema) ∧
    (∀ (t u r : Position), t.update (.positionPtr (some u)) = .ok r → r.getID = u.id ∧ r.getSchema = t.getSchema) ∧
    (∀ (t u r : Annotation), t.update (.annotationPtr (some u)) = .ok r → r.getID = u.id ∧ r.getSchema = t.getSchema) := by
  refine ⟨?_, ?_, ?_, ?_⟩ <;>
  · intro t u r h
    cases h
    exact ⟨rfl, rfl⟩

example : noteA.update (.annotationPtr (some noteB)) = .ok noteB ∧ noteB.getID = "b2" := by
  decide +kernel

end Finmod
