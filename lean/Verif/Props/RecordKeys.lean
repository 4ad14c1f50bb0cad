import Verif.Props.Tick
import Verif.Model.Records
import Verif.Model.Tick
import Verif.Props.JsonLayout

/-!
# C164, C165, C166: records in the database, ticks without a candle, new annotations
-/

namespace Finmod

namespace Spec
open Go

/-- The text is a JSON object with exactly one member of this name, and its value is this string. -/
def HasMember (s : List Char) (name value : String) : Prop :=
  ∃ ms plain, J.parse s = some (.obj ms) ∧
    (ms.filter fun m => m.1 == name.toList) = [(name.toList, .str value.toList plain)]

end Spec
open Go Spec Finmod.Json Finmod.Json.Spec

/-- A struct whose first field is a string writes it as the only member of this name. -/
theorem first_member {ρ : Type} {zero : ρ} {fs : List (JField ρ)} {name : String} {get : ρ → String}
    {set : ρ → String → ρ} (hn : ((Codec.field Codec.str name get set :: fs).map (·.name)).Nodup) {d : Nat} (hd : d ≤ 10000) {r : ρ}
    (hr : Round (Codec.struct zero (Codec.field Codec.str name get set :: fs)) d r) {short : Bool} {s : List Char}
    (hs : (Codec.struct zero (Codec.field Codec.str name get set :: fs)).marshal short r = some s) :
    HasMember s name (get r) := by
  obtain ⟨j, h1, h2, -⟩ := hr
  simp only [Codec.marshal, h1, Option.map_some, Option.some.injEq] at hs
  subst hs
  simp only [Codec.struct, visible_eq hn, List.mapM_cons] at h1
  have e : (Codec.field Codec.str name get set).enc r = some (.str (get r).toList (asIs (get r).toList)) := rfl
  simp only [e, Option.map_some] at h1
  cases hm : fs.mapM (fun (f : JField ρ) => (f.enc r).map fun j => (f.name.toList, j)) with
  | none => simp [hm] at h1
  | some ms =>
    simp [hm] at h1
    subst h1
    refine ⟨_, asIs (get r).toList, parse_emit short (Go.Good.mono _ hd h2), ?_⟩
    have hno : ∀ m ∈ ms, m.1 ≠ name.toList := by
      rw [List.map_cons, List.nodup_cons] at hn
      have hname : (Codec.field Codec.str name get set).name = name := rfl
      rw [hname] at hn
      have := hn.1
      clear hn h2
      induction fs generalizing ms with
      | nil => simp at hm; subst hm; simp
      | cons f fs ih =>
        rw [List.mapM_cons] at hm
        cases hf : f.enc r with
        | none => simp [hf] at hm
        | some j =>
          cases hm' : fs.mapM (fun (f : JField ρ) => (f.enc r).map fun j => (f.name.toList, j)) with
          | none => simp [hf, hm'] at hm
          | some ms' =>
            simp [hf, hm'] at hm
            subst hm
            simp only [List.map_cons, List.mem_cons, not_or] at this
            intro m hmem
            rcases List.mem_cons.1 hmem with rfl | hmem
            · intro he; exact this.1 (String.toList_inj.1 he).symm
            · exact ih ms' hm' this.2 m hmem
    have : (Codec.field Codec.str name get set).name = name := rfl
    rw [this, List.filter_cons_of_pos (by simp), List.filter_eq_nil_iff.2]
    intro m hm
    simpa using hno m hm

/-- C164: the text of a trade has its ID under the primary key of its table. -/
theorem C164_trade {E : Env} (hE : Json.Spec.Good E) {r : Trade} (h : TradeOk E r) {short : Bool} {s : List Char}
    (hs : E.trade.marshal short r = some s) : HasMember s r.getSchema.pkey r.getID :=
  first_member (nodup_of_fold (trade_names E)) (by omega) (round_trade hE h) hs

/-- C164 for orders. -/
theorem C164_order {E : Env} (hE : Json.Spec.Good E) {r : Order} (h : OrderOk E r) {short : Bool} {s : List Char}
    (hs : E.order.marshal short r = some s) : HasMember s r.getSchema.pkey r.getID :=
  first_member (nodup_of_fold (order_names E)) (by omega) (round_order hE h) hs

/-- C164 for positions. -/
theorem C164_position {E : Env} (hE : Json.Spec.Good E) {r : Position} (h : PositionOk E r) {short : Bool} {s : List Char}
    (hs : E.position.marshal short r = some s) : HasMember s r.getSchema.pkey r.getID :=
  first_member (nodup_of_fold (position_names E)) (by omega) (round_position hE h) hs

/-- C164 for annotations. -/
theorem C164_annotation {E : Env} (hE : Json.Spec.Good E) {r : Annotation} (h : AnnotationOk E r) {short : Bool}
    {s : List Char} (hs : E.annotation.marshal short r = some s) : HasMember s r.getSchema.pkey r.getID :=
  first_member (nodup_of_fold (annotation_names E)) (by omega) (round_annotation hE h) hs

example : ∃ s, exampleEnv.order.marshal true sampleOrder = some s ∧ HasMember s "id" "a\"b" := by
  obtain ⟨s, hs, -⟩ := (C161_order exampleEnv_good sampleOrder).1 sampleOrder_ok true
  exact ⟨s, hs, C164_order exampleEnv_good sampleOrder_ok hs⟩

/-- C165: without a candle `GetLocalTime` panics, with one it does not. -/
theorem C165_local (t : Tick) : t.getLocalTime = .panic ↔ t.candle = none := by
  cases h : t.candle <;> simp [Tick.getLocalTime, h]

/-- C165: `GetLocationTime` panics exactly when there is no candle and the location is known. -/
theorem C165_location (zones : String → Bool) (t : Tick) (location : String) :
    t.getLocationTime zones location = .panic ↔ t.candle = none ∧
      (location = "" ∨ location = "UTC" ∨ location = "Local" ∨
        (¬ ['.', '.'] <:+: location.toList ∧ location.toList.head? ≠ some '/' ∧
          location.toList.head? ≠ some '\\' ∧ zones location = true)) := by
  rw [← hasDotDot_iff, Bool.not_eq_true]
  have hl : loadLocation zones location ≠ none ↔ (location = "" ∨ location = "UTC" ∨ location = "Local" ∨
        (hasDotDot location.toList = false ∧ location.toList.head? ≠ some '/' ∧
          location.toList.head? ≠ some '\\' ∧ zones location = true)) := by
    unfold loadLocation
    by_cases h1 : location = ""
    · simp [h1]
    by_cases h2 : location = "UTC"
    · simp [h2]
    by_cases h3 : location = "Local"
    · simp [h3]
    by_cases h4 : hasDotDot location.toList = true ∨ location.toList.head? = some '/' ∨ location.toList.head? = some '\\'
    · rw [if_neg (by simp [h1, h2]), if_neg h3, if_pos h4]
      simp only [ne_eq, not_true_eq_false, h1, h2, h3, false_or, false_iff]
      rintro ⟨a, b, c, -⟩
      rcases h4 with h | h | h
      · simp [a] at h
      · exact b h
      · exact c h
    · push Not at h4
      rw [if_neg (by simp [h1, h2]), if_neg h3, if_neg (by simp only [not_or]; exact ⟨h4.1, h4.2.1, h4.2.2⟩)]
      cases hz : zones location
      · simp [h1, h2, h3]
      · simp [h1, h2, h3]; exact ⟨by simpa using h4.1, by simpa using h4.2.1, by simpa using h4.2.2⟩
  rw [← hl]
  unfold Tick.getLocationTime
  cases h : loadLocation zones location <;> cases hc : t.candle <;> simp

/-- C165: an unknown location gives the error and the zero time, candle or not. -/
theorem C165_unknown (zones : String → Bool) (t : Tick) {location : String} (h0 : location ≠ "") (h1 : location ≠ "UTC")
    (h2 : location ≠ "Local") (h3 : ['.', '.'] <:+: location.toList ∨ location.toList.head? = some '/' ∨
      location.toList.head? = some '\\' ∨ zones location = false) :
    t.getLocationTime zones location = .err .external zeroTime := by
  rw [← hasDotDot_iff] at h3
  have hl : loadLocation zones location = none := by
    unfold loadLocation
    rw [if_neg (by simp [h0, h1]), if_neg h2]
    split
    · rfl
    · rename_i h4
      rcases h3 with h | h | h | h <;> simp_all
  unfold Tick.getLocationTime
  rw [hl]

example : Tick.getLocationTime (fun _ => false) ⟨none⟩ "UTC" = .panic := by decide +kernel

example : Tick.getLocationTime (fun _ => false) ⟨none⟩ "Nowhere" = .err .external zeroTime := by decide +kernel

/-- C166: a new annotation has the ID, time, price, label and tooltip given, and nothing else. -/
theorem C166_annotation (id : String) (t : Int) (price : Fl) (label tooltip : String) :
    (newAnnotation id t price label tooltip).id = id ∧ (newAnnotation id t price label tooltip).time = t ∧
    (newAnnotation id t price label tooltip).price = price ∧ (newAnnotation id t price label tooltip).label = label ∧
    (newAnnotation id t price label tooltip).tooltip = tooltip ∧
    (newAnnotation id t price label tooltip).creationTime = 0 ∧
    (newAnnotation id t price label tooltip).executionID = "" ∧
    (newAnnotation id t price label tooltip).getID = id := ⟨rfl, rfl, rfl, rfl, rfl, rfl, rfl, rfl⟩

/-- C166: different arguments, different annotations. -/
theorem C166_injective {id id' : String} {t t' : Int} {price price' : Fl} {label label' tooltip tooltip' : String}
    (h : newAnnotation id t price label tooltip = newAnnotation id' t' price' label' tooltip') :
    id = id' ∧ t = t' ∧ price = price' ∧ label = label' ∧ tooltip = tooltip' := by
  simpa [newAnnotation] using h

example : (newAnnotation "x1" 5 (.fin 2) "buy" "why").tooltip = "why" := by decide +kernel

end Finmod
