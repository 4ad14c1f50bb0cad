import Verif.Model.JsonFractal
import Verif.Props.JsonErrors
import Verif.Props.Fractals

/-!
# C161, C162, C163, C171 for `WilliamFractal`; C172: the fractals that are found, as JSON
-/

set_option linter.unusedSimpArgs false

namespace Finmod.Json
open Go Finmod

namespace Text

/-- indicators/williams_fractals.go:20-24 `WilliamFractal`. -/
def fractal (E : Env) (short : Bool) (r : Fractal) : Option (List Char) := object [
  ("Time", integer r.time),
  ("Price", number E r.price),
  ("Type", string short r.type)]

end Text

namespace Spec

/-- A `WilliamFractal` that JSON can carry. -/
def FractalOk (E : Env) (r : Fractal) : Prop := I64 r.time ∧ Fin64 E r.price

/-- A `WilliamFractal` that `Marshal` refuses. -/
def FractalBad (_ : Env) (r : Fractal) : Prop := NotFinite r.price

/-- indicators/williams_fractals.go:20-24 `WilliamFractal`. -/
def fractalShape : Shape := .struct [
  ("Time", .int),
  ("Price", .float),
  ("Type", .str)]

end Spec

open Spec

theorem fractal_names (E : Env) : (E.fractalFields.map fun f => foldName f.name.toList).Nodup := by
  show ((["Time", "Price", "Type"] : List String).map fun s => foldName s.toList).Nodup
  decide +kernel

theorem round_fractal {E : Env} (hE : Good E) {r : Fractal} (h : FractalOk E r) : Round E.fractal 1 r := by
  obtain ⟨h1, h2⟩ := h
  refine round_struct (nodup_of_fold (fractal_names E)) (fun _ => by
    simp only [Env.fractalFields, Codec.field, List.foldl_cons, List.foldl_nil]) ?_
  intro f hf
  simp only [Env.fractalFields, List.mem_cons, List.not_mem_nil, or_false] at hf
  rcases hf with rfl | rfl | rfl
  · exact round_field (by omega) (round_int h1.1 h1.2)
  · exact round_field (by omega) (round_float hE.1 hE.2 h2)
  · exact round_field (by omega) (round_str _)

theorem fractal_none (E : Env) (r : Fractal) : E.fractal.enc r = none ↔ FractalBad E r := by
  unfold Env.fractal
  rw [struct_none (nodup_of_fold (fractal_names E))]
  simp only [Env.fractalFields, List.mem_cons, List.not_mem_nil, or_false, exists_eq_or_imp, exists_eq_left, Codec.field,
    float_none, int_none, str_none, false_or, and_false, exists_false, FractalBad]

/-- C161 for `WilliamFractal`. -/
theorem C161_fractal {E : Env} (hE : Good E) (r : Fractal) :
    (FractalOk E r → Survives E.fractal r) ∧ ((∀ short, E.fractal.marshal short r = none) ↔ FractalBad E r) :=
  ⟨fun h => survives (by omega) (round_fractal hE h), (marshal_none _ _).trans (fractal_none E r)⟩

/-- A `WilliamFractal` for the examples. -/
def sampleFractal : Fractal := ⟨1600000000, .fin (5 / 2), "up"⟩

theorem sampleFractal_ok : FractalOk exampleEnv sampleFractal := ⟨example_int, example_float⟩

example : Survives exampleEnv.fractal sampleFractal := (C161_fractal exampleEnv_good _).1 sampleFractal_ok

theorem fractal_plain (E : Env) : ∀ f ∈ E.fractalFields, plainName f.name.toList = true := by
  intro f hf
  have : ∀ n ∈ (["Time", "Price", "Type"] : List String), plainName n.toList = true := by decide +kernel
  exact this f.name (List.mem_map_of_mem (f := fun f : JField Fractal => f.name) hf)

/-- C162 for `WilliamFractal`. -/
theorem C162_fractal (E : Env) (short : Bool) (r : Fractal) : E.fractal.marshal short r = Text.fractal E short r := by
  unfold Env.fractal
  rw [struct_text (nodup_of_fold (fractal_names E)) (fractal_plain E)]
  simp only [Env.fractalFields, List.map_cons, List.map_nil, Codec.field, float_text, int_text, str_text, Text.fractal]

example : (exampleEnv.fractal.marshal true sampleFractal).map String.ofList =
    some "{\"Time\":1600000000,\"Price\":2.5,\"Type\":\"up\"}" := by decide +kernel

theorem fractal_never (E : Env) : ∀ f ∈ E.fractalFields, ∀ s j, (f.dec s j).2 ≠ .stop := by
  intro f hf s j
  simp only [Env.fractalFields, List.mem_cons, List.not_mem_nil, or_false] at hf
  rcases hf with rfl | rfl | rfl
  · exact (never_int) _ _
  · exact (never_float _ _) _ _
  · exact (never_str) _ _

theorem fractal_commuting (E : Env) : Commuting E.fractalFields := by
  intro f hf g hg hne s j k
  simp only [Env.fractalFields, List.mem_cons, List.not_mem_nil, or_false] at hf hg
  rcases hf with rfl | rfl | rfl <;> rcases hg with rfl | rfl | rfl <;>
    first | exact absurd rfl hne | exact ⟨rfl, rfl⟩

/-- C163 for `WilliamFractal`: the value of each field. -/
theorem C163_fractal (E : Env) (old : Fractal) {s : List Char} {ms : List (List Char × J)} (hs : J.parse s = some (.obj ms)) :
    (E.fractal.unmarshal old s).1.time = held Codec.int "Time" ms old.time ∧
    (E.fractal.unmarshal old s).1.price = held E.float "Price" ms old.price ∧
    (E.fractal.unmarshal old s).1.type = held Codec.str "Type" ms old.type := by
  unfold Env.fractal
  rw [unmarshal_obj (fractal_names E) hs]
  refine ⟨?_, ?_, ?_⟩
  · exact read_field (fractal_names E) (get := fun r : Fractal => r.time) (set := fun r v => { r with time := v })
      (by simp [Env.fractalFields]) (fun _ _ => rfl) (by
        intro g hg hne s j
        simp only [Env.fractalFields, List.mem_cons, List.not_mem_nil, or_false] at hg
        rcases hg with rfl | rfl | rfl <;> first | exact absurd rfl hne | rfl) ms (fun m _ => calm_all (fractal_never E) m) (old, .none) none_ne_stop
  · exact read_field (fractal_names E) (get := fun r : Fractal => r.price) (set := fun r v => { r with price := v })
      (by simp [Env.fractalFields]) (fun _ _ => rfl) (by
        intro g hg hne s j
        simp only [Env.fractalFields, List.mem_cons, List.not_mem_nil, or_false] at hg
        rcases hg with rfl | rfl | rfl <;> first | exact absurd rfl hne | rfl) ms (fun m _ => calm_all (fractal_never E) m) (old, .none) none_ne_stop
  · exact read_field (fractal_names E) (get := fun r : Fractal => r.type) (set := fun r v => { r with type := v })
      (by simp [Env.fractalFields]) (fun _ _ => rfl) (by
        intro g hg hne s j
        simp only [Env.fractalFields, List.mem_cons, List.not_mem_nil, or_false] at hg
        rcases hg with rfl | rfl | rfl <;> first | exact absurd rfl hne | rfl) ms (fun m _ => calm_all (fractal_never E) m) (old, .none) none_ne_stop

/-- C163 for `WilliamFractal`: the order of the members and unknown members. -/
theorem C163_fractal_order (E : Env) (s s' : List Char) :
    (Reordered s s' → SameReading E.fractal s s') ∧
    (Dropped ["Time", "Price", "Type"] s s' → SameReading E.fractal s s') :=
  ⟨same_reordered (fractal_names E) (fractal_never E) (fractal_commuting E), same_dropped (fractal_names E) rfl⟩

/-- Lower-case names are read, a type that is neither up nor down as well. -/
example : exampleEnv.fractal.unmarshal exampleEnv.fractal.zero
    "{\"type\":\"flat\",\"price\":3,\"x\":[]}".toList = (⟨0, .fin 3, "flat"⟩, false) := by decide +kernel

theorem fractal_typed {E : Env} (hS : Lawful E.S) : Typed E E.fractal fractalShape :=
  typed_struct (fractal_names E) <|
    .cons (typed_field (typed_int E) _ _ _) <|
    .cons (typed_field (typed_float hS) _ _ _) <|
    .cons (typed_field (typed_str E) _ _ _) .nil

/-- C171 for `WilliamFractal`. -/
theorem C171_fractal {E : Env} (hS : Lawful E.S) (old : Fractal) (s : List Char) :
    (E.fractal.unmarshal old s).2 = false ↔ ∃ j, IsJson s j ∧ Fits E fractalShape j :=
  typed_unmarshal (fractal_typed hS) old s

/-! ### C172 -/

/-- A reported fractal has the time of a candle and its high or low. -/
theorem fractal_of_candle {cs : List Candle} {f : WilliamFractal} (h : f ∈ williamFractals cs) :
    ∃ c ∈ cs, f.time = c.time ∧ (f.price = c.high ∨ f.price = c.low) := by
  have find : ∀ i t, findFractal cs i t = some f → ∃ c ∈ cs, f.time = c.time ∧ (f.price = c.high ∨ f.price = c.low) := by
    intro i t hf
    unfold findFractal at hf
    split at hf
    · rename_i c0 c1 third rest hd
      refine ⟨third, List.mem_of_mem_drop (i := i) (by rw [hd]; simp), ?_⟩
      simp only at hf
      split_ifs at hf
      cases hf
      cases t <;> simp
    · cases hf
  unfold williamFractals at h
  split_ifs at h
  · cases h
  · obtain ⟨i, -, hi⟩ := List.mem_flatMap.1 h
    rcases List.mem_append.1 (mem_sortByTime.1 hi) with hi | hi
    · exact find i .up (Option.mem_toList.1 hi)
    · exact find i .down (Option.mem_toList.1 hi)

/-- **C172.** The fractals found in candles with 64-bit times and finite prices are written as JSON and
read back. -/
theorem C172_survive {E : Env} (hE : Good E) {cs : List Candle}
    (h : ∀ c ∈ cs, I64 c.time ∧ Fin64 E c.high ∧ Fin64 E c.low) :
    Survives E.fractals ((williamFractals cs).map Fractal.of) := by
  refine survives (d := 2) (by omega) (round_slice _ _ ?_)
  intro v hv
  obtain ⟨f, hf, rfl⟩ := List.mem_map.1 hv
  obtain ⟨c, hc, ht, hp⟩ := fractal_of_candle hf
  refine round_fractal hE ⟨?_, ?_⟩
  · rw [show (Fractal.of f).time = f.time from rfl, ht]; exact (h c hc).1
  · show Fin64 E f.price
    rcases hp with hp | hp <;> rw [hp]
    · exact (h c hc).2.1
    · exact (h c hc).2.2

/-- **C172.** The text: null when there is no fractal, otherwise one object for each fractal, in order. -/
theorem C172_text (E : Env) (short : Bool) (cs : List Candle) :
    E.fractals.marshal short ((williamFractals cs).map Fractal.of) =
      if williamFractals cs = [] then some "null".toList
      else ((williamFractals cs).mapM fun f => Text.object [
          ("Time", Text.integer f.time),
          ("Price", Text.number E f.price),
          ("Type", some (match f.ftype with | .up => "\"up\"".toList | .down => "\"down\"".toList))]).map
        fun ts => '[' :: (List.intercalate [','] ts ++ [']']) := by
  have ht : ∀ f : WilliamFractal, (E.fractal.enc (Fractal.of f)).map (J.emit short) = Text.object [
          ("Time", Text.integer f.time),
          ("Price", Text.number E f.price),
          ("Type", some (match f.ftype with | .up => "\"up\"".toList | .down => "\"down\"".toList))] := by
    intro f
    rw [show (E.fractal.enc (Fractal.of f)).map (J.emit short) = _ from C162_fractal E short (Fractal.of f)]
    have hs : Text.string short (fractalType f.ftype) =
        some (match f.ftype with | .up => "\"up\"".toList | .down => "\"down\"".toList) := by
      cases f.ftype <;> cases short <;> decide +kernel
    simp only [Text.fractal, Fractal.of, hs]
  show ((Codec.slice true (E.stale _ "") E.fractal).enc _).map (J.emit short) = _
  rw [slice_text, List.map_map]
  simp only [Function.comp_def, ht, Text.array, true_and, List.map_eq_nil_iff, List.mapM_map]
  rfl

/-- **C172.** There is no text if and only if a reported price is infinite or NaN. -/
theorem C172_refused (E : Env) (cs : List Candle) :
    (∀ short, E.fractals.marshal short ((williamFractals cs).map Fractal.of) = none) ↔
      ∃ f ∈ williamFractals cs, NotFinite f.price := by
  rw [marshal_none]
  unfold Env.fractals
  rw [slice_none]
  simp only [List.mem_map, fractal_none, exists_exists_and_eq_and, FractalBad, Fractal.of]

/-- **C172.** Which texts can be read as fractals. -/
theorem C172_error {E : Env} (hS : Lawful E.S) (old : List Fractal) (s : List Char) :
    (E.fractals.unmarshal old s).2 = false ↔ ∃ j, IsJson s j ∧ Fits E (.list fractalShape) j :=
  typed_unmarshal (typed_slice _ _ (fractal_typed hS)) old s

example : Survives exampleEnv.fractals ((williamFractals exFractals).map Fractal.of) :=
  C172_survive exampleEnv_good (by
    intro c hc
    simp only [exFractals, List.mem_cons, List.not_mem_nil, or_false] at hc
    rcases hc with rfl | rfl | rfl | rfl | rfl | rfl | rfl <;>
      exact ⟨by simp only [exHL, I64]; omega, Or.inr ⟨_, rfl, by decide +kernel⟩, Or.inr ⟨_, rfl, by decide +kernel⟩⟩)

example : (exampleEnv.fractals.marshal true ((williamFractals exFractals).map Fractal.of)).map String.ofList =
    some "[{\"Time\":3,\"Price\":15,\"Type\":\"up\"},{\"Time\":4,\"Price\":2,\"Type\":\"down\"}]" := by decide +kernel

/-- An infinite high that is a fractal. -/
example : ∃ f ∈ williamFractals [exHL 1 10 5, exHL 2 12 6, ⟨3, .fin 1, .inf false, .fin 7, .fin 1, .fin 0⟩, exHL 4 13 2, exHL 5 11 3],
    NotFinite f.price := by
  refine ⟨⟨3, .inf false, .up⟩, by decide +kernel, ?_⟩
  simp [NotFinite]

end Finmod.Json
