import Verif.Model.Json
import Verif.Model.Fractals

/-!
# `WilliamFractal` as JSON

`WilliamFractal` has no tags: its names are the Go names.
-/

namespace Finmod.Json
open Go Finmod

/-- indicators/williams_fractals.go:20-24 `WilliamFractal`. JSON can put any string into `Type`, so
here it is a string. -/
structure Fractal where
  time : Int
  price : Fl
  type : String
deriving DecidableEq, Repr

/-- indicators/williams_fractals.go:16-17 `FractalUp` and `FractalDown`: the strings. -/
def fractalType : FractalType → String
  | .up => "up"
  | .down => "down"

/-- indicators/williams_fractals.go:20-24: a fractal of `Model/Fractals.lean` with its string. -/
def Fractal.of (f : WilliamFractal) : Fractal := ⟨f.time, f.price, fractalType f.ftype⟩

/-- indicators/williams_fractals.go:20-24 `WilliamFractal`: its fields. -/
def Env.fractalFields (E : Env) : List (JField Fractal) := [
  Codec.field Codec.int "Time" (·.time) (fun r v => { r with time := v }),
  Codec.field E.float "Price" (·.price) (fun r v => { r with price := v }),
  Codec.field Codec.str "Type" (·.type) (fun r v => { r with type := v })]

/-- `WilliamFractal` as JSON. -/
def Env.fractal (E : Env) : Codec Fractal :=
  Codec.struct ⟨0, .fin 0, ""⟩ E.fractalFields

/-- indicators/williams_fractals.go:30-43: what `WilliamFractals` returns, as JSON. The result is a nil
slice when there is no fractal. -/
def Env.fractals (E : Env) : Codec (List Fractal) := Codec.slice true (E.stale _ "") E.fractal

end Finmod.Json
