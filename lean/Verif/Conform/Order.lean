import Verif.Model.Order
import Verif.Model.Asset

/-!
# The model against the project's own tests (market/order_test.go, market/pair_test.go)

These are tests of the model, evaluated by the kernel, not proofs of any property.
-/

namespace Finmod.Conform
open Go

def ethusd : Pair := ⟨⟨"Ethereum", "ETH", ""⟩, ⟨"United States Dollar", "USD", ""⟩⟩

/-- Build a request and complete it. -/
def run (action type : String) (q p t c : ℚ) : Option (Fl × Fl) :=
  match newOrderRequest ethusd action type (.fin q) (.fin p) (.fin t) with
  | .ok (some o) =>
    match (calculateFields ieee o (.fin c)).2 with
    | .ok (some r) => some (r.quantity, r.total)
    | _ => none
  | _ => none

-- market/order_test.go:36-47
example : run "buy" "market" 10 0 0 2000 = some (.fin 10, .fin 20000) := by decide +kernel
example : run "buy" "market" 0 0 10000 2000 = some (.fin 5, .fin 10000) := by decide +kernel
example : run "buy" "market" 10 10000 0 2000 = some (.fin 10, .fin 20000) := by decide +kernel
example : run "buy" "limit" 10 2000 0 0 = some (.fin 10, .fin 20000) := by decide +kernel
example : run "buy" "limit" 0 2000 10000 2000 = some (.fin 5, .fin 10000) := by decide +kernel
example : run "sell" "market" 10 0 0 2000 = some (.fin 10, .fin 20000) := by decide +kernel
example : run "sell" "market" 0 0 10000 2000 = some (.fin 5, .fin 10000) := by decide +kernel
example : run "sell" "market" 10 10000 0 2000 = some (.fin 10, .fin 20000) := by decide +kernel
example : run "sell" "limit" 10 2000 0 0 = some (.fin 10, .fin 20000) := by decide +kernel
example : run "sell" "limit" 0 2000 10000 2000 = some (.fin 5, .fin 10000) := by decide +kernel

-- market/order_test.go:22-24
example : newCryptoAsset "ETH" = .ok ethusd.base ∧ newForexAsset "USD" = .ok ethusd.quote := by
  decide +kernel

-- market/pair_test.go:13-26
example : (Pair.mk ⟨"", "ETH", ""⟩ ⟨"", "USD", ""⟩).symbolWith "" = "ETHUSD" := by decide +kernel
example : (Pair.mk ⟨"", "ETH", ""⟩ ⟨"", "USD", ""⟩).symbolWith "/" = "ETH/USD" := by decide +kernel
example : (Pair.mk ⟨"", "#US30", ""⟩ ⟨"", "", ""⟩).symbolWith "" = "#US30" := by decide +kernel
example : (Pair.mk ⟨"", "#US30", ""⟩ ⟨"", "", ""⟩).symbolWith "/" = "#US30" := by decide +kernel

end Finmod.Conform
