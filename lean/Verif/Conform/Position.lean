import Verif.Model.Position

/-!
# The model against the repository's own expected values: positions and trades

These are tests of the model (IEEE arithmetic evaluated in the kernel), not theorems about the
code. Numbers from market/position_test.go:43-116 and market/trade_test.go.
-/

namespace Finmod.Conform
open Go

/-- A decimal literal of the Go source. -/
private def lit (q : ℚ) : Fl := rnd64 q

private def pr : Pair := ⟨⟨"Ethereum", "ETH", ""⟩, ⟨"US Dollar", "USD", ""⟩⟩

private def t1 := newTrade ieee "TO2WZX" 0 "buy" "market" pr (lit 14.39) (lit 10.4233) (lit 150)
private def t2 := newTrade ieee "TI7MTX" 0 "buy" "market" pr (lit 10.270) (lit 48.68549) (lit 500)
private def t3 := newTrade ieee "TCS6CS" 0 "sell" "market" pr (lit 10.192) (lit 48.68549) (lit 496.202)
private def t4 := newTrade ieee "TCS6CS" 0 "sell" "market" pr (lit 15.39) (lit 10.4233) (lit 160.4233)
private def t5 := newTrade ieee "TY6CIM" 0 "sell" "market" pr (lit 14.39) (lit 10.4233) (lit 150)
private def t6 := newTrade ieee "TX7ANX" 0 "sell" "market" pr (lit 10.192) (lit 48.68549) (lit 496.202)
private def t7 := newTrade ieee "TA78IA" 0 "buy" "market" pr (lit 15.39) (lit 10.4233) (lit 160.4233)
private def t8 := newTrade ieee "T20AGT" 0 "buy" "market" pr (lit 9.39) (lit 48.68549) (lit 457.61)

private def L : Position := newPosition "id" 0 t1
private def Sh : Position := newPosition "id" 0 t5

/-- position_test.go:53-57. -/
example : (modifiedAll ieee L [t2]).openPrice = lit 10.99652470131769 ∧
    (modifiedAll ieee L [t2]).quantity = lit 59.10879 ∧
    (modifiedAll ieee L [t2]).trades = ["TO2WZX", "TI7MTX"] := by decide +kernel

/-- position_test.go:62-66. -/
example : (modifiedAll ieee L [t2, t3]).openPrice = lit 14.754324946993759 ∧
    (modifiedAll ieee L [t2, t3]).quantity = lit 10.423299999999998 ∧
    (modifiedAll ieee L [t2, t3]).opened = true := by decide +kernel

/-- position_test.go:71-77. -/
example : (modifiedAll ieee L [t2, t3, t4]).opened = false ∧
    (modifiedAll ieee L [t2, t3, t4]).openPrice = lit 14.754324946993759 ∧
    (modifiedAll ieee L [t2, t3, t4]).closePrice = lit 15.39 ∧
    (modifiedAll ieee L [t2, t3, t4]).profit = lit 6.625831779999961 := by decide +kernel

/-- position_test.go:85-107. -/
example : (modifiedAll ieee Sh [t6]).openPrice = lit 10.932279295177587 ∧
    (modifiedAll ieee Sh [t6, t7]).openPrice = lit 9.97790541042105 ∧
    (modifiedAll ieee Sh [t6, t7]).quantity = lit 48.68549 ∧
    (modifiedAll ieee Sh [t6, t7, t8]).opened = false ∧
    (modifiedAll ieee Sh [t6, t7, t8]).profit = lit 28.62246297999989 := by decide +kernel

/-- trade_test.go: fee of a buy. -/
example : t1.fee = lit 0.008713000000000193 := by decide +kernel

end Finmod.Conform
