import Verif.Model.Strings
import Verif.Props.Assets
import Verif.Props.Strings
import Verif.Props.BookDepth

/-!
# What the `String` methods print (C127, C128)
-/

namespace Finmod
open Go

/-! ### C127 -/

/-- **C127** The text of a pair without `/` in its base symbol gives back both symbols, and the text
of an asset without `:` in its name gives back name and symbol. -/
theorem C127_texts_identify :
    (∀ p p' : Pair, '/' ∉ p.base.symbol.toList → '/' ∉ p'.base.symbol.toList → p.string = p'.string →
      p.base.symbol = p'.base.symbol ∧ p.quote.symbol = p'.quote.symbol) ∧
    (∀ a a' : Asset, ':' ∉ a.name.toList → ':' ∉ a'.name.toList → a.string = a'.string →
      a.name = a'.name ∧ a.symbol = a'.symbol) := by
  constructor
  · intro p p' h h' e
    have e := congrArg String.toList e
    simp only [Pair.string, String.toList_append, List.append_assoc] at e
    obtain ⟨e1, e2⟩ := sep_split (c := '/') h h' (x := p.quote.symbol.toList ++ ['\n'])
      (y := p'.quote.symbol.toList ++ ['\n']) e
    exact ⟨String.toList_injective e1, String.toList_injective (List.append_cancel_right e2)⟩
  · intro a a' h h' e
    have e := congrArg String.toList e
    simp only [Asset.string, String.toList_append, List.append_assoc] at e
    obtain ⟨e1, e2⟩ := sep_split (c := ':') h h' (x := ' ' :: (a.symbol.toList ++ ['\n']))
      (y := ' ' :: (a'.symbol.toList ++ ['\n'])) e
    simp only [List.cons.injEq, true_and] at e2
    exact ⟨String.toList_injective e1, String.toList_injective (List.append_cancel_right e2)⟩

/-- **C127** The texts: base, slash, quote; name, colon, symbol. -/
theorem C127_texts (p : Pair) (a : Asset) :
    p.string.toList = p.base.symbol.toList ++ ['/'] ++ p.quote.symbol.toList ++ ['\n'] ∧
    a.string.toList = a.name.toList ++ [':', ' '] ++ a.symbol.toList ++ ['\n'] := by
  simp only [Pair.string, Asset.string, String.toList_append]
  exact ⟨rfl, rfl⟩

example : (⟨⟨"Bitcoin", "BTC", ""⟩, ⟨"US Dollar", "USD", ""⟩⟩ : Pair).string = "BTC/USD\n" ∧
    '/' ∉ "BTC".toList ∧ (⟨"Bitcoin", "BTC", ""⟩ : Asset).string = "Bitcoin: BTC\n" := by decide +kernel


theorem bytes_append (a b : String) : bytes (a ++ b) = bytes a ++ bytes b := by
  simp [bytes, String.toUTF8]

/-! ### C127, the whole texts -/

/-- What `fmt.Sprintf` does with a format: each verb (`%`, then anything up to a letter) is replaced
by the text of the next argument; `v`: inside a verb. -/
def Spec.fill : Bool → List UInt8 → List (List UInt8) → List UInt8
  | _, [], _ => []
  | false, c :: cs, as => if c = 37 then fill true cs as else c :: fill false cs as
  | true, c :: cs, as => if 97 ≤ c then as.headD [] ++ fill false cs as.tail else fill true cs as

/-- `fmt.Sprintf` on a format and the texts of its arguments. -/
def Spec.sprintf (format : String) (args : List (List UInt8)) : List UInt8 := fill false (bytes format) args

/-- `%v` of a slice, given the texts of its elements. -/
def Spec.slice (l : List (List UInt8)) : List UInt8 := [91] ++ List.intercalate [32] l ++ [93]

theorem bytes_bracketed (l : List String) : bytes (bracketed l) = Spec.slice (l.map bytes) := by
  have h : ∀ l : List String, bytes (spaced l) = List.intercalate [32] (l.map bytes) := by
    intro l
    induction l with
    | nil => decide +kernel
    | cons a l ih =>
      cases l with
      | nil => simp [spaced]
      | cons b l =>
        rw [spaced, bytes_append, bytes_append, ih, show bytes " " = [32] by decide +kernel]
        · simp [List.intercalate_cons_cons]
        · simp
  rw [bracketed, bytes_append, bytes_append, h, show bytes "[" = [91] by decide +kernel,
    show bytes "]" = [93] by decide +kernel]
  rfl

theorem bytes_lit0 :
    bytes "" =
      [] := by decide +kernel
theorem bytes_lit1 :
    bytes " " =
      [32] := by decide +kernel
theorem bytes_lit2 :
    bytes " # Trades: " =
      [32, 35, 32, 84, 114, 97, 100, 101, 115, 58, 32] := by decide +kernel
theorem bytes_lit3 :
    bytes " Action: " =
      [32, 65, 99, 116, 105, 111, 110, 58, 32] := by decide +kernel
theorem bytes_lit4 :
    bytes " ClosePrice: " =
      [32, 67, 108, 111, 115, 101, 80, 114, 105, 99, 101, 58, 32] := by decide +kernel
theorem bytes_lit5 :
    bytes " CloseTime: " =
      [32, 67, 108, 111, 115, 101, 84, 105, 109, 101, 58, 32] := by decide +kernel
theorem bytes_lit6 :
    bytes " Cost: $" =
      [32, 67, 111, 115, 116, 58, 32, 36] := by decide +kernel
theorem bytes_lit7 :
    bytes " Execution Time: " =
      [32, 69, 120, 101, 99, 117, 116, 105, 111, 110, 32, 84, 105, 109, 101, 58, 32] := by decide +kernel
theorem bytes_lit8 :
    bytes " Fee: $" =
      [32, 70, 101, 101, 58, 32, 36] := by decide +kernel
theorem bytes_lit9 :
    bytes " Open: " =
      [32, 79, 112, 101, 110, 58, 32] := by decide +kernel
theorem bytes_lit10 :
    bytes " OpenPrice: " =
      [32, 79, 112, 101, 110, 80, 114, 105, 99, 101, 58, 32] := by decide +kernel
theorem bytes_lit11 :
    bytes " OpenTime: " =
      [32, 79, 112, 101, 110, 84, 105, 109, 101, 58, 32] := by decide +kernel
theorem bytes_lit12 :
    bytes " Pair: " =
      [32, 80, 97, 105, 114, 58, 32] := by decide +kernel
theorem bytes_lit13 :
    bytes " Price: $" =
      [32, 80, 114, 105, 99, 101, 58, 32, 36] := by decide +kernel
theorem bytes_lit14 :
    bytes " Profit: " =
      [32, 80, 114, 111, 102, 105, 116, 58, 32] := by decide +kernel
theorem bytes_lit15 :
    bytes " Quantity: " =
      [32, 81, 117, 97, 110, 116, 105, 116, 121, 58, 32] := by decide +kernel
theorem bytes_lit16 :
    bytes " Type: " =
      [32, 84, 121, 112, 101, 58, 32] := by decide +kernel
theorem bytes_lit17 :
    bytes " | Action: " =
      [32, 124, 32, 65, 99, 116, 105, 111, 110, 58, 32] := by decide +kernel
theorem bytes_lit18 :
    bytes " | CT: " =
      [32, 124, 32, 67, 84, 58, 32] := by decide +kernel
theorem bytes_lit19 :
    bytes " | Close: " =
      [32, 124, 32, 67, 108, 111, 115, 101, 58, 32] := by decide +kernel
theorem bytes_lit20 :
    bytes " | Cost: $" =
      [32, 124, 32, 67, 111, 115, 116, 58, 32, 36] := by decide +kernel
theorem bytes_lit21 :
    bytes " | ExecVolume: " =
      [32, 124, 32, 69, 120, 101, 99, 86, 111, 108, 117, 109, 101, 58, 32] := by decide +kernel
theorem bytes_lit22 :
    bytes " | Fee: $" =
      [32, 124, 32, 70, 101, 101, 58, 32, 36] := by decide +kernel
theorem bytes_lit23 :
    bytes " | High: " =
      [32, 124, 32, 72, 105, 103, 104, 58, 32] := by decide +kernel
theorem bytes_lit24 :
    bytes " | Low: " =
      [32, 124, 32, 76, 111, 119, 58, 32] := by decide +kernel
theorem bytes_lit25 :
    bytes " | OT: " =
      [32, 124, 32, 79, 84, 58, 32] := by decide +kernel
theorem bytes_lit26 :
    bytes " | Open: " =
      [32, 124, 32, 79, 112, 101, 110, 58, 32] := by decide +kernel
theorem bytes_lit27 :
    bytes " | Pair: " =
      [32, 124, 32, 80, 97, 105, 114, 58, 32] := by decide +kernel
theorem bytes_lit28 :
    bytes " | Price: " =
      [32, 124, 32, 80, 114, 105, 99, 101, 58, 32] := by decide +kernel
theorem bytes_lit29 :
    bytes " | Price: $" =
      [32, 124, 32, 80, 114, 105, 99, 101, 58, 32, 36] := by decide +kernel
theorem bytes_lit30 :
    bytes " | Quantity: " =
      [32, 124, 32, 81, 117, 97, 110, 116, 105, 116, 121, 58, 32] := by decide +kernel
theorem bytes_lit31 :
    bytes " | Status: " =
      [32, 124, 32, 83, 116, 97, 116, 117, 115, 58, 32] := by decide +kernel
theorem bytes_lit32 :
    bytes " | Total: $" =
      [32, 124, 32, 84, 111, 116, 97, 108, 58, 32, 36] := by decide +kernel
theorem bytes_lit33 :
    bytes " | Type: " =
      [32, 124, 32, 84, 121, 112, 101, 58, 32] := by decide +kernel
theorem bytes_lit34 :
    bytes " | Volume: " =
      [32, 124, 32, 86, 111, 108, 117, 109, 101, 58, 32] := by decide +kernel
theorem bytes_lit35 :
    bytes ", AccumVolume: " =
      [44, 32, 65, 99, 99, 117, 109, 86, 111, 108, 117, 109, 101, 58, 32] := by decide +kernel
theorem bytes_lit36 :
    bytes ", Amount: " =
      [44, 32, 65, 109, 111, 117, 110, 116, 58, 32] := by decide +kernel
theorem bytes_lit37 :
    bytes ", Ask: " =
      [44, 32, 65, 115, 107, 58, 32] := by decide +kernel
theorem bytes_lit38 :
    bytes ", Asks: " =
      [44, 32, 65, 115, 107, 115, 58, 32] := by decide +kernel
theorem bytes_lit39 :
    bytes ", Assets: " =
      [44, 32, 65, 115, 115, 101, 116, 115, 58, 32] := by decide +kernel
theorem bytes_lit40 :
    bytes ", Bid: " =
      [44, 32, 66, 105, 100, 58, 32] := by decide +kernel
theorem bytes_lit41 :
    bytes ", Bids: " =
      [44, 32, 66, 105, 100, 115, 58, 32] := by decide +kernel
theorem bytes_lit42 :
    bytes ", Creation Time: " =
      [44, 32, 67, 114, 101, 97, 116, 105, 111, 110, 32, 84, 105, 109, 101, 58, 32] := by decide +kernel
theorem bytes_lit43 :
    bytes ", Equity: " =
      [44, 32, 69, 113, 117, 105, 116, 121, 58, 32] := by decide +kernel
theorem bytes_lit44 :
    bytes ", ExecutionID: " =
      [44, 32, 69, 120, 101, 99, 117, 116, 105, 111, 110, 73, 68, 58, 32] := by decide +kernel
theorem bytes_lit45 :
    bytes ", Free Margin: " =
      [44, 32, 70, 114, 101, 101, 32, 77, 97, 114, 103, 105, 110, 58, 32] := by decide +kernel
theorem bytes_lit46 :
    bytes ", Label: " =
      [44, 32, 76, 97, 98, 101, 108, 58, 32] := by decide +kernel
theorem bytes_lit47 :
    bytes ", Last: " =
      [44, 32, 76, 97, 115, 116, 58, 32] := by decide +kernel
theorem bytes_lit48 :
    bytes ", Margin: " =
      [44, 32, 77, 97, 114, 103, 105, 110, 58, 32] := by decide +kernel
theorem bytes_lit49 :
    bytes ", OrderID: " =
      [44, 32, 79, 114, 100, 101, 114, 73, 68, 58, 32] := by decide +kernel
theorem bytes_lit50 :
    bytes ", Price: " =
      [44, 32, 80, 114, 105, 99, 101, 58, 32] := by decide +kernel
theorem bytes_lit51 :
    bytes ", Time: " =
      [44, 32, 84, 105, 109, 101, 58, 32] := by decide +kernel
theorem bytes_lit52 :
    bytes ", Tooltip: " =
      [44, 32, 84, 111, 111, 108, 116, 105, 112, 58, 32] := by decide +kernel
theorem bytes_lit53 :
    bytes ", VWAP: " =
      [44, 32, 86, 87, 65, 80, 58, 32] := by decide +kernel
theorem bytes_lit54 :
    bytes ", Volume: " =
      [44, 32, 86, 111, 108, 117, 109, 101, 58, 32] := by decide +kernel
theorem bytes_lit55 :
    bytes "/" =
      [47] := by decide +kernel
theorem bytes_lit56 :
    bytes ": " =
      [58, 32] := by decide +kernel
theorem bytes_lit57 :
    bytes "Action: " =
      [65, 99, 116, 105, 111, 110, 58, 32] := by decide +kernel
theorem bytes_lit58 :
    bytes "Annotations:\n" =
      [65, 110, 110, 111, 116, 97, 116, 105, 111, 110, 115, 58, 10] := by decide +kernel
theorem bytes_lit59 :
    bytes "Asset: " =
      [65, 115, 115, 101, 116, 58, 32] := by decide +kernel
theorem bytes_lit60 :
    bytes "Balance: " =
      [66, 97, 108, 97, 110, 99, 101, 58, 32] := by decide +kernel
theorem bytes_lit61 :
    bytes "ID: " =
      [73, 68, 58, 32] := by decide +kernel
theorem bytes_lit62 :
    bytes "Price: " =
      [80, 114, 105, 99, 101, 58, 32] := by decide +kernel
theorem bytes_lit63 :
    bytes "Time: " =
      [84, 105, 109, 101, 58, 32] := by decide +kernel
theorem bytes_lit64 :
    bytes "\n" =
      [10] := by decide +kernel
theorem bytes_lit65 :
    bytes "down" =
      [100, 111, 119, 110] := by decide +kernel
theorem bytes_lit66 :
    bytes "up" =
      [117, 112] := by decide +kernel
theorem bytes_lit67 :
    bytes "{" =
      [123] := by decide +kernel
theorem bytes_lit68 :
    bytes "}" =
      [125] := by decide +kernel
theorem bytes_lit69 :
    bytes "%s: %s\n" =
      [37, 115, 58, 32, 37, 115, 10] := by decide +kernel
theorem bytes_lit70 :
    bytes "%s/%s\n" =
      [37, 115, 47, 37, 115, 10] := by decide +kernel
theorem bytes_lit71 :
    bytes "Time: %s | Open: %.4f | High: %.4f | Low: %.4f | Close: %.4f | Volume: %.4f\n" =
      [84, 105, 109, 101, 58, 32, 37, 115, 32, 124, 32, 79, 112, 101, 110, 58, 32, 37, 46, 52,
      102, 32, 124, 32, 72, 105, 103, 104, 58, 32, 37, 46, 52, 102, 32, 124, 32, 76, 111, 119,
      58, 32, 37, 46, 52, 102, 32, 124, 32, 67, 108, 111, 115, 101, 58, 32, 37, 46, 52, 102, 32,
      124, 32, 86, 111, 108, 117, 109, 101, 58, 32, 37, 46, 52, 102, 10] := by decide +kernel
theorem bytes_lit72 :
    bytes "Time: %d, Ask: %f, Bid: %f, Last: %f, Volume: %f, VWAP: %f\n" =
      [84, 105, 109, 101, 58, 32, 37, 100, 44, 32, 65, 115, 107, 58, 32, 37, 102, 44, 32, 66,
      105, 100, 58, 32, 37, 102, 44, 32, 76, 97, 115, 116, 58, 32, 37, 102, 44, 32, 86, 111,
      108, 117, 109, 101, 58, 32, 37, 102, 44, 32, 86, 87, 65, 80, 58, 32, 37, 102, 10] := by decide +kernel
theorem bytes_lit73 :
    bytes "ID: %s Execution Time: %s Action: %s Type: %s Pair: %s Price: $%.2f Quantity: %.4f Fee: $%.2f Cost: $%.2f\n" =
      [73, 68, 58, 32, 37, 115, 32, 69, 120, 101, 99, 117, 116, 105, 111, 110, 32, 84, 105, 109,
      101, 58, 32, 37, 115, 32, 65, 99, 116, 105, 111, 110, 58, 32, 37, 115, 32, 84, 121, 112,
      101, 58, 32, 37, 115, 32, 80, 97, 105, 114, 58, 32, 37, 115, 32, 80, 114, 105, 99, 101,
      58, 32, 36, 37, 46, 50, 102, 32, 81, 117, 97, 110, 116, 105, 116, 121, 58, 32, 37, 46, 52,
      102, 32, 70, 101, 101, 58, 32, 36, 37, 46, 50, 102, 32, 67, 111, 115, 116, 58, 32, 36, 37,
      46, 50, 102, 10] := by decide +kernel
theorem bytes_lit74 :
    bytes "Balance: %f, Equity: %f, Margin: %f, Free Margin: %f\n" =
      [66, 97, 108, 97, 110, 99, 101, 58, 32, 37, 102, 44, 32, 69, 113, 117, 105, 116, 121, 58,
      32, 37, 102, 44, 32, 77, 97, 114, 103, 105, 110, 58, 32, 37, 102, 44, 32, 70, 114, 101,
      101, 32, 77, 97, 114, 103, 105, 110, 58, 32, 37, 102, 10] := by decide +kernel
theorem bytes_lit75 :
    bytes "Time: %f, Assets: %v\n" =
      [84, 105, 109, 101, 58, 32, 37, 102, 44, 32, 65, 115, 115, 101, 116, 115, 58, 32, 37, 118,
      10] := by decide +kernel
theorem bytes_lit76 :
    bytes "Action: %s | Type: %s | Pair: %s | Quantity: %.4f | Price: $%.4f | Total: $%.4f\n" =
      [65, 99, 116, 105, 111, 110, 58, 32, 37, 115, 32, 124, 32, 84, 121, 112, 101, 58, 32, 37,
      115, 32, 124, 32, 80, 97, 105, 114, 58, 32, 37, 115, 32, 124, 32, 81, 117, 97, 110, 116,
      105, 116, 121, 58, 32, 37, 46, 52, 102, 32, 124, 32, 80, 114, 105, 99, 101, 58, 32, 36,
      37, 46, 52, 102, 32, 124, 32, 84, 111, 116, 97, 108, 58, 32, 36, 37, 46, 52, 102, 10] := by decide +kernel
theorem bytes_lit77 :
    bytes "Price: %f, OrderID: %s\n" =
      [80, 114, 105, 99, 101, 58, 32, 37, 102, 44, 32, 79, 114, 100, 101, 114, 73, 68, 58, 32,
      37, 115, 10] := by decide +kernel
theorem bytes_lit78 :
    bytes "Price: %.3f, Volume: %.3f, AccumVolume: %.3f\n" =
      [80, 114, 105, 99, 101, 58, 32, 37, 46, 51, 102, 44, 32, 86, 111, 108, 117, 109, 101, 58,
      32, 37, 46, 51, 102, 44, 32, 65, 99, 99, 117, 109, 86, 111, 108, 117, 109, 101, 58, 32,
      37, 46, 51, 102, 10] := by decide +kernel
theorem bytes_lit79 :
    bytes "Time: %v, Asks: %v, Bids: %v\n" =
      [84, 105, 109, 101, 58, 32, 37, 118, 44, 32, 65, 115, 107, 115, 58, 32, 37, 118, 44, 32,
      66, 105, 100, 115, 58, 32, 37, 118, 10] := by decide +kernel
theorem bytes_lit80 :
    bytes "ID: %s, Time: %d, Creation Time: %d, Price: %f, ExecutionID: %s, Label: %s, Tooltip: %s\n" =
      [73, 68, 58, 32, 37, 115, 44, 32, 84, 105, 109, 101, 58, 32, 37, 100, 44, 32, 67, 114,
      101, 97, 116, 105, 111, 110, 32, 84, 105, 109, 101, 58, 32, 37, 100, 44, 32, 80, 114, 105,
      99, 101, 58, 32, 37, 102, 44, 32, 69, 120, 101, 99, 117, 116, 105, 111, 110, 73, 68, 58,
      32, 37, 115, 44, 32, 76, 97, 98, 101, 108, 58, 32, 37, 115, 44, 32, 84, 111, 111, 108,
      116, 105, 112, 58, 32, 37, 115, 10] := by decide +kernel
theorem bytes_lit81 :
    bytes "ID: %s | Action: %s | Type: %s | Pair: %s | Price: %.4f | Volume: %.4f | ExecVolume: %.4f | Fee: $%.4f | Cost: $%.4f | Status: %s | OT: %s | CT: %s\n" =
      [73, 68, 58, 32, 37, 115, 32, 124, 32, 65, 99, 116, 105, 111, 110, 58, 32, 37, 115, 32,
      124, 32, 84, 121, 112, 101, 58, 32, 37, 115, 32, 124, 32, 80, 97, 105, 114, 58, 32, 37,
      115, 32, 124, 32, 80, 114, 105, 99, 101, 58, 32, 37, 46, 52, 102, 32, 124, 32, 86, 111,
      108, 117, 109, 101, 58, 32, 37, 46, 52, 102, 32, 124, 32, 69, 120, 101, 99, 86, 111, 108,
      117, 109, 101, 58, 32, 37, 46, 52, 102, 32, 124, 32, 70, 101, 101, 58, 32, 36, 37, 46, 52,
      102, 32, 124, 32, 67, 111, 115, 116, 58, 32, 36, 37, 46, 52, 102, 32, 124, 32, 83, 116,
      97, 116, 117, 115, 58, 32, 37, 115, 32, 124, 32, 79, 84, 58, 32, 37, 115, 32, 124, 32, 67,
      84, 58, 32, 37, 115, 10] := by decide +kernel
theorem bytes_lit82 :
    bytes "ID: %s Type: %s Pair: %s Open: %t OpenPrice: %.2f ClosePrice: %.2f Quantity: %.4f Profit: %.2f OpenTime: %s CloseTime: %s # Trades: %d\n" =
      [73, 68, 58, 32, 37, 115, 32, 84, 121, 112, 101, 58, 32, 37, 115, 32, 80, 97, 105, 114,
      58, 32, 37, 115, 32, 79, 112, 101, 110, 58, 32, 37, 116, 32, 79, 112, 101, 110, 80, 114,
      105, 99, 101, 58, 32, 37, 46, 50, 102, 32, 67, 108, 111, 115, 101, 80, 114, 105, 99, 101,
      58, 32, 37, 46, 50, 102, 32, 81, 117, 97, 110, 116, 105, 116, 121, 58, 32, 37, 46, 52,
      102, 32, 80, 114, 111, 102, 105, 116, 58, 32, 37, 46, 50, 102, 32, 79, 112, 101, 110, 84,
      105, 109, 101, 58, 32, 37, 115, 32, 67, 108, 111, 115, 101, 84, 105, 109, 101, 58, 32, 37,
      115, 32, 35, 32, 84, 114, 97, 100, 101, 115, 58, 32, 37, 100, 10] := by decide +kernel
theorem bytes_lit83 :
    bytes "Asset: %s, Amount: %f\n" =
      [65, 115, 115, 101, 116, 58, 32, 37, 115, 44, 32, 65, 109, 111, 117, 110, 116, 58, 32, 37,
      102, 10] := by decide +kernel

macro "spell" : tactic => `(tactic| simp only [bytes_append, Spec.sprintf,
    bytes_lit0, bytes_lit1, bytes_lit2, bytes_lit3, bytes_lit4, bytes_lit5, bytes_lit6,
    bytes_lit7, bytes_lit8, bytes_lit9, bytes_lit10, bytes_lit11, bytes_lit12, bytes_lit13,
    bytes_lit14, bytes_lit15, bytes_lit16, bytes_lit17, bytes_lit18, bytes_lit19, bytes_lit20,
    bytes_lit21, bytes_lit22, bytes_lit23, bytes_lit24, bytes_lit25, bytes_lit26, bytes_lit27,
    bytes_lit28, bytes_lit29, bytes_lit30, bytes_lit31, bytes_lit32, bytes_lit33, bytes_lit34,
    bytes_lit35, bytes_lit36, bytes_lit37, bytes_lit38, bytes_lit39, bytes_lit40, bytes_lit41,
    bytes_lit42, bytes_lit43, bytes_lit44, bytes_lit45, bytes_lit46, bytes_lit47, bytes_lit48,
    bytes_lit49, bytes_lit50, bytes_lit51, bytes_lit52, bytes_lit53, bytes_lit54, bytes_lit55,
    bytes_lit56, bytes_lit57, bytes_lit58, bytes_lit59, bytes_lit60, bytes_lit61, bytes_lit62,
    bytes_lit63, bytes_lit64, bytes_lit65, bytes_lit66, bytes_lit67, bytes_lit68, bytes_lit69,
    bytes_lit70, bytes_lit71, bytes_lit72, bytes_lit73, bytes_lit74, bytes_lit75, bytes_lit76,
    bytes_lit77, bytes_lit78, bytes_lit79, bytes_lit80, bytes_lit81, bytes_lit82, bytes_lit83])

theorem bytes_row (F : Fmt) (r : Row) : bytes (r.fields F) =
    Spec.sprintf "{%v %v %v}" [bytes (F.v r.price), bytes (F.v r.volume), bytes (F.v r.accum)] := by
  have e : bytes "{%v %v %v}" = [123, 37, 118, 32, 37, 118, 32, 37, 118, 125] := by decide +kernel
  have e1 : bytes "{" = [123] := by decide +kernel
  have e2 : bytes "}" = [125] := by decide +kernel
  unfold Row.fields
  simp only [Spec.sprintf, e, e1, e2, bytes_append, bytes_lit1]
  simp [Spec.fill]

theorem bytes_balance (F : Fmt) (b : Balance) : bytes (b.fields F) = Spec.sprintf "{%v %v}"
    [match b.asset with
      | none => bytes "<nil>"
      | some a => Spec.sprintf "%s: %s\n" [bytes a.name, bytes a.symbol], bytes (F.v b.amount)] := by
  have e : bytes "{%v %v}" = [123, 37, 118, 32, 37, 118, 125] := by decide +kernel
  have e1 : bytes "{" = [123] := by decide +kernel
  have e2 : bytes "}" = [125] := by decide +kernel
  have ea : ∀ a : Asset, bytes a.string = Spec.sprintf "%s: %s\n" [bytes a.name, bytes a.symbol] := by
    intro a; unfold Asset.string; spell; simp [Spec.fill]
  unfold Balance.fields
  cases b.asset with
  | none =>
    simp only [Spec.sprintf, e, e1, e2, bytes_append, bytes_lit1]
    simp [Spec.fill]
  | some a =>
    simp only [e1, e2, bytes_append, bytes_lit1, ea]
    generalize Spec.sprintf "%s: %s\n" _ = t
    simp only [Spec.sprintf, e]
    simp [Spec.fill]

/-- **C127** `Print` writes a heading, the asks from the last to the first, a line, and the bids from the
first to the last. -/
theorem C127_print (F : Fmt) (b : Book) : bytes (b.printed F) =
    bytes "======= OrderBook =======\n" ++
    b.asks.reverse.flatMap (fun r => Spec.sprintf "{%v %v %v}\n" [bytes (F.v r.price), bytes (F.v r.volume), bytes (F.v r.accum)]) ++
    bytes "-------------------------\n" ++
    b.bids.flatMap (fun r => Spec.sprintf "{%v %v %v}\n" [bytes (F.v r.price), bytes (F.v r.volume), bytes (F.v r.accum)]) := by
  have hf : ∀ (l : List String) (s : String), bytes (l.foldl (· ++ ·) s) = bytes s ++ l.flatMap bytes := by
    intro l
    induction l with
    | nil => intro s; simp
    | cons a l ih => intro s; rw [List.foldl_cons, ih, bytes_append, List.flatMap_cons, List.append_assoc]
  have hr : ∀ r : Row, bytes (PrintLine.text F (.row r)) =
      Spec.sprintf "{%v %v %v}\n" [bytes (F.v r.price), bytes (F.v r.volume), bytes (F.v r.accum)] := by
    intro r
    have e : bytes "{%v %v %v}" = [123, 37, 118, 32, 37, 118, 32, 37, 118, 125] := by decide +kernel
    have e2 : bytes "{%v %v %v}\n" = [123, 37, 118, 32, 37, 118, 32, 37, 118, 125, 10] := by decide +kernel
    show bytes (r.fields F ++ "\n") = _
    rw [bytes_append, bytes_row]
    simp only [Spec.sprintf, e, e2, show bytes "\n" = [10] by decide +kernel]
    simp [Spec.fill]
  have hm : ∀ l : List Row, (l.map PrintLine.row).flatMap (fun x => bytes (PrintLine.text F x)) =
      l.flatMap (fun r => Spec.sprintf "{%v %v %v}\n" [bytes (F.v r.price), bytes (F.v r.volume), bytes (F.v r.accum)]) := by
    intro l
    rw [List.flatMap_map]
    exact List.flatMap_congr fun r _ => hr r
  unfold Book.printed
  rw [hf, List.flatMap_map, show bytes "" = [] by decide +kernel, List.nil_append,
    show b.print = [.title] ++ b.asks.reverse.map .row ++ [.separator] ++ b.bids.map .row by
      unfold Book.print; rw [print_asks]]
  simp only [List.flatMap_append, List.flatMap_cons, List.flatMap_nil, List.append_nil, hm]
  rfl

set_option maxRecDepth 4000 in
/-- **C127** Each method prints its format with its fields, in order. -/
theorem C127_formats (F : Fmt) :
    (∀ a : Asset, bytes a.string = Spec.sprintf "%s: %s\n"
      [bytes a.name, bytes a.symbol]) ∧
    (∀ p : Pair, bytes p.string = Spec.sprintf "%s/%s\n"
      [bytes p.base.symbol, bytes p.quote.symbol]) ∧
    (∀ c : Candle, c.string F = .ok (Spec.sprintf "Time: %s | Open: %.4f | High: %.4f | Low: %.4f | Close: %.4f | Volume: %.4f\n"
      [bytes (F.unixTime c.time), bytes (F.f 4 c.opn), bytes (F.f 4 c.high), bytes (F.f 4 c.low), bytes (F.f 4 c.close), bytes (F.f 4 c.volume)])) ∧
    (∀ t : Ticker, t.string F = .ok (Spec.sprintf "Time: %d, Ask: %f, Bid: %f, Last: %f, Volume: %f, VWAP: %f\n"
      [bytes (F.d t.time), bytes (F.f 6 t.ask), bytes (F.f 6 t.bid), bytes (F.f 6 t.last), bytes (F.f 6 t.volume), bytes (F.f 6 t.vwap)])) ∧
    (∀ t : Trade, t.string F = .ok (Spec.sprintf "ID: %s Execution Time: %s Action: %s Type: %s Pair: %s Price: $%.2f Quantity: %.4f Fee: $%.2f Cost: $%.2f\n"
      [bytes t.id, bytes (F.time t.executionTime), bytes t.action, bytes t.orderType, bytes t.pair.fields, bytes (F.f 2 t.price), bytes (F.f 4 t.quantity), bytes (F.f 2 t.fee), bytes (F.f 2 t.cost)])) ∧
    (∀ b : BalanceSnapshot, b.string F = .ok (Spec.sprintf "Balance: %f, Equity: %f, Margin: %f, Free Margin: %f\n"
      [bytes (F.f 6 b.balance), bytes (F.f 6 b.equity), bytes (F.f 6 b.margin), bytes (F.f 6 b.freeMargin)])) ∧
    (∀ a : AssetsSnapshot, a.string F = .ok (Spec.sprintf "Time: %f, Assets: %v\n"
      [bytes (F.f 6 a.time), Spec.slice (a.assets.map fun b => Spec.sprintf "{%v %v}"
        [match b.asset with
          | none => bytes "<nil>"
          | some a => Spec.sprintf "%s: %s\n" [bytes a.name, bytes a.symbol], bytes (F.v b.amount)])])) ∧
    (∀ o : OrderRequest, o.string F = .ok (Spec.sprintf "Action: %s | Type: %s | Pair: %s | Quantity: %.4f | Price: $%.4f | Total: $%.4f\n"
      [bytes o.action, bytes o.type, bytes o.pair.string, bytes (F.f 4 o.quantity), bytes (F.f 4 o.price), bytes (F.f 4 o.total)])) ∧
    (∀ p : PositionCloseOrder, p.string F = .ok (Spec.sprintf "Price: %f, OrderID: %s\n"
      [bytes (F.f 6 p.price), bytes p.orderID])) ∧
    (∀ r : Row, r.string F = .ok (Spec.sprintf "Price: %.3f, Volume: %.3f, AccumVolume: %.3f\n"
      [bytes (F.f 3 r.price), bytes (F.f 3 r.volume), bytes (F.f 3 r.accum)])) ∧
    (∀ b : Book, b.string F = .ok (Spec.sprintf "Time: %v, Asks: %v, Bids: %v\n"
      [bytes (F.d b.time),
      Spec.slice (b.asks.map fun r => Spec.sprintf "{%v %v %v}" [bytes (F.v r.price), bytes (F.v r.volume), bytes (F.v r.accum)]),
      Spec.slice (b.bids.map fun r => Spec.sprintf "{%v %v %v}" [bytes (F.v r.price), bytes (F.v r.volume), bytes (F.v r.accum)])])) ∧
    (∀ a : Annotation, bytes (a.text F) = Spec.sprintf "ID: %s, Time: %d, Creation Time: %d, Price: %f, ExecutionID: %s, Label: %s, Tooltip: %s\n"
      [bytes a.id, bytes (F.d a.time), bytes (F.d a.creationTime), bytes (F.f 6 a.price), bytes a.executionID, bytes a.label, bytes a.tooltip]) ∧
    (∀ o : Order, o.string F = .ok (Spec.sprintf "ID: %s | Action: %s | Type: %s | Pair: %s | Price: %.4f | Volume: %.4f | ExecVolume: %.4f | Fee: $%.4f | Cost: $%.4f | Status: %s | OT: %s | CT: %s\n"
      [bytes o.id, bytes o.action, bytes o.type, bytes (((o.pair.map Pair.string).getD "")), bytes (F.f 4 o.price), bytes (F.f 4 o.volume), bytes (F.f 4 o.executedVolume), bytes (F.f 4 o.fee), bytes (F.f 4 o.cost), bytes o.status, bytes (F.time o.openTime), bytes (F.time o.closeTime)])) ∧
    (∀ w : WilliamFractal, w.string F = .ok (Spec.sprintf "%d %f %v\n"
      [bytes (F.d w.time), bytes (F.f 6 w.price), bytes (match w.ftype with | .up => "up" | .down => "down")])) ∧
    (∀ p : Position, 8 ≤ p.id.utf8ByteSize → p.string F = .ok (Spec.sprintf "ID: %s Type: %s Pair: %s Open: %t OpenPrice: %.2f ClosePrice: %.2f Quantity: %.4f Profit: %.2f OpenTime: %s CloseTime: %s # Trades: %d\n"
      [(bytes p.id).take 8, bytes p.type, bytes p.pair.string, bytes (F.bool p.opened), bytes (F.f 2 p.openPrice),
      bytes (F.f 2 p.closePrice), bytes (F.f 4 p.quantity), bytes (F.f 2 p.profit), bytes (F.time p.openTime),
      bytes (F.time p.closeTime), bytes (F.d p.trades.length)])) ∧
    (∀ (b : Balance) (a : Asset), b.asset = some a → b.string F = .ok (Spec.sprintf "Asset: %s, Amount: %f\n"
      [bytes a.string, bytes (F.f 6 b.amount)])) := by
  refine ⟨?_, ?_, ?_, ?_, ?_, ?_, ?_, ?_, ?_, ?_, ?_, ?_, ?_, ?_, ?_, ?_⟩
  · intro a; unfold Asset.string; spell; simp [Spec.fill]
  · intro p; unfold Pair.string; spell; simp [Spec.fill]
  · intro c; unfold Candle.string; spell; simp [Spec.fill]
  · intro t; unfold Ticker.string; spell; simp [Spec.fill]
  · intro t; unfold Trade.string; spell; simp [Spec.fill]
  · intro b; unfold BalanceSnapshot.string; spell; simp [Spec.fill]
  · intro a; unfold AssetsSnapshot.string
    simp only [bytes_append, bytes_bracketed, List.map_map, Function.comp_def, bytes_balance]
    generalize Spec.slice _ = l; spell; simp [Spec.fill]
  · intro o; unfold OrderRequest.string; spell; simp [Spec.fill]
  · intro p; unfold PositionCloseOrder.string; spell; simp [Spec.fill]
  · intro r; unfold Row.string; spell; simp [Spec.fill]
  · intro b; unfold Book.string
    simp only [bytes_append, bytes_bracketed, List.map_map, Function.comp_def, bytes_row]
    generalize Spec.slice _ = l; generalize Spec.slice _ = l'; spell; simp [Spec.fill]
  · intro a; unfold Annotation.text; spell; simp [Spec.fill]
  · intro o; unfold Order.string; cases o.pair <;> simp only [Option.map, Option.getD] <;> spell <;> simp [Spec.fill]
  · intro w; unfold WilliamFractal.string
    have e : bytes "%d %f %v\n" = [37, 100, 32, 37, 102, 32, 37, 118, 10] := by decide +kernel
    simp only [bytes_append, Spec.sprintf, e]
    cases w.ftype <;> spell <;> simp [Spec.fill]
  · intro p hp
    have hlen : (bytes p.id).length = p.id.utf8ByteSize := by simp [bytes]
    unfold Position.string; rw [if_neg (by omega)]; spell; simp [Spec.fill]
  · intro b a h; unfold Balance.string; rw [h]; spell; simp [Spec.fill]

example : Spec.sprintf "%s/%s\n" [bytes "BTC", bytes "USD"] = bytes "BTC/USD\n" ∧
    (⟨.fin 1, .fin 2, .fin 3⟩ : Row).string demoFmt =
      .ok (bytes "Price: 1.00, Volume: 1.00, AccumVolume: 1.00\n") := by decide +kernel

/-! ### C128 -/

/-- Line feeds in a text. -/
def Spec.feeds (t : List UInt8) : Nat := t.count 10

/-- The call returns a text that ends with a line feed and has `n` of them. -/
def Spec.Lines (n : Nat) (r : Res (List UInt8)) : Prop :=
  ∃ t, r = .ok t ∧ Spec.feeds t = n ∧ t.getLast? = some 10

/-- No line feed in a string. -/
def Spec.Flat (s : String) : Prop := Spec.feeds (bytes s) = 0

/-- Numbers, times and the like are written without line feeds. -/
structure Spec.FlatFmt (F : Fmt) : Prop where
  f : ∀ k x, Spec.Flat (F.f k x)
  v : ∀ x, Spec.Flat (F.v x)
  d : ∀ n, Spec.Flat (F.d n)
  time : ∀ n, Spec.Flat (F.time n)
  unixTime : ∀ n, Spec.Flat (F.unixTime n)
  bool : ∀ b, Spec.Flat (F.bool b)

/-- No line feed in the texts of an asset or pair. -/
def Spec.FlatAsset (a : Asset) : Prop :=
  Spec.Flat a.name ∧ Spec.Flat a.symbol ∧ Spec.Flat a.altSymbol
def Spec.FlatPair (p : Pair) : Prop := Spec.FlatAsset p.base ∧ Spec.FlatAsset p.quote

/-- Line feeds of a string. -/
def nl (s : String) : Nat := Spec.feeds (bytes s)

theorem nl_append (a b : String) : nl (a ++ b) = nl a + nl b := by
  simp [nl, Spec.feeds, bytes_append]

theorem last_append (a : String) : (bytes (a ++ "\n")).getLast? = some 10 := by
  rw [bytes_append, show bytes "\n" = [10] by decide +kernel]
  simp

open Spec
theorem nl_lit0 : nl "" = 0 := by decide +kernel
theorem nl_lit1 : nl " " = 0 := by decide +kernel
theorem nl_lit2 : nl " # Trades: " = 0 := by decide +kernel
theorem nl_lit3 : nl " Action: " = 0 := by decide +kernel
theorem nl_lit4 : nl " ClosePrice: " = 0 := by decide +kernel
theorem nl_lit5 : nl " CloseTime: " = 0 := by decide +kernel
theorem nl_lit6 : nl " Cost: $" = 0 := by decide +kernel
theorem nl_lit7 : nl " Execution Time: " = 0 := by decide +kernel
theorem nl_lit8 : nl " Fee: $" = 0 := by decide +kernel
theorem nl_lit9 : nl " Open: " = 0 := by decide +kernel
theorem nl_lit10 : nl " OpenPrice: " = 0 := by decide +kernel
theorem nl_lit11 : nl " OpenTime: " = 0 := by decide +kernel
theorem nl_lit12 : nl " Pair: " = 0 := by decide +kernel
theorem nl_lit13 : nl " Price: $" = 0 := by decide +kernel
theorem nl_lit14 : nl " Profit: " = 0 := by decide +kernel
theorem nl_lit15 : nl " Quantity: " = 0 := by decide +kernel
theorem nl_lit16 : nl " Type: " = 0 := by decide +kernel
theorem nl_lit17 : nl " | Action: " = 0 := by decide +kernel
theorem nl_lit18 : nl " | CT: " = 0 := by decide +kernel
theorem nl_lit19 : nl " | Close: " = 0 := by decide +kernel
theorem nl_lit20 : nl " | Cost: $" = 0 := by decide +kernel
theorem nl_lit21 : nl " | ExecVolume: " = 0 := by decide +kernel
theorem nl_lit22 : nl " | Fee: $" = 0 := by decide +kernel
theorem nl_lit23 : nl " | High: " = 0 := by decide +kernel
theorem nl_lit24 : nl " | Low: " = 0 := by decide +kernel
theorem nl_lit25 : nl " | OT: " = 0 := by decide +kernel
theorem nl_lit26 : nl " | Open: " = 0 := by decide +kernel
theorem nl_lit27 : nl " | Pair: " = 0 := by decide +kernel
theorem nl_lit28 : nl " | Price: " = 0 := by decide +kernel
theorem nl_lit29 : nl " | Price: $" = 0 := by decide +kernel
theorem nl_lit30 : nl " | Quantity: " = 0 := by decide +kernel
theorem nl_lit31 : nl " | Status: " = 0 := by decide +kernel
theorem nl_lit32 : nl " | Total: $" = 0 := by decide +kernel
theorem nl_lit33 : nl " | Type: " = 0 := by decide +kernel
theorem nl_lit34 : nl " | Volume: " = 0 := by decide +kernel
theorem nl_lit35 : nl ", AccumVolume: " = 0 := by decide +kernel
theorem nl_lit36 : nl ", Amount: " = 0 := by decide +kernel
theorem nl_lit37 : nl ", Ask: " = 0 := by decide +kernel
theorem nl_lit38 : nl ", Asks: " = 0 := by decide +kernel
theorem nl_lit39 : nl ", Assets: " = 0 := by decide +kernel
theorem nl_lit40 : nl ", Bid: " = 0 := by decide +kernel
theorem nl_lit41 : nl ", Bids: " = 0 := by decide +kernel
theorem nl_lit42 : nl ", Creation Time: " = 0 := by decide +kernel
theorem nl_lit43 : nl ", Equity: " = 0 := by decide +kernel
theorem nl_lit44 : nl ", ExecutionID: " = 0 := by decide +kernel
theorem nl_lit45 : nl ", Free Margin: " = 0 := by decide +kernel
theorem nl_lit46 : nl ", Label: " = 0 := by decide +kernel
theorem nl_lit47 : nl ", Last: " = 0 := by decide +kernel
theorem nl_lit48 : nl ", Margin: " = 0 := by decide +kernel
theorem nl_lit49 : nl ", OrderID: " = 0 := by decide +kernel
theorem nl_lit50 : nl ", Price: " = 0 := by decide +kernel
theorem nl_lit51 : nl ", Time: " = 0 := by decide +kernel
theorem nl_lit52 : nl ", Tooltip: " = 0 := by decide +kernel
theorem nl_lit53 : nl ", VWAP: " = 0 := by decide +kernel
theorem nl_lit54 : nl ", Volume: " = 0 := by decide +kernel
theorem nl_lit55 : nl "/" = 0 := by decide +kernel
theorem nl_lit56 : nl ": " = 0 := by decide +kernel
theorem nl_lit57 : nl "Action: " = 0 := by decide +kernel
theorem nl_lit58 : nl "Annotations:\n" = 1 := by decide +kernel
theorem nl_lit59 : nl "Asset: " = 0 := by decide +kernel
theorem nl_lit60 : nl "Balance: " = 0 := by decide +kernel
theorem nl_lit61 : nl "ID: " = 0 := by decide +kernel
theorem nl_lit62 : nl "Price: " = 0 := by decide +kernel
theorem nl_lit63 : nl "Time: " = 0 := by decide +kernel
theorem nl_lit64 : nl "\n" = 1 := by decide +kernel
theorem nl_lit65 : nl "down" = 0 := by decide +kernel
theorem nl_lit66 : nl "up" = 0 := by decide +kernel
theorem nl_lit67 : nl "{" = 0 := by decide +kernel
theorem nl_lit68 : nl "}" = 0 := by decide +kernel

/-- The full claim: orders, order requests, positions, balances and snapshots of assets print as one line. -/
def Spec.C128_claim : Prop := ∀ F : Fmt, FlatFmt F →
  (∀ o : Order, Flat o.id → Flat o.action → Flat o.type → Flat o.status → (∀ p, o.pair = some p → FlatPair p) →
    Lines 1 (o.string F)) ∧
  (∀ o : OrderRequest, Flat o.action → Flat o.type → FlatPair o.pair → Lines 1 (o.string F)) ∧
  (∀ p : Position, Flat p.id → 8 ≤ p.id.utf8ByteSize → Flat p.type → FlatPair p.pair → Lines 1 (p.string F)) ∧
  (∀ b : Balance, (∃ a, b.asset = some a ∧ FlatAsset a) → Lines 1 (b.string F)) ∧
  (∀ a : AssetsSnapshot, (∀ b ∈ a.assets, ∀ x, b.asset = some x → FlatAsset x) → Lines 1 (a.string F))

theorem lines_of {s : String} {n : Nat} (h : nl s = n) (hl : (bytes s).getLast? = some 10) :
    Lines n (.ok (bytes s)) := ⟨_, rfl, h, hl⟩

macro "count_feeds" : tactic => `(tactic| simp only [nl_append, nl_lit0, nl_lit1, nl_lit2, nl_lit3, nl_lit4, nl_lit5, nl_lit6, nl_lit7, nl_lit8, nl_lit9, nl_lit10, nl_lit11, nl_lit12, nl_lit13, nl_lit14, nl_lit15, nl_lit16, nl_lit17, nl_lit18, nl_lit19, nl_lit20, nl_lit21, nl_lit22, nl_lit23, nl_lit24, nl_lit25, nl_lit26, nl_lit27, nl_lit28, nl_lit29, nl_lit30, nl_lit31, nl_lit32, nl_lit33, nl_lit34, nl_lit35, nl_lit36, nl_lit37, nl_lit38, nl_lit39, nl_lit40, nl_lit41, nl_lit42, nl_lit43, nl_lit44, nl_lit45, nl_lit46, nl_lit47, nl_lit48, nl_lit49, nl_lit50, nl_lit51, nl_lit52, nl_lit53, nl_lit54, nl_lit55, nl_lit56, nl_lit57, nl_lit58, nl_lit59, nl_lit60, nl_lit61, nl_lit62, nl_lit63, nl_lit64, nl_lit65, nl_lit66, nl_lit67, nl_lit68, Nat.add_zero, Nat.zero_add])

theorem nl_bracketed (l : List String) : nl (bracketed l) = (l.map nl).sum := by
  have h : ∀ l : List String, nl (spaced l) = (l.map nl).sum := by
    intro l
    induction l with
    | nil => decide +kernel
    | cons a l ih =>
      cases l with
      | nil => simp [spaced]
      | cons b l =>
        rw [spaced, nl_append, nl_append, ih, nl_lit1]
        · simp
        · simp
  rw [bracketed, nl_append, nl_append, h, show nl "[" = 0 by decide +kernel, show nl "]" = 0 by decide +kernel]
  omega

/-- **C128, partial**: candles, tickers, trades, snapshots, close orders, rows, books and fractals
print as one line; orders, order requests, positions and balances break after the pair or the asset,
so they take two, and a snapshot of assets breaks after each asset that is not nil. Missing: one line for
the latter, which is false. -/
theorem C128_lines_partial (F : Fmt) (hF : FlatFmt F) :
    (∀ c : Candle, Lines 1 (c.string F)) ∧ (∀ t : Ticker, Lines 1 (t.string F)) ∧
    (∀ t : Trade, Flat t.id → Flat t.action → Flat t.orderType → FlatPair t.pair → Lines 1 (t.string F)) ∧
    (∀ b : BalanceSnapshot, Lines 1 (b.string F)) ∧
    (∀ a : AssetsSnapshot, (∀ b ∈ a.assets, ∀ x, b.asset = some x → FlatAsset x) →
      Lines (1 + a.assets.countP (·.asset.isSome)) (a.string F)) ∧
    (∀ c : PositionCloseOrder, Flat c.orderID → Lines 1 (c.string F)) ∧ (∀ r : Row, Lines 1 (r.string F)) ∧
    (∀ b : Book, Lines 1 (b.string F)) ∧ (∀ w : WilliamFractal, Lines 1 (w.string F)) ∧
    (∀ o : Order, Flat o.id → Flat o.action → Flat o.type → Flat o.status → (∀ p, o.pair = some p → FlatPair p) →
      Lines (if o.pair.isSome then 2 else 1) (o.string F)) ∧
    (∀ o : OrderRequest, Flat o.action → Flat o.type → FlatPair o.pair → Lines 2 (o.string F)) ∧
    (∀ p : Position, Flat p.id → 8 ≤ p.id.utf8ByteSize → Flat p.type → FlatPair p.pair → Lines 2 (p.string F)) ∧
    (∀ (b : Balance) (a : Asset), b.asset = some a → FlatAsset a → Lines 2 (b.string F)) := by
  have f : ∀ k x, nl (F.f k x) = 0 := hF.f
  have d : ∀ n, nl (F.d n) = 0 := hF.d
  have tm : ∀ n, nl (F.time n) = 0 := hF.time
  have ut : ∀ n, nl (F.unixTime n) = 0 := hF.unixTime
  have bo : ∀ n, nl (F.bool n) = 0 := hF.bool
  have v : ∀ x, nl (F.v x) = 0 := hF.v
  have ps : ∀ p : Pair, FlatPair p → nl p.string = 1 := by
    intro p hp
    have h1 : nl p.base.symbol = 0 := hp.1.2.1
    have h2 : nl p.quote.symbol = 0 := hp.2.2.1
    unfold Pair.string; count_feeds; rw [h1, h2]
  have as : ∀ a : Asset, FlatAsset a → nl a.string = 1 ∧ nl a.fields = 0 := by
    intro a ha
    have h1 : nl a.name = 0 := ha.1
    have h2 : nl a.symbol = 0 := ha.2.1
    have h3 : nl a.altSymbol = 0 := ha.2.2
    unfold Asset.string Asset.fields; count_feeds; rw [h1, h2, h3]; exact ⟨rfl, rfl⟩
  refine ⟨?_, ?_, ?_, ?_, ?_, ?_, ?_, ?_, ?_, ?_, ?_, ?_, ?_⟩
  · intro c; refine lines_of ?_ (last_append _); count_feeds; simp only [f, ut]
  · intro c; refine lines_of ?_ (last_append _); count_feeds; simp only [f, d]
  · intro t h1 h2 h3 h4
    have h1 : nl t.id = 0 := h1
    have h2 : nl t.action = 0 := h2
    have h3 : nl t.orderType = 0 := h3
    have h4 : nl t.pair.fields = 0 := by
      unfold Pair.fields; count_feeds; rw [(as _ h4.1).2, (as _ h4.2).2]
    refine lines_of ?_ (last_append _); count_feeds; simp only [f, tm, h1, h2, h3, h4]
  · intro c; refine lines_of ?_ (last_append _); count_feeds; simp only [f]
  · intro a ha; refine lines_of ?_ (last_append _); count_feeds
    rw [nl_bracketed, f, List.map_map]
    have h : ∀ l : List Balance, (∀ b ∈ l, ∀ x, b.asset = some x → FlatAsset x) →
        (l.map (nl ∘ Balance.fields F)).sum = l.countP (·.asset.isSome) := by
      intro l
      induction l with
      | nil => intro _; rfl
      | cons b l ih =>
        intro hl
        rw [List.map_cons, List.sum_cons, ih fun c hc => hl c (List.mem_cons_of_mem _ hc), List.countP_cons]
        simp only [Function.comp_apply, Balance.fields]
        count_feeds
        rw [v]
        cases hb : b.asset with
        | none => simp [show nl "<nil>" = 0 by decide +kernel]
        | some x => simp [(as x (hl b (List.mem_cons_self ..) x hb)).1]; omega
    rw [h _ ha]; omega
  · intro c h
    have h : nl c.orderID = 0 := h
    refine lines_of ?_ (last_append _); count_feeds; simp only [f, h]
  · intro c; refine lines_of ?_ (last_append _); count_feeds; simp only [f]
  · intro b; refine lines_of ?_ (last_append _); count_feeds
    have h : ∀ l : List Row, nl (bracketed (l.map (Row.fields F))) = 0 := by
      intro l
      rw [nl_bracketed, List.map_map]
      refine List.sum_eq_zero fun n hn => ?_
      obtain ⟨r, -, rfl⟩ := List.mem_map.1 hn
      simp only [Function.comp_apply, Row.fields]
      count_feeds; simp only [v, Nat.add_zero]
    simp only [d, h]
  · intro w; refine lines_of ?_ (last_append _); count_feeds
    cases w.ftype <;> simp only [f, d] <;> count_feeds
  · intro o h1 h2 h3 h4 h5
    have h1 : nl o.id = 0 := h1
    have h2 : nl o.action = 0 := h2
    have h3 : nl o.type = 0 := h3
    have h4 : nl o.status = 0 := h4
    refine lines_of ?_ (last_append _); count_feeds; simp only [f, tm, h1, h2, h3, h4]
    cases hp : o.pair with
    | none => simp only [Option.isSome_none]; count_feeds; rfl
    | some p => simp only [ps p (h5 p hp), Option.isSome_some]; rfl
  · intro o h1 h2 h3
    have h1 : nl o.action = 0 := h1
    have h2 : nl o.type = 0 := h2
    refine lines_of ?_ (last_append _); count_feeds; simp only [f, h1, h2, ps _ h3]
  · intro p h1 h8 h2 h3
    have h2 : nl p.type = 0 := h2
    have hlen : (bytes p.id).length = p.id.utf8ByteSize := by simp [bytes]
    unfold Position.string
    rw [if_neg (by omega)]
    refine ⟨_, rfl, ?_, ?_⟩
    · have hi : feeds ((bytes p.id).take 8) = 0 := by
        have := (List.take_sublist 8 (bytes p.id)).count_le (a := (10 : UInt8))
        have h1 : (bytes p.id).count 10 = 0 := h1
        unfold feeds; omega
      have hi0 : feeds (bytes "ID: ") = 0 := by decide +kernel
      have ha : ∀ a b, feeds (a ++ b) = feeds a + feeds b := by intro a b; simp [feeds]
      have hn : ∀ s, feeds (bytes s) = nl s := fun _ => rfl
      rw [ha, ha, hi, hi0, hn]
      count_feeds; simp only [f, d, tm, bo, h2, ps _ h3]
    · rw [bytes_append (_ ++ _) "\n", show bytes "\n" = [10] by decide +kernel]
      simp
  · intro b a h1 h2
    unfold Balance.string
    rw [h1]
    refine lines_of ?_ (last_append _); count_feeds; simp only [f, (as _ h2).1]

/-- A list of annotations prints as a heading and, for each annotation, a line and a blank line. -/
theorem C128_annotations_partial (F : Fmt) (hF : FlatFmt F) (l : List Annotation)
    (h : ∀ a ∈ l, Flat a.id ∧ Flat a.executionID ∧ Flat a.label ∧ Flat a.tooltip) :
    Lines (1 + 2 * l.length) (annotationsString F l) := by
  have f : ∀ k x, nl (F.f k x) = 0 := hF.f
  have d : ∀ n, nl (F.d n) = 0 := hF.d
  have key : ∀ (l : List Annotation) (s : String),
      (∀ a ∈ l, Flat a.id ∧ Flat a.executionID ∧ Flat a.label ∧ Flat a.tooltip) →
      (bytes s).getLast? = some 10 →
      nl (l.foldl (fun str v => str ++ (v.text F ++ "\n")) s) = nl s + 2 * l.length ∧
      (bytes (l.foldl (fun str v => str ++ (v.text F ++ "\n")) s)).getLast? = some 10 := by
    intro l
    induction l with
    | nil => intro s _ hs; exact ⟨rfl, hs⟩
    | cons a l ih =>
      intro s h hs
      rw [List.foldl_cons]
      obtain ⟨q1, q2, q3, q4⟩ := h a (by simp)
      have q1 : nl a.id = 0 := q1
      have q2 : nl a.executionID = 0 := q2
      have q3 : nl a.label = 0 := q3
      have q4 : nl a.tooltip = 0 := q4
      have hl : (bytes (s ++ (a.text F ++ "\n"))).getLast? = some 10 := by
        rw [bytes_append, bytes_append, show bytes "\n" = [10] by decide +kernel]
        simp
      obtain ⟨i1, i2⟩ := ih _ (fun b hb => h b (by simp [hb])) hl
      refine ⟨?_, i2⟩
      rw [i1]
      unfold Annotation.text
      count_feeds
      simp only [f, d, q1, q2, q3, q4, List.length_cons]
      omega
  obtain ⟨k1, k2⟩ := key l "Annotations:\n" h (by decide +kernel)
  refine lines_of ?_ k2
  rw [k1]; count_feeds

instance (s) : Decidable (Flat s) := by unfold Flat; infer_instance

theorem demoFmt_flat : FlatFmt demoFmt :=
  ⟨fun _ _ => show Flat "1.00" by decide +kernel, fun _ => show Flat "1" by decide +kernel,
    fun _ => show Flat "7" by decide +kernel, fun _ => show Flat "t" by decide +kernel,
    fun _ => show Flat "u" by decide +kernel, fun _ => show Flat "true" by decide +kernel⟩

/-- **C128 is false of the code**: a position breaks after its pair. -/
theorem C128_one_line_violated : ¬ C128_claim := by
  intro h
  obtain ⟨t, e, n, -⟩ := (h demoFmt demoFmt_flat).2.2.1
    (idPosition "c9k3s2b8f1j0d7h5g6a4") (by decide +kernel) (by decide +kernel) (by decide +kernel)
    ⟨⟨by decide +kernel, by decide +kernel, by decide +kernel⟩,
      ⟨by decide +kernel, by decide +kernel, by decide +kernel⟩⟩
  have e2 : (match (idPosition "c9k3s2b8f1j0d7h5g6a4").string demoFmt with
    | .ok t => feeds t | _ => 0) = 2 := by decide +kernel
  rw [e] at e2
  simp only at e2
  omega

example := C128_lines_partial demoFmt demoFmt_flat

/-- A snapshot of one asset takes two lines. -/
example : (⟨.fin 1, [⟨some ⟨"Bitcoin", "BTC", ""⟩, .fin 2⟩, ⟨none, .fin 3⟩]⟩ : AssetsSnapshot).string demoFmt =
    .ok (bytes "Time: 1.00, Assets: [{Bitcoin: BTC\n 1} {<nil> 1}]\n") := by decide +kernel

example : (⟨7, [⟨.fin 2, .fin 1, .fin 1⟩, ⟨.fin 3, .fin 1, .fin 1⟩], [⟨.fin 1, .fin 1, .fin 1⟩], 5⟩ : Book).printed demoFmt =
    "======= OrderBook =======\n{1 1 1}\n{1 1 1}\n-------------------------\n{1 1 1}\n" := by decide +kernel
example : Flat "BTC" ∧ ¬ Flat "BTC\n" ∧ Flat (demoFmt.f 4 (.fin 1)) := by decide +kernel

end Finmod
