import Verif.Go.Text
import Verif.Model.Candle

/-!
# What saved and loaded candle files mean
-/

namespace Finmod.Spec
open Go

/-- A value the Go type `Candle` can hold: five float64 and an int64. -/
def GoCandle (S : FloatSem) (c : Candle) : Prop :=
  S.Rep c.opn ∧ S.Rep c.high ∧ S.Rep c.low ∧ S.Rep c.close ∧ S.Rep c.volume ∧
  -2 ^ 63 ≤ c.time ∧ c.time < 2 ^ 63

/-- A time that fits in 32 bits. -/
def Time32 (c : Candle) : Prop := -2 ^ 31 ≤ c.time ∧ c.time < 2 ^ 31

/-- The lines of a text: pieces between newlines, an empty last piece not counting. -/
def lines (s : List Char) : List (List Char) :=
  if (s.splitOn '\n').getLast? = some [] then (s.splitOn '\n').dropLast else s.splitOn '\n'

/-- A line without its carriage return. -/
def trimmed (l : List Char) : List Char := if l.getLast? = some '\r' then l.dropLast else l

/-- The words between the first and the last character of a line. -/
def fields (text : List Char) : List (List Char) := ((text.drop 1).dropLast).splitOn ' '

/-- A line that spells a candle: a time and five numbers in its first six words. -/
def Spells (S : FloatSem) (text : List Char) (c : Candle) : Prop :=
  2 ≤ text.length ∧ ∃ t o h l k v, [t, o, h, l, k, v] <+: fields text ∧
    parseInt 32 t = some c.time ∧ parseFloat S o = some c.opn ∧ parseFloat S h = some c.high ∧
    parseFloat S l = some c.low ∧ parseFloat S k = some c.close ∧ parseFloat S v = some c.volume

/-- A line with too little on it: no room for the braces, or fewer than six words, all readable. -/
def TooFew (S : FloatSem) (text : List Char) : Prop :=
  text.length < 2 ∨ ((fields text).length < 6 ∧
    (∀ s, (fields text)[0]? = some s → parseInt 32 s ≠ none) ∧
    ∀ (j : Nat) (s : List Char), 1 ≤ j → (fields text)[j]? = some s → parseFloat S s ≠ none)

end Finmod.Spec
