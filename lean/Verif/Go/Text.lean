import Verif.Go.IEEE
import Verif.Go.Basic

/-!
# Numbers as text: `strconv.ParseInt`, `strconv.ParseFloat` and `fmt`'s `%v`

A Go string is a list of characters, each standing for one byte.
-/

namespace Go

/-- `10^e` as a rational, by natural-number powers so that the kernel computes it quickly. -/
def pow10 (e : ℤ) : ℚ :=
  match e with
  | Int.ofNat n => ((10 ^ n : ℕ) : ℚ)
  | Int.negSucc n => 1 / ((10 ^ (n + 1) : ℕ) : ℚ)

/-- An ASCII digit. -/
def digitC (c : Char) : Bool := decide (48 ≤ c.toNat ∧ c.toNat ≤ 57)

/-- `lower` of package strconv on the letters it is used for. -/
def lowerC (c : Char) : Char := if 65 ≤ c.toNat ∧ c.toNat ≤ 90 then Char.ofNat (c.toNat + 32) else c

/-! ## Integers -/

/-- `%v` of an integer. -/
def fmtInt (n : Int) : List Char :=
  if n < 0 then '-' :: Nat.toDigits 10 n.natAbs else Nat.toDigits 10 n.natAbs

/-- An optional sign and the rest. -/
def takeSign : List Char → Bool × List Char
  | '-' :: r => (true, r)
  | '+' :: r => (false, r)
  | r => (false, r)

/-- `strconv.ParseInt(s, 10, bits)`: `none` is a syntax or range error. -/
def parseInt (bits : Nat) (s : List Char) : Option Int :=
  let ds := (takeSign s).2
  if ds = [] ∨ ds.all digitC = false then none
  else
    let n := Nat.ofDigitChars 10 ds 0
    if (takeSign s).1 then (if n ≤ 2 ^ (bits - 1) then some (-(n : Int)) else none)
    else if n < 2 ^ (bits - 1) then some (n : Int) else none

/-! ## Printing floats -/

/-- The decimal chosen by the shortest formatting of a positive number: digits `N` and exponent
`e`, standing for `N * 10^e`. The first number of digits for which a neighbouring decimal reads
back as the same float; of two such neighbours the nearer one. No trailing zeros: the upper
neighbour `10^n` is written `1`. -/
def shortestFrom (S : FloatSem) (q : ℚ) (dp : ℤ) : Nat → Nat → Nat × ℤ
  | 0, _ => (0, 0)
  | fuel + 1, n =>
    let e := dp - n
    let lo := ⌊q / pow10 e⌋.toNat
    let hi := lo + 1
    let loOk := decide (S.rnd (lo * pow10 e) = .fin q)
    let hiOk := decide (S.rnd (hi * pow10 e) = .fin q)
    let up := if hi = 10 ^ n then (1, dp) else (hi, e)
    if loOk && hiOk then (if q / pow10 e - lo ≤ 1 / 2 then (lo, e) else up)
    else if loOk then (lo, e)
    else if hiOk then up
    else shortestFrom S q dp fuel (n + 1)

/-- The shortest decimal of a positive float64. -/
def shortest (S : FloatSem) (q : ℚ) : Nat × ℤ := shortestFrom S q (Int.log 10 q + 1) 2200 1

/-- The exponent of `%e`: a sign and at least two digits. -/
def fmtExp (e : ℤ) : List Char :=
  let ds := Nat.toDigits 10 e.natAbs
  (if e < 0 then '-' else '+') :: (if ds.length < 2 then '0' :: ds else ds)

/-- `%e` of the digits `ds` with the decimal point after the first `dp`. -/
def fmtE (ds : List Char) (dp : ℤ) : List Char :=
  match ds with
  | [] => []
  | [d] => d :: 'e' :: fmtExp (dp - 1)
  | d :: rest => d :: '.' :: (rest ++ 'e' :: fmtExp (dp - 1))

/-- `%f` of the digits `ds` with the decimal point after the first `dp`. -/
def fmtF (ds : List Char) (dp : ℤ) : List Char :=
  if ds.length ≤ dp then ds ++ List.replicate (dp - ds.length).toNat '0'
  else if 0 < dp then ds.take dp.toNat ++ '.' :: ds.drop dp.toNat
  else '0' :: '.' :: (List.replicate (-dp).toNat '0' ++ ds)

/-- `%g`: `%e` for exponents below -4 or from `eprec` on, `%f` otherwise. -/
def fmtG (eprec : ℤ) (ds : List Char) (dp : ℤ) : List Char :=
  if dp - 1 < -4 ∨ eprec ≤ dp - 1 then fmtE ds dp else fmtF ds dp

/-- `%v` of a float64. `pick` gives the digits (package strconv's shortest decimal), `eprec` is the
exponent from which `%e` is used. -/
def fmtFloat (pick : ℚ → Nat × ℤ) (eprec : ℤ) : Fl → List Char
  | .nan => ['N', 'a', 'N']
  | .inf false => ['+', 'I', 'n', 'f']
  | .inf true => ['-', 'I', 'n', 'f']
  | .negZero => ['-', '0']
  | .fin q =>
    if q = 0 then ['0']
    else
      let d := pick |q|
      let ds := Nat.toDigits 10 d.1
      let text := fmtG eprec ds (ds.length + d.2)
      if q < 0 then '-' :: text else text

/-! ## Reading floats -/

/-- The special names: "inf" and "infinity" with an optional sign, "nan", in any case. -/
def parseSpecial (s : List Char) : Option Fl :=
  let sg := takeSign s
  let low := sg.2.map lowerC
  if low = ['i', 'n', 'f'] ∨ low = ['i', 'n', 'f', 'i', 'n', 'i', 't', 'y'] then some (.inf sg.1)
  else if s.map lowerC = ['n', 'a', 'n'] then some .nan
  else none

/-- The mantissa of `readFloat`: digits, how many of them follow the point, and the rest. -/
def scanMant (isD : Char → Bool) : Bool → List Char → List Char × Nat × List Char
  | _, [] => ([], 0, [])
  | dot, c :: cs =>
    if c = '_' then scanMant isD dot cs
    else if c = '.' then (if dot then ([], 0, c :: cs) else scanMant isD true cs)
    else if isD c then
      let r := scanMant isD dot cs
      (c :: r.1, (if dot then r.2.1 + 1 else r.2.1), r.2.2)
    else ([], 0, c :: cs)

/-- The digits of an exponent; it stops growing at five digits. -/
def scanExp : Nat → List Char → Nat × List Char
  | e, [] => (e, [])
  | e, c :: cs =>
    if c = '_' then scanExp e cs
    else if digitC c then scanExp (if e < 10000 then e * 10 + (c.toNat - 48) else e) cs
    else (e, c :: cs)

/-- The exponent part of `readFloat`: its value and the rest; `none` is a syntax error. -/
def parseExp (hex : Bool) : List Char → Option (ℤ × List Char)
  | [] => if hex then none else some (0, [])
  | c :: cs =>
    if lowerC c = (if hex then 'p' else 'e') then
      match (takeSign cs).2 with
      | [] => none
      | d :: _ =>
        if digitC d then
          let r := scanExp 0 (takeSign cs).2
          some (if (takeSign cs).1 then -(r.1 : ℤ) else r.1, r.2)
        else none
    else if hex then none
    else some (0, c :: cs)

/-- `underscoreOK`: underscores only between digits (a base prefix counts as a digit). `prev` is the
kind of the previous character: digit '0', underscore '_', start '^' or other '!'. -/
def underscoreScan (hex : Bool) (prev : Char) : List Char → Bool
  | [] => prev != '_'
  | c :: cs =>
    if digitC c || (hex && decide (97 ≤ (lowerC c).toNat ∧ (lowerC c).toNat ≤ 102)) then underscoreScan hex '0' cs
    else if c = '_' then (if prev = '0' then underscoreScan hex '_' cs else false)
    else if prev = '_' then false
    else underscoreScan hex '!' cs

/-- `underscoreOK` of a signed number. -/
def underscoreOK (s : List Char) : Bool :=
  match (takeSign s).2 with
  | '0' :: c :: cs =>
    if lowerC c = 'b' ∨ lowerC c = 'o' ∨ lowerC c = 'x' then underscoreScan (lowerC c = 'x') '0' cs
    else underscoreScan false '^' ('0' :: c :: cs)
  | cs => underscoreScan false '^' cs

/-- The value of a hexadecimal digit. -/
def hexVal (c : Char) : Nat := if digitC c then c.toNat - 48 else (lowerC c).toNat - 87

/-- A hexadecimal digit. -/
def hexC (c : Char) : Bool := digitC c || decide (97 ≤ (lowerC c).toNat ∧ (lowerC c).toNat ≤ 102)

/-- The base prefix "0x". -/
def takeHex : List Char → Bool × List Char
  | '0' :: c :: cs => if lowerC c = 'x' then (true, cs) else (false, '0' :: c :: cs)
  | cs => (false, cs)

/-- Rounding the magnitude and putting the sign back; infinity is a range error. -/
def finish (S : FloatSem) (neg : Bool) (value : ℚ) : Option Fl :=
  if value = 0 then some (Fl.zero neg)
  else match S.rnd value with
    | .inf _ => none
    | x => some (if neg then Fl.neg x else x)

/-- `strconv.ParseFloat(s, 64)`: `none` is a syntax or range error. The decimal (or hexadecimal)
value is rounded once. -/
def parseFloat (S : FloatSem) (s : List Char) : Option Fl :=
  match parseSpecial s with
  | some x => some x
  | none =>
    let neg := (takeSign s).1
    let hex := (takeHex (takeSign s).2).1
    let m := scanMant (if hex then hexC else digitC) false (takeHex (takeSign s).2).2
    if m.1 = [] then none
    else
      match parseExp hex m.2.2 with
      | some (e, []) =>
        if s.contains '_' && !underscoreOK s then none
        else
          let value : ℚ :=
            if hex then ((m.1.foldl (fun n c => n * 16 + hexVal c) 0 : Nat) : ℚ) * pow2 (e - 4 * m.2.1)
            else ((Nat.ofDigitChars 10 m.1 0 : Nat) : ℚ) * pow10 (e - m.2.1)
          finish S neg value
      | _ => none

end Go
