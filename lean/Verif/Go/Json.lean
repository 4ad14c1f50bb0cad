import Verif.Go.Text

/-!
# `encoding/json`, as far as plain records need it

Texts are lists of characters (the decoded UTF-8; the model's strings are always valid UTF-8).
`J` is a JSON value with numbers kept as they are written. `J.emit` is the compact text of
`json.Marshal`, `J.parse` the reading of a text as in `json.Unmarshal`, and `Codec` what both do with
a Go type.
-/

namespace Go

/-- A JSON value. `plain` says that a string is written without any escape. -/
inductive J where
  | null
  | bool (b : Bool)
  | num (lit : List Char)
  | str (s : List Char) (plain : Bool)
  | arr (l : List J)
  | obj (l : List (List Char × J))

/-! ## Writing -/

/-- A hexadecimal digit. -/
def hexDigit (n : Nat) : Char := if n < 10 then Char.ofNat (48 + n) else Char.ofNat (87 + n)

/-- `\uXXXX`. -/
def escU (n : Nat) : List Char :=
  ['\\', 'u', hexDigit (n / 4096), hexDigit (n / 256 % 16), hexDigit (n / 16 % 16), hexDigit (n % 16)]

/-- One character inside a string, as `json.Marshal` writes it. `short`: Go from version 1.22 on has
short forms for backspace and form feed. -/
def escChar (short : Bool) (c : Char) : List Char :=
  if c = '"' ∨ c = '\\' then ['\\', c]
  else if c = '\n' then ['\\', 'n']
  else if c = '\r' then ['\\', 'r']
  else if c = '\t' then ['\\', 't']
  else if short ∧ c.toNat = 8 then ['\\', 'b']
  else if short ∧ c.toNat = 12 then ['\\', 'f']
  else if c.toNat < 32 ∨ c = '<' ∨ c = '>' ∨ c = '&' ∨ c.toNat = 8232 ∨ c.toNat = 8233 then escU c.toNat
  else [c]

/-- A string with its quotes. -/
def emitStr (short : Bool) (s : List Char) : List Char := '"' :: (s.flatMap (escChar short) ++ ['"'])

mutual
/-- The compact text of a value. -/
def J.emit (short : Bool) : J → List Char
  | .null => ['n', 'u', 'l', 'l']
  | .bool true => ['t', 'r', 'u', 'e']
  | .bool false => ['f', 'a', 'l', 's', 'e']
  | .num lit => lit
  | .str s _ => emitStr short s
  | .arr [] => ['[', ']']
  | .arr (v :: vs) => '[' :: (v.emit short ++ J.emitElems short vs)
  | .obj [] => ['{', '}']
  | .obj ((k, v) :: ms) => '{' :: (emitStr short k ++ ':' :: (v.emit short ++ J.emitMembers short ms))
/-- The elements after the first one, and the bracket. -/
def J.emitElems (short : Bool) : List J → List Char
  | [] => [']']
  | v :: vs => ',' :: (v.emit short ++ J.emitElems short vs)
/-- The members after the first one, and the brace. -/
def J.emitMembers (short : Bool) : List (List Char × J) → List Char
  | [] => ['}']
  | (k, v) :: ms => ',' :: (emitStr short k ++ ':' :: (v.emit short ++ J.emitMembers short ms))
end

/-! ## Reading -/

/-- White space between tokens. -/
def skipWs : List Char → List Char
  | c :: cs => if c = ' ' ∨ c = '\t' ∨ c = '\r' ∨ c = '\n' then skipWs cs else c :: cs
  | [] => []

/-- Four hexadecimal digits. -/
def hex4 (a b c d : Char) : Option Nat :=
  if hexC a && hexC b && hexC c && hexC d then
    some (((hexVal a * 16 + hexVal b) * 16 + hexVal c) * 16 + hexVal d)
  else none

/-- U+FFFD, written for a surrogate without partner. -/
def replacement : Char := Char.ofNat 0xFFFD

/-- A pending high surrogate that found no partner. -/
def lone (hi : Option Nat) (s : List Char) : List Char :=
  match hi with
  | none => s
  | some _ => replacement :: s

/-- The escapes of one character. -/
def unescape : Char → Option Char
  | '"' => some '"'
  | '\\' => some '\\'
  | '/' => some '/'
  | 'b' => some (Char.ofNat 8)
  | 'f' => some (Char.ofNat 12)
  | 'n' => some '\n'
  | 'r' => some '\r'
  | 't' => some '\t'
  | _ => none

/-- The inside of a string up to the closing quote: its characters and the rest of the text. `hi` is
a high surrogate just read as `\uXXXX`. -/
def scanStr : Option Nat → List Char → Option (List Char × List Char)
  | _, [] => none
  | hi, '\\' :: 'u' :: a :: b :: c :: d :: r =>
    match hex4 a b c d with
    | none => none
    | some n =>
      match hi with
      | some h =>
        if 0xDC00 ≤ n ∧ n < 0xE000 then
          (scanStr none r).map fun p => (Char.ofNat (0x10000 + (h - 0xD800) * 1024 + (n - 0xDC00)) :: p.1, p.2)
        else if 0xD800 ≤ n ∧ n < 0xDC00 then (scanStr (some n) r).map fun p => (replacement :: p.1, p.2)
        else (scanStr none r).map fun p => (replacement :: Char.ofNat n :: p.1, p.2)
      | none =>
        if 0xD800 ≤ n ∧ n < 0xDC00 then scanStr (some n) r
        else if 0xDC00 ≤ n ∧ n < 0xE000 then (scanStr none r).map fun p => (replacement :: p.1, p.2)
        else (scanStr none r).map fun p => (Char.ofNat n :: p.1, p.2)
  | hi, '\\' :: c :: r =>
    match unescape c with
    | none => none
    | some x => (scanStr none r).map fun p => (lone hi (x :: p.1), p.2)
  | hi, c :: r =>
    if c = '"' then some (lone hi [], r)
    else if c = '\\' ∨ c.toNat < 32 then none
    else (scanStr none r).map fun p => (lone hi (c :: p.1), p.2)

/-- No escape between the opening quote (before `r`) and the rest of the text. -/
def noEscape (r rest : List Char) : Bool := !(r.take (r.length - rest.length)).contains '\\'

/-- The digits at the front and the rest. -/
def spanDigits (s : List Char) : List Char × List Char := (s.takeWhile digitC, s.dropWhile digitC)

/-- The integer part of a number: a zero, or digits not beginning with one. -/
def scanInt : List Char → Option (List Char × List Char)
  | '0' :: r => some (['0'], r)
  | s => if (spanDigits s).1 = [] then none else some (spanDigits s)

/-- The fraction of a number, if any. -/
def scanFrac : List Char → Option (List Char × List Char)
  | '.' :: r => if (spanDigits r).1 = [] then none else some ('.' :: (spanDigits r).1, (spanDigits r).2)
  | s => some ([], s)

/-- A sign and digits. -/
def scanSigned (s : List Char) : Option (List Char × List Char) :=
  match s with
  | '+' :: r => if (spanDigits r).1 = [] then none else some ('+' :: (spanDigits r).1, (spanDigits r).2)
  | '-' :: r => if (spanDigits r).1 = [] then none else some ('-' :: (spanDigits r).1, (spanDigits r).2)
  | r => if (spanDigits r).1 = [] then none else some (spanDigits r)

/-- The exponent of a number, if any. -/
def scanExpo : List Char → Option (List Char × List Char)
  | 'e' :: r => (scanSigned r).map fun p => ('e' :: p.1, p.2)
  | 'E' :: r => (scanSigned r).map fun p => ('E' :: p.1, p.2)
  | s => some ([], s)

/-- A number without sign. -/
def scanUnsigned (s : List Char) : Option (List Char × List Char) :=
  (scanInt s).bind fun i => (scanFrac i.2).bind fun f => (scanExpo f.2).map fun e => (i.1 ++ f.1 ++ e.1, e.2)

/-- A number: its text and the rest. -/
def scanNum : List Char → Option (List Char × List Char)
  | '-' :: r => (scanUnsigned r).map fun p => ('-' :: p.1, p.2)
  | s => scanUnsigned s

mutual
/-- A value after optional white space, and the rest. `depth` is how many arrays and objects may
still be opened; the first argument bounds the recursion. -/
def J.scan : Nat → Nat → List Char → Option (J × List Char)
  | 0, _, _ => none
  | n + 1, depth, s =>
    match skipWs s with
    | [] => none
    | '"' :: r => (scanStr none r).map fun p => (.str p.1 (noEscape r p.2), p.2)
    | '[' :: r =>
      match depth with
      | 0 => none
      | depth + 1 =>
        match skipWs r with
        | ']' :: r' => some (.arr [], r')
        | r' => (J.scanElems n depth r').map fun p => (.arr p.1, p.2)
    | '{' :: r =>
      match depth with
      | 0 => none
      | depth + 1 =>
        match skipWs r with
        | '}' :: r' => some (.obj [], r')
        | r' => (J.scanMembers n depth r').map fun p => (.obj p.1, p.2)
    | 'n' :: 'u' :: 'l' :: 'l' :: r => some (.null, r)
    | 't' :: 'r' :: 'u' :: 'e' :: r => some (.bool true, r)
    | 'f' :: 'a' :: 'l' :: 's' :: 'e' :: r => some (.bool false, r)
    | c :: r => (scanNum (c :: r)).map fun p => (.num p.1, p.2)
/-- Elements up to the closing bracket. -/
def J.scanElems : Nat → Nat → List Char → Option (List J × List Char)
  | 0, _, _ => none
  | n + 1, depth, s =>
    match J.scan n depth s with
    | none => none
    | some (v, r) =>
      match skipWs r with
      | ']' :: r' => some ([v], r')
      | ',' :: r' => (J.scanElems n depth r').map fun p => (v :: p.1, p.2)
      | _ => none
/-- Members up to the closing brace. -/
def J.scanMembers : Nat → Nat → List Char → Option (List (List Char × J) × List Char)
  | 0, _, _ => none
  | n + 1, depth, s =>
    match skipWs s with
    | '"' :: r =>
      match scanStr none r with
      | none => none
      | some (k, r) =>
        match skipWs r with
        | ':' :: r =>
          match J.scan n depth r with
          | none => none
          | some (v, r) =>
            match skipWs r with
            | '}' :: r' => some ([(k, v)], r')
            | ',' :: r' => (J.scanMembers n depth r').map fun p => ((k, v) :: p.1, p.2)
            | _ => none
        | _ => none
    | _ => none
end

/-- A whole text: one value with nothing but white space around it. At most 10000 arrays and objects
may be open at a time. -/
def J.parse (s : List Char) : Option J :=
  match J.scan (2 * s.length + 2) 10000 s with
  | some (v, r) => if skipWs r = [] then some v else none
  | none => none

/-! ## Go types -/

/-- How reading a value ends: without error; with an `UnmarshalTypeError`, which is returned when
everything is read; or with an error of an `UnmarshalJSON` method, which is returned at once. -/
inductive JErr where
  | none
  | type
  | stop
deriving DecidableEq

/-- One part read after the other. -/
def JErr.or : JErr → JErr → JErr
  | .none, e => e
  | .type, .none => .type
  | .type, e => e
  | .stop, _ => .stop

/-- Reading the next part, unless reading has stopped. -/
def next {σ : Type} (st : σ × JErr) (f : σ → σ × JErr) : σ × JErr :=
  if st.2 = .stop then st else ((f st.1).1, st.2.or (f st.1).2)

/-- How `encoding/json` writes and reads a Go type. `enc` is `none` when `Marshal` returns an error.
`dec old j` is what a variable holding `old` holds after reading `j`, and how that ends. -/
structure Codec (α : Type) where
  zero : α
  enc : α → Option J
  dec : α → J → α × JErr

/-- The exponent in JSON: "e-09" is shortened to "e-9". -/
def jsonExp (e : ℤ) : List Char :=
  if e < 0 ∧ (Nat.toDigits 10 e.natAbs).length < 2 then '-' :: Nat.toDigits 10 e.natAbs else fmtExp e

/-- `%e` with the shortened exponent. -/
def jsonE (ds : List Char) (dp : ℤ) : List Char :=
  match ds with
  | [] => []
  | [d] => d :: 'e' :: jsonExp (dp - 1)
  | d :: rest => d :: '.' :: (rest ++ 'e' :: jsonExp (dp - 1))

/-- `float64` as JSON: `%f`, or `%e` below the float 1e-6 and from 1e21 on. Not-a-number and the
infinities are errors. -/
def jsonFloat (S : FloatSem) (pick : ℚ → Nat × ℤ) : Fl → Option (List Char)
  | .nan => none
  | .inf _ => none
  | .negZero => some ['-', '0']
  | .fin q =>
    if q = 0 then some ['0']
    else
      let d := pick |q|
      let ds := Nat.toDigits 10 d.1
      let dp : ℤ := ds.length + d.2
      let text :=
        if Fl.lt (.fin |q|) (S.rnd (1 / 10 ^ 6)) || Fl.le (S.rnd (10 ^ 21)) (.fin |q|) then jsonE ds dp
        else fmtF ds dp
      some (if q < 0 then '-' :: text else text)

/-- `float64`. -/
def Codec.float (S : FloatSem) (pick : ℚ → Nat × ℤ) : Codec Fl where
  zero := .fin 0
  enc x := (jsonFloat S pick x).map .num
  dec old
    | .null => (old, .none)
    | .num lit => match parseFloat S lit with
      | some x => (x, .none)
      | none => (old, .type)
    | _ => (old, .type)

/-- `int64`, `int`. -/
def Codec.int : Codec Int where
  zero := 0
  enc n := some (.num (fmtInt n))
  dec old
    | .null => (old, .none)
    | .num lit => match parseInt 64 lit with
      | some n => (n, .none)
      | none => (old, .type)
    | _ => (old, .type)

/-- The string is written as it is. -/
def asIs (s : List Char) : Bool := s.all fun c => !(escChar true c).contains '\\'

/-- `string` and types made from it. -/
def Codec.str : Codec String where
  zero := ""
  enc s := some (.str s.toList (asIs s.toList))
  dec old
    | .null => (old, .none)
    | .str s _ => (String.ofList s, .none)
    | _ => (old, .type)

/-- `bool`. -/
def Codec.bool : Codec Bool where
  zero := false
  enc b := some (.bool b)
  dec old
    | .null => (old, .none)
    | .bool b => (b, .none)
    | _ => (old, .type)

/-- `time.Time`, given how a time is written (`none`: `Marshal` returns an error, as for years beyond
9999) and read. `UnmarshalJSON` sees the characters of the text, escapes and all, so a string with an
escape is not a time. A string that is not a time makes the variable the zero time. For other values the
variable is kept by Go from version 1.20 on (`kept`) and made zero before. -/
def Codec.time (zero : Int) (kept : Bool) (write : Int → Option (List Char)) (read : List Char → Option Int) :
    Codec Int where
  zero := zero
  enc t := (write t).map fun s => .str s (asIs s)
  dec old
    | .null => (old, .none)
    | .str s true => match read s with
      | some t => (t, .none)
      | none => (zero, .stop)
    | .str _ false => (zero, .stop)
    | _ => (if kept then old else zero, .stop)

/-- A pointer; `none` is nil. -/
def Codec.ptr {α : Type} (c : Codec α) : Codec (Option α) where
  zero := none
  enc
    | none => some .null
    | some v => c.enc v
  dec old
    | .null => (none, .none)
    | j => ((some (c.dec (old.getD c.zero) j).1), (c.dec (old.getD c.zero) j).2)

/-- What an array element is read into: the old element at its index; beyond the old length, what the backing
array holds there (`stale`), and zero beyond the capacity. -/
def firstOf {α : Type} (old stale : List α) (zero : α) : α := old.headD (stale.headD zero)

/-- The elements of an array, read into the elements of a slice. When reading stops, the old elements behind
remain. -/
def decElems {α : Type} (c : Codec α) : List α → List α → List J → List α × JErr
  | _, _, [] => ([], .none)
  | old, stale, j :: js =>
    if (c.dec (firstOf old stale c.zero) j).2 = .stop then ((c.dec (firstOf old stale c.zero) j).1 :: old.tail, .stop)
    else ((c.dec (firstOf old stale c.zero) j).1 :: (decElems c old.tail (if old.isEmpty then stale.tail else stale) js).1,
      (c.dec (firstOf old stale c.zero) j).2.or (decElems c old.tail (if old.isEmpty then stale.tail else stale) js).2)

/-- A slice. The model does not tell a nil slice from an empty one; `isNil` says whether an empty list
is nil, which is written as null. `stale old` is what the backing array of a slice `old` holds behind it, up to its
capacity (elements of a longer slice it was cut from). -/
def Codec.slice {α : Type} (isNil : Bool) (stale : List α → List α) (c : Codec α) : Codec (List α) where
  zero := []
  enc l := if isNil && l.isEmpty then some .null else (l.mapM c.enc).map .arr
  dec old
    | .null => ([], .none)
    | .arr l => decElems c old (stale old) l
    | _ => (old, .type)

/-- A field of a struct `ρ` with its JSON name. -/
structure JField (ρ : Type) where
  name : String
  enc : ρ → Option J
  dec : ρ → J → ρ × JErr
  /-- Copying the field from the first record to the second. -/
  put : ρ → ρ → ρ

/-- A field given by its type, and how it is got and set. -/
def Codec.field {α ρ : Type} (c : Codec α) (name : String) (get : ρ → α) (set : ρ → α → ρ) : JField ρ where
  name := name
  enc r := c.enc (get r)
  dec r j := (set r (c.dec (get r) j).1, (c.dec (get r) j).2)
  put r s := set s (get r)

/-- Lower case, with the two letters outside ASCII that fold to ASCII letters. -/
def foldC (c : Char) : Char :=
  if c.toNat = 0x212A then 'k' else if c.toNat = 0x17F then 's' else lowerC c

/-- The fields `encoding/json` sees: two fields of the same name hide each other. -/
def visible {ρ : Type} (fs : List (JField ρ)) : List (JField ρ) :=
  fs.filter fun f => (fs.map (·.name)).count f.name == 1

/-- The field for a key: the one with this name, or else the first one with this name up to case. -/
def findField {ρ : Type} (fs : List (JField ρ)) (k : List Char) : Option (JField ρ) :=
  match fs.find? fun f => f.name.toList == k with
  | some f => some f
  | none => fs.find? fun f => f.name.toList.map foldC == k.map foldC

/-- Reading one member: unknown keys are skipped. -/
def decMember {ρ : Type} (fs : List (JField ρ)) (st : ρ × JErr) (m : List Char × J) : ρ × JErr :=
  match findField fs m.1 with
  | none => st
  | some f => next st fun r => f.dec r m.2

/-- A struct. -/
def Codec.struct {ρ : Type} (zero : ρ) (fs : List (JField ρ)) : Codec ρ where
  zero := zero
  enc r := ((visible fs).mapM fun (f : JField ρ) => (f.enc r).map fun j => (f.name.toList, j)).map .obj
  dec old
    | .null => (old, .none)
    | .obj ms => ms.foldl (decMember (visible fs)) (old, .none)
    | _ => (old, .type)

/-- `json.Marshal`: `none` is an error. -/
def Codec.marshal {α : Type} (c : Codec α) (short : Bool) (v : α) : Option (List Char) :=
  (c.enc v).map (J.emit short)

/-- `json.Unmarshal` into a variable holding `old`: what it holds afterwards, and whether an error is
returned. A text that is not JSON changes nothing. -/
def Codec.unmarshal {α : Type} (c : Codec α) (old : α) (s : List Char) : α × Bool :=
  match J.parse s with
  | none => (old, true)
  | some j => ((c.dec old j).1, decide ((c.dec old j).2 ≠ .none))

end Go
