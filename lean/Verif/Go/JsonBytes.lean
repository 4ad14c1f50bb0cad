import Verif.Go.Json

/-!
# `encoding/json` on bytes

The texts `Verif/Go/Json.lean` writes and reads are characters. Here they are bytes, as in Go, and so are Go strings,
which need not be valid UTF-8. A byte is written as the character with its number, U+0000 to U+00FF (`raw`); white
space, numbers and the structure of a text are read byte by byte by the functions of `Json.lean`, since all their
characters are ASCII. What is new is how strings are read and written: the library decodes the bytes of a string with
`utf8.DecodeRune`, which gives U+FFFD with width 1 for a byte that begins no valid encoding.

Written from the library's source (unicode/utf8 `DecodeRune`, encoding/json `appendString` and `unquote`).
-/

namespace Go

/-- The bytes of a text, each as the character with its number. -/
def raw (bs : List UInt8) : List Char := bs.map fun b => Char.ofNat b.toNat

/-- A continuation byte. -/
def contC (c : Char) : Bool := decide (0x80 ≤ c.toNat) && decide (c.toNat ≤ 0xBF)

/-- The second byte allowed after this first byte (`acceptRanges` of the library): no overlong forms (after E0 and F0),
no surrogates (after ED), nothing above U+10FFFF (after F4). -/
def secondC (x : Nat) (c : Char) : Bool :=
  decide ((if x = 0xE0 then 0xA0 else if x = 0xF0 then 0x90 else 0x80) ≤ c.toNat) &&
  decide (c.toNat ≤ (if x = 0xED then 0x9F else if x = 0xF4 then 0x8F else 0xBF))

/-- `utf8.DecodeRune`: the first character and how many bytes it takes; U+FFFD and 1 where the bytes begin no valid
encoding, U+FFFD and 0 at the end. -/
def decodeRune : List Char → Char × Nat
  | [] => (replacement, 0)
  | a :: r =>
    if a.toNat < 0x80 then (a, 1)
    else if a.toNat < 0xC2 then (replacement, 1)
    else if a.toNat < 0xE0 then
      match r with
      | b :: _ =>
        if contC b then (Char.ofNat ((a.toNat - 0xC0) * 64 + (b.toNat - 0x80)), 2) else (replacement, 1)
      | _ => (replacement, 1)
    else if a.toNat < 0xF0 then
      match r with
      | b :: c :: _ =>
        if secondC a.toNat b && contC c then
          (Char.ofNat ((a.toNat - 0xE0) * 4096 + (b.toNat - 0x80) * 64 + (c.toNat - 0x80)), 3)
        else (replacement, 1)
      | _ => (replacement, 1)
    else if a.toNat < 0xF5 then
      match r with
      | b :: c :: d :: _ =>
        if secondC a.toNat b && contC c && contC d then
          (Char.ofNat ((a.toNat - 0xF0) * 262144 + (b.toNat - 0x80) * 4096 + (c.toNat - 0x80) * 64 + (d.toNat - 0x80)), 4)
        else (replacement, 1)
      | _ => (replacement, 1)
    else (replacement, 1)

/-- The characters of a Go string, as a loop over it gives them; the first argument bounds the recursion. -/
def runesN : Nat → List Char → List Char
  | 0, _ => []
  | _ + 1, [] => []
  | n + 1, a :: r => (decodeRune (a :: r)).1 :: runesN n ((a :: r).drop (decodeRune (a :: r)).2)

/-- The characters of a Go string. -/
def runes (s : List Char) : List Char := runesN s.length s

/-- The inside of a string as `json.Marshal` writes it (`appendString`): ASCII as `escChar`; a byte that begins no
valid encoding as the escape of U+FFFD; U+2028 and U+2029 as escapes; the bytes of other characters as they are. -/
def quoteN (short : Bool) : Nat → List Char → List Char
  | 0, _ => []
  | _ + 1, [] => []
  | n + 1, a :: r =>
    if a.toNat < 0x80 then escChar short a ++ quoteN short n r
    else
      let d := decodeRune (a :: r)
      if d.1 = replacement ∧ d.2 = 1 then escU 0xFFFD ++ quoteN short n r
      else if d.1.toNat = 8232 ∨ d.1.toNat = 8233 then escU d.1.toNat ++ quoteN short n ((a :: r).drop d.2)
      else (a :: r).take d.2 ++ quoteN short n ((a :: r).drop d.2)

/-- A Go string with its quotes. -/
def quote (short : Bool) (s : List Char) : List Char := '"' :: (quoteN short s.length s ++ ['"'])

/-- `json.Marshal` of a string: the bytes of the text. -/
def quoteBytes (short : Bool) (bs : List UInt8) : List UInt8 :=
  (quote short (raw bs)).map fun c => UInt8.ofNat c.toNat

mutual
/-- The compact text of a value whose strings are Go strings: bytes, each as the character with its number. -/
def J.emitB (short : Bool) : J → List Char
  | .null => ['n', 'u', 'l', 'l']
  | .bool true => ['t', 'r', 'u', 'e']
  | .bool false => ['f', 'a', 'l', 's', 'e']
  | .num lit => lit
  | .str s _ => quote short s
  | .arr [] => ['[', ']']
  | .arr (v :: vs) => '[' :: (v.emitB short ++ J.emitElemsB short vs)
  | .obj [] => ['{', '}']
  | .obj ((k, v) :: ms) => '{' :: (quote short k ++ ':' :: (v.emitB short ++ J.emitMembersB short ms))
/-- The elements after the first one, and the bracket. -/
def J.emitElemsB (short : Bool) : List J → List Char
  | [] => [']']
  | v :: vs => ',' :: (v.emitB short ++ J.emitElemsB short vs)
/-- The members after the first one, and the brace. -/
def J.emitMembersB (short : Bool) : List (List Char × J) → List Char
  | [] => ['}']
  | (k, v) :: ms => ',' :: (quote short k ++ ':' :: (v.emitB short ++ J.emitMembersB short ms))
end

/-- `json.Marshal` of a value whose strings hold bytes, each as the character with its number; the bytes of the text. -/
def Codec.marshalB {α : Type} (c : Codec α) (short : Bool) (v : α) : Option (List UInt8) :=
  (c.enc v).map fun j => (j.emitB short).map fun c => UInt8.ofNat c.toNat

/-- The inside of a string up to the closing quote, from bytes (`unquote`): as `scanStr`, with the characters that
`DecodeRune` gives for bytes outside ASCII. The first argument bounds the recursion. -/
def unquote : Nat → Option Nat → List Char → Option (List Char × List Char)
  | 0, _, _ => none
  | _ + 1, _, [] => none
  | m + 1, hi, '\\' :: 'u' :: a :: b :: c :: d :: r =>
    match hex4 a b c d with
    | none => none
    | some n =>
      match hi with
      | some h =>
        if 0xDC00 ≤ n ∧ n < 0xE000 then
          (unquote m none r).map fun p => (Char.ofNat (0x10000 + (h - 0xD800) * 1024 + (n - 0xDC00)) :: p.1, p.2)
        else if 0xD800 ≤ n ∧ n < 0xDC00 then (unquote m (some n) r).map fun p => (replacement :: p.1, p.2)
        else (unquote m none r).map fun p => (replacement :: Char.ofNat n :: p.1, p.2)
      | none =>
        if 0xD800 ≤ n ∧ n < 0xDC00 then unquote m (some n) r
        else if 0xDC00 ≤ n ∧ n < 0xE000 then (unquote m none r).map fun p => (replacement :: p.1, p.2)
        else (unquote m none r).map fun p => (Char.ofNat n :: p.1, p.2)
  | m + 1, hi, '\\' :: c :: r =>
    match unescape c with
    | none => none
    | some x => (unquote m none r).map fun p => (lone hi (x :: p.1), p.2)
  | m + 1, hi, c :: r =>
    if c = '"' then some (lone hi [], r)
    else if c = '\\' ∨ c.toNat < 32 then none
    else if c.toNat < 0x80 then (unquote m none r).map fun p => (lone hi (c :: p.1), p.2)
    else (unquote m none ((c :: r).drop (decodeRune (c :: r)).2)).map fun p =>
      (lone hi ((decodeRune (c :: r)).1 :: p.1), p.2)

/-- A string from bytes. -/
def scanStrB (r : List Char) : Option (List Char × List Char) := unquote (r.length + 1) none r

mutual
/-- `J.scan` on bytes. -/
def J.scanB : Nat → Nat → List Char → Option (J × List Char)
  | 0, _, _ => none
  | n + 1, depth, s =>
    match skipWs s with
    | [] => none
    | '"' :: r => (scanStrB r).map fun p => (.str p.1 (noEscape r p.2), p.2)
    | '[' :: r =>
      match depth with
      | 0 => none
      | depth + 1 =>
        match skipWs r with
        | ']' :: r' => some (.arr [], r')
        | r' => (J.scanElemsB n depth r').map fun p => (.arr p.1, p.2)
    | '{' :: r =>
      match depth with
      | 0 => none
      | depth + 1 =>
        match skipWs r with
        | '}' :: r' => some (.obj [], r')
        | r' => (J.scanMembersB n depth r').map fun p => (.obj p.1, p.2)
    | 'n' :: 'u' :: 'l' :: 'l' :: r => some (.null, r)
    | 't' :: 'r' :: 'u' :: 'e' :: r => some (.bool true, r)
    | 'f' :: 'a' :: 'l' :: 's' :: 'e' :: r => some (.bool false, r)
    | c :: r => (scanNum (c :: r)).map fun p => (.num p.1, p.2)
/-- `J.scanElems` on bytes. -/
def J.scanElemsB : Nat → Nat → List Char → Option (List J × List Char)
  | 0, _, _ => none
  | n + 1, depth, s =>
    match J.scanB n depth s with
    | none => none
    | some (v, r) =>
      match skipWs r with
      | ']' :: r' => some ([v], r')
      | ',' :: r' => (J.scanElemsB n depth r').map fun p => (v :: p.1, p.2)
      | _ => none
/-- `J.scanMembers` on bytes. -/
def J.scanMembersB : Nat → Nat → List Char → Option (List (List Char × J) × List Char)
  | 0, _, _ => none
  | n + 1, depth, s =>
    match skipWs s with
    | '"' :: r =>
      match scanStrB r with
      | none => none
      | some (k, r) =>
        match skipWs r with
        | ':' :: r =>
          match J.scanB n depth r with
          | none => none
          | some (v, r) =>
            match skipWs r with
            | '}' :: r' => some ([(k, v)], r')
            | ',' :: r' => (J.scanMembersB n depth r').map fun p => ((k, v) :: p.1, p.2)
            | _ => none
        | _ => none
    | _ => none
end

/-- A whole text, from bytes. -/
def J.parseB (bs : List UInt8) : Option J :=
  match J.scanB (2 * bs.length + 2) 10000 (raw bs) with
  | some (v, r) => if skipWs r = [] then some v else none
  | none => none

/-- `json.Unmarshal` of bytes. -/
def Codec.unmarshalB {α : Type} (c : Codec α) (old : α) (bs : List UInt8) : α × Bool :=
  match J.parseB bs with
  | none => (old, true)
  | some j => ((c.dec old j).1, decide ((c.dec old j).2 ≠ .none))

end Go
