import Mathlib.Data.Rat.Floor
import Mathlib.Order.WithBot
import Mathlib.Tactic.Linarith
import Mathlib.Tactic.Ring

/-!
# Go `float64` / `float32` values and arithmetic

A float value is NaN, an infinity, a finite number (its exact rational value) or negative zero.
Arithmetic is parameterised by a `FloatSem`: the exact rational result of every operation is
passed through `rnd` (float64) or `rnd32` (conversion to float32).  NaN, infinities and signed
zeros follow IEEE-754 as required by the Go specification.  Simplifications: there is one NaN
(payloads are not observable through the modelled API) and no fused multiply-add
(see `Go/Fused.lean` for that).
-/

namespace Go

/-- A Go floating point value. `fin q` is a finite value, `fin 0` is `+0`. -/
inductive Fl where
  | nan
  | inf (neg : Bool)
  | fin (q : ℚ)
  | negZero
deriving DecidableEq, Repr

/-- Extended rationals, the values compared by `<`, `<=`, `==`. -/
abbrev Ext := WithBot (WithTop ℚ)

/-- Embedding of rationals. -/
def Ext.ofRat (q : ℚ) : Ext := ((q : WithTop ℚ) : WithBot (WithTop ℚ))

namespace Ext
@[simp] theorem ofRat_le {a b : ℚ} : ofRat a ≤ ofRat b ↔ a ≤ b := by simp [ofRat]
@[simp] theorem ofRat_lt {a b : ℚ} : ofRat a < ofRat b ↔ a < b := by simp [ofRat]
@[simp] theorem ofRat_inj {a b : ℚ} : ofRat a = ofRat b ↔ a = b := by simp [ofRat]
@[simp] theorem bot_lt_ofRat {a : ℚ} : (⊥ : Ext) < ofRat a := WithBot.bot_lt_coe _
@[simp] theorem ofRat_lt_top {a : ℚ} : ofRat a < (⊤ : Ext) := by
  exact WithBot.coe_lt_coe.2 (WithTop.coe_lt_top a)
@[simp] theorem ofRat_ne_bot {a : ℚ} : ofRat a ≠ (⊥ : Ext) := ne_of_gt bot_lt_ofRat
@[simp] theorem ofRat_ne_top {a : ℚ} : ofRat a ≠ (⊤ : Ext) := ne_of_lt ofRat_lt_top
@[simp] theorem bot_ne_ofRat {a : ℚ} : (⊥ : Ext) ≠ ofRat a := ne_of_lt bot_lt_ofRat
@[simp] theorem top_ne_ofRat {a : ℚ} : (⊤ : Ext) ≠ ofRat a := ne_of_gt ofRat_lt_top
end Ext

/-- What the platform does: rounding to float64, rounding to float32, and the result of
converting an out-of-range float to an integer (implementation-defined in Go). -/
structure FloatSem where
  rnd : ℚ → Fl
  rnd32 : ℚ → Fl
  oor : Fl → Int

namespace Fl

/-- Position of a value on the extended line (junk for NaN). -/
def key : Fl → Ext
  | nan => ⊥
  | inf true => ⊥
  | inf false => ⊤
  | fin q => Ext.ofRat q
  | negZero => Ext.ofRat 0

def isNaN : Fl → Bool
  | nan => true
  | _ => false

def isFinite : Fl → Bool
  | fin _ => true
  | negZero => true
  | _ => false

/-- Rational value of a finite float (0 for the others). -/
def toRat : Fl → ℚ
  | fin q => q
  | _ => 0

/-- Sign bit. -/
def sgn : Fl → Bool
  | nan => false
  | inf b => b
  | fin q => decide (q < 0)
  | negZero => true

/-- Go `x < y`. -/
def lt (x y : Fl) : Bool := !x.isNaN && !y.isNaN && decide (x.key < y.key)
/-- Go `x <= y`. -/
def le (x y : Fl) : Bool := !x.isNaN && !y.isNaN && decide (x.key ≤ y.key)
/-- Go `x == y` (so `-0 == 0` and `NaN != NaN`). -/
def eq (x y : Fl) : Bool := !x.isNaN && !y.isNaN && decide (x.key = y.key)
/-- Go `x != y`. -/
def ne (x y : Fl) : Bool := !(eq x y)
/-- Go `x > y`. -/
@[reducible] def gt (x y : Fl) : Bool := lt y x
/-- Go `x >= y`. -/
@[reducible] def ge (x y : Fl) : Bool := le y x

/-- A signed zero. -/
def zero (neg : Bool) : Fl := if neg then negZero else fin 0

/-- Go unary minus. -/
def neg : Fl → Fl
  | nan => nan
  | inf b => inf (!b)
  | fin q => if q = 0 then negZero else fin (-q)
  | negZero => fin 0

/-- `math.Abs`. -/
def abs : Fl → Fl
  | nan => nan
  | inf _ => inf false
  | fin q => fin |q|
  | negZero => fin 0

/-- Is a zero of either sign. -/
def isZero : Fl → Bool
  | fin q => decide (q = 0)
  | negZero => true
  | _ => false

end Fl

namespace FloatSem
open Fl
variable (S : FloatSem)

/-- Go float addition. -/
def add (x y : Fl) : Fl :=
  match x, y with
  | nan, _ => nan
  | _, nan => nan
  | inf a, inf b => if a = b then inf a else nan
  | inf a, _ => inf a
  | _, inf b => inf b
  | negZero, negZero => negZero
  | x, y => S.rnd (x.toRat + y.toRat)

/-- Go float subtraction. -/
def sub (x y : Fl) : Fl := S.add x (neg y)

/-- Go float multiplication. -/
def mul (x y : Fl) : Fl :=
  match x, y with
  | nan, _ => nan
  | _, nan => nan
  | inf a, inf b => inf (xor a b)
  | inf a, y => if y.isZero then nan else inf (xor a y.sgn)
  | x, inf b => if x.isZero then nan else inf (xor x.sgn b)
  | x, y =>
    if x.toRat * y.toRat = 0 then zero (xor x.sgn y.sgn) else S.rnd (x.toRat * y.toRat)

/-- Go float division. -/
def div (x y : Fl) : Fl :=
  match x, y with
  | nan, _ => nan
  | _, nan => nan
  | inf _, inf _ => nan
  | inf a, y => inf (xor a y.sgn)
  | x, inf b => zero (xor x.sgn b)
  | x, y =>
    if y.isZero then (if x.isZero then nan else inf (xor x.sgn y.sgn))
    else if x.isZero then zero (xor x.sgn y.sgn)
    else S.rnd (x.toRat / y.toRat)

/-- Go `float64(n)` for an integer `n`. -/
def ofInt (n : Int) : Fl := S.rnd (n : ℚ)

/-- A floating point constant of the source text. -/
def const (q : ℚ) : Fl := S.rnd q

/-- Go `float32(x)`. -/
def to32 : Fl → Fl
  | fin q => if q = 0 then fin 0 else S.rnd32 q
  | x => x

/-- Go `int(x)`: truncation toward zero; values outside int64 (and NaN) are
implementation-defined. -/
def toInt (x : Fl) : Int :=
  match x with
  | fin q =>
    let t := if q < 0 then ⌈q⌉ else ⌊q⌋
    if -2^63 ≤ t ∧ t < 2^63 then t else S.oor x
  | negZero => 0
  | _ => S.oor x

/-- The value is one the format can hold. -/
def Rep (x : Fl) : Prop := ∀ q, x = fin q → S.rnd q = fin q

/-- Exact arithmetic: no rounding. -/
def exact : FloatSem where
  rnd := fin
  rnd32 := fin
  oor := fun _ => -2^63

end FloatSem

/-- The laws of a correctly rounding format that the theorems use. `N` bounds the integers
represented exactly. -/
structure LawfulRnd (rnd : ℚ → Fl) (N : ℤ) : Prop where
  mono : ∀ q r, q ≤ r → (rnd q).key ≤ (rnd r).key
  not_nan : ∀ q, rnd q ≠ Fl.nan
  int : ∀ n : ℤ, |n| ≤ N → rnd n = Fl.fin n
  idem : ∀ q r, rnd q = Fl.fin r → rnd r = Fl.fin r
  odd : ∀ q, q ≠ 0 → rnd (-q) = Fl.neg (rnd q)
  pos : ∀ q, 0 < q → rnd q ≠ Fl.negZero

/-- A lawful platform: float64 with 53 bits, float32 with 24 bits of precision. -/
structure Lawful (S : FloatSem) : Prop where
  r64 : LawfulRnd S.rnd (2^53)
  r32 : LawfulRnd S.rnd32 (2^24)

theorem exact_lawful : Lawful FloatSem.exact := by
  constructor <;>
  · constructor
    · intro q r h; simpa [FloatSem.exact, Fl.key] using h
    · intro q; simp [FloatSem.exact]
    · intro n _; simp [FloatSem.exact]
    · intro q r h; simp [FloatSem.exact]
    · intro q h; simp [FloatSem.exact, Fl.neg, h]
    · intro q _; simp [FloatSem.exact]

namespace Fl

/-! ### Comparisons -/

theorem lt_iff {x y : Fl} : lt x y = true ↔ x ≠ nan ∧ y ≠ nan ∧ x.key < y.key := by
  cases x <;> cases y <;> simp [lt, isNaN]

theorem le_iff {x y : Fl} : le x y = true ↔ x ≠ nan ∧ y ≠ nan ∧ x.key ≤ y.key := by
  cases x <;> cases y <;> simp [le, isNaN]

theorem eq_iff {x y : Fl} : eq x y = true ↔ x ≠ nan ∧ y ≠ nan ∧ x.key = y.key := by
  cases x <;> cases y <;> simp [eq, isNaN]

theorem lt_of_num {x y : Fl} (hx : x ≠ nan) (hy : y ≠ nan) : lt x y = decide (x.key < y.key) := by
  cases x <;> cases y <;> simp_all [lt, isNaN]

theorem le_of_num {x y : Fl} (hx : x ≠ nan) (hy : y ≠ nan) : le x y = decide (x.key ≤ y.key) := by
  cases x <;> cases y <;> simp_all [le, isNaN]

theorem eq_of_num {x y : Fl} (hx : x ≠ nan) (hy : y ≠ nan) : eq x y = decide (x.key = y.key) := by
  cases x <;> cases y <;> simp_all [eq, isNaN]

@[simp] theorem lt_fin (a b : ℚ) : lt (fin a) (fin b) = decide (a < b) := by
  simp [lt, isNaN, key]

@[simp] theorem le_fin (a b : ℚ) : le (fin a) (fin b) = decide (a ≤ b) := by
  simp [le, isNaN, key]

@[simp] theorem eq_fin (a b : ℚ) : eq (fin a) (fin b) = decide (a = b) := by
  simp [eq, isNaN, key]

/-! ### Numeric value of a finite float -/

/-- `x.Is q`: `x` is finite with value `q`. -/
def Is (x : Fl) (q : ℚ) : Prop := x = fin q ∨ (x = negZero ∧ q = 0)

theorem is_fin (q : ℚ) : (fin q).Is q := Or.inl rfl
theorem is_negZero : (negZero).Is 0 := Or.inr ⟨rfl, rfl⟩

@[simp] theorem is_fin_iff {a q : ℚ} : (fin a).Is q ↔ a = q := by simp [Is]
@[simp] theorem is_negZero_iff {q : ℚ} : (negZero).Is q ↔ q = 0 := by simp [Is]
@[simp] theorem not_is_nan {q : ℚ} : ¬ nan.Is q := by simp [Is]
@[simp] theorem not_is_inf {b : Bool} {q : ℚ} : ¬ (inf b).Is q := by simp [Is]

@[simp] theorem zero_is (b : Bool) : (zero b).Is 0 := by cases b <;> simp [zero]

theorem Is.unique {x : Fl} {a b : ℚ} (h : x.Is a) (h' : x.Is b) : a = b := by
  cases x <;> simp_all

theorem is_iff {x : Fl} {q : ℚ} : x.Is q ↔ x.isFinite = true ∧ x.toRat = q := by
  cases x <;> simp [isFinite, toRat, eq_comm]

theorem Is.toRat {x : Fl} {a : ℚ} (h : x.Is a) : x.toRat = a := (is_iff.1 h).2
theorem Is.key {x : Fl} {a : ℚ} (h : x.Is a) : x.key = Ext.ofRat a := by
  cases x <;> simp_all [Fl.key]
theorem Is.ne_nan {x : Fl} {a : ℚ} (h : x.Is a) : x ≠ nan := by rintro rfl; simp at h
theorem Is.isZero {x : Fl} {a : ℚ} (h : x.Is a) : x.isZero = decide (a = 0) := by
  cases x <;> simp_all [Fl.isZero]
theorem isFinite_is {x : Fl} (h : x.isFinite = true) : x.Is x.toRat := is_iff.2 ⟨h, rfl⟩

theorem Is.lt {x y : Fl} {a b : ℚ} (hx : x.Is a) (hy : y.Is b) : Fl.lt x y = decide (a < b) := by
  rw [lt_of_num hx.ne_nan hy.ne_nan, hx.key, hy.key]; simp
theorem Is.le {x y : Fl} {a b : ℚ} (hx : x.Is a) (hy : y.Is b) : Fl.le x y = decide (a ≤ b) := by
  rw [le_of_num hx.ne_nan hy.ne_nan, hx.key, hy.key]; simp
theorem Is.eq {x y : Fl} {a b : ℚ} (hx : x.Is a) (hy : y.Is b) : Fl.eq x y = decide (a = b) := by
  rw [eq_of_num hx.ne_nan hy.ne_nan, hx.key, hy.key]; simp [Ext.ofRat]
theorem Is.ne {x y : Fl} {a b : ℚ} (hx : x.Is a) (hy : y.Is b) : Fl.ne x y = decide (a ≠ b) := by
  rw [Fl.ne, hx.eq hy]; simp

theorem Is.neg {x : Fl} {a : ℚ} (h : x.Is a) : (Fl.neg x).Is (-a) := by
  cases x with
  | fin q => simp at h; subst h; by_cases hq : q = 0 <;> simp [Fl.neg, hq]
  | _ => simp_all [Fl.neg]

theorem Is.abs {x : Fl} {a : ℚ} (h : x.Is a) : (Fl.abs x).Is |a| := by
  cases x <;> simp_all [Fl.abs]

end Fl

namespace FloatSem
open Fl

theorem add_is {S : FloatSem} {x y : Fl} {a b : ℚ} (hx : x.Is a) (hy : y.Is b) :
    S.add x y = S.rnd (a + b) ∨ (S.add x y = negZero ∧ a = 0 ∧ b = 0) := by
  cases x <;> cases y <;> simp_all [add, Fl.toRat]

theorem mul_is {S : FloatSem} {x y : Fl} {a b : ℚ} (hx : x.Is a) (hy : y.Is b) :
    (a * b ≠ 0 ∧ S.mul x y = S.rnd (a * b)) ∨ (a * b = 0 ∧ (S.mul x y).Is 0) := by
  by_cases h : a * b = 0
  · right; refine ⟨h, ?_⟩
    cases x <;> cases y <;> simp_all [mul, Fl.toRat]
  · left; refine ⟨h, ?_⟩
    cases x <;> cases y <;> simp_all [mul, Fl.toRat]

theorem div_is {S : FloatSem} {x y : Fl} {a b : ℚ} (hx : x.Is a) (hy : y.Is b) (hb : b ≠ 0) :
    (a ≠ 0 ∧ S.div x y = S.rnd (a / b)) ∨ (a = 0 ∧ (S.div x y).Is 0) := by
  by_cases h : a = 0
  · right; refine ⟨h, ?_⟩
    cases x <;> cases y <;> simp_all [div, Fl.isZero]
  · left; refine ⟨h, ?_⟩
    cases x <;> cases y <;> simp_all [div, Fl.toRat, Fl.isZero]

/-! ### The exact instance computes rational arithmetic -/

theorem exact_rnd (q : ℚ) : exact.rnd q = fin q := rfl
theorem exact_const (q : ℚ) : (exact.const q).Is q := is_fin q
theorem exact_ofInt (n : Int) : (exact.ofInt n).Is n := is_fin _

theorem exact_add {x y : Fl} {a b : ℚ} (hx : x.Is a) (hy : y.Is b) : (exact.add x y).Is (a + b) := by
  rcases add_is (S := exact) hx hy with h | ⟨h, rfl, rfl⟩
  · rw [h]; exact is_fin _
  · rw [h]; simp

theorem exact_sub {x y : Fl} {a b : ℚ} (hx : x.Is a) (hy : y.Is b) : (exact.sub x y).Is (a - b) := by
  rw [sub_eq_add_neg]; exact exact_add hx hy.neg

theorem exact_mul {x y : Fl} {a b : ℚ} (hx : x.Is a) (hy : y.Is b) : (exact.mul x y).Is (a * b) := by
  rcases mul_is (S := exact) hx hy with ⟨_, h⟩ | ⟨h0, h⟩
  · rw [h]; exact is_fin _
  · rw [h0]; exact h

theorem exact_div {x y : Fl} {a b : ℚ} (hx : x.Is a) (hy : y.Is b) (hb : b ≠ 0) :
    (exact.div x y).Is (a / b) := by
  rcases div_is (S := exact) hx hy hb with ⟨_, h⟩ | ⟨h0, h⟩
  · rw [h]; exact is_fin _
  · rw [h0, zero_div]; exact h

end FloatSem
end Go
