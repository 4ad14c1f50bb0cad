import Verif.Go.Float

/-!
# Fused multiply-add

The Go specification lets an implementation compute `x*y + z` with a single rounding, also across
statements; the compilers for arm64, ppc64, riscv64 and s390x do so, the one for amd64 does not by
default. Which of the permitted places are fused is up to the compiler.
-/

namespace Go
namespace FloatSem
open Fl
variable (S : FloatSem)

/-- IEEE-754 `fusedMultiplyAdd(x, y, z)`: `x*y + z`, rounded once. An exact zero is negative only
if product and summand are both negative zeros. A product with a factor that is not finite is
exact, so nothing is fused there. -/
def fma (x y z : Fl) : Fl :=
  if x.isFinite && y.isFinite && z.isFinite then
    if x.toRat * y.toRat + z.toRat = 0 then
      zero (decide (x.toRat * y.toRat = 0) && xor x.sgn y.sgn && z.sgn)
    else S.rnd (x.toRat * y.toRat + z.toRat)
  else if x.isFinite && y.isFinite then z
  else S.add (S.mul x y) z

/-- `x*y + z` as compiled: fused or not. -/
def mulAdd (fuse : Bool) (x y z : Fl) : Fl := if fuse then S.fma x y z else S.add (S.mul x y) z

/-- `x*y - z` as compiled. -/
def mulSub (fuse : Bool) (x y z : Fl) : Fl := if fuse then S.fma x y z.neg else S.sub (S.mul x y) z

/-- `z - x*y` as compiled. -/
def subMul (fuse : Bool) (z x y : Fl) : Fl := if fuse then S.fma x.neg y z else S.sub z (S.mul x y)

/-- `z + x*y` as compiled. -/
def addMul (fuse : Bool) (z x y : Fl) : Fl := if fuse then S.fma x y z else S.add z (S.mul x y)

/-- How `a*b + c*d` is compiled: both products rounded, or the left or the right one fused into the
addition. -/
inductive Fuse where
  | no
  | left
  | right
deriving DecidableEq, Repr

/-- `a*b + c*d` as compiled. -/
def dot (k : Fuse) (a b c d : Fl) : Fl :=
  match k with
  | .no => S.add (S.mul a b) (S.mul c d)
  | .left => S.fma a b (S.mul c d)
  | .right => S.fma c d (S.mul a b)

variable {S}

theorem fma_is {x y z : Fl} {a b c : ℚ} (hx : x.Is a) (hy : y.Is b) (hz : z.Is c) :
    (a * b + c ≠ 0 ∧ S.fma x y z = S.rnd (a * b + c)) ∨ (a * b + c = 0 ∧ (S.fma x y z).Is 0) := by
  obtain ⟨fx, rfl⟩ := Fl.is_iff.1 hx
  obtain ⟨fy, rfl⟩ := Fl.is_iff.1 hy
  obtain ⟨fz, rfl⟩ := Fl.is_iff.1 hz
  unfold fma
  rw [fx, fy, fz]
  by_cases h : x.toRat * y.toRat + z.toRat = 0
  · exact .inr ⟨h, by simp only [Bool.and_self, if_true, if_pos h]; exact Fl.zero_is _⟩
  · exact .inl ⟨h, by simp only [Bool.and_self, if_true, if_neg h]⟩

/-- In exact arithmetic fusing changes no value. -/
theorem exact_fma {x y z : Fl} {a b c : ℚ} (hx : x.Is a) (hy : y.Is b) (hz : z.Is c) :
    (exact.fma x y z).Is (a * b + c) := by
  rcases fma_is (S := exact) hx hy hz with ⟨_, e⟩ | ⟨h, e⟩
  · rw [e]; exact is_fin _
  · rw [h]; exact e

theorem exact_mulAdd (fuse : Bool) {x y z : Fl} {a b c : ℚ} (hx : x.Is a) (hy : y.Is b) (hz : z.Is c) :
    (exact.mulAdd fuse x y z).Is (a * b + c) := by
  cases fuse
  · exact exact_add (exact_mul hx hy) hz
  · exact exact_fma hx hy hz

theorem exact_mulSub (fuse : Bool) {x y z : Fl} {a b c : ℚ} (hx : x.Is a) (hy : y.Is b) (hz : z.Is c) :
    (exact.mulSub fuse x y z).Is (a * b - c) := by
  cases fuse
  · exact exact_sub (exact_mul hx hy) hz
  · rw [sub_eq_add_neg]; exact exact_fma hx hy hz.neg

theorem exact_subMul (fuse : Bool) {x y z : Fl} {a b c : ℚ} (hx : x.Is a) (hy : y.Is b) (hz : z.Is c) :
    (exact.subMul fuse z x y).Is (c - a * b) := by
  cases fuse
  · exact exact_sub hz (exact_mul hx hy)
  · have := exact_fma hx.neg hy hz
    rwa [neg_mul, neg_add_eq_sub] at this

theorem exact_dot (k : Fuse) {x y z w : Fl} {a b c d : ℚ} (hx : x.Is a) (hy : y.Is b) (hz : z.Is c)
    (hw : w.Is d) : (exact.dot k x y z w).Is (a * b + c * d) := by
  cases k
  · exact exact_add (exact_mul hx hy) (exact_mul hz hw)
  · exact exact_fma hx hy (exact_mul hz hw)
  · rw [add_comm]; exact exact_fma hz hw (exact_mul hx hy)

end FloatSem
end Go
