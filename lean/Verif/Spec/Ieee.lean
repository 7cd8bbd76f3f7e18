import Verif.Base
import Verif.Instances
import Mathlib.Analysis.Real.Sqrt
import Mathlib.Algebra.Order.Floor.Ring
/-!
# Specification: binary floating-point arithmetic after IEEE 754

Numbers with `p` binary digits; every operation returns one of the numbers closest to the exact result, unless this exceeds the largest number.  Ties
may be broken in any way.  Nothing is said about operations that overflow, about infinities and about undefined results: these only
have to stand for numbers above the largest one.
-/

namespace TrussPy

/-- The numbers with `p` binary digits, where the last digit has at least the weight `2^emin`. -/
def Representable (p : Nat) (emin : Int) (x : ℝ) : Prop := ∃ m e : ℤ, |m| < 2 ^ p ∧ emin ≤ e ∧ x = m * (2 : ℝ) ^ e

/-- `r` is one of the numbers with `p` binary digits closest to `x`. -/
structure Nearest (p : Nat) (emin : Int) (x r : ℝ) : Prop where
  rep : Representable p emin r
  closest : ∀ s, Representable p emin s → |r - x| ≤ |s - x|

section
variable {F : Type} [Add F] [Mul F]

/-- `r` is a computed sum of the squares of the entries: in any order, with any grouping, with or without fused multiplication and addition. -/
inductive SquareSum (val : F → ℝ) (p : Nat) (emin : Int) (Ω : ℝ) : List F → F → Prop
  | square (v : F) : SquareSum val p emin Ω [v] (v * v)
  | add {l l' : List F} {r r' : F} : SquareSum val p emin Ω l r → SquareSum val p emin Ω l' r' → SquareSum val p emin Ω (l ++ l') (r + r')
  | fused {l : List F} {r v s : F} : SquareSum val p emin Ω l r →
      (|val r + val v * val v| ≤ Ω → Nearest p emin (val r + val v * val v) (val s)) → SquareSum val p emin Ω (v :: l) s
  | perm {l l' : List F} {r : F} : SquareSum val p emin Ω l r → l.Perm l' → SquareSum val p emin Ω l' r

end

/-- The operations of `F` are those of IEEE 754 with `p` binary digits, smallest weight `2^emin` and largest number `Ω`.  `np.linalg.norm` is the root of the
sum of squares; powers of ten may be wrong in the last digits. -/
structure Ieee {F : Type} [Zero F] [One F] [Add F] [Sub F] [Mul F] [Div F] [Neg F] [Flt F] (val : F → ℝ) (p : Nat) (emin : Int) (Ω : ℝ) : Prop where
  zero : val 0 = 0
  one : val 1 = 1
  add : ∀ x y : F, |val x| ≤ Ω → |val y| ≤ Ω → |val x + val y| ≤ Ω → Nearest p emin (val x + val y) (val (x + y))
  sub : ∀ x y : F, |val x| ≤ Ω → |val y| ≤ Ω → |val x - val y| ≤ Ω → Nearest p emin (val x - val y) (val (x - y))
  mul : ∀ x y : F, |val x| ≤ Ω → |val y| ≤ Ω → |val x * val y| ≤ Ω → Nearest p emin (val x * val y) (val (x * y))
  div : ∀ x y : F, |val x| ≤ Ω → |val y| ≤ Ω → val y ≠ 0 → |val x / val y| ≤ Ω → Nearest p emin (val x / val y) (val (x / y))
  neg : ∀ x : F, |val x| ≤ Ω → val (-x) = -val x
  abs : ∀ x : F, |val x| ≤ Ω → val (Flt.abs x) = |val x|
  lt : ∀ x y : F, |val x| ≤ Ω → |val y| ≤ Ω → (Flt.lt x y = true ↔ val x < val y)
  le : ∀ x y : F, |val x| ≤ Ω → |val y| ≤ Ω → (Flt.le x y = true ↔ val x ≤ val y)
  sqrt : ∀ x : F, 0 ≤ val x → val x ≤ Ω → Nearest p emin (√(val x)) (val (Flt.sqrt x))
  vnorm_nil : val (Flt.vnorm ([] : List F)) = 0
  vnorm : ∀ l : List F, l ≠ [] → ∃ r, SquareSum val p emin Ω l r ∧ Flt.vnorm l = Flt.sqrt r
  ofInt : ∀ n : Int, |(n : ℝ)| ≤ Ω → Nearest p emin n (val (Flt.ofInt n))
  pow10neg : ∀ n : Int, (10 : ℝ) ^ (-n) ≤ Ω → |val (Flt.pow10neg n) - (10 : ℝ) ^ (-n)| ≤ 4 * (1 / 2 ^ p) * (10 : ℝ) ^ (-n) + 2 ^ emin

end TrussPy
