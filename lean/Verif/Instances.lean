import Verif.Base
import Mathlib.Analysis.Real.Sqrt
import Mathlib.Data.Real.Basic
import Mathlib.Data.Rat.Floor
import Mathlib.Algebra.Order.Round
import Mathlib.Data.List.Sort
/-!
# Carriers

Instances of the lawless class `Flt`: exact reals (mechanics theorems), rationals (evaluation in
examples) and IEEE doubles.
-/

namespace TrussPy

/-- Exact real arithmetic.  `nan` is a junk value; theorems over `ℝ` never rely on it. -/
noncomputable instance instFltReal : Flt ℝ where
  abs x := |x|
  lt x y := decide (x < y)
  le x y := decide (x ≤ y)
  eq x y := decide (x = y)
  sgn x := some (if x < 0 then -1 else if x = 0 then 0 else 1)
  sqrt x := Real.sqrt x
  vnorm l := Real.sqrt ((l.map fun v => v * v).sum)
  ofInt n := (n : ℝ)
  trunc x := if 0 ≤ x then (⌊x⌋ : ℝ) else (⌈x⌉ : ℝ)
  pow10neg n := (10 : ℝ) ^ (-n)
  nan := 0

/-- Rational arithmetic, used to evaluate concrete cases.  `sqrt` is exact for squares of fractions
whose numerator and denominator are at most 64 (otherwise the argument is returned) and `vnorm` is
the maximum norm. -/
instance instFltRat : Flt ℚ where
  abs x := if x < 0 then -x else x
  lt x y := decide (x < y)
  le x y := decide (x ≤ y)
  eq x y := decide (x = y)
  sgn x := some (if x < 0 then -1 else if x = 0 then 0 else 1)
  sqrt x :=
    match (List.range 65).find? (fun k => decide ((k * k : Int) = x.num)),
      (List.range 65).find? (fun k => decide (k * k = x.den)) with
    | some p, some q => (p : ℚ) / (q : ℚ)
    | _, _ => x
  vnorm l := l.foldl (fun m v => let a := if v < 0 then -v else v; if m < a then a else m) 0
  ofInt n := (n : ℚ)
  trunc x := if 0 ≤ x then ((x.num / x.den : Int) : ℚ) else -(((-x.num) / x.den : Int) : ℚ)
  pow10neg n := if 0 ≤ n then 1 / ((10 ^ n.toNat : Nat) : ℚ) else ((10 ^ (-n).toNat : Nat) : ℚ)
  nan := 0

/-- Rational numbers with a NaN (`none`) that propagates and compares false; used to exhibit that the
hypotheses about NaN are satisfiable. -/
structure NQ where
  val : Option ℚ
  deriving DecidableEq

namespace NQ

/-- Strict lifting of a binary operation. -/
def lift (f : ℚ → ℚ → ℚ) (a b : NQ) : NQ :=
  ⟨match a.val, b.val with
    | some x, some y => some (f x y)
    | _, _ => none⟩

/-- Comparison that is false for NaN. -/
def cmp (f : ℚ → ℚ → Bool) (a b : NQ) : Bool :=
  match a.val, b.val with
  | some x, some y => f x y
  | _, _ => false

instance : Zero NQ := ⟨⟨some 0⟩⟩
instance : One NQ := ⟨⟨some 1⟩⟩
instance : Add NQ := ⟨lift (· + ·)⟩
instance : Sub NQ := ⟨lift (· - ·)⟩
instance : Mul NQ := ⟨lift (· * ·)⟩
/-- division by zero is NaN -/
instance : Div NQ := ⟨fun a b => if b.val = some 0 then ⟨none⟩ else lift (· / ·) a b⟩
instance : Neg NQ := ⟨fun a => ⟨a.val.map fun x => -x⟩⟩

instance : Flt NQ where
  abs a := ⟨a.val.map Flt.abs⟩
  lt := cmp Flt.lt
  le := cmp Flt.le
  eq := cmp Flt.eq
  sgn a := a.val.bind Flt.sgn
  sqrt a := ⟨a.val.map Flt.sqrt⟩
  vnorm l := ⟨if l.all fun a => a.val.isSome then some (Flt.vnorm (l.map fun a => a.val.getD 0)) else none⟩
  ofInt n := ⟨some n⟩
  trunc a := ⟨a.val.map Flt.trunc⟩
  pow10neg n := ⟨some (Flt.pow10neg n)⟩
  nan := ⟨none⟩

end NQ

instance : Zero Float := ⟨0.0⟩
instance : One Float := ⟨1.0⟩

/-- IEEE doubles. -/
instance instFltFloat : Flt Float where
  abs := Float.abs
  lt x y := x < y
  le x y := x <= y
  eq x y := x == y
  sgn x := if x.isNaN then none else some (if x < 0 then -1 else if x > 0 then 1 else 0)
  sqrt := Float.sqrt
  vnorm l := Float.sqrt (l.foldl (fun s v => s + v * v) 0)
  ofInt n := Float.ofInt n
  trunc x := if x < 0 then Float.ceil x else Float.floor x
  pow10neg n := Float.pow 10 (Float.ofInt (-n))
  nan := 0.0 / 0.0

/-- A reference `argsort` (insertion sort on positions). -/
def refArgsort (l : List Int) : List Nat :=
  (List.range l.length).insertionSort fun i j => l.getD i 0 ≤ l.getD j 0

/-- The reference implementation meets the specification, so `IsArgsort` is satisfiable. -/
theorem refArgsort_isArgsort : IsArgsort refArgsort := by
  intro l
  refine ⟨List.perm_insertionSort _ _, ?_⟩
  rw [List.pairwise_map]
  have : Std.Total (fun i j : Nat => l.getD i 0 ≤ l.getD j 0) := ⟨fun a b => le_total _ _⟩
  have : IsTrans Nat (fun i j : Nat => l.getD i 0 ≤ l.getD j 0) := ⟨fun a b c h1 h2 => le_trans h1 h2⟩
  exact List.pairwise_insertionSort _ _

end TrussPy
