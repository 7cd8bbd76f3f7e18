import Verif.Spec.Entered
/-!
# Specification: values that are not finite
-/

namespace TrussPy

section
variable {F : Type} [Zero F] [One F] [Add F] [Sub F] [Mul F] [Div F] [Neg F] [Flt F]

/-- What IEEE 754 says about the values NaN and ±∞, here called `bad`: they are not cancelled by any of the operations
used, and no finite tolerance is greater than the norm of a vector that contains one.  (`x/∞ = 0` is allowed: nothing is
said about a bad divisor.) -/
structure NonFinite (bad : F → Prop) : Prop where
  nan : bad Flt.nan
  add_left : ∀ {v : F} (w : F), bad v → bad (v + w)
  add_right : ∀ (v : F) {w : F}, bad w → bad (v + w)
  sub_left : ∀ {v : F} (w : F), bad v → bad (v - w)
  sub_right : ∀ (v : F) {w : F}, bad w → bad (v - w)
  neg : ∀ {v : F}, bad v → bad (-v)
  mul_left : ∀ {v : F} (w : F), bad v → bad (v * w)
  mul_right : ∀ (v : F) {w : F}, bad w → bad (v * w)
  div : ∀ {v : F} (w : F), bad v → bad (v / w)
  sqrt : ∀ {v : F}, bad v → bad (Flt.sqrt v)
  norm : ∀ {v : F} {l : List F} {t : F}, v ∈ l → bad v → ¬ bad t → Flt.lt (Flt.vnorm l) t = false
  /-- `0/0` is NaN and `v/0` is infinite. -/
  div_zero : ∀ v : F, bad (v / 0)
  sub_self : ∀ v : F, bad (v - v) ∨ v - v = 0
  zero_add : (0 : F) + 0 = 0
  zero_mul : (0 : F) * 0 = 0
  sqrt_zero : Flt.sqrt (0 : F) = 0

/-- Data entered for an element that leave its force undefined: a modulus or an area that is not finite (in particular one
that was not entered, the default being NaN), a coordinate that is not finite, or two ends at the same place. -/
def Unusable (bad : F → Prop) (e : Elem F) (nA nE : Node F) : Prop :=
  (∃ E, e.mprop.vals.head? = some E ∧ bad E) ∨ (∃ A, e.gprop.vals.head? = some A ∧ bad A) ∨
    (∃ X ∈ nA.coord ++ nE.coord, bad X) ∨ nA.coord = nE.coord

/-- Component `i` of the node is not held by a support. -/
def FreeComp (u : UserInput F) (label : Int) (i : Nat) : Prop := i < 3 ∧ (supportOf u.bounds label)[i]? = some 1

end

end TrussPy
