import Verif.Run
/-!
# Specification: analysis objects within a step
-/

namespace TrussPy

variable {F : Type} [Zero F] [One F] [Add F] [Sub F] [Mul F] [Div F] [Neg F] [Flt F]

/-- `a` arises from the analysis object `a1` at the start of a step by evaluations of `equilibrium` and `stiffness` at vectors of
the right size, with or without commit, and by the assignments of the path-following solver. -/
inductive InStep (c : Ctx F) (a1 : Analysis F) : Analysis F → Prop
  | start : InStep c a1 a1
  | equilibrium {a a' V V0 w g} : InStep c a1 a → V.length = c.ndof1 + 1 → V0.length = c.ndof1 + 1 →
      equilibrium c a V V0 .G w = .ok (a', g) → InStep c a1 a'
  | stiffness {a a' U K} : InStep c a1 a → U.length = c.ndof1 → stiffness c a U = .ok (a', K) → InStep c a1 a'
  | book {a} (j : Int) (K : List (List F)) (dV : Option (List F)) : InStep c a1 a → InStep c a1 { a with j := j, Kmod := K, dVmax := dV }
  | save {a} (V u : List F) (l : F) : InStep c a1 a → u.length = c.ndof1 → InStep c a1 { a with Vred := V, Ured := u, lpf := some l }

end TrussPy
