import Verif.Solver
import Verif.Instances
/-!
# A concrete path-following problem used in the examples beside the theorems
-/

namespace TrussPy

/-- Analysis object of the spring example: only the reduced load matters. -/
def exSpringA : Analysis ℚ := { Analysis.fresh 1 0 [] [0] 0 with f0red := [1] }

section
variable {F : Type} [Zero F] [One F] [Add F] [Sub F] [Mul F] [Div F] [Neg F] [Flt F]

/-- A stiffening spring `u + u^2 = lpf` as a problem for the path-following solver. -/
def springProblem : Problem F where
  g a V _ _ := match V with
    | [u, l] => .ok (a, [l - (u + u * u)])
    | _ => .error .valueError
  dgdx a U := match U with
    | [u] => .ok (a, [[1 + (u + u)]])
    | _ => .error .valueError

/-- Cramer's rule for two equations. -/
def cramer (A : List (List F)) (b : List F) : Py (List F) :=
  match A, b with
  | [[p, q], [r, s]], [u, v] => .ok [(u * s - q * v) / (p * s - q * r), (p * v - r * u) / (p * s - q * r)]
  | _, _ => .error .valueError

end

/-- The spring with rational numbers. -/
def exSpring : Problem ℚ := springProblem

/-- Cramer's rule and a sort by insertion. -/
def exEnv : Env ℚ where
  spsolve := cramer
  argsortF l := (List.range l.length).insertionSort fun i j => l.getD i 0 ≤ l.getD j 0

/-- Settings: step widths 1/10 and 1/4, at most 5 increments, stop beyond `u = 1/5`; `q` converts
rational numbers. -/
def exCfgOf {F : Type} (q : ℚ → F) : PFCfg F where
  dxmax := .vec [q (1 / 10), q (1 / 4)]
  j := none
  jFixed := false
  jPre := true
  xlimit := some (1, q (1 / 5))
  incs := 5
  nfev := 8
  cycl := 4
  ftol := q (1 / 1000)
  xtol := q (1 / 1000)
  stepcontrol := false
  maxfac := q 10
  minfac := q (1 / 1000000)
  reduce := q 8
  increase := q (1 / 2)
  dxtol := q (101 / 100)

/-- Settings with rational numbers. -/
def exCfg : PFCfg ℚ := exCfgOf id

/-- What a run records: vector, step width and reason of the end of each increment. -/
def summary (r : Py (PFOut ℚ)) : Py (List (List ℚ × Option (List ℚ) × Outcome)) :=
  r.map fun o => o.recs.map fun r => (r.x, r.a.dVmax, r.out)

theorem summary_ok {r : Py (PFOut ℚ)} {l : List (List ℚ × Option (List ℚ) × Outcome)} (h : summary r = .ok l) :
    ∃ o, r = .ok o ∧ (o.recs.map fun r => (r.x, r.a.dVmax, r.out)) = l := by
  cases r with
  | error e => cases h
  | ok o => exact ⟨o, rfl, Except.ok.inj h⟩

end TrussPy
