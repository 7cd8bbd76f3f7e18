import Verif.Run
import Verif.Examples
import Verif.ExamplesPath
/-!
# Concrete runs used in the examples beside the theorems
-/

namespace TrussPy

/-- A bar of length 1 along x, node 1 fixed, node 2 free in x only and loaded by 1 in the first step and by 2
in the second; two increments, then one. `ty`, `mat`: material. -/
def exBarModel (ty : Int) (mat : List ℚ) : Model ℚ where
  nodes := some ⟨[1, 2], ⟨3, [[0, 0, 0], [1, 0, 0]]⟩⟩
  elems := some ⟨[1], ⟨2, [[1, 2]]⟩, [1], [ty], ⟨false, mat.length, [mat]⟩, ⟨false, 1, [[1]]⟩⟩
  bounds := some ⟨[1, 2], .d2 ⟨3, [[0, 0, 0], [1, 0, 0]]⟩⟩
  forces := some ⟨[2], ⟨6, [[1, 0, 0, 2, 0, 0]]⟩⟩
  settings := { exSettings with
    nsteps := 2, incs := .tuple [2, 1], dlpf := 1 / 4, du := 1 / 2, xtol := 4, ftol := 4 }

/-- Build, run, run again, ...: number of runs `n`. -/
def buildRun (n : Nat) (m : Model ℚ) : Py (Model ℚ) := do
  let m1 ← m.build refArgsort
  (List.range n).foldlM (fun m _ => m.run exEnv 100) m1

/-- What the examples show of each result. -/
def showR (f : Analysis ℚ → β) (r : Py (Model ℚ)) : Py (List β) := do
  let m ← r
  let some res := m.results | .error .attributeError
  return res.R.map f

end TrussPy
