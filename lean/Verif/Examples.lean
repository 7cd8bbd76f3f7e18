import Verif.Instances
import Verif.Spec.Input
/-!
# A concrete model used in the examples beside the theorems

Three nodes entered in the order 3, 1, 2, two bars 1-2 and 2-3, supports at 1 and 3, load at 2.
-/

namespace TrussPy

/-- User input of the example. -/
def exInput : UserInput ℚ where
  nodes := [⟨3, [8, 0, 0]⟩, ⟨1, [0, 0, 0]⟩, ⟨2, [4, 0, 3]⟩]
  bounds := [⟨3, [0, 0, 0]⟩, ⟨1, [0, 0, 0]⟩]
  forces := [⟨2, [0, 0, -1]⟩]

/-- Element table of the example: `E = 1`, `A = 1`, elastic. -/
def exElems : ElemTab ℚ where
  labels := [1, 2]
  conns := ⟨2, [[1, 2], [2, 3]]⟩
  etype := [1, 1]
  mtype := [1, 1]
  mprop := ⟨false, 1, [[1], [1]]⟩
  gprop := ⟨false, 1, [[1], [1]]⟩

/-- Default settings, silent. -/
def exSettings : Settings ℚ where
  maxfac := 10
  minfac := 1 / 1000000
  increase := 1 / 2
  reduce := 8
  dxtol := 1000001 / 1000000
  dlpf := 1 / 50
  du := 1 / 50
  xlimit := .const 0 1000000
  log := 0

/-- The model after entering the input. -/
def exModel : Model ℚ where
  nodes := some ⟨[3, 1, 2], ⟨3, [[8, 0, 0], [0, 0, 0], [4, 0, 3]]⟩⟩
  elems := some exElems
  bounds := some ⟨[3, 1], .d2 ⟨3, [[0, 0, 0], [0, 0, 0]]⟩⟩
  forces := some ⟨[2], ⟨3, [[0, 0, -1]]⟩⟩
  settings := exSettings

theorem exEntered : Entered exInput exModel := by
  unfold Entered
  decide +kernel

theorem exBuild_ok : ∃ m', exModel.build refArgsort = .ok m' := by
  have : (exModel.build refArgsort).toBool = true := by decide +kernel
  cases h : exModel.build refArgsort with
  | ok m' => exact ⟨m', rfl⟩
  | error e => rw [h] at this; cases this

end TrussPy
