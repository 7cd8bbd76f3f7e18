import Verif.Spec.Valid
import Verif.Spec.Tables
import Mathlib.Tactic.NormNum
/-!
# A truss in exact real arithmetic, used in the examples beside the theorems
-/

namespace TrussPy

/-- A bar of length 1 along x, node 1 fixed, node 2 free in x only and loaded by 1. -/
def rbInput : UserInput ℝ where
  nodes := [⟨2, [1, 0, 0]⟩, ⟨1, [0, 0, 0]⟩]
  bounds := [⟨1, [0, 0, 0]⟩, ⟨2, [1, 0, 0]⟩]
  forces := [⟨2, [1, 0, 0]⟩]

/-- Its only element: `E = 1`, `A = 1`. -/
def rbElems : List (Elem ℝ) := [⟨1, [1, 2], 1, 1, ⟨false, [1]⟩, ⟨false, [1]⟩⟩]

/-- One increment, the displacement prescribed by 1/4. -/
noncomputable def rbSettings : Settings ℝ where
  maxfac := 10
  minfac := 1 / 1000000
  increase := 1 / 2
  reduce := 8
  dxtol := 101 / 100
  dlpf := 1 / 4
  du := 1 / 4
  xlimit := .const 0 1000000
  log := 0
  incs := .const 1
  jFixed := true
  j0 := some 1
  xtol := 0

/-- The model after entering the input. -/
noncomputable def rbModel : Model ℝ where
  nodes := some ⟨[2, 1], ⟨3, [[1, 0, 0], [0, 0, 0]]⟩⟩
  elems := some ⟨[1], ⟨2, [[1, 2]]⟩, [1], [1], ⟨false, 1, [[1]]⟩, ⟨false, 1, [[1]]⟩⟩
  bounds := some ⟨[1, 2], .d2 ⟨3, [[0, 0, 0], [1, 0, 0]]⟩⟩
  forces := some ⟨[2], ⟨3, [[1, 0, 0]]⟩⟩
  settings := rbSettings

/-- A "linear solver" which always proposes the same vector, and no sorting. -/
noncomputable def rbEnv : Env ℝ where
  spsolve _ _ := .ok [1 / 4, 1 / 4]
  argsortF l := List.range l.length

theorem rbEntered : Entered rbInput rbModel := by
  unfold Entered
  exact ⟨rfl, rfl, rfl⟩

theorem rbEnteredElems : EnteredElems rbElems rbModel := rfl

theorem rbFree : freeCount rbInput = 1 := rfl

theorem rbValid : ValidInput rbInput rbElems rbModel.settings.nsteps where
  posed :=
    { nodes := by decide
      elems := by decide
      coords := by simp [rbInput]
      joins := by
        intro e he
        simp only [rbElems, List.mem_singleton] at he
        subst he
        exact ⟨⟨1, [0, 0, 0]⟩, by simp [rbInput], ⟨2, [1, 0, 0]⟩, by simp [rbInput], rfl, by decide⟩
      law := by simp [rbElems] }
  props := by
    intro e he
    simp only [rbElems, List.mem_singleton] at he
    subst he
    exact ⟨by simp, by simp, by simp⟩
  elems := by simp [rbElems]
  supports := by simp [rbInput]
  supportsOnce := by decide
  supportsAt := by simp [rbInput]
  loads := by simp [rbInput]
  loadsOnce := by decide
  loadsAt := by simp [rbInput]
  width := by decide
  free := by decide

theorem rbSane : rbModel.settings.Sane (freeCount rbInput) where
  log := by simp [rbModel, rbSettings]
  cycl := by decide
  nfev := by decide
  control := fun _ => ⟨1, rfl, by decide⟩
  incs := by simp [rbModel, rbSettings]
  limit := by
    intro j v h
    have h : XLimit.const 0 1000000 = XLimit.const j v := h
    cases h
    unfold IndexOK
    decide
  limits := by simp [rbModel, rbSettings]

theorem rbReturns : rbEnv.Returns (freeCount rbInput + 1) where
  solve _ _ _ _ _ := ⟨_, rfl, rfl⟩
  sort l hl := ⟨l.length - 1, by
    have : 0 < l.length := List.length_pos_iff.2 hl
    obtain ⟨n, hn⟩ : ∃ n, l.length = n + 1 := ⟨l.length - 1, by omega⟩
    show (List.range l.length).getLast? = _
    rw [hn, List.range_succ, List.getLast?_concat]
    rfl, by
    have : 0 < l.length := List.length_pos_iff.2 hl
    omega⟩

end TrussPy
