import Verif.ExamplesRun
import Verif.Lemmas.NumPy
/-!
# A solver which chooses among several solutions leaves the symmetric path (C122)

`C122_symmetric_run` asks for a solver which returns only unique solutions.  Exact solutions alone are not enough.
-/

set_option linter.unusedSectionVars false

namespace TrussPy

/-- Proposes a vector whose second component is 15/16, checks it, and raises if it does not solve the system. -/
def skewEnv : Env ℚ where
  spsolve K b :=
    let dx := [b.getD 0 0 + b.getD 2 0, 15 / 16, b.getD 2 0]
    if K.map (fun row => (List.zipWith (· * ·) row dx).sum) = b then .ok dx else .error .valueError
  argsortF := exEnv.argsortF

/-- The bar of the examples, along x, its end free in x and y, pulled along x: symmetric under the reflection `y ↦ -y`, which maps
both nodes to themselves.  Undeformed, it has no stiffness in y.  One increment of load control. -/
def skewModel : Model ℚ :=
  { exBarModel 1 [1] with
    bounds := some ⟨[1, 2], .d2 ⟨3, [[0, 0, 0], [1, 1, 0]]⟩⟩
    settings := { exSettings with
      nsteps := 1, incs := .const 1, dlpf := 1 / 4, du := 1, xtol := -1, ftol := -1, jFixed := true, j0 := some 3, jPre := false } }

/-- The reflection `y ↦ -y` of a vector. -/
def mirrorY (v : List ℚ) : List ℚ := [v.getD 0 0, -v.getD 1 0, v.getD 2 0]

/-- **C122, the solver must not choose.** All vectors the solver returns solve their systems exactly, and nodes, supports and loads
are mapped to themselves by the reflection `y ↦ -y`, but the run returns and its last state is not symmetric: the end of the bar
has moved by 15/16 in y, although nothing pulls it there. -/
theorem C122_choosing_solver_counterexample :
    (∀ K b dx, skewEnv.spsolve K b = .ok dx → K.map (fun row => (List.zipWith (· * ·) row dx).sum) = b) ∧
    (∃ nt bt ft, skewModel.nodes = some nt ∧ skewModel.bounds = some bt ∧ skewModel.forces = some ft ∧
      (∀ x ∈ nt.coords.rows, mirrorY x = x) ∧ (∀ f ∈ ft.forces.rows, mirrorY (f.take 3) = f.take 3)) ∧
    ∃ (m1 m2 : Model ℚ) (res : Results ℚ), skewModel.build refArgsort = .ok m1 ∧ m1.run skewEnv 4 = .ok m2 ∧
      m2.results = some res ∧ ∃ a ∈ res.R, a.U = [0, 0, 0, 1 / 4, 15 / 16, 0] ∧ mirrorY (a.U.drop 3) ≠ a.U.drop 3 := by
  refine ⟨?_, ⟨_, _, _, rfl, rfl, rfl, by decide +kernel, by decide +kernel⟩, ?_⟩
  · intro K b dx h
    simp only [skewEnv] at h
    split at h
    · next e => cases h; exact e
    · cases h
  · have h : showR (fun a => a.U) (skewModel.build refArgsort >>= fun m1 => m1.run skewEnv 4) =
        .ok [[0, 0, 0, 0, 0, 0], [0, 0, 0, 1 / 4, 15 / 16, 0]] := by decide +kernel
    obtain ⟨m2, h2, h3⟩ := py_bind_eq_ok.1 h
    obtain ⟨m1, h1, h2⟩ := py_bind_eq_ok.1 h2
    cases hres : m2.results with
    | none => rw [hres] at h3; cases h3
    | some res =>
      rw [hres] at h3
      have h3 : res.R.map (fun a => a.U) = [[0, 0, 0, 0, 0, 0], [0, 0, 0, 1 / 4, 15 / 16, 0]] := Except.ok.inj h3
      have hm : [0, 0, 0, 1 / 4, 15 / 16, 0] ∈ res.R.map (fun a => a.U) := by rw [h3]; simp
      obtain ⟨a, ha, e⟩ := List.mem_map.1 hm
      refine ⟨m1, m2, res, h1, h2, hres, a, ha, e, ?_⟩
      rw [e]
      decide +kernel

end TrussPy
