import Verif.Lemmas.SmallStep
import Verif.ExamplesReal
import Mathlib.LinearAlgebra.Matrix.NonsingularInverse
/-!
# An exact linear solver and a bar in exact real arithmetic, used in the examples beside the theorems
-/

namespace TrussPy

/-- Solves regular systems of any size by the inverse matrix; sorts by insertion. -/
noncomputable def exactEnv : Env ℝ where
  spsolve K b := .ok (List.ofFn ((matOf b.length K)⁻¹.mulVec fun i => b[i]))
  argsortF := realEnv.argsortF

theorem exactEnv_solves (n : Nat) : SolvesRegular exactEnv.spsolve n := by
  intro K b hK hrow hdet hb
  subst hb
  refine ⟨_, rfl, by simp, ?_⟩
  rw [matVec_ofFn hK hrow, Matrix.mulVec_mulVec, Matrix.mul_nonsing_inv _ hdet, Matrix.one_mulVec]
  exact List.ofFn_getElem

theorem exactEnv_argmax : ArgMax exactEnv := realEnv_argmax

/-- A bar of length 1 along x, node 1 fixed, node 2 free in x only; `E = 1`, `A = 1`. -/
def sbCtx : Ctx ℝ where
  nodes := ⟨[1, 2], ⟨3, [[0, 0, 0], [1, 0, 0]]⟩⟩
  elems := {
    labels := [1]
    conns := ⟨2, [[1, 2]]⟩
    etype := [1]
    mtype := [1]
    mprop := ⟨false, 1, [[1]]⟩
    gprop := ⟨false, 1, [[1]]⟩ }
  nnodes := 2
  ndof1 := 1
  nstatev := 0

def sbBar : Bar ℝ := ⟨0, 1, fun _ => 0, fun i => if i = 0 then 1 else 0, [1], [1], .el⟩

/-- A unit load in x at node 2. -/
def sbA : Analysis ℝ :=
  { Analysis.fresh 2 1 [0, 1, 2, 4, 5] [3] 0 with
    extForces := some ⟨[0, 0, 0, 1, 0, 0], [0, 0, 0, 0, 0, 0]⟩
    f0red := [1]
    lpf := some 0 }

theorem sbEvaluable : Evaluable sbCtx [sbBar] sbA ⟨[0, 0, 0, 1, 0, 0], [0, 0, 0, 0, 0, 0]⟩ where
  tables :=
    { nodes := by decide
      elems := by decide
      length := rfl
      nnodes := rfl
      bar := by
        intro k b hb
        match k with
        | 0 =>
          cases hb
          exact ⟨⟨1, 2, rfl, rfl, rfl⟩, rfl, by simp [CoordRow, sbCtx, sbBar], rfl, rfl, Or.inl ⟨rfl, rfl⟩, by decide⟩
        | k + 1 => cases hb }
  fits :=
    { U := rfl
      U0 := rfl
      r := rfl
      K := rfl
      Krow := by
        intro row hrow
        rw [List.eq_of_mem_replicate hrow]
        rfl
      stretch := rfl
      force := rfl
      stress := rfl
      statev := fun h => absurd h (by decide)
      dof := by decide
      dofNodup := by decide }
  complete := by
    intro b hb
    rw [List.mem_singleton.1 hb]
    exact ⟨by simp [sbBar], by simp [sbBar], fun h => by cases h⟩
  statev := by
    intro sv h
    cases h
  ext := rfl
  forces := rfl
  forcesConst := rfl
  dofs := rfl

theorem sbAxis (u : ℝ) : sbBar.axis [0, 0, 0, u, 0, 0] = fun i => if i = 0 then 1 + u else 0 := by
  funext i
  fin_cases i <;> simp [Bar.axis, sbBar, row3]

theorem sbLen {u : ℝ} (hu : 0 ≤ u) : len (sbBar.axis [0, 0, 0, u, 0, 0]) = 1 + u := by
  rw [sbAxis]
  unfold len
  show √((1 + u) ^ 2 + 0 ^ 2 + 0 ^ 2) = 1 + u
  rw [show (1 + u) ^ 2 + 0 ^ 2 + 0 ^ 2 = (1 + u) ^ 2 by ring]
  exact Real.sqrt_sq (by linarith)

theorem sbRef : len sbBar.ref = 1 := by
  show √((1 - 0) ^ 2 + (0 - 0) ^ 2 + (0 - 0) ^ 2) = 1
  norm_num

theorem sbSmooth {u : ℝ} (hu : 0 ≤ u) (l : ℝ) : SmoothAt sbCtx [sbBar] sbA ![u, l] := by
  intro U hU k b hb
  have hU : (Except.ok [0, 0, 0, u, 0, 0] : Py (List ℝ)) = .ok U := by
    rw [← hU]
    simp [scatter, sbA, Analysis.fresh, List.replicate]
  cases hU
  match k with
  | 0 =>
    cases hb
    exact ⟨by rw [sbLen hu]; linarith, fun h => by cases h⟩
  | k + 1 => cases hb

/-- The residual of the bar is load factor minus displacement. -/
theorem sbResidual {u : ℝ} (hu : 0 ≤ u) (l : ℝ) {V0 : List ℝ} (hV0 : V0.length = 2) :
    ∃ a', equilibrium sbCtx sbA [u, l] V0 .G false = .ok (a', [l - u]) := by
  obtain ⟨a', h, -⟩ := equilibrium_closed sbEvaluable (u := [u]) (V0 := V0) rfl hV0 l false (U := [0, 0, 0, u, 0, 0]) rfl
  refine ⟨a', ?_⟩
  have hl : [u, l] = [u] ++ [l] := rfl
  rw [hl, h]
  have hdir : sbBar.dir [0, 0, 0, u, 0, 0] 0 = 1 := by
    unfold Bar.dir
    rw [sbLen hu, sbAxis]
    simp only [if_true]
    exact div_self (by linarith)
  have hs : sbBar.stretch [0, 0, 0, u, 0, 0] = 1 + u := by
    unfold Bar.stretch
    rw [sbLen hu, sbRef, div_one]
  have hf : forceFn sbCtx sbA.statev [sbBar] [0, 0, 0, u, 0, 0] 1 0 = u := by
    unfold forceFn
    simp only [List.zipIdx_cons, List.zipIdx_nil, List.map_cons, List.map_nil, List.sum_cons, List.sum_nil, add_zero]
    rw [hdir, hs]
    have : sbBar.stressAt (stateRow sbCtx sbA.statev 0) (1 + u - 1) = u := by
      show 1 * (1 + u - 1) = u
      ring
    rw [this]
    simp [sbBar, Bar.sgn]
  have : (sbA.DOF1.map fun p => [(0 : ℝ), 0, 0, 0, 0, 0].getD p 0 + l * [(0 : ℝ), 0, 0, 1, 0, 0].getD p 0 -
      forceFn sbCtx sbA.statev [sbBar] [0, 0, 0, u, 0, 0] (p / 3) (comp p)) =
      [0 + l * 1 - forceFn sbCtx sbA.statev [sbBar] [0, 0, 0, u, 0, 0] 1 0] := rfl
  rw [this, hf]
  simp

/-- The bar is in equilibrium with displacement and load factor `u`. -/
theorem sbEquilibrium {u : ℝ} (hu : 0 ≤ u) {V0 : List ℝ} (hV0 : V0.length = 2) :
    ∃ a', equilibrium sbCtx sbA (List.ofFn ![u, u]) V0 .G false = .ok (a', List.replicate 1 0) := by
  obtain ⟨a', h⟩ := sbResidual hu u hV0
  refine ⟨a', ?_⟩
  rw [show List.ofFn ![u, u] = [u, u] by simp [List.ofFn_succ], h, sub_self]
  rfl

/-- The extended matrix of the bar, controlling the load factor. -/
theorem sbMatrix_eq {u : ℝ} (hu : 0 ≤ u) (l : ℝ) :
    ∃ a', extDf (modelProblem sbCtx) 2 sbA (List.ofFn ![u, l]) = .ok (a', [[1, -1], [0, 1]]) := by
  obtain ⟨a', K0, K, h1, -, -, -, h5, h6, -⟩ := extDf_model sbEvaluable rfl rfl (n := 1) rfl (j := 2) (k := 1) rfl ![u, l]
  refine ⟨a', ?_⟩
  obtain ⟨⟨a2, K0'⟩, h7, rfl⟩ : ∃ r, stiffness sbCtx sbA (List.ofFn ![u, l]).dropLast = .ok r ∧ r.2 = K0 := by
    cases hst : stiffness sbCtx sbA (List.ofFn ![u, l]).dropLast with
    | ok r => rw [hst] at h5; exact ⟨r, rfl, Except.ok.inj h5⟩
    | error e => rw [hst] at h5; cases h5
  have hl : (List.ofFn ![u, l]).dropLast = [u] := by simp [List.ofFn_succ]
  rw [hl] at h7
  obtain ⟨-, xs, hxs, hK0⟩ := stiffness_closed sbEvaluable rfl h7 (U := [0, 0, 0, u, 0, 0]) rfl
  obtain ⟨r, rfl⟩ : ∃ r, xs = [r] := List.length_eq_one_iff.1 hxs.length
  have hdir : sbBar.dir [0, 0, 0, u, 0, 0] 0 = 1 := by
    unfold Bar.dir
    rw [sbLen hu, sbAxis]
    simp only [if_true]
    exact div_self (by linarith)
  have hr := hxs.result 0 sbBar r rfl rfl
  have harea : r.area = 1 := (Option.some.inj hr.area).symm
  have hD : r.dsde = 1 := by
    obtain ⟨de, out, hlaw, -, hd⟩ := hr.law
    rw [hd]
    cases hlaw
    rfl
  have hK : K0' = [[1]] := by
    have h : K0' = reducedStiffness sbA.DOF1 [sbBar] [r] [0, 0, 0, u, 0, 0] := hK0
    rw [h]
    have : reducedStiffness sbA.DOF1 [sbBar] [r] [0, 0, 0, u, 0, 0] =
        [[sbBar.sgn 1 * sbBar.sgn 1 * sbBar.tangent [0, 0, 0, u, 0, 0] r 0 0 + 0]] := rfl
    rw [this]
    unfold Bar.tangent
    rw [hdir, harea, hD, sbRef]
    simp [sbBar, Bar.sgn]
  have hKK : K = [[1, -1], [0, 1]] := by
    rw [h6]
    show List.zipWith _ K0' _ ++ _ = _
    rw [hK]
    rfl
  rw [h1, hKK]

theorem sbMatrix {u : ℝ} (hu : 0 ≤ u) (l : ℝ) : ∃ a' K, extDf (modelProblem sbCtx) 2 sbA (List.ofFn ![u, l]) = .ok (a', K) ∧
    IsUnit (Matrix.det (matOf 2 K)) := by
  obtain ⟨a', h⟩ := sbMatrix_eq hu l
  refine ⟨a', _, h, ?_⟩
  have : Matrix.det (matOf 2 [[1, -1], [0, 1]]) = 1 := by
    rw [Matrix.det_fin_two]
    simp [matOf]
  rw [this]
  exact isUnit_one

end TrussPy
