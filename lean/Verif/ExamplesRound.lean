import Verif.ExamplesExact
import Verif.Spec.RoundedTruss
/-!
# The bar of `ExamplesExact` in any number format, used in the examples beside the theorems about rounded numbers
-/

namespace TrussPy

variable {F : Type} [Zero F] [One F]

/-- `sbCtx` in any number format. -/
def fmCtx : Ctx F where
  nodes := ⟨[1, 2], ⟨3, [[0, 0, 0], [1, 0, 0]]⟩⟩
  elems := {
    labels := [1]
    conns := ⟨2, [[1, 2]]⟩
    etype := [1]
    mtype := [1]
    mprop := ⟨false, 1, [[1]]⟩
    gprop := ⟨false, 1, [[1]]⟩ }
  nnodes := 2
  ndof1 := 1
  nstatev := 0

/-- `sbBar` in any number format. -/
def fmBar : Bar F := ⟨0, 1, fun _ => 0, fun i => if i = 0 then 1 else 0, [1], [1], .el⟩

/-- The unit load of `sbA`. -/
def fmLoad : StepForces F := ⟨[0, 0, 0, 1, 0, 0], [0, 0, 0, 0, 0, 0]⟩

/-- `sbA` in any number format. -/
def fmA : Analysis F :=
  { Analysis.fresh 2 1 [0, 1, 2, 4, 5] [3] 0 with
    extForces := some fmLoad
    f0red := [1]
    lpf := some 0 }

theorem fmEvaluable : Evaluable (F := F) fmCtx [fmBar] fmA fmLoad where
  tables :=
    { nodes := by show [1, 2].Nodup; decide
      elems := by show [1].Nodup; decide
      length := rfl
      nnodes := rfl
      bar := by
        intro k b hb
        match k with
        | 0 =>
          cases hb
          exact ⟨⟨1, 2, rfl, rfl, rfl⟩, rfl, by simp [CoordRow, fmCtx, fmBar], rfl, rfl, Or.inl ⟨rfl, rfl⟩, by show (0 : Nat) ≠ 1; decide⟩
        | k + 1 => cases hb }
  fits :=
    { U := rfl
      U0 := rfl
      r := rfl
      K := rfl
      Krow := by
        intro row hrow
        rw [List.eq_of_mem_replicate hrow]
        rfl
      stretch := rfl
      force := rfl
      stress := rfl
      statev := fun h => absurd h (Nat.lt_irrefl 0)
      dof := by intro i hi; simp [fmA, Analysis.fresh] at hi; rw [hi]; show 3 < 3 * 2; decide
      dofNodup := by show [3].Nodup; decide }
  complete := by
    intro b hb
    rw [List.mem_singleton.1 hb]
    exact ⟨by simp [fmBar], by simp [fmBar], fun h => by cases h⟩
  statev := by
    intro sv h
    cases h
  ext := rfl
  forces := rfl
  forcesConst := rfl
  dofs := rfl

theorem fmBar_image {val : F → ℝ} (h0 : val 0 = 0) (h1 : val 1 = 1) : [fmBar].map (Bar.image val) = [sbBar] := by
  show [Bar.image val fmBar] = _
  unfold Bar.image fmBar sbBar
  simp only [h0, List.map_cons, List.map_nil, h1, List.cons.injEq, Bar.mk.injEq, true_and, and_true]
  funext i
  split
  · exact h1
  · exact h0

theorem fmLoad_image {val : F → ℝ} (h0 : val 0 = 0) (h1 : val 1 = 1) : fmLoad.image val = ⟨[0, 0, 0, 1, 0, 0], [0, 0, 0, 0, 0, 0]⟩ := by
  simp [StepForces.image, fmLoad, h0, h1]

theorem fmTwin {val : F → ℝ} (h0 : val 0 = 0) : Twin val fmCtx fmA sbCtx sbA where
  nnodes := rfl
  ndof1 := rfl
  dof1 := rfl
  locked := by
    intro i _
    have h : ∀ (R : Type) (z : R), (List.replicate 6 z).getD i z = z := by
      intro R z
      rw [List.getD_eq_getElem?_getD, List.getElem?_replicate]
      split <;> rfl
    show (List.replicate 6 (0 : ℝ)).getD i 0 = val ((List.replicate 6 (0 : F)).getD i 0)
    rw [h, h, h0]

/-- The data of the bar are at most 1, and its length is 1. -/
theorem sbModerate : Moderate 1 [sbBar] ⟨[0, 0, 0, 1, 0, 0], [0, 0, 0, 0, 0, 0]⟩ where
  begin_ := by intro b hb d; rw [List.mem_singleton.1 hb]; simp [sbBar]
  end_ := by intro b hb d; rw [List.mem_singleton.1 hb]; simp only [sbBar]; split <;> simp
  modulus := by intro b hb; rw [List.mem_singleton.1 hb]; simp [sbBar]
  area := by intro b hb; rw [List.mem_singleton.1 hb]; simp [sbBar]
  ref := by intro b hb; rw [List.mem_singleton.1 hb]; simp [sbBar, dot3, Bar.ref]
  forces := by intro v hv; simp at hv; rcases hv with rfl | rfl | rfl <;> simp
  forcesConst := by intro v hv; simp at hv; rw [hv]; simp

theorem sbPlaced (u : ℝ) : Placed sbA.U sbA.DOF1 [u] [0, 0, 0, u, 0, 0] where
  length := rfl
  locked := by
    intro i hi
    have hi : i ≠ 3 := fun h => hi (by rw [h]; simp [sbA, Analysis.fresh])
    show ([0, 0, 0, u, 0, 0] : List ℝ)[i]? = (List.replicate 6 (0 : ℝ))[i]?
    match i with
    | 0 | 1 | 2 | 4 | 5 => rfl
    | 3 => exact absurd rfl hi
    | i + 6 => rfl
  free := by
    intro m i h
    match m with
    | 0 =>
      cases h
      rfl
    | m + 1 => cases h

theorem sbClear {u : ℝ} (h0 : 0 ≤ u) (h1 : u ≤ 1) : Clear 1 [sbBar] [0, 0, 0, u, 0, 0] where
  disp := by intro v hv; simp at hv; rcases hv with rfl | rfl | rfl <;> rw [abs_le] <;> constructor <;> linarith
  axis := by
    intro b hb
    rw [List.mem_singleton.1 hb, sbAxis]
    simp only [dot3]
    simp
    nlinarith

end TrussPy
