import Verif.Spec.Evaluation
import Verif.Instances
/-!
# A concrete structure used in the examples beside the theorems

Two bars 1-2 and 2-3 over nodes (0,0,0), (4,0,3), (8,0,0); the first is elastic (`E = 1`), the second
plastic (`E = 1`, `K = 1/2`, `Sy = 1/10`), both with unit area; only node 2 can move.
-/

namespace TrussPy

section
variable {F : Type} [Zero F]

/-- Tables; `q` converts rational numbers. -/
def exCtx (q : ℚ → F) : Ctx F where
  nodes := ⟨[1, 2, 3], ⟨3, [[q 0, q 0, q 0], [q 4, q 0, q 3], [q 8, q 0, q 0]]⟩⟩
  elems := {
    labels := [1, 2]
    conns := ⟨2, [[1, 2], [2, 3]]⟩
    etype := [1, 1]
    mtype := [1, 2]
    mprop := ⟨false, 3, [[q 1, q 0, q 0], [q 1, q (1/2), q (1/10)]]⟩
    gprop := ⟨false, 1, [[q 1], [q 1]]⟩ }
  nnodes := 3
  ndof1 := 3
  nstatev := 2

/-- A vector from its components. -/
def vec3 (x y z : F) : V3 F := fun i => if i = 0 then x else if i = 1 then y else z

omit [Zero F] in
@[simp] theorem vec3_0 (x y z : F) : vec3 x y z 0 = x := rfl
omit [Zero F] in
@[simp] theorem vec3_1 (x y z : F) : vec3 x y z 1 = y := rfl
omit [Zero F] in
@[simp] theorem vec3_2 (x y z : F) : vec3 x y z 2 = z := rfl

/-- The two bars. -/
def exBars (q : ℚ → F) : List (Bar F) :=
  [⟨0, 1, vec3 (q 0) (q 0) (q 0), vec3 (q 4) (q 0) (q 3), [q 1, q 0, q 0], [q 1], .el⟩,
   ⟨1, 2, vec3 (q 4) (q 0) (q 3), vec3 (q 8) (q 0) (q 0), [q 1, q (1/2), q (1/10)], [q 1], .elplast⟩]

/-- Analysis object at the start of a step with a unit load downwards at node 2. -/
def exA (q : ℚ → F) : Analysis F :=
  { Analysis.fresh 3 2 [0, 1, 2, 6, 7, 8] [3, 4, 5] 2 with
    extForces := some ⟨[q 0, q 0, q 0, q 0, q 0, q (-1), q 0, q 0, q 0], List.replicate 9 (q 0)⟩
    f0red := [q 0, q 0, q (-1)]
    lpf := some (q 0) }

omit [Zero F] in
theorem exCtx_bars (q : ℚ → F) : (exCtx q).Bars (exBars q) where
  nodes := by
    show ([1, 2, 3] : List Int).Nodup
    decide
  elems := by
    show ([1, 2] : List Int).Nodup
    decide
  length := rfl
  nnodes := rfl
  bar := by
    intro k b hb
    match k with
    | 0 =>
      cases hb
      exact ⟨⟨1, 2, rfl, rfl, rfl⟩, rfl, rfl, rfl, rfl, Or.inl ⟨rfl, rfl⟩, by simp⟩
    | 1 =>
      cases hb
      exact ⟨⟨2, 3, rfl, rfl, rfl⟩, rfl, rfl, rfl, rfl, Or.inr ⟨rfl, rfl⟩, by simp⟩
    | k + 2 => cases hb

theorem exA_fits (q : ℚ → F) : (exA q).Fits (exCtx q) where
  U := rfl
  U0 := rfl
  r := rfl
  K := rfl
  Krow := by
    intro row hrow
    have : row = List.replicate 3 fun _ _ => (0 : F) := List.eq_of_mem_replicate hrow
    rw [this]
    rfl
  stretch := rfl
  force := rfl
  stress := rfl
  statev := fun _ => ⟨_, rfl, rfl⟩
  dof := by
    show ∀ i ∈ [3, 4, 5], i < 3 * 3
    decide
  dofNodup := by
    show [3, 4, 5].Nodup
    decide

omit [Zero F] in
theorem exBars_complete (q : ℚ → F) : ∀ b ∈ exBars q, b.Complete 2 := by
  intro b hb
  simp only [exBars, List.mem_cons, List.not_mem_nil, or_false] at hb
  rcases hb with rfl | rfl
  · exact ⟨by simp, by simp, fun h => by cases h⟩
  · exact ⟨by simp, by simp, fun _ => ⟨by simp, by simp⟩⟩

end

end TrussPy
