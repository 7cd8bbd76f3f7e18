import Verif.Lemmas.Rigid
import Verif.ExamplesRigid
/-!
# Property C72: the initial stiffness matrix is regular exactly for kinematically stable structures
-/

set_option linter.unusedSectionVars false

namespace TrussPy

/-- **C72** The stiffness matrix of the undeformed model (evaluated right after `build`, with any load factor) is regular
exactly if the entered structure is no mechanism: no velocity of the nodes which the supports allow leaves all bar lengths
unchanged, except zero. -/
theorem C72_regular_iff_stable {argsort : List Int → List Nat} (has : IsArgsort argsort) {u : UserInput ℝ}
    {es : List (Elem ℝ)} {m m1 : Model ℝ} {nsteps : Nat} (hu : Entered u m) (he : EnteredElems es m)
    (hv : ValidInput u es nsteps) (hst : StiffElems u es) (hb : m.build argsort = .ok m1) {c : Ctx ℝ} {a : Analysis ℝ}
    (hc : m1.ctx = some c) (ha : m1.analysis = some a) (l : ℝ) :
    ∃ a' K, stiffness c { a with lpf := some l } (List.replicate (freeCount u) 0) = .ok (a', K) ∧
      (IsUnit (matOf (freeCount u) K).det ↔ KinematicallyStable u es) := by
  obtain ⟨c', d, bars, ft, h1, h2, h3, h4, h5, h6, h7, h8, h9, h10, h11, h12, h13, h14⟩ := built_structure has hu he hv hb
  rw [h1] at hc; cases hc
  rw [h11] at ha
  have ha := (Option.some.inj ha).symm
  subst ha
  set a0 : Analysis ℝ := { Analysis.fresh d.nnodes d.nelems d.dof0 d.dof1 c.nstatev with lpf := some l } with ha0
  have hf : a0.Fits c := ⟨h12.U, h12.U0, h12.r, h12.K, h12.Krow, h12.stretch, h12.force, h12.stress, h12.statev, h12.dof,
    h12.dofNodup⟩
  have hsv : a0.statev = freshState ℝ d.nelems c.nstatev := rfl
  obtain ⟨⟨a', K⟩, hK⟩ := stiffness_returns h4 hf h5 (by
      intro sv hs row hrow
      rw [hsv] at hs
      unfold freshState at hs
      split at hs
      · cases hs
        rw [List.eq_of_mem_replicate hrow]
        simp
      · cases hs) (by rw [h9]; rfl) rfl (u := List.replicate (freeCount u) 0) (by simp [h9, h10])
  refine ⟨a', K, hK, ?_⟩
  obtain ⟨lpf, v, v0, U, U0, outs, p1, p2, p3, p4, p5, p6⟩ := stiffness_inv h4 hf hK
  have hvz : v = List.replicate (freeCount u) 0 := by
    unfold splitV at p1
    rw [if_neg (by simp [h9, h10])] at p1
    have p1 : (Except.ok (l, List.replicate (freeCount u) (0 : ℝ), List.replicate (freeCount u) (0 : ℝ)) :
      Py (ℝ × List ℝ × List ℝ)) = .ok (lpf, v, v0) := p1
    cases p1
    rfl
  subst hvz
  have hUU : a'.U = U := by rw [p6]
  have hz : ∀ p, a'.U.getD p 0 = 0 := by
    rw [hUU]
    exact scatter_zeros (n := 3 * d.nnodes) (idx := d.dof1) h10 p2
  have := stiffness_regular_iff h4 hf hK (meant_stiff h7 hst) (fresh_virgin h5 h13 hsv) hz
  have hlen : a0.DOF1.length = freeCount u := h10
  rw [hlen] at this
  rw [this]
  exact stable_iff hv.posed.nodes h6 h4.nnodes h7 h12.dofNodup h12.dof h14

/-- C72 applies to the bar that can only move along its axis, which is stable, and to the bar whose end can also move
sideways, which is not. -/
example (argsort : List Int → List Nat) (has : IsArgsort argsort) :
    (∃ m1 c a a' K, rbModel.build argsort = .ok m1 ∧ m1.ctx = some c ∧ m1.analysis = some a ∧
      stiffness c { a with lpf := some 0 } [0] = .ok (a', K) ∧ IsUnit (matOf 1 K).det) ∧
    ∃ m1 c a a' K, mbModel.build argsort = .ok m1 ∧ m1.ctx = some c ∧ m1.analysis = some a ∧
      stiffness c { a with lpf := some 0 } [0, 0] = .ok (a', K) ∧ ¬IsUnit (matOf 2 K).det := by
  constructor
  · obtain ⟨m1, c, bars, a, r0, ft, h1, h2, -, -, -, h6, -⟩ := rbValid.built has rbEntered rbEnteredElems rfl
    obtain ⟨a', K, h7, h8⟩ := C72_regular_iff_stable has rbEntered rbEnteredElems rbValid rbStiff h1 h2 h6 0
    exact ⟨m1, c, a, a', K, h1, h2, h6, h7, h8.2 rbStable⟩
  · obtain ⟨m1, c, bars, a, r0, ft, h1, h2, -, -, -, h6, -⟩ := mbValid.built has mbEntered mbEnteredElems rfl
    obtain ⟨a', K, h7, h8⟩ := C72_regular_iff_stable has mbEntered mbEnteredElems mbValid mbStiff h1 h2 h6 0
    exact ⟨m1, c, a, a', K, h1, h2, h6, h7, fun h => mbUnstable (h8.1 h)⟩

end TrussPy
