import Verif.Lemmas.Tame
import Verif.Lemmas.Run
import Verif.Props.Jacobian
import Verif.Props.Eval
import Mathlib.Analysis.SpecialFunctions.Sqrt
import Mathlib.Analysis.Calculus.ContDiff.Basic
/-!
# The extended system of equations of the model, as functions of real vectors
-/

namespace TrussPy

theorem Trial.sameInputs {a b : Analysis ℝ} (h : Trial a b) : SameInputs a b where
  dof1 := h.dof1.symm
  ext := h.ext.symm
  statev := h.statev.symm
  lpf := h.lpf.symm
  U := fun i hi => (h.Uout i hi).symm
  U0 := fun i hi => (h.U0out i hi).symm
  Ulen := h.Ulen.symm
  U0len := h.U0len.symm
  rlen := h.rlen.symm
  Kshape := h.Kshape.symm

theorem Evaluable.trial {c : Ctx ℝ} {bars : List (Bar ℝ)} {a b : Analysis ℝ} {ef : StepForces ℝ} (he : Evaluable c bars a ef)
    (h : Trial a b) : Evaluable c bars b ef :=
  ⟨he.tables, h.fits he.fits, he.complete, by rw [h.statev]; exact he.statev, by rw [h.ext]; exact he.ext, he.forces,
    he.forcesConst, by rw [h.dof1]; exact he.dofs⟩

/-- Extended residual in closed form: internal minus external forces of the free components and the control equation. -/
noncomputable def closedRes (c : Ctx ℝ) (bars : List (Bar ℝ)) (ef : StepForces ℝ) (a : Analysis ℝ) {n : Nat} (k : Fin (n + 1))
    (Vmax : ℝ) (U : List ℝ) (x : Fin (n + 1) → ℝ) : Fin (n + 1) → ℝ :=
  Fin.snoc (α := fun _ => ℝ) (fun m : Fin n => forceFn c a.statev bars U (a.DOF1.getD m 0 / 3) (comp (a.DOF1.getD m 0)) -
    (ef.forcesConst.getD (a.DOF1.getD m 0) 0 + x (Fin.last n) * ef.forces.getD (a.DOF1.getD m 0) 0)) (x k - Vmax)

theorem ofFn_split {n : Nat} (x : Fin (n + 1) → ℝ) :
    List.ofFn x = List.ofFn (fun i : Fin n => x i.castSucc) ++ [x (Fin.last _)] := List.ofFn_succ_last

theorem extF_closed {c : Ctx ℝ} {bars : List (Bar ℝ)} {a : Analysis ℝ} {ef : StepForces ℝ} (he : Evaluable c bars a ef)
    {n : Nat} (hn : c.ndof1 = n) {V0 : List ℝ} (hV0 : V0.length = n + 1) {j : Int} {k : Fin (n + 1)} (hj : j.natAbs = k + 1)
    (Vmax : ℝ) (w : Bool) (x : Fin (n + 1) → ℝ) {U : List ℝ}
    (hU : scatter a.U a.DOF1 (List.ofFn fun i : Fin n => x i.castSucc) = .ok U) :
    ∃ a', extF (modelProblem c) V0 j Vmax w a (List.ofFn x) = .ok (a', List.ofFn (closedRes c bars ef a k Vmax U x)) := by
  subst hn
  obtain ⟨a1, h3, -⟩ := equilibrium_closed (he.withJ j) (u := List.ofFn fun i : Fin c.ndof1 => x i.castSucc) (by simp) hV0
    (x (Fin.last _)) w hU
  have hget : pyGet (List.ofFn x) ((j.natAbs : Int) - 1) = .ok (x k) := by
    have : ((j.natAbs : Int) - 1) = ((k : Nat) : Int) := by omega
    rw [this]
    exact pyGet_ok_nat.2 (by rw [List.getElem?_ofFn, dif_pos k.isLt])
  rw [← ofFn_split x] at h3
  have h4 := show (modelProblem c).g { a with j := j } (List.ofFn x) V0 w = _ from h3
  refine ⟨a1, ?_⟩
  unfold extF
  simp only [h4, hget, py_bind_ok, List.map_map]
  refine congrArg (fun l => Except.ok (a1, l)) ?_
  rw [ofFn_split]
  have e1 : closedRes c bars ef a k Vmax U x (Fin.last _) = x k - Vmax := by
    unfold closedRes
    rw [Fin.snoc_last]
  have e2 : ∀ m : Fin c.ndof1, closedRes c bars ef a k Vmax U x m.castSucc =
      forceFn c a.statev bars U (a.DOF1.getD m 0 / 3) (comp (a.DOF1.getD m 0)) -
    (ef.forcesConst.getD (a.DOF1.getD m 0) 0 + x (Fin.last _) * ef.forces.getD (a.DOF1.getD m 0) 0) := by
    intro m
    unfold closedRes
    rw [Fin.snoc_castSucc]
  rw [e1]
  simp only [e2]
  congr 1
  apply List.ext_getElem (by simp [he.dofs])
  intro i g1 g2
  have hi : i < a.DOF1.length := by simpa using g1
  simp only [List.getElem_map, List.getElem_ofFn, Function.comp_apply, List.getD_eq_getElem?_getD,
    List.getElem?_eq_getElem hi, Option.getD_some]
  ring

/-- The extended residual as a function of a real vector. -/
noncomputable def sysRes (c : Ctx ℝ) (a : Analysis ℝ) (n : Nat) (V0 : List ℝ) (j : Int) (Vmax : ℝ) :
    (Fin (n + 1) → ℝ) → Fin (n + 1) → ℝ :=
  vecFun (n := n + 1) fun V => extF (modelProblem c) V0 j Vmax false a V

/-- The extended matrix as a function of a real vector. -/
noncomputable def sysMat (c : Ctx ℝ) (a : Analysis ℝ) (n : Nat) (j : Int) (x : Fin (n + 1) → ℝ) :
    Matrix (Fin (n + 1)) (Fin (n + 1)) ℝ :=
  match extDf (modelProblem c) j a (List.ofFn x) with
  | .ok (_, K) => matOf (n + 1) K
  | .error _ => 0

section
variable {c : Ctx ℝ} {bars : List (Bar ℝ)} {a : Analysis ℝ} {ef : StepForces ℝ}

/-- The displacements of all nodes, given the free ones. -/
theorem exists_disp (he : Evaluable c bars a ef) {n : Nat} (hn : c.ndof1 = n) : ∃ U : (Fin (n + 1) → ℝ) → List ℝ,
    ∀ x, scatter a.U a.DOF1 (List.ofFn fun i : Fin n => x i.castSucc) = .ok (U x) := by
  have hsc : ∀ x : Fin (n + 1) → ℝ, ∃ U, scatter a.U a.DOF1 (List.ofFn fun i : Fin n => x i.castSucc) = .ok U :=
    fun x => scatter_ok (by rw [List.length_ofFn, he.dofs, hn])
  choose U hU using hsc
  exact ⟨U, hU⟩

theorem sysRes_closed (he : Evaluable c bars a ef) {n : Nat} (hn : c.ndof1 = n) {V0 : List ℝ} (hV0 : V0.length = n + 1)
    {j : Int} {k : Fin (n + 1)} (hj : j.natAbs = k + 1) (Vmax : ℝ) (x : Fin (n + 1) → ℝ) {U : List ℝ}
    (hU : scatter a.U a.DOF1 (List.ofFn fun i : Fin n => x i.castSucc) = .ok U) :
    sysRes c a n V0 j Vmax x = closedRes c bars ef a k Vmax U x := by
  obtain ⟨a', h⟩ := extF_closed he hn hV0 hj Vmax false x hU
  funext m
  unfold sysRes vecFun
  simp only [h]
  rw [List.getD_eq_getElem?_getD, List.getElem?_ofFn, dif_pos m.isLt]
  rfl

theorem extDf_model (he : Evaluable c bars a ef) (hl : a.lpf.isSome = true)
    (hf0 : a.f0red = a.DOF1.map fun p => ef.forces.getD p 0) {n : Nat} (hn : c.ndof1 = n)
    {j : Int} {k : Fin (n + 1)} (hj : j.natAbs = k + 1) (x : Fin (n + 1) → ℝ) :
    ∃ a' K0 K, extDf (modelProblem c) j a (List.ofFn x) = .ok (a', K) ∧ Trial a a' ∧ K.length = n + 1 ∧
      (∀ row ∈ K, row.length = n + 1) ∧ (stiffness c a (List.ofFn x).dropLast).map (·.2) = .ok K0 ∧
      K = List.zipWith (fun row f0 => row ++ [-f0]) K0 a.f0red ++ [(List.replicate (n + 1) (0 : ℝ)).set k 1] ∧
      scatter a.U a.DOF1 (List.ofFn fun i : Fin n => x i.castSucc) = .ok a'.U := by
  have hej := he.withJ j
  obtain ⟨⟨a1, K0⟩, hK⟩ := (C56_evaluation_total hej.tables hej.fits hej.complete hej.statev hej.ext hej.forces
    hej.forcesConst hej.dofs (V := List.ofFn x) (V0 := List.ofFn x) (by simp [hn]) (by simp [hn]) false).2 hl
  have hset : pySet (List.replicate (List.ofFn x).length (0 : ℝ)) ((j.natAbs : Int) - 1) 1 =
      .ok ((List.replicate (n + 1) (0 : ℝ)).set k 1) := by
    have h1 := k.isLt
    unfold pySet
    simp only [List.length_replicate, List.length_ofFn]
    rw [if_pos (show (0 : Int) ≤ (j.natAbs : Int) - 1 by omega), if_neg (by omega)]
    congr 2
    omega
  have hfr := stiffness_frame hK
  have hf1 : a1.f0red = a.f0red := hfr.f0red
  have hsame := (C31_depends_only (c := c) (Trial.book a j a.Kmod a.dVmax).sameInputs (List.ofFn x).dropLast [] false).2
  have hd : (List.ofFn x).dropLast = List.ofFn fun i : Fin n => x i.castSucc := by rw [ofFn_split, List.dropLast_concat]
  obtain ⟨U, hU⟩ := exists_disp he hn
  have hUU := stiffness_closed hej (u := (List.ofFn x).dropLast) (by simp [hn]) hK (U := U x) (by rw [hd]; exact hU x)
  obtain ⟨hUa, xs, -, hK0⟩ := hUU
  have hlenK : K0.length = n := by
    rw [hK0]; simp [reducedStiffness]; rw [← hn]; exact he.dofs
  have hlenR : ∀ row ∈ K0, row.length = n := by
    rw [hK0]
    intro row hr
    unfold reducedStiffness at hr
    simp only [List.mem_map] at hr
    obtain ⟨p, -, hp⟩ := hr
    rw [← hp, ← hn]
    simp [he.dofs]
  have hlf : a.f0red.length = n := by rw [hf0]; simp [he.dofs, hn]
  have hdf : extDf (modelProblem c) j a (List.ofFn x) = .ok ({ a1 with
      Kmod := List.zipWith (fun row f0 => row ++ [-f0]) K0 a1.f0red ++ [(List.replicate (n + 1) (0 : ℝ)).set k 1] },
      List.zipWith (fun row f0 => row ++ [-f0]) K0 a1.f0red ++ [(List.replicate (n + 1) (0 : ℝ)).set k 1]) := by
    unfold extDf
    have hK' : (modelProblem c).dgdx { a with j := j } (List.ofFn x).dropLast = .ok (a1, K0) := hK
    simp only [hset, hK', py_bind_ok]
    rfl
  rw [hf1] at hdf
  refine ⟨_, K0, _, hdf, extDf_trial hdf, ?_, ?_, ?_, rfl, ?_⟩
  · simp [hlenK, hlf]
  · intro row hr
    rcases List.mem_append.1 hr with hr | hr
    · obtain ⟨i, hi⟩ := List.getElem?_of_mem hr
      rw [List.getElem?_zipWith] at hi
      split at hi
      · next r f h1 h2 =>
        cases hi
        simp [hlenR r (List.mem_of_getElem? h1)]
      · cases hi
    · rw [List.mem_singleton.1 hr]
      simp
  · revert hsame
    cases hs : stiffness c a (List.ofFn x).dropLast with
    | error e =>
      intro h1
      have h1 : Except.error e = Except.map seenK (stiffness c { a with j := j } (List.ofFn x).dropLast) := h1
      rw [hK] at h1
      cases h1
    | ok r =>
      intro h1
      have h1 : Except.ok (seenK r) = Except.map seenK (stiffness c { a with j := j } (List.ofFn x).dropLast) := h1
      rw [hK] at h1
      have := congrArg Prod.fst (Except.ok.inj h1)
      show Except.ok r.2 = Except.ok K0
      congr 1
  · show scatter a.U a.DOF1 _ = .ok a1.U
    rw [hUa]
    exact hU x

/-- The model's callables compute the extended system, whatever trial evaluations were done before. -/
theorem model_computes (he : Evaluable c bars a ef) (hl : a.lpf.isSome = true)
    (hf0 : a.f0red = a.DOF1.map fun p => ef.forces.getD p 0) {n : Nat} (hn : c.ndof1 = n) {V0 : List ℝ}
    (hV0 : V0.length = n + 1) {j : Int} {k : Fin (n + 1)} (hj : j.natAbs = k + 1) (Vmax : ℝ) :
    Computes (n + 1) (Trial a) (extF (modelProblem c) V0 j Vmax false) (extDf (modelProblem c) j)
      (sysRes c a n V0 j Vmax) (sysMat c a n j) where
  value := by
    intro b x hb
    obtain ⟨U, hU⟩ := exists_disp he hn
    have hU' : scatter b.U b.DOF1 (List.ofFn fun i : Fin n => x i.castSucc) = .ok (U x) := by
      rw [hb.dof1, ← hU x]
      exact scatter_congr hb.Ulen hb.Uout
    obtain ⟨b', h⟩ := extF_closed (he.trial hb) hn hV0 hj Vmax false x hU'
    refine ⟨b', ?_, hb.trans (extF_trial h)⟩
    rw [h, sysRes_closed he hn hV0 hj Vmax x (hU x)]
    unfold closedRes
    rw [hb.statev, hb.dof1]
  matrix := by
    intro b x hb
    obtain ⟨a', K0, K, h1, -, -, -, h4, h5, -⟩ := extDf_model he hl hf0 hn hj x
    obtain ⟨b', K0', K', g1, g2, g3, g3', g4, g5, -⟩ := extDf_model (he.trial hb) (by rw [hb.lpf]; exact hl)
      (by rw [hb.f0red, hb.dof1]; exact hf0) hn hj x
    refine ⟨b', K', g1, hb.trans g2, g3, g3', ?_⟩
    have hsame := (C31_depends_only (c := c) hb.sameInputs (List.ofFn x).dropLast [] false).2
    have hK : K0 = K0' := by
      revert hsame h4 g4
      cases stiffness c a (List.ofFn x).dropLast with
      | error e => intro h; cases h
      | ok r =>
        cases stiffness c b (List.ofFn x).dropLast with
        | error e => intro _ h; cases h
        | ok r' =>
          intro e1 e2 e3
          have e1 : r.2 = K0 := Except.ok.inj e1
          have e2 : r'.2 = K0' := Except.ok.inj e2
          have e3 := congrArg Prod.fst (Except.ok.inj e3)
          have e3 : r.2 = r'.2 := e3
          rw [← e1, ← e2, e3]
    unfold sysMat
    rw [h1]
    simp only
    rw [h5, g5, hb.f0red, hK]

end

end TrussPy
