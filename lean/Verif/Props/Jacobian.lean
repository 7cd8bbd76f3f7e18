import Verif.Lemmas.Jacobian
import Verif.Run
/-!
# C26, C27: the matrices used by the solver are exact derivatives
-/

namespace TrussPy

/-- Value of an evaluation as a function of the displacements. -/
theorem equilibrium_closed {c : Ctx ℝ} {bars : List (Bar ℝ)} {a : Analysis ℝ} {ef : StepForces ℝ}
    (he : Evaluable c bars a ef) {u V0 : List ℝ} (hu : u.length = c.ndof1) (hV0 : V0.length = c.ndof1 + 1) (lpf : ℝ)
    (w : Bool) {U : List ℝ} (hU : scatter a.U a.DOF1 u = .ok U) :
    ∃ a', equilibrium c a (u ++ [lpf]) V0 .G w = .ok (a', a.DOF1.map fun p =>
      ef.forcesConst.getD p 0 + lpf * ef.forces.getD p 0 - forceFn c a.statev bars U (p / 3) (comp p)) ∧ a'.U = U := by
  obtain ⟨⟨a', g⟩, h⟩ := (C56_evaluation_total he.tables he.fits he.complete he.statev he.ext he.forces he.forcesConst he.dofs
    (V := u ++ [lpf]) (V0 := V0) (by simp [hu]) hV0 w).1
  refine ⟨a', ?_⟩
  obtain ⟨l, v, v0, U', U0, outs, ef', gg, p1, p2, p3, p4, p5, p6, p7, hA⟩ := equilibrium_G he.tables he.fits h
  have hsp : splitV c a (u ++ [lpf]) V0 = .ok (lpf, u, V0.take c.ndof1) := by
    unfold splitV
    rw [if_pos (by simp [hu]), List.getLast?_concat]
    simp only
    rw [List.take_left' hu]
  rw [hsp] at p1
  have e1 := Except.ok.inj p1
  have e2 : u = v := congrArg (fun t => t.2.1) e1
  have e3 : lpf = l := congrArg (fun t => t.1) e1
  subst e2 e3
  rw [hU] at p2
  have e4 := Except.ok.inj p2
  subst e4
  have hUU : a'.U = U := by
    rw [hA]
    unfold afterG
    simp only
    split <;> rfl
  refine ⟨?_, hUU⟩
  obtain ⟨xs, x1, -, -, -, -, x6⟩ := C23_internal_forces he.tables he.fits h
  obtain ⟨l', ef2, q1, q2, -, q4⟩ := C23_residual he.tables he.fits h
  have e5 : lpf = l' := by
    unfold LoadFactor at q1
    rw [if_pos (by simp [hu]), List.getLast?_concat] at q1
    exact Option.some.inj q1
  subst e5
  rw [he.ext] at q2
  have e6 := Option.some.inj q2
  subst e6
  rw [h, q4]
  congr 2
  refine List.map_congr_left fun p hp => ?_
  have hp3 : p / 3 < c.nnodes := by have := he.fits.dof p hp; omega
  rw [List.getD_eq_getElem?_getD (l := a'.r), x6 _ hp3, Option.getD_some, nodeForce_eq x1, hUU]

/-- Stiffness at the displacements `u`, on the results of its bars. -/
theorem stiffness_closed {c : Ctx ℝ} {bars : List (Bar ℝ)} {a : Analysis ℝ} {ef : StepForces ℝ}
    (he : Evaluable c bars a ef) {u : List ℝ} (hu : u.length = c.ndof1) {a' : Analysis ℝ} {K : List (List ℝ)}
    (h : stiffness c a u = .ok (a', K)) {U : List ℝ} (hU : scatter a.U a.DOF1 u = .ok U) :
    a'.U = U ∧ ∃ xs, Results.Of c bars U a.statev xs ∧ K = reducedStiffness a.DOF1 bars xs U := by
  obtain ⟨lpf, v, v0, U', U0, outs, p1, p2, p3, p4, p5, p6⟩ := stiffness_inv he.tables he.fits h
  have hv : v = u := by
    unfold splitV at p1
    rw [if_neg (by omega)] at p1
    split at p1
    · exact (congrArg (fun t => t.2.1) (Except.ok.inj p1)).symm
    · cases p1
  subst hv
  rw [hU] at p2
  have e := Except.ok.inj p2
  subst e
  have hUU : a'.U = U := by rw [p6]
  obtain ⟨xs, x1, -, x2⟩ := C23_stiffness he.tables he.fits h
  rw [hUU] at x1 x2
  exact ⟨hUU, xs, x1, x2⟩

theorem reducedStiffness_get {dofs : List Nat} {bars : List (Bar ℝ)} {xs : List BarRes} {U : List ℝ} {n : Nat}
    (hn : dofs.length = n) (m j : Fin n) : matOf n (reducedStiffness dofs bars xs U) m j =
      nodeStiffness bars xs U (dofs.getD m 0 / 3) (dofs.getD j 0 / 3) (comp (dofs.getD m 0)) (comp (dofs.getD j 0)) := by
  subst hn
  unfold matOf reducedStiffness
  simp only [List.getD_eq_getElem?_getD, List.getElem?_map, List.getElem?_eq_getElem m.isLt,
    List.getElem?_eq_getElem j.isLt, Option.map_some, Option.getD_some]

/-- **C26** The reduced stiffness matrix returned by `stiffness` is minus the Fréchet derivative of the
residual returned by `equilibrium` (i.e. the derivative of the internal force, the loads being constant)
with respect to the free displacements, at every state in which no bar has collapsed and no plastic bar
is exactly at yield. -/
theorem C26_stiffness_is_jacobian {c : Ctx ℝ} {bars : List (Bar ℝ)} {a : Analysis ℝ} {ef : StepForces ℝ}
    (he : Evaluable c bars a ef) {n : Nat} (hn : c.ndof1 = n) (lpf : ℝ) {V0 : List ℝ} (hV0 : V0.length = n + 1)
    (u : Fin n → ℝ) {a' : Analysis ℝ} {K : List (List ℝ)} (hK : stiffness c a (List.ofFn u) = .ok (a', K))
    (hs : ∀ (k : Nat) (b : Bar ℝ), bars[k]? = some b → b.Smooth a'.U (stateRow c a.statev k)) :
    HasFDerivAt (residualAt c a lpf V0 (n := n)) (-(LinearMap.toContinuousLinearMap (Matrix.toLin' (matOf n K)))) u := by
  subst hn
  have hsc : ∀ x : Fin c.ndof1 → ℝ, ∃ U, scatter a.U a.DOF1 (List.ofFn x) = .ok U :=
    fun x => scatter_ok (by rw [List.length_ofFn, he.dofs])
  choose U hU using hsc
  obtain ⟨hUU, xs, x1, x2⟩ := stiffness_closed he (by simp) hK (hU u)
  rw [hUU] at hs
  have hlt : ∀ i ∈ a.DOF1, i < a.U.length := fun i hi => by rw [he.fits.U]; exact he.fits.dof i hi
  rw [hasFDerivAt_pi']
  intro m
  obtain ⟨L, h1, h2⟩ := component_hasFDerivAt he.fits.dofNodup hlt he.dofs
    (u := fun x : Fin c.ndof1 → ℝ => x) (u' := fun m => ContinuousLinearMap.proj m)
    (fun m => (ContinuousLinearMap.proj (R := ℝ) (φ := fun _ : Fin c.ndof1 => ℝ) m).hasFDerivAt) hU x1 hs
    (a.DOF1.getD m 0 / 3) (comp (a.DOF1.getD m 0))
  have hfun : (fun x : Fin c.ndof1 → ℝ => residualAt c a lpf V0 x m) = fun x =>
      (ef.forcesConst.getD (a.DOF1.getD m 0) 0 + lpf * ef.forces.getD (a.DOF1.getD m 0) 0) -
        forceFn c a.statev bars (U x) (a.DOF1.getD m 0 / 3) (comp (a.DOF1.getD m 0)) := by
    funext x
    obtain ⟨a1, h3, -⟩ := equilibrium_closed he (u := List.ofFn x) (by simp) hV0 lpf false (hU x)
    unfold residualAt
    rw [h3]
    have hm : (m : Nat) < a.DOF1.length := by rw [he.dofs]; exact m.isLt
    simp only [List.getD_eq_getElem?_getD, List.getElem?_map, List.getElem?_eq_getElem hm, Option.map_some,
      Option.getD_some]
  rw [hfun]
  refine (h1.const_sub _).congr_fderiv ?_
  ext1 v
  show -(L v) = -((Matrix.toLin' (matOf c.ndof1 K)) v m)
  rw [h2, Matrix.toLin'_apply]
  congr 1
  unfold Matrix.mulVec dotProduct
  refine Finset.sum_congr rfl fun j _ => ?_
  show _ = matOf c.ndof1 K m j * v j
  rw [x2, reducedStiffness_get he.dofs]
  rfl

/-! ## C27 -/

theorem Evaluable.withJ {c : Ctx ℝ} {bars : List (Bar ℝ)} {a : Analysis ℝ} {ef : StepForces ℝ}
    (he : Evaluable c bars a ef) (j : Int) : Evaluable c bars { a with j := j } ef :=
  ⟨he.tables, ⟨he.fits.U, he.fits.U0, he.fits.r, he.fits.K, he.fits.Krow, he.fits.stretch, he.fits.force, he.fits.stress,
    he.fits.statev, he.fits.dof, he.fits.dofNodup⟩, he.complete, he.statev, he.ext, he.forces, he.forcesConst, he.dofs⟩

theorem pySet_pyGet {N : Nat} {i : Int} {qc : List ℝ} (h : pySet (List.replicate N (0 : ℝ)) i 1 = .ok qc) :
    ∃ k : Fin N, qc = (List.replicate N (0 : ℝ)).set k 1 ∧
      ∀ f : Fin N → ℝ, pyGet (List.ofFn f) i = .ok (f k) := by
  unfold pySet at h
  simp only [List.length_replicate] at h
  generalize hkk : (if 0 ≤ i then i else i + (N : Int)) = k at h
  by_cases hk : k < 0 ∨ (N : Int) ≤ k
  · rw [if_pos hk] at h
    cases h
  · rw [if_neg hk] at h
    have h := Except.ok.inj h
    push Not at hk
    refine ⟨⟨k.toNat, by omega⟩, h.symm, ?_⟩
    intro f
    unfold pyGet
    simp only [List.length_ofFn, hkk]
    rw [if_neg (by omega), List.getElem?_ofFn]
    simp only [show k.toNat < N by omega, dif_pos]

/-- **C27** The matrix `dfdx` of the path-following solver is the Fréchet derivative of the extended residual
`f = [-equilibrium(V); V_j - Vmax]` with respect to all entries of `V` (free displacements and load factor),
for every control component `j`, previous solution `V0` and target `Vmax`, at every state in which no bar
has collapsed and no plastic bar is exactly at yield.  `f0red` holds the loads of the free degrees of
freedom, as set up by the model. -/
theorem C27_extended_jacobian {c : Ctx ℝ} {bars : List (Bar ℝ)} {a : Analysis ℝ} {ef : StepForces ℝ}
    (he : Evaluable c bars a ef) (hf0 : a.f0red = a.DOF1.map fun p => ef.forces.getD p 0) {n : Nat} (hn : c.ndof1 = n)
    {V0 : List ℝ} (hV0 : V0.length = n + 1) (V : Fin (n + 1) → ℝ) (j : Int) (Vmax : ℝ) (w : Bool)
    {a' : Analysis ℝ} {K : List (List ℝ)} (hK : extDf (modelProblem c) j a (List.ofFn V) = .ok (a', K))
    (hs : ∀ (k : Nat) (b : Bar ℝ), bars[k]? = some b → b.Smooth a'.U (stateRow c a.statev k)) :
    HasFDerivAt (vecFun (n := n + 1) fun V => extF (modelProblem c) V0 j Vmax w a V)
      (LinearMap.toContinuousLinearMap (Matrix.toLin' (matOf (n + 1) K))) V := by
  subst hn
  have he' := he.withJ j
  unfold extDf at hK
  obtain ⟨qc, k1, hK⟩ := py_bind_eq_ok.1 hK
  obtain ⟨⟨a2, K0⟩, k2, hK⟩ := py_bind_eq_ok.1 hK
  have hK := Except.ok.inj hK
  have hKm : K = List.zipWith (fun row f0 => row ++ [-f0]) K0 a2.f0red ++ [qc] := (congrArg Prod.snd hK).symm
  have ha' : a'.U = a2.U := (congrArg (fun t => t.1.U) hK).symm
  clear hK
  have hsplit : ∀ x : Fin (c.ndof1 + 1) → ℝ, List.ofFn x = List.ofFn (fun i : Fin c.ndof1 => x i.castSucc) ++ [x (Fin.last _)] :=
    fun x => List.ofFn_succ_last
  have k2 : stiffness c { a with j := j } (List.ofFn V).dropLast = .ok (a2, K0) := k2
  rw [hsplit V, List.dropLast_concat] at k2
  have hsc : ∀ x : Fin (c.ndof1 + 1) → ℝ, ∃ U, scatter a.U a.DOF1 (List.ofFn fun i : Fin c.ndof1 => x i.castSucc) = .ok U :=
    fun x => scatter_ok (by rw [List.length_ofFn, he.dofs])
  choose U hU using hsc
  obtain ⟨hUU, xs, x1, x2⟩ := stiffness_closed he' (by simp) k2 (hU V)
  have hf2 : a2.f0red = a.DOF1.map fun p => ef.forces.getD p 0 := by
    obtain ⟨lpf, u, u0, U, U0, outs, -, -, -, -, -, p6⟩ := stiffness_inv he'.tables he'.fits k2
    rw [p6]
    exact hf0
  rw [ha', hUU] at hs
  have hlt : ∀ i ∈ a.DOF1, i < a.U.length := fun i hi => by rw [he.fits.U]; exact he.fits.dof i hi
  rw [List.length_ofFn] at k1
  obtain ⟨k, q1, q2⟩ := pySet_pyGet k1
  have hval : ∀ x : Fin (c.ndof1 + 1) → ℝ, ∃ r, extF (modelProblem c) V0 j Vmax w a (List.ofFn x) =
      .ok (r, (a.DOF1.map fun p => -(ef.forcesConst.getD p 0 + x (Fin.last _) * ef.forces.getD p 0 -
        forceFn c a.statev bars (U x) (p / 3) (comp p))) ++ [x k - Vmax]) := by
    intro x
    obtain ⟨a1, h3, -⟩ := equilibrium_closed he' (u := List.ofFn fun i : Fin c.ndof1 => x i.castSucc) (by simp) hV0
      (x (Fin.last _)) w (hU x)
    unfold extF modelProblem
    simp only
    rw [q2 x, hsplit x, h3]
    simp only [py_bind_ok, List.map_map]
    exact ⟨_, rfl⟩
  have hK0len : K0.length = c.ndof1 := by rw [x2]; simp [reducedStiffness, he.dofs]
  have hf2len : a2.f0red.length = c.ndof1 := by rw [hf2]; simp [he.dofs]
  have hzl : (List.zipWith (fun row f0 => row ++ [-f0]) K0 a2.f0red).length = c.ndof1 := by
    rw [List.length_zipWith, hK0len, hf2len, Nat.min_self]
  rw [hasFDerivAt_pi']
  intro m
  refine Fin.lastCases ?_ (fun m => ?_) m
  · -- control equation
    have hfun : (fun x : Fin (c.ndof1 + 1) → ℝ => vecFun (n := c.ndof1 + 1) (fun V => extF (modelProblem c) V0 j Vmax w a V) x
        (Fin.last _)) = fun x => x k - Vmax := by
      funext x
      obtain ⟨r, h3⟩ := hval x
      unfold vecFun
      simp only [h3]
      rw [List.getD_eq_getElem?_getD, Fin.val_last, List.getElem?_append_right (by simp [he.dofs])]
      simp [he.dofs]
    rw [hfun]
    have hp : HasFDerivAt (fun x : Fin (c.ndof1 + 1) → ℝ => x k) (ContinuousLinearMap.proj (R := ℝ) (φ := fun _ => ℝ) k) V :=
      (ContinuousLinearMap.proj (R := ℝ) (φ := fun _ : Fin (c.ndof1 + 1) => ℝ) k).hasFDerivAt
    refine (hp.sub_const Vmax).congr_fderiv ?_
    ext1 v
    show v k = (Matrix.toLin' (matOf (c.ndof1 + 1) K)) v (Fin.last _)
    rw [Matrix.toLin'_apply]
    unfold Matrix.mulVec dotProduct
    have hrow : ∀ i : Fin (c.ndof1 + 1), matOf (c.ndof1 + 1) K (Fin.last _) i = if i = k then 1 else 0 := by
      intro i
      unfold matOf
      rw [hKm, Fin.val_last]
      have e1 : (List.zipWith (fun row f0 => row ++ [-f0]) K0 a2.f0red ++ [qc]).getD c.ndof1 [] = qc := by
        rw [List.getD_eq_getElem?_getD, List.getElem?_append_right (by rw [hzl]), hzl]
        simp
      rw [e1, q1, List.getD_eq_getElem?_getD, List.getElem?_set]
      by_cases hik : i = k
      · subst hik
        simp [Nat.lt_succ_iff.1 i.isLt]
      · have : ¬ (k : Nat) = i := fun h => hik (Fin.ext h.symm)
        simp [this, hik, Nat.lt_succ_iff.1 i.isLt]
    simp only [hrow]
    simp
  · have hm : (m : Nat) < a.DOF1.length := by rw [he.dofs]; exact m.isLt
    have hdm : a.DOF1.getD m 0 = a.DOF1[(m : Nat)] := by
      rw [List.getD_eq_getElem?_getD, List.getElem?_eq_getElem hm]; rfl
    obtain ⟨L, h1, h2⟩ := component_hasFDerivAt he.fits.dofNodup hlt he.dofs
      (u := fun x : Fin (c.ndof1 + 1) → ℝ => fun i : Fin c.ndof1 => x i.castSucc)
      (u' := fun m => ContinuousLinearMap.proj m.castSucc)
      (fun m => (ContinuousLinearMap.proj (R := ℝ) (φ := fun _ : Fin (c.ndof1 + 1) => ℝ) m.castSucc).hasFDerivAt) hU x1 hs
      (a.DOF1.getD m 0 / 3) (comp (a.DOF1.getD m 0))
    have hfun : (fun x : Fin (c.ndof1 + 1) → ℝ => vecFun (n := c.ndof1 + 1) (fun V => extF (modelProblem c) V0 j Vmax w a V) x
        m.castSucc) = fun x =>
        forceFn c a.statev bars (U x) (a.DOF1.getD m 0 / 3) (comp (a.DOF1.getD m 0)) -
        (ef.forcesConst.getD (a.DOF1.getD m 0) 0 + x (Fin.last _) * ef.forces.getD (a.DOF1.getD m 0) 0) := by
      funext x
      obtain ⟨r, h3⟩ := hval x
      unfold vecFun
      simp only [h3, Fin.val_castSucc]
      rw [List.getD_eq_getElem?_getD, List.getElem?_append_left (by simpa using hm), List.getElem?_map,
        List.getElem?_eq_getElem hm, hdm]
      simp only [Option.map_some, Option.getD_some]
      ring
    rw [hfun]
    have hp : HasFDerivAt (fun x : Fin (c.ndof1 + 1) → ℝ => x (Fin.last _))
        (ContinuousLinearMap.proj (R := ℝ) (φ := fun _ => ℝ) (Fin.last _)) V :=
      (ContinuousLinearMap.proj (R := ℝ) (φ := fun _ : Fin (c.ndof1 + 1) => ℝ) (Fin.last _)).hasFDerivAt
    refine (h1.sub ((hp.mul_const _).const_add _)).congr_fderiv ?_
    ext1 v
    show L v - ef.forces.getD (a.DOF1.getD m 0) 0 * v (Fin.last _) = (Matrix.toLin' (matOf (c.ndof1 + 1) K)) v m.castSucc
    rw [h2, Matrix.toLin'_apply]
    unfold Matrix.mulVec dotProduct
    rw [Fin.sum_univ_castSucc]
    have hKm0 : (m : Nat) < K0.length := by rw [hK0len]; exact m.isLt
    have hfm : (m : Nat) < a2.f0red.length := by rw [hf2len]; exact m.isLt
    have hrowm : K.getD m [] = K0[(m : Nat)] ++ [-a2.f0red[(m : Nat)]] := by
      rw [hKm, List.getD_eq_getElem?_getD, List.getElem?_append_left (by rw [hzl]; exact m.isLt), List.getElem?_zipWith,
        List.getElem?_eq_getElem hKm0, List.getElem?_eq_getElem hfm]
      rfl
    have hrl : K0[(m : Nat)].length = c.ndof1 := by
      have hall : ∀ row ∈ K0, row.length = c.ndof1 := by
        rw [x2]
        intro row hr
        unfold reducedStiffness at hr
        simp only [List.mem_map] at hr
        obtain ⟨p, -, hp⟩ := hr
        rw [← hp]
        simp [he.dofs]
      exact hall _ (List.getElem_mem _)
    have hf0m : a2.f0red[(m : Nat)] = ef.forces.getD (a.DOF1.getD m 0) 0 := by
      have : a2.f0red[(m : Nat)]? = some (ef.forces.getD (a.DOF1.getD m 0) 0) := by
        rw [hf2, List.getElem?_map, List.getElem?_eq_getElem hm, hdm]
        rfl
      rw [List.getElem?_eq_getElem hfm] at this
      exact Option.some.inj this
    have e1 : matOf (c.ndof1 + 1) K m.castSucc (Fin.last _) = -ef.forces.getD (a.DOF1.getD m 0) 0 := by
      unfold matOf
      rw [Fin.val_castSucc, hrowm, Fin.val_last, List.getD_eq_getElem?_getD, List.getElem?_append_right (by rw [hrl]), hrl]
      rw [hf0m]
      simp
    have e2 : ∀ i : Fin c.ndof1, matOf (c.ndof1 + 1) K m.castSucc i.castSucc = matOf c.ndof1 K0 m i := by
      intro i
      unfold matOf
      rw [Fin.val_castSucc, Fin.val_castSucc, hrowm, List.getD_eq_getElem?_getD,
        List.getElem?_append_left (by rw [hrl]; exact i.isLt), List.getD_eq_getElem?_getD, List.getD_eq_getElem?_getD,
        List.getElem?_eq_getElem hKm0]
      rfl
    beta_reduce
    rw [e1, sub_eq_add_neg, ← neg_mul]
    congr 1
    refine Finset.sum_congr rfl fun i _ => ?_
    rw [e2, x2, reducedStiffness_get he.dofs]
    rfl

/-! ## The hypotheses are met -/

theorem ex_evaluable : Evaluable (exCtx fun q => (q : ℝ)) (exBars fun q => (q : ℝ)) (exA fun q => (q : ℝ))
    ⟨[((0 : ℚ) : ℝ), ((0 : ℚ) : ℝ), ((0 : ℚ) : ℝ), ((0 : ℚ) : ℝ), ((0 : ℚ) : ℝ), ((-1 : ℚ) : ℝ), ((0 : ℚ) : ℝ), ((0 : ℚ) : ℝ), ((0 : ℚ) : ℝ)],
      List.replicate 9 ((0 : ℚ) : ℝ)⟩ where
  tables := exCtx_bars _
  fits := exA_fits _
  complete := exBars_complete _
  statev := by
    intro sv hs row hrow
    have hs : (some (List.replicate 2 (List.replicate 2 (0 : ℝ)))) = some sv := hs
    cases hs
    rw [List.eq_of_mem_replicate hrow]
    rfl
  ext := rfl
  forces := rfl
  forcesConst := rfl
  dofs := rfl

/-- C26 and C27 apply to the example structure with node 2 pushed down to (4,0,0), where the second bar
yields: all bars are smooth there. -/
theorem ex_smooth {U : List ℝ} (hU : U = [0, 0, 0, 0, 0, -3, 0, 0, 0]) :
    ∀ (k : Nat) (b : Bar ℝ), (exBars fun q => (q : ℝ))[k]? = some b →
      b.Smooth U (stateRow (exCtx fun q => (q : ℝ)) (exA fun q => (q : ℝ)).statev k) := by
  subst hU
  have h16 : √(16 : ℝ) = 4 := by
    rw [show (16 : ℝ) = 4 ^ 2 by norm_num]
    exact Real.sqrt_sq (by norm_num)
  have h25 : √(25 : ℝ) = 5 := by
    rw [show (25 : ℝ) = 5 ^ 2 by norm_num]
    exact Real.sqrt_sq (by norm_num)
  intro k b hb
  match k with
  | 0 =>
    cases hb
    refine ⟨?_, fun h => by cases h⟩
    unfold len Bar.axis row3
    norm_num
  | 1 =>
    cases hb
    refine ⟨?_, fun _ => ⟨⟨1, 1/2, 1/10⟩, [], [], 0, 0, ⟨by norm_num, by norm_num, by norm_num⟩, by norm_num, rfl, le_rfl, ?_⟩⟩
    · unfold len Bar.axis row3
      norm_num
    · unfold Bar.stretch len Bar.axis Bar.ref row3
      norm_num
      rw [h16, h25]
      norm_num [abs_of_pos, abs_of_neg]
  | k + 2 => cases hb

example : ∃ a' K, stiffness (exCtx fun q => (q : ℝ)) (exA fun q => (q : ℝ)) (List.ofFn ![0, 0, -3]) = .ok (a', K) ∧
    HasFDerivAt (residualAt (exCtx fun q => (q : ℝ)) (exA fun q => (q : ℝ)) (1/2) [0, 0, 0, 0] (n := 3))
      (-(LinearMap.toContinuousLinearMap (Matrix.toLin' (matOf 3 K)))) ![0, 0, -3] := by
  obtain ⟨⟨a', K⟩, h⟩ := (ex_total (fun q => (q : ℝ)) 0 0 (-3) 0 0 0 0 0 false).2
  have hl : List.ofFn ![(0 : ℝ), 0, -3] = [0, 0, -3] := by simp [List.ofFn_succ]
  refine ⟨a', K, by rw [hl]; exact h, ?_⟩
  refine C26_stiffness_is_jacobian (n := 3) ex_evaluable rfl (1/2) rfl _ (by rw [hl]; exact h) (ex_smooth ?_)
  obtain ⟨h1, -⟩ := stiffness_closed ex_evaluable rfl h (U := [0, 0, 0, 0, 0, -3, 0, 0, 0]) rfl
  exact h1

/-- The same for the extended matrix, controlling the vertical displacement of node 2. -/
example : ∃ a' K, extDf (modelProblem (exCtx fun q => (q : ℝ))) (-3) (exA fun q => (q : ℝ)) (List.ofFn ![0, 0, -3, 1/2]) = .ok (a', K) ∧
    HasFDerivAt (vecFun (n := 4) fun V => extF (modelProblem (exCtx fun q => (q : ℝ))) [0, 0, 0, 0] (-3) (-2) false
      (exA fun q => (q : ℝ)) V) (LinearMap.toContinuousLinearMap (Matrix.toLin' (matOf 4 K))) ![0, 0, -3, 1/2] := by
  obtain ⟨⟨a2, K⟩, h⟩ := (C56_evaluation_total (ex_evaluable.withJ (-3)).tables (ex_evaluable.withJ (-3)).fits
    (ex_evaluable.withJ (-3)).complete (ex_evaluable.withJ (-3)).statev (ex_evaluable.withJ (-3)).ext rfl rfl rfl
    (V := [0, 0, -3, 1/2]) (V0 := [0, 0, 0, 0]) rfl rfl false).2 rfl
  have hl : List.ofFn ![(0 : ℝ), 0, -3, 1/2] = [0, 0, -3, 1/2] := by simp [List.ofFn_succ]
  have hK : ∃ a' K', extDf (modelProblem (exCtx fun q => (q : ℝ))) (-3) (exA fun q => (q : ℝ)) [0, 0, -3, 1/2] = .ok (a', K') ∧ a'.U = a2.U := by
    unfold extDf modelProblem
    simp only
    have hp : pySet (List.replicate ([(0 : ℝ), 0, -3, 1/2]).length (0 : ℝ)) (((-3 : Int).natAbs : Int) - 1) 1 = .ok [0, 0, 1, 0] := rfl
    rw [hp, h]
    exact ⟨_, _, rfl, rfl⟩
  obtain ⟨a', K', hK, hU⟩ := hK
  refine ⟨a', K', by rw [hl]; exact hK, ?_⟩
  refine C27_extended_jacobian (n := 3) ex_evaluable rfl rfl rfl _ (-3) (-2) false (by rw [hl]; exact hK) (ex_smooth ?_)
  rw [hU]
  exact (stiffness_closed (ex_evaluable.withJ (-3)) rfl h (U := [0, 0, 0, 0, 0, -3, 0, 0, 0]) rfl).1

end TrussPy
