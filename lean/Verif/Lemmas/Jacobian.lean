import Verif.Props.Mechanics
import Verif.Props.Material
import Mathlib.Analysis.SpecialFunctions.Sqrt
import Mathlib.Analysis.Calculus.FDeriv.Pi
import Mathlib.Analysis.Calculus.FDeriv.Mul
import Mathlib.Analysis.Calculus.FDeriv.Add
import Mathlib.Analysis.Calculus.Deriv.Comp
import Mathlib.Analysis.Calculus.Deriv.Inv
import Mathlib.Topology.Algebra.Module.FiniteDimension
/-!
# Derivatives of bar forces
-/

namespace TrussPy

variable {E : Type} [NormedAddCommGroup E] [NormedSpace ℝ E]

/-- Stress of a bar at displacements `U`. -/
noncomputable def Bar.stressAt (b : Bar ℝ) (row : Option (List ℝ)) (e : ℝ) : ℝ :=
  TrussPy.stressAt (fun e => b.law.call e 0 b.mat row) e

theorem law_hasDerivAt {b : Bar ℝ} {U : List ℝ} {row : Option (List ℝ)} (h : b.Smooth U row) {x : BarRes}
    (hx : b.Result U row x) : HasDerivAt (b.stressAt row) x.dsde (b.stretch U - 1) := by
  obtain ⟨s1, ⟨de, out, l1, l2, l3⟩, a1, f1⟩ := hx
  rw [s1] at l1
  rw [l3]
  unfold Bar.stressAt
  cases hl : b.law with
  | el =>
    rw [hl] at l1
    obtain ⟨m, h1, h2⟩ := py_bind_eq_ok.1 l1
    have h2 := Except.ok.inj h2
    rw [← h2]
    have h1 := pyGet_ok_nat.1 h1
    cases hm : b.mat with
    | nil => rw [hm] at h1; cases h1
    | cons E rest =>
      rw [hm] at h1
      have hE : E = m := Option.some.inj h1
      subst hE
      obtain ⟨o, o1, o2⟩ := C20_tangent_elastic E rest row (b.stretch U - 1) 0
      have : o = ⟨E * (b.stretch U - 1), E, 0, row⟩ := (Except.ok.inj o1).symm
      rw [this] at o2
      exact o2
  | elplast =>
    obtain ⟨m, rest, more, y, p, hv, hm, hr, hy, hoff⟩ := h.plastic hl
    rw [hl, hm, hr] at l1
    rw [hm, hr]
    have hY : 0 ≤ if y = 0 then m.Sy else y := by
      split
      · exact hv.Sy.le
      · exact hy
    have hcall : ∀ e de, Umat.call .elplast e de (m.E :: m.K :: m.Sy :: rest) (some (y :: p :: more)) = _ :=
      fun e de => umat_real hv rest e de y p rfl hY more
    rw [hcall] at l1
    have l1 := Except.ok.inj l1
    rw [← l1]
    have hfun : (TrussPy.stressAt fun e => Umat.call .elplast e 0 (m.E :: m.K :: m.Sy :: rest) (some (y :: p :: more))) =
        fun e => m.E * (e - Spec.newP m (if y = 0 then m.Sy else y) p e) := by
      funext e
      unfold TrussPy.stressAt
      simp only [hcall]
    rw [hfun]
    exact stress_hasDerivAt hv hY hoff

/-- Derivative of the length of a vector. -/
theorem len_hasFDerivAt {d : E → V3 ℝ} {D : Fin 3 → E →L[ℝ] ℝ} {x : E} (hd : ∀ c, HasFDerivAt (fun x => d x c) (D c) x)
    (hl : len (d x) ≠ 0) :
    HasFDerivAt (fun x => len (d x)) ((d x 0 / len (d x)) • D 0 + (d x 1 / len (d x)) • D 1 + (d x 2 / len (d x)) • D 2) x := by
  have h1 : HasFDerivAt (fun x => d x 0 ^ 2 + d x 1 ^ 2 + d x 2 ^ 2)
      ((2 * d x 0) • D 0 + (2 * d x 1) • D 1 + (2 * d x 2) • D 2) x := by
    have := (((hd 0).mul (hd 0)).add ((hd 1).mul (hd 1))).add ((hd 2).mul (hd 2))
    refine (this.congr_of_eventuallyEq (Filter.Eventually.of_forall fun y => ?_)).congr_fderiv ?_
    · show _ = d y 0 * d y 0 + d y 1 * d y 1 + d y 2 * d y 2
      ring
    · ext v
      simp
      ring
  have h2 : d x 0 ^ 2 + d x 1 ^ 2 + d x 2 ^ 2 ≠ 0 := by
    intro h
    apply hl
    unfold len
    rw [h, Real.sqrt_zero]
  refine (h1.sqrt h2).congr_fderiv ?_
  ext v
  simp only [add_apply, smul_apply, smul_eq_mul]
  have : √(d x 0 ^ 2 + d x 1 ^ 2 + d x 2 ^ 2) = len (d x) := rfl
  rw [this]
  field_simp

/-- Derivative of the force vector of a bar. -/
theorem bar_hasFDerivAt {b : Bar ℝ} {U : E → List ℝ} {row : Option (List ℝ)} {x0 : E} {D : Nat → E →L[ℝ] ℝ}
    (hD : ∀ p, HasFDerivAt (fun x => (U x).getD p 0) (D p) x0) (h : b.Smooth (U x0) row) {r : BarRes}
    (hr : b.Result (U x0) row r) (c : Fin 3) :
    HasFDerivAt (fun x => b.stressAt row (b.stretch (U x) - 1) * b.geo.getD 0 0 * b.dir (U x) c)
      (∑ d : Fin 3, b.tangent (U x0) r c d • (D (3 * b.iE + d) - D (3 * b.iA + d))) x0 := by
  have hax : ∀ d, HasFDerivAt (fun x => b.axis (U x) d) (D (3 * b.iE + d) - D (3 * b.iA + d)) x0 := by
    intro d
    unfold Bar.axis row3
    exact ((hD _).const_add _).sub ((hD _).const_add _)
  have hl := len_hasFDerivAt hax h.length
  have hs : HasFDerivAt (fun x => b.stretch (U x) - 1) _ x0 := ((hl.mul_const (len b.ref)⁻¹)).sub_const 1
  have hlaw := (law_hasDerivAt h hr).comp_hasFDerivAt x0 hs
  have hdir : HasFDerivAt (fun x => b.dir (U x) c) _ x0 := (hax c).mul ((hasDerivAt_inv h.length).comp_hasFDerivAt x0 hl)
  have := (hlaw.mul_const (b.geo.getD 0 0)).mul hdir
  refine this.congr_fderiv ?_
  have harea : b.geo.getD 0 0 = r.area := by rw [List.getD_eq_getElem?_getD, hr.area]; rfl
  have hstress : b.stressAt row (b.stretch (U x0) - 1) = r.stress := by
    obtain ⟨s1, ⟨de, out, l1, l2, l3⟩, a1, f1⟩ := hr
    unfold Bar.stressAt TrussPy.stressAt
    simp only
    rw [call_de _ _ _ de, ← s1, l1, l2]
  have hne := h.length
  ext v
  simp only [Fin.sum_univ_three, add_apply, smul_apply,
    sub_apply, smul_eq_mul, Function.comp_apply, harea, hstress]
  unfold Bar.tangent
  rw [hr.force]
  unfold Bar.dir
  obtain ⟨w, hw⟩ : ∃ w : Fin 3 → ℝ, ∀ d : Fin 3, (D (3 * b.iE + d)) v - (D (3 * b.iA + d)) v = w d := ⟨_, fun _ => rfl⟩
  simp only [hw]
  clear hw this hdir hlaw hs hl hax
  fin_cases c
  · simp only [Fin.zero_eta, Fin.isValue, if_true, show ((0 : Fin 3) = 1) = False by simp, show ((0 : Fin 3) = 2) = False by simp, if_false]
    ring
  · simp only [Fin.mk_one, Fin.isValue, if_true, show ((1 : Fin 3) = 0) = False by simp, show ((1 : Fin 3) = 2) = False by simp, if_false]
    ring
  · simp only [Fin.reduceFinMk, Fin.isValue, if_true, show ((2 : Fin 3) = 0) = False by simp, show ((2 : Fin 3) = 1) = False by simp, if_false]
    ring

/-- Internal force of a node with the bars' forces as functions of the displacements. -/
noncomputable def forceFn (c : Ctx ℝ) (sv : Option (List (List ℝ))) (bars : List (Bar ℝ)) (U : List ℝ) (i : Nat) : V3 ℝ :=
  fun d => (bars.zipIdx.map fun p => p.1.sgn i * (p.1.stressAt (stateRow c sv p.2) (p.1.stretch U - 1) *
    p.1.geo.getD 0 0 * p.1.dir U d)).sum

theorem stressAt_result {b : Bar ℝ} {U : List ℝ} {row : Option (List ℝ)} {r : BarRes} (hr : b.Result U row r) :
    b.stressAt row (b.stretch U - 1) * b.geo.getD 0 0 = r.force := by
  have harea : b.geo.getD 0 0 = r.area := by rw [List.getD_eq_getElem?_getD, hr.area]; rfl
  obtain ⟨s1, ⟨de, out, l1, l2, l3⟩, a1, f1⟩ := hr
  rw [f1, harea]
  congr 1
  unfold Bar.stressAt TrussPy.stressAt
  simp only
  rw [call_de _ _ _ de, ← s1, l1, l2]

/-- Sums over bars with results or with positions. -/
theorem zip_zipIdx {bars : List (Bar ℝ)} {xs : List BarRes} (hl : xs.length = bars.length) {A : Type}
    (f : Bar ℝ × BarRes → A) (g : Bar ℝ × Nat → A)
    (h : ∀ (k : Nat) b x, bars[k]? = some b → xs[k]? = some x → f (b, x) = g (b, k)) :
    (bars.zip xs).map f = bars.zipIdx.map g := by
  apply List.ext_getElem?
  intro k
  rw [List.getElem?_map, List.getElem?_map, List.getElem?_zipIdx]
  by_cases hk : k < bars.length
  · have hk' : k < xs.length := by rw [hl]; exact hk
    have hb := List.getElem?_eq_getElem hk
    have hx := List.getElem?_eq_getElem hk'
    have hz : (bars.zip xs)[k]? = some (bars[k], xs[k]) := List.getElem?_zip_eq_some.2 ⟨hb, hx⟩
    rw [hz, hb]
    simp only [Option.map_some, Nat.zero_add]
    rw [h k _ _ hb hx]
  · rw [List.getElem?_eq_none_iff.2 (by rw [List.length_zip]; omega), List.getElem?_eq_none_iff.2 (by omega)]
    rfl

theorem nodeForce_eq {c : Ctx ℝ} {sv : Option (List (List ℝ))} {bars : List (Bar ℝ)} {U : List ℝ} {xs : List BarRes}
    (h : Results.Of c bars U sv xs) (i : Nat) : nodeForce bars xs U i = forceFn c sv bars U i := by
  funext d
  unfold nodeForce forceFn
  congr 1
  refine zip_zipIdx h.length _ _ fun k b x hb hx => ?_
  simp only
  rw [stressAt_result (h.result k b x hb hx)]

theorem list_sum_hasFDerivAt {A : Type} {f : A → E → ℝ} {f' : A → E →L[ℝ] ℝ} {x : E} {l : List A}
    (h : ∀ p ∈ l, HasFDerivAt (f p) (f' p) x) :
    HasFDerivAt (fun x => (l.map fun p => f p x).sum) ((l.map f').sum) x := by
  induction l with
  | nil => simpa using hasFDerivAt_const (0 : ℝ) x
  | cons p l ih =>
    simp only [List.map_cons, List.sum_cons]
    exact (h p (by simp)).add (ih fun q hq => h q (by simp [hq]))

theorem list_sum_apply {A : Type} (f' : A → E →L[ℝ] ℝ) (l : List A) (v : E) :
    (l.map f').sum v = (l.map fun p => f' p v).sum := by
  induction l with
  | nil => simp
  | cons p l ih => simp [ih]

/-- Derivative of the internal force of a node. -/
theorem forceFn_hasFDerivAt {c : Ctx ℝ} {sv : Option (List (List ℝ))} {bars : List (Bar ℝ)} {U : E → List ℝ} {x0 : E}
    {D : Nat → E →L[ℝ] ℝ} (hD : ∀ p, HasFDerivAt (fun x => (U x).getD p 0) (D p) x0) {xs : List BarRes}
    (h : Results.Of c bars (U x0) sv xs)
    (hs : ∀ (k : Nat) (b : Bar ℝ), bars[k]? = some b → b.Smooth (U x0) (stateRow c sv k)) (i : Nat) (d : Fin 3) :
    ∃ L : E →L[ℝ] ℝ, HasFDerivAt (fun x => forceFn c sv bars (U x) i d) L x0 ∧
      ∀ v, L v = ((bars.zip xs).map fun p => p.1.sgn i *
        ∑ e : Fin 3, p.1.tangent (U x0) p.2 d e * (D (3 * p.1.iE + e) v - D (3 * p.1.iA + e) v)).sum := by
  let g' : Bar ℝ × Nat → E →L[ℝ] ℝ := fun p => p.1.sgn i • ∑ e : Fin 3,
    p.1.tangent (U x0) (xs.getD p.2 ⟨0, 0, 0, 0, 0⟩) d e • (D (3 * p.1.iE + e) - D (3 * p.1.iA + e))
  refine ⟨(bars.zipIdx.map g').sum, ?_, ?_⟩
  · unfold forceFn
    refine list_sum_hasFDerivAt fun p hp => ?_
    obtain ⟨b, k⟩ := p
    have hb := List.mem_zipIdx_iff_getElem?.1 hp
    have hk : k < xs.length := by rw [h.length]; exact (List.getElem?_eq_some_iff.1 hb).1
    have hx := List.getElem?_eq_getElem hk
    have hx' : xs.getD k ⟨0, 0, 0, 0, 0⟩ = xs[k] := by rw [List.getD_eq_getElem?_getD, hx]; rfl
    simp only [g', hx']
    exact (bar_hasFDerivAt hD (hs k b hb) (h.result k b _ hb hx) d).const_mul _
  · intro v
    rw [list_sum_apply]
    congr 1
    symm
    refine zip_zipIdx h.length _ _ fun k b x hb hx => ?_
    have hx' : xs.getD k ⟨0, 0, 0, 0, 0⟩ = x := by rw [List.getD_eq_getElem?_getD, hx]; rfl
    simp only [g', hx']
    simp [Fin.sum_univ_three]
    ring

/-! ## Displacements as functions of the free ones -/

/-- Entries of the displacement table after writing the free ones. -/
theorem scatter_getD {u v w : List ℝ} {idx : List Nat} (h : scatter u idx v = .ok w) (hlen : v.length = idx.length)
    (hnd : idx.Nodup) (hlt : ∀ i ∈ idx, i < u.length) (p : Nat) :
    w.getD p 0 = (if p ∈ idx then 0 else u.getD p 0) +
      ∑ m : Fin idx.length, if idx[m] = p then v.getD m 0 else 0 := by
  by_cases hp : p ∈ idx
  · obtain ⟨m, hm, hmp⟩ := List.getElem_of_mem hp
    have hg : idx[m]? = some p := List.getElem?_eq_some_iff.2 ⟨hm, hmp⟩
    rw [if_pos hp, zero_add, Finset.sum_eq_single (⟨m, hm⟩ : Fin idx.length)]
    · rw [if_pos (by simpa using hmp), List.getD_eq_getElem?_getD, List.getD_eq_getElem?_getD,
        scatter_mem h hlen hnd hlt hg]
    · intro k _ hk
      rw [if_neg]
      intro hkp
      apply hk
      have : (k : Nat) = m := (List.Nodup.getElem_inj_iff hnd).1 (hkp.trans hmp.symm)
      exact Fin.ext this
    · intro hno
      exact absurd (Finset.mem_univ _) hno
  · rw [if_neg hp, Finset.sum_eq_zero, add_zero, List.getD_eq_getElem?_getD, List.getD_eq_getElem?_getD, scatter_other h hp]
    intro m _
    rw [if_neg]
    intro hm
    exact hp (hm ▸ List.getElem_mem _)

theorem sum_pick (t : Fin 3 → ℝ) (q i : Nat) (y : ℝ) :
    ∑ e : Fin 3, t e * (if q = 3 * i + e then y else 0) = (if q / 3 = i then 1 else 0) * t (comp q) * y := by
  by_cases h : q / 3 = i
  · rw [if_pos h, Finset.sum_eq_single (comp q)]
    · rw [if_pos (by unfold comp; simp only; omega)]
      ring
    · intro e _ he
      rw [if_neg, mul_zero]
      intro hq
      apply he
      apply Fin.ext
      unfold comp
      simp only
      have := e.isLt
      omega
    · intro hno
      exact absurd (Finset.mem_univ _) hno
  · rw [if_neg h, Finset.sum_eq_zero]
    · ring
    intro e _
    rw [if_neg, mul_zero]
    have := e.isLt
    omega

/-- Derivative of an internal force component with respect to the free displacements. -/
theorem component_hasFDerivAt {c : Ctx ℝ} {sv : Option (List (List ℝ))} {bars : List (Bar ℝ)} {Ubase : List ℝ}
    {idx : List Nat} (hnd : idx.Nodup) (hlt : ∀ i ∈ idx, i < Ubase.length) {n : Nat} (hn : idx.length = n)
    {u : E → Fin n → ℝ} {u' : Fin n → E →L[ℝ] ℝ} {x0 : E} (hu : ∀ m, HasFDerivAt (fun x => u x m) (u' m) x0)
    {U : E → List ℝ} (hU : ∀ x, scatter Ubase idx (List.ofFn (u x)) = .ok (U x)) {xs : List BarRes}
    (h : Results.Of c bars (U x0) sv xs)
    (hs : ∀ (k : Nat) (b : Bar ℝ), bars[k]? = some b → b.Smooth (U x0) (stateRow c sv k)) (i : Nat) (d : Fin 3) :
    ∃ L : E →L[ℝ] ℝ, HasFDerivAt (fun x => forceFn c sv bars (U x) i d) L x0 ∧
      ∀ v, L v = ∑ j : Fin n, nodeStiffness bars xs (U x0) i (idx.getD j 0 / 3) d (comp (idx.getD j 0)) * u' j v := by
  subst hn
  let D : Nat → E →L[ℝ] ℝ := fun p => ∑ m : Fin idx.length, if idx.getD m 0 = p then u' m else 0
  have hget : ∀ m : Fin idx.length, idx.getD m 0 = idx[m] := by
    intro m
    rw [List.getD_eq_getElem?_getD, List.getElem?_eq_getElem m.isLt]
    rfl
  have hD : ∀ p, HasFDerivAt (fun x => (U x).getD p 0) (D p) x0 := by
    intro p
    have he : (fun x => (U x).getD p 0) = fun x => (if p ∈ idx then 0 else Ubase.getD p 0) +
        ∑ m : Fin idx.length, if idx.getD m 0 = p then u x m else 0 := by
      funext x
      rw [scatter_getD (hU x) (by simp) hnd hlt]
      congr 1
      refine Finset.sum_congr rfl fun m _ => ?_
      rw [hget, List.getD_eq_getElem?_getD, List.getElem?_ofFn]
      simp
    rw [he]
    refine HasFDerivAt.const_add _ (HasFDerivAt.fun_sum fun m _ => ?_)
    split
    · exact hu m
    · exact hasFDerivAt_const _ _
  obtain ⟨L, h1, h2⟩ := forceFn_hasFDerivAt hD h hs i d
  refine ⟨L, h1, fun v => ?_⟩
  rw [h2]
  have hDv : ∀ p, D p v = ∑ m : Fin idx.length, if idx.getD m 0 = p then u' m v else 0 := by
    intro p
    simp only [D]
    rw [sum_apply]
    refine Finset.sum_congr rfl fun m _ => ?_
    split <;> rfl
  unfold nodeStiffness
  have hrhs : ∀ j : Fin idx.length, ((bars.zip xs).map fun p => p.1.sgn i * p.1.sgn (idx.getD j 0 / 3) *
        p.1.tangent (U x0) p.2 d (comp (idx.getD j 0))).sum * u' j v =
      ((bars.zip xs).map fun p => p.1.sgn i * (p.1.sgn (idx.getD j 0 / 3) *
        p.1.tangent (U x0) p.2 d (comp (idx.getD j 0)) * u' j v)).sum := by
    intro j
    rw [← List.sum_map_mul_right]
    congr 1
    refine List.map_congr_left fun p _ => ?_
    ring
  rw [Finset.sum_congr rfl fun j _ => hrhs j]
  have hswap : ∀ (l : List (Bar ℝ × BarRes)) (f : Fin idx.length → Bar ℝ × BarRes → ℝ),
      ∑ j, (l.map (f j)).sum = (l.map fun p => ∑ j, f j p).sum := by
    intro l f
    induction l with
    | nil => simp
    | cons p l ih => simp [Finset.sum_add_distrib, ih]
  rw [hswap]
  congr 1
  refine List.map_congr_left fun p _ => ?_
  rw [← Finset.mul_sum]
  congr 1
  simp only [hDv, mul_sub, Finset.mul_sum, Finset.sum_sub_distrib]
  rw [Finset.sum_comm]
  rw [Finset.sum_comm (f := fun (e : Fin 3) (m : Fin idx.length) => p.1.tangent (U x0) p.2 d e *
    (if idx.getD m 0 = 3 * p.1.iA + e then u' m v else 0))]
  rw [← Finset.sum_sub_distrib]
  refine Finset.sum_congr rfl fun j _ => ?_
  rw [sum_pick, sum_pick]
  unfold Bar.sgn
  ring

end TrussPy
