import Verif.Spec.Energy
import Verif.Spec.Results
import Verif.Props.Mechanics
import Verif.Props.Jacobian
/-!
# C58-C60: strain energy, definiteness of the stiffness, rigid rotations (exact arithmetic)
-/

namespace TrussPy

open Finset

/-! ## C60 -/

theorem inner_cross (w v : V3 ℝ) : v 0 * cross w v 0 + v 1 * cross w v 1 + v 2 * cross w v 2 = 0 := by
  simp [cross]
  ring

/-- A rigid rotation turns the force of a bar. -/
theorem tangent_cross (b : Bar ℝ) (U : List ℝ) (x : BarRes) (w : V3 ℝ) (d : Fin 3) :
    b.tangent U x d 0 * cross w (b.axis U) 0 + b.tangent U x d 1 * cross w (b.axis U) 1 +
      b.tangent U x d 2 * cross w (b.axis U) 2 = cross w (fun e => x.force * b.dir U e) d := by
  have h0 : b.dir U 0 * cross w (b.axis U) 0 + b.dir U 1 * cross w (b.axis U) 1 + b.dir U 2 * cross w (b.axis U) 2 = 0 := by
    have := inner_cross w (b.axis U)
    unfold Bar.dir
    rw [show b.axis U 0 / len (b.axis U) * cross w (b.axis U) 0 + b.axis U 1 / len (b.axis U) * cross w (b.axis U) 1 +
      b.axis U 2 / len (b.axis U) * cross w (b.axis U) 2 = (b.axis U 0 * cross w (b.axis U) 0 +
        b.axis U 1 * cross w (b.axis U) 1 + b.axis U 2 * cross w (b.axis U) 2) / len (b.axis U) by ring, this, zero_div]
  have hr : ∀ d, cross w (fun e => x.force * b.dir U e) d = x.force / len (b.axis U) * cross w (b.axis U) d := by
    intro d
    unfold cross Bar.dir
    split
    · ring
    · split <;> ring
  rw [hr]
  have key : b.tangent U x d 0 * cross w (b.axis U) 0 + b.tangent U x d 1 * cross w (b.axis U) 1 +
      b.tangent U x d 2 * cross w (b.axis U) 2 =
      (x.dsde * x.area / len b.ref - x.force / len (b.axis U)) * b.dir U d * (b.dir U 0 * cross w (b.axis U) 0 +
        b.dir U 1 * cross w (b.axis U) 1 + b.dir U 2 * cross w (b.axis U) 2) +
      x.force / len (b.axis U) * ((if d = 0 then 1 else 0) * cross w (b.axis U) 0 +
        (if d = 1 then 1 else 0) * cross w (b.axis U) 1 + (if d = 2 then 1 else 0) * cross w (b.axis U) 2) := by
    unfold Bar.tangent
    ring
  rw [key, h0]
  fin_cases d <;> simp

theorem cross_sub (w u v : V3 ℝ) (d : Fin 3) : cross w u d - cross w v d = cross w (fun e => u e - v e) d := by
  unfold cross
  split
  · ring
  · split <;> ring

theorem cross_list_sum {A : Type} (w : V3 ℝ) (l : List A) (f : A → V3 ℝ) (d : Fin 3) :
    cross w (fun e => (l.map fun p => f p e).sum) d = (l.map fun p => cross w (f p) d).sum := by
  induction l with
  | nil => simp [cross]
  | cons p l ih =>
    simp only [List.map_cons, List.sum_cons, ← ih]
    unfold cross
    split
    · ring
    · split <;> ring

/-- **C60** A rigid rotation of the deformed structure turns the internal forces with it: the stiffness blocks of node
`i` applied to the velocities `ω × x` of a rotation give `ω ×` the internal force of the node.  So in a state without
internal forces infinitesimal rotations cost no force. -/
theorem C60_rotations {c : Ctx ℝ} {bars : List (Bar ℝ)} (hB : c.Bars bars) {a a' b b' : Analysis ℝ} (hf : a.Fits c)
    (hfb : b.Fits c) {V W W0 g : List ℝ} {Kred : List (List ℝ)} {w : Bool} (hK : stiffness c a V = .ok (a', Kred))
    (hG : equilibrium c b W W0 .G w = .ok (b', g)) (hU : b'.U = a'.U) (hsv : b.statev = a.statev)
    {X : Nat → V3 ℝ} (hX : ∀ i, i < c.nnodes → CoordRow c i (X i)) (ω : V3 ℝ) {i : Nat} (hi : i < c.nnodes) (d : Fin 3) :
    ∑ j ∈ range c.nnodes, ((a'.K.getD i []).getD j 0 d 0 * cross ω (fun e => X j e + row3 a'.U j e) 0 +
      (a'.K.getD i []).getD j 0 d 1 * cross ω (fun e => X j e + row3 a'.U j e) 1 +
      (a'.K.getD i []).getD j 0 d 2 * cross ω (fun e => X j e + row3 a'.U j e) 2) =
    cross ω (b'.r.getD i 0) d := by
  obtain ⟨xs, x1, h1, -⟩ := C23_stiffness hB hf hK
  obtain ⟨ys, y1, -, -, -, -, y6⟩ := C23_internal_forces hB hfb hG
  rw [hU, hsv] at y1
  obtain rfl : ys = xs := y1.unique x1
  have hr : b'.r.getD i 0 = nodeForce bars ys a'.U i := by
    rw [List.getD_eq_getElem?_getD, y6 i hi, hU]; rfl
  have hKij : ∀ j ∈ range c.nnodes, (a'.K.getD i []).getD j 0 = nodeStiffness bars ys a'.U i j := by
    intro j hj
    obtain ⟨row, r1, r2⟩ := h1 i j hi (Finset.mem_range.1 hj)
    have e : a'.K.getD i [] = row := by rw [List.getD_eq_getElem?_getD, r1]; rfl
    rw [e, List.getD_eq_getElem?_getD, r2]
    rfl
  rw [Finset.sum_congr rfl fun j hj => by rw [hKij j hj], hr]
  have hterm : ∀ j, nodeStiffness bars ys a'.U i j d 0 * cross ω (fun e => X j e + row3 a'.U j e) 0 +
      nodeStiffness bars ys a'.U i j d 1 * cross ω (fun e => X j e + row3 a'.U j e) 1 +
      nodeStiffness bars ys a'.U i j d 2 * cross ω (fun e => X j e + row3 a'.U j e) 2 =
      ((bars.zip ys).map fun p => p.1.sgn j * (p.1.sgn i * (
        p.1.tangent a'.U p.2 d 0 * cross ω (fun e => X j e + row3 a'.U j e) 0 +
        p.1.tangent a'.U p.2 d 1 * cross ω (fun e => X j e + row3 a'.U j e) 1 +
        p.1.tangent a'.U p.2 d 2 * cross ω (fun e => X j e + row3 a'.U j e) 2))).sum := by
    intro j
    unfold nodeStiffness
    simp only [← List.sum_map_mul_right, ← List.sum_map_add]
    congr 1
    refine List.map_congr_left fun p _ => ?_
    ring
  rw [Finset.sum_congr rfl fun j _ => hterm j, sum_list_swap]
  have hRHS : cross ω (nodeForce bars ys a'.U i) d =
      ((bars.zip ys).map fun p => cross ω (fun e => p.1.sgn i * (p.2.force * p.1.dir a'.U e)) d).sum :=
    cross_list_sum ω (bars.zip ys) (fun p e => p.1.sgn i * (p.2.force * p.1.dir a'.U e)) d
  rw [hRHS]
  congr 1
  refine List.map_congr_left fun p hp => ?_
  have hpb := (List.of_mem_zip hp).1
  obtain ⟨l1, l2⟩ := hB.lt p.1 hpb
  have := sgn_sum l1 l2 (fun j => p.1.sgn i * (
        p.1.tangent a'.U p.2 d 0 * cross ω (fun e => X j e + row3 a'.U j e) 0 +
        p.1.tangent a'.U p.2 d 1 * cross ω (fun e => X j e + row3 a'.U j e) 1 +
        p.1.tangent a'.U p.2 d 2 * cross ω (fun e => X j e + row3 a'.U j e) 2))
  rw [this]
  obtain ⟨k, hk⟩ := List.getElem?_of_mem hpb
  have hA : X p.1.iA = p.1.XA := by
    have q1 := hX _ l1
    have q2 := (hB.bar k _ hk).coordA
    unfold CoordRow at q1 q2
    rw [q1] at q2
    simp only [Option.some.injEq, List.cons.injEq, and_true] at q2
    funext e
    fin_cases e
    · exact q2.1
    · exact q2.2.1
    · exact q2.2.2
  have hE : X p.1.iE = p.1.XE := by
    have q1 := hX _ l2
    have q2 := (hB.bar k _ hk).coordE
    unfold CoordRow at q1 q2
    rw [q1] at q2
    simp only [Option.some.injEq, List.cons.injEq, and_true] at q2
    funext e
    fin_cases e
    · exact q2.1
    · exact q2.2.1
    · exact q2.2.2
  rw [hA, hE]
  have hx : ∀ e : Fin 3, cross ω (fun e => p.1.XE e + row3 a'.U p.1.iE e) e - cross ω (fun e => p.1.XA e + row3 a'.U p.1.iA e) e =
      cross ω (p.1.axis a'.U) e := fun e => cross_sub _ _ _ _
  have ht := tangent_cross p.1 a'.U p.2 ω d
  rw [← hx 0, ← hx 1, ← hx 2] at ht
  have hc : cross ω (fun e => p.1.sgn i * (p.2.force * p.1.dir a'.U e)) d =
      p.1.sgn i * cross ω (fun e => p.2.force * p.1.dir a'.U e) d := by
    unfold cross
    split
    · ring
    · split <;> ring
  rw [hc, ← ht]
  ring

/-! ## C59 -/

/-- A sum over directions of a bar's relative displacement as a sum over free degrees of freedom. -/
theorem delta_pick {idx : List Nat} (hnd : idx.Nodup) {N n : Nat} (hlt : ∀ i ∈ idx, i < N) (hn : idx.length = n)
    (v : Fin n → ℝ) {dU : List ℝ} (hU : scatter (List.replicate N 0) idx (List.ofFn v) = .ok dU) (b : Bar ℝ)
    (t : Fin 3 → ℝ) : ∑ e : Fin 3, t e * b.delta dU e =
      ∑ m : Fin n, b.sgn (idx.getD m 0 / 3) * t (comp (idx.getD m 0)) * v m := by
  subst hn
  have hget : ∀ m : Fin idx.length, idx.getD m 0 = idx[m] := by
    intro m
    rw [List.getD_eq_getElem?_getD, List.getElem?_eq_getElem m.isLt]
    rfl
  have hp : ∀ p, dU.getD p 0 = ∑ m : Fin idx.length, if idx.getD m 0 = p then v m else 0 := by
    intro p
    rw [scatter_getD hU (by simp) hnd (by simpa using hlt)]
    have h0 : (if p ∈ idx then (0 : ℝ) else (List.replicate N (0 : ℝ)).getD p 0) = 0 := by
      split
      · rfl
      · rw [List.getD_eq_getElem?_getD, List.getElem?_replicate]
        split <;> rfl
    rw [h0, zero_add]
    refine Finset.sum_congr rfl fun m _ => ?_
    rw [hget, List.getD_eq_getElem?_getD, List.getElem?_ofFn]
    simp
  unfold Bar.delta row3
  simp only [hp, mul_sub, Finset.mul_sum, Finset.sum_sub_distrib]
  rw [Finset.sum_comm]
  rw [Finset.sum_comm (f := fun (e : Fin 3) (m : Fin idx.length) => t e *
    (if idx.getD m 0 = 3 * b.iA + e then v m else 0))]
  rw [← Finset.sum_sub_distrib]
  refine Finset.sum_congr rfl fun j _ => ?_
  rw [sum_pick, sum_pick]
  unfold Bar.sgn
  ring

theorem sum_list_swap_fin {α : Type} {n : Nat} (l : List α) (f : Fin n → α → ℝ) :
    ∑ i, (l.map (f i)).sum = (l.map fun p => ∑ i, f i p).sum := by
  induction l with
  | nil => simp
  | cons p l ih => simp [Finset.sum_add_distrib, ih]

/-- Quadratic form of the stiffness matrix. -/
theorem quadratic_scatter {c : Ctx ℝ} {bars : List (Bar ℝ)} (hB : c.Bars bars) {a a' : Analysis ℝ} (hf : a.Fits c)
    {V : List ℝ} {K : List (List ℝ)} (h : stiffness c a V = .ok (a', K)) {n : Nat} (hn : a.DOF1.length = n)
    (v : Fin n → ℝ) {dU : List ℝ} (hU : scatter (List.replicate (3 * c.nnodes) 0) a.DOF1 (List.ofFn v) = .ok dU) :
    ∃ xs, Results.Of c bars a'.U a.statev xs ∧ ∑ i, ∑ j, v i * matOf n K i j * v j =
      ((bars.zip xs).map fun p =>
        p.2.dsde * p.2.area / len p.1.ref * inner3 (p.1.dir a'.U) (p.1.delta dU) ^ 2 +
        p.2.force / len (p.1.axis a'.U) * (inner3 (p.1.delta dU) (p.1.delta dU) -
          inner3 (p.1.dir a'.U) (p.1.delta dU) ^ 2)).sum := by
  obtain ⟨xs, x1, -, rfl⟩ := C23_stiffness hB hf h
  refine ⟨xs, x1, ?_⟩
  simp only [reducedStiffness_get hn]
  have hrow : ∀ i : Fin n, ∑ j : Fin n, v i * nodeStiffness bars xs a'.U (a.DOF1.getD i 0 / 3) (a.DOF1.getD j 0 / 3)
        (comp (a.DOF1.getD i 0)) (comp (a.DOF1.getD j 0)) * v j =
      ((bars.zip xs).map fun p => p.1.sgn (a.DOF1.getD i 0 / 3) *
        (∑ e : Fin 3, p.1.tangent a'.U p.2 (comp (a.DOF1.getD i 0)) e * p.1.delta dU e) * v i).sum := by
    intro i
    have : ∀ j : Fin n, v i * nodeStiffness bars xs a'.U (a.DOF1.getD i 0 / 3) (a.DOF1.getD j 0 / 3)
        (comp (a.DOF1.getD i 0)) (comp (a.DOF1.getD j 0)) * v j = ((bars.zip xs).map fun p =>
          p.1.sgn (a.DOF1.getD i 0 / 3) * v i * (p.1.sgn (a.DOF1.getD j 0 / 3) *
            p.1.tangent a'.U p.2 (comp (a.DOF1.getD i 0)) (comp (a.DOF1.getD j 0)) * v j)).sum := by
      intro j
      unfold nodeStiffness
      rw [← List.sum_map_mul_left, ← List.sum_map_mul_right]
      congr 1
      refine List.map_congr_left fun p _ => ?_
      ring
    rw [Finset.sum_congr rfl fun j _ => this j, sum_list_swap_fin]
    congr 1
    refine List.map_congr_left fun p _ => ?_
    rw [delta_pick hf.dofNodup hf.dof hn v hU p.1 (fun e => p.1.tangent a'.U p.2 (comp (a.DOF1.getD i 0)) e),
      ← Finset.mul_sum]
    ring
  rw [Finset.sum_congr rfl fun i _ => hrow i, sum_list_swap_fin]
  congr 1
  refine List.map_congr_left fun p _ => ?_
  rw [← delta_pick hf.dofNodup hf.dof hn v hU p.1
    (fun d => ∑ e : Fin 3, p.1.tangent a'.U p.2 d e * p.1.delta dU e)]
  have n01 : ((0 : Fin 3) = 1) = False := eq_false (by decide)
  have n02 : ((0 : Fin 3) = 2) = False := eq_false (by decide)
  have n10 : ((1 : Fin 3) = 0) = False := eq_false (by decide)
  have n12 : ((1 : Fin 3) = 2) = False := eq_false (by decide)
  have n20 : ((2 : Fin 3) = 0) = False := eq_false (by decide)
  have n21 : ((2 : Fin 3) = 1) = False := eq_false (by decide)
  simp only [Fin.sum_univ_three, Bar.tangent, inner3, n01, n02, n10, n12, n20, n21, if_true, if_false]
  ring

theorem len_nonneg (v : V3 ℝ) : 0 ≤ len v := Real.sqrt_nonneg _

theorem len_sq (v : V3 ℝ) : len v ^ 2 = v 0 ^ 2 + v 1 ^ 2 + v 2 ^ 2 := Real.sq_sqrt (by positivity)

theorem inner_dir_le (b : Bar ℝ) (U : List ℝ) (w : V3 ℝ) : inner3 (b.dir U) w ^ 2 ≤ inner3 w w := by
  by_cases h : len (b.axis U) = 0
  · unfold inner3 Bar.dir
    rw [h]
    simp only [div_zero, zero_mul, add_zero]
    nlinarith [sq_nonneg (w 0), sq_nonneg (w 1), sq_nonneg (w 2)]
  · have h1 : b.dir U 0 ^ 2 + b.dir U 1 ^ 2 + b.dir U 2 ^ 2 = 1 := by
      unfold Bar.dir
      rw [div_pow, div_pow, div_pow, ← add_div, ← add_div, ← len_sq]
      exact div_self (pow_ne_zero 2 h)
    unfold inner3
    set n := b.dir U
    have hl : (n 0 * w 0 + n 1 * w 1 + n 2 * w 2) ^ 2 + (n 0 * w 1 - n 1 * w 0) ^ 2 + (n 0 * w 2 - n 2 * w 0) ^ 2 +
        (n 1 * w 2 - n 2 * w 1) ^ 2 = (n 0 ^ 2 + n 1 ^ 2 + n 2 ^ 2) * (w 0 ^ 2 + w 1 ^ 2 + w 2 ^ 2) := by ring
    rw [h1] at hl
    nlinarith [sq_nonneg (n 0 * w 1 - n 1 * w 0), sq_nonneg (n 0 * w 2 - n 2 * w 0), sq_nonneg (n 1 * w 2 - n 2 * w 1)]

theorem scatter_of_reducedTo {n : Nat} {idx : List Nat} (hnd : idx.Nodup) (hlt : ∀ i ∈ idx, i < n) {v dU : List ℝ}
    (hl : dU.length = n) (h : ReducedTo dU idx v) : scatter (List.replicate n 0) idx v = .ok dU := by
  obtain ⟨w, hw⟩ := scatter_ok (u := List.replicate n (0 : ℝ)) h.length
  have hwl := scatter_length hw
  rw [List.length_replicate] at hwl
  rw [hw]
  congr 1
  apply List.ext_getElem?
  intro i
  by_cases hi : i ∈ idx
  · obtain ⟨k, hk⟩ := List.getElem?_of_mem hi
    rw [(h.free k i hk).1]
    exact scatter_mem hw h.length hnd (fun i hi => by rw [List.length_replicate]; exact hlt i hi) hk
  · by_cases hin : i < n
    · rw [scatter_other hw hi, h.locked i (by omega) hi, List.getElem?_replicate_of_lt hin]
    · rw [List.getElem?_eq_none (by omega), List.getElem?_eq_none (by omega)]

/-- **C59** Second variation of the energy: for displacements `v` of the free degrees of freedom (`dU` with the locked
ones zero) the quadratic form of the stiffness matrix is the sum over the bars of `D A / L` times the square of the
elongation plus `N / l` times the square of the transverse relative displacement. -/
theorem C59_quadratic_form {c : Ctx ℝ} {bars : List (Bar ℝ)} (hB : c.Bars bars) {a a' : Analysis ℝ} (hf : a.Fits c)
    {V : List ℝ} {K : List (List ℝ)} (h : stiffness c a V = .ok (a', K)) {n : Nat} (hn : a.DOF1.length = n)
    (v : Fin n → ℝ) {dU : List ℝ} (hl : dU.length = 3 * c.nnodes)
    (hU : ReducedTo dU a.DOF1 (List.ofFn v)) :
    ∃ xs, Results.Of c bars a'.U a.statev xs ∧ ∑ i, ∑ j, v i * matOf n K i j * v j =
      ((bars.zip xs).map fun p =>
        p.2.dsde * p.2.area / len p.1.ref * inner3 (p.1.dir a'.U) (p.1.delta dU) ^ 2 +
        p.2.force / len (p.1.axis a'.U) * (inner3 (p.1.delta dU) (p.1.delta dU) -
          inner3 (p.1.dir a'.U) (p.1.delta dU) ^ 2)).sum :=
  quadratic_scatter hB hf h hn v (scatter_of_reducedTo hf.dofNodup hf.dof hl hU)

/-- The tangent of both laws is not negative. -/
theorem tangent_nonneg {b : Bar ℝ} (hb : b.Ordinary) {U : List ℝ} {row : Option (List ℝ)} {x : BarRes}
    (hx : b.Result U row x) : 0 ≤ x.dsde := by
  obtain ⟨s1, ⟨de, out, l1, l2, l3⟩, a1, f1⟩ := hx
  rw [l3]
  cases hl : b.law with
  | el =>
    rw [hl] at l1
    have l1 : umatEl (x.stretch - 1) de b.mat row = .ok out := l1
    unfold umatEl at l1
    obtain ⟨E, h1, h2⟩ := py_bind_eq_ok.1 l1
    cases h2
    have hE := hb.elastic hl
    have := pyGet_ok_nat.1 h1
    unfold Bar.E at hE
    rw [List.getD_eq_getElem?_getD, this] at hE
    exact hE
  | elplast =>
    rw [hl] at l1
    obtain ⟨m, rest, hm, hmat⟩ := hb.plastic hl
    rw [hmat] at l1
    have l1 : umatElplastIso (x.stretch - 1) de (m.E :: m.K :: m.Sy :: rest) row = .ok out := l1
    unfold umatElplastIso at l1
    obtain ⟨E, h1, l1⟩ := py_bind_eq_ok.1 l1
    obtain ⟨K, h2, l1⟩ := py_bind_eq_ok.1 l1
    obtain ⟨Sy, h3, l1⟩ := py_bind_eq_ok.1 l1
    have e1 : m.E = E := Option.some.inj (pyGet_ok_nat.1 h1)
    have e2 : m.K = K := Option.some.inj (pyGet_ok_nat.1 h2)
    subst e1 e2
    cases row with
    | none => cases l1
    | some sv =>
      obtain ⟨p, h4, l1⟩ := py_bind_eq_ok.1 l1
      obtain ⟨y, h5, l1⟩ := py_bind_eq_ok.1 l1
      have hout := Except.ok.inj l1
      rw [← hout]
      have h0 := hm.E
      have h1 := hm.K
      rcases hd : instDecidableEqBool (Flt.le (Flt.abs (m.E * (x.stretch - 1 - p)) - if Flt.eq y 0 = true then Sy else y) 0)
        true with hc | hc
      · simp only
        positivity
      · simp only
        exact h0.le

/-- **C59** As long as no bar is in compression, the stiffness matrix is positive semidefinite (usual material
constants): no equilibrium of a structure in tension is reported as unstable. -/
theorem C59_tension_is_stable {c : Ctx ℝ} {bars : List (Bar ℝ)} (hB : c.Bars bars) (hord : ∀ b ∈ bars, b.Ordinary)
    {a a' : Analysis ℝ} (hf : a.Fits c) {V : List ℝ} {K : List (List ℝ)} (h : stiffness c a V = .ok (a', K))
    (hN : ∀ (k : Nat) (b : Bar ℝ) (x : BarRes), bars[k]? = some b → b.Result a'.U (stateRow c a.statev k) x → 0 ≤ x.force)
    {n : Nat} (hn : a.DOF1.length = n) (v : Fin n → ℝ) : 0 ≤ ∑ i, ∑ j, v i * matOf n K i j * v j := by
  obtain ⟨dU, hU⟩ : ∃ dU, scatter (List.replicate (3 * c.nnodes) 0) a.DOF1 (List.ofFn v) = .ok dU :=
    scatter_ok (by simp [hn])
  obtain ⟨xs, x1, x2⟩ := quadratic_scatter hB hf h hn v hU
  rw [x2]
  refine List.sum_nonneg fun y hy => ?_
  obtain ⟨p, hp, rfl⟩ := List.mem_map.1 hy
  obtain ⟨k, hk⟩ := List.getElem?_of_mem hp
  obtain ⟨hb, hx⟩ := List.getElem?_zip_eq_some.1 hk
  have hres := x1.result k _ _ hb hx
  have hmem := List.mem_of_getElem? hb
  have q1 := tangent_nonneg (hord _ hmem) hres
  have q2 := hN k _ _ hb hres
  have q3 : 0 ≤ p.2.area := by
    have := (hord _ hmem).area
    unfold Bar.area at this
    rwa [List.getD_eq_getElem?_getD, hres.area] at this
  have q4 := len_nonneg p.1.ref
  have q5 := len_nonneg (p.1.axis a'.U)
  have q6 := inner_dir_le p.1 a'.U (p.1.delta dU)
  have q7 : 0 ≤ inner3 (p.1.delta dU) (p.1.delta dU) - inner3 (p.1.dir a'.U) (p.1.delta dU) ^ 2 := by linarith
  have := mul_nonneg (div_nonneg (mul_nonneg q1 q3) q4) (sq_nonneg (inner3 (p.1.dir a'.U) (p.1.delta dU)))
  have := mul_nonneg (div_nonneg q2 q5) q7
  linarith

/-! ## C58 -/

theorem range_pick (f : Nat → ℝ) {q N : Nat} (h : q < N) : ((List.range N).map fun p => if q = p then f p else 0).sum = f q := by
  induction N with
  | zero => omega
  | succ N ih =>
    rw [List.range_succ, List.map_append, List.sum_append]
    by_cases hq : q = N
    · subst hq
      rw [List.sum_eq_zero]
      · simp
      · intro x hx
        obtain ⟨p, hp, rfl⟩ := List.mem_map.1 hx
        have := List.mem_range.1 hp
        rw [if_neg (by omega)]
    · rw [ih (by omega)]
      simp [hq]

/-- Derivative of the entries of the displacement table with respect to the free displacements. -/
theorem table_hasFDerivAt {Ubase : List ℝ} {idx : List Nat} (hnd : idx.Nodup) (hlt : ∀ i ∈ idx, i < Ubase.length)
    {n : Nat} (hn : idx.length = n) {U : (Fin n → ℝ) → List ℝ}
    (hU : ∀ x, scatter Ubase idx (List.ofFn x) = .ok (U x)) (x0 : Fin n → ℝ) :
    ∃ D : Nat → (Fin n → ℝ) →L[ℝ] ℝ, (∀ p, HasFDerivAt (fun x => (U x).getD p 0) (D p) x0) ∧
      ∀ p v, D p v = ∑ m : Fin n, if idx.getD m 0 = p then v m else 0 := by
  subst hn
  have hget : ∀ m : Fin idx.length, idx.getD m 0 = idx[m] := by
    intro m
    rw [List.getD_eq_getElem?_getD, List.getElem?_eq_getElem m.isLt]
    rfl
  refine ⟨fun p => ∑ m : Fin idx.length, if idx.getD m 0 = p then
    ContinuousLinearMap.proj (R := ℝ) (φ := fun _ : Fin idx.length => ℝ) m else 0, fun p => ?_, fun p v => ?_⟩
  · have he : (fun x => (U x).getD p 0) = fun x : Fin idx.length → ℝ => (if p ∈ idx then 0 else Ubase.getD p 0) +
        ∑ m : Fin idx.length, if idx.getD m 0 = p then x m else 0 := by
      funext x
      rw [scatter_getD (hU x) (by simp) hnd hlt]
      congr 1
      refine Finset.sum_congr rfl fun m _ => ?_
      rw [hget, List.getD_eq_getElem?_getD, List.getElem?_ofFn]
      simp
    rw [he]
    refine HasFDerivAt.const_add _ (HasFDerivAt.fun_sum fun m _ => ?_)
    split
    · exact (ContinuousLinearMap.proj (R := ℝ) (φ := fun _ : Fin idx.length => ℝ) m).hasFDerivAt
    · exact hasFDerivAt_const _ _
  · rw [_root_.sum_apply]
    refine Finset.sum_congr rfl fun m _ => ?_
    split <;> rfl

/-- Derivative of the stored energy of an elastic bar: its force times its elongation. -/
theorem energy_hasFDerivAt {G : Type} [NormedAddCommGroup G] [NormedSpace ℝ G] {b : Bar ℝ} {U : G → List ℝ} {x0 : G}
    {D : Nat → G →L[ℝ] ℝ} (hD : ∀ p, HasFDerivAt (fun x => (U x).getD p 0) (D p) x0) (hl : len (b.axis (U x0)) ≠ 0)
    (hr : len b.ref ≠ 0) :
    ∃ L : G →L[ℝ] ℝ, HasFDerivAt (fun x => b.E * b.area * len b.ref / 2 * (b.stretch (U x) - 1) ^ 2) L x0 ∧
      ∀ v, L v = b.E * (b.stretch (U x0) - 1) * b.area *
        ∑ e : Fin 3, b.dir (U x0) e * (D (3 * b.iE + e) v - D (3 * b.iA + e) v) := by
  have hax : ∀ d, HasFDerivAt (fun x => b.axis (U x) d) (D (3 * b.iE + d) - D (3 * b.iA + d)) x0 := by
    intro d
    unfold Bar.axis row3
    exact ((hD _).const_add _).sub ((hD _).const_add _)
  have h1 := len_hasFDerivAt hax hl
  have hs : HasFDerivAt (fun x => b.stretch (U x) - 1) _ x0 := ((h1.mul_const (len b.ref)⁻¹)).sub_const 1
  have h2 := (hs.mul hs).const_mul (b.E * b.area * len b.ref / 2)
  refine ⟨_, h2.congr_of_eventuallyEq (Filter.Eventually.of_forall fun y => ?_), fun v => ?_⟩
  · show b.E * b.area * len b.ref / 2 * (b.stretch (U y) - 1) ^ 2 =
      b.E * b.area * len b.ref / 2 * ((b.stretch (U y) - 1) * (b.stretch (U y) - 1))
    ring
  · simp only [Fin.sum_univ_three, add_apply, smul_apply, sub_apply, smul_eq_mul]
    unfold Bar.dir
    obtain ⟨w, hw⟩ : ∃ w : Fin 3 → ℝ, ∀ d : Fin 3, (D (3 * b.iE + d)) v - (D (3 * b.iA + d)) v = w d := ⟨_, fun _ => rfl⟩
    simp only [hw]
    field_simp
    ring

/-- **C58** The internal forces are conservative: if all bars are elastic, the residual returned by `equilibrium` is minus
the gradient of the total potential energy (strain energy minus potential of the loads) with respect to the free
displacements, at every state without a collapsed bar. -/
theorem C58_residual_is_energy_gradient {c : Ctx ℝ} {bars : List (Bar ℝ)} {a : Analysis ℝ} {ef : StepForces ℝ}
    (he : Evaluable c bars a ef) (hel : ∀ b ∈ bars, b.law = .el) (href : ∀ b ∈ bars, len b.ref ≠ 0) {n : Nat}
    (hn : c.ndof1 = n) (lpf : ℝ) {V0 : List ℝ} (hV0 : V0.length = n + 1) (u : Fin n → ℝ) {a' : Analysis ℝ} {g : List ℝ}
    (h : equilibrium c a (List.ofFn u ++ [lpf]) V0 .G false = .ok (a', g)) (hax : ∀ b ∈ bars, len (b.axis a'.U) ≠ 0) :
    HasFDerivAt (potentialAt c bars a ef lpf V0 (n := n))
      (-∑ m : Fin n, residualAt c a lpf V0 u m • ContinuousLinearMap.proj (R := ℝ) (φ := fun _ : Fin n => ℝ) m) u := by
  subst hn
  have hsc : ∀ x : Fin c.ndof1 → ℝ, ∃ U, scatter a.U a.DOF1 (List.ofFn x) = .ok U :=
    fun x => scatter_ok (by rw [List.length_ofFn, he.dofs])
  choose U hU using hsc
  have hlt : ∀ i ∈ a.DOF1, i < a.U.length := fun i hi => by rw [he.fits.U]; exact he.fits.dof i hi
  have hlen : ∀ x, (U x).length = a.U.length := fun x => scatter_length (hU x)
  obtain ⟨D, hD, hDv⟩ := table_hasFDerivAt he.fits.dofNodup hlt he.dofs hU u
  have hfun : potentialAt c bars a ef lpf V0 (n := c.ndof1) = fun x => potential bars ef lpf (U x) := by
    funext x
    obtain ⟨a1, h3, h4⟩ := equilibrium_closed he (u := List.ofFn x) (by simp) hV0 lpf false (hU x)
    unfold potentialAt
    rw [h3]
    simp only
    rw [h4]
  have hUa : a'.U = U u := by
    obtain ⟨a1, h3, h4⟩ := equilibrium_closed he (u := List.ofFn u) (by simp) hV0 lpf false (hU u)
    rw [h] at h3
    rw [← h4]
    exact congrArg (fun t => t.1.U) (Except.ok.inj h3)
  rw [hUa] at hax
  have hbar : ∀ b ∈ bars, ∃ L : (Fin c.ndof1 → ℝ) →L[ℝ] ℝ,
      HasFDerivAt (fun x => b.E * b.area * len b.ref / 2 * (b.stretch (U x) - 1) ^ 2) L u ∧
      ∀ v, L v = b.E * (b.stretch (U u) - 1) * b.area *
        ∑ e : Fin 3, b.dir (U u) e * (D (3 * b.iE + e) v - D (3 * b.iA + e) v) :=
    fun b hb => energy_hasFDerivAt hD (hax b hb) (href b hb)
  choose! L hL hLv using hbar
  have h1 : HasFDerivAt (fun x => strainEnergy bars (U x)) ((bars.map L).sum) u := by
    unfold strainEnergy
    exact list_sum_hasFDerivAt (f := fun (b : Bar ℝ) x => b.E * b.area * len b.ref / 2 * (b.stretch (U x) - 1) ^ 2) hL
  have h2 : HasFDerivAt (fun x => ((List.range (U x).length).map fun p =>
      (ef.forcesConst.getD p 0 + lpf * ef.forces.getD p 0) * (U x).getD p 0).sum)
      (((List.range a.U.length).map fun p => (ef.forcesConst.getD p 0 + lpf * ef.forces.getD p 0) • D p).sum) u := by
    simp only [hlen]
    exact list_sum_hasFDerivAt (f := fun (p : Nat) x => (ef.forcesConst.getD p 0 + lpf * ef.forces.getD p 0) * (U x).getD p 0)
      fun p _ => (hD p).const_mul _
  rw [hfun]
  refine (h1.sub h2).congr_fderiv ?_
  ext1 v
  rw [sub_apply, list_sum_apply, list_sum_apply, neg_apply, _root_.sum_apply]
  have e1 : (bars.map fun b => L b v).sum =
      ∑ m : Fin c.ndof1, forceFn c a.statev bars (U u) (a.DOF1.getD m 0 / 3) (comp (a.DOF1.getD m 0)) * v m := by
    unfold forceFn
    have e2 : (bars.map fun b => L b v) = bars.zipIdx.map fun p => ∑ m : Fin c.ndof1, p.1.sgn (a.DOF1.getD m 0 / 3) *
        (p.1.stressAt (stateRow c a.statev p.2) (p.1.stretch (U u) - 1) * p.1.geo.getD 0 0 *
          p.1.dir (U u) (comp (a.DOF1.getD m 0))) * v m := by
      apply List.ext_getElem?
      intro k
      rw [List.getElem?_map, List.getElem?_map, List.getElem?_zipIdx]
      cases hb : bars[k]? with
      | none => rfl
      | some b =>
        simp only [Option.map_some]
        have hmem := List.mem_of_getElem? hb
        rw [hLv b hmem]
        congr 1
        have hs : b.stressAt (stateRow c a.statev (0 + k)) (b.stretch (U u) - 1) = b.E * (b.stretch (U u) - 1) := by
          have hm := (he.complete b hmem).mat
          unfold Bar.stressAt stressAt Bar.E
          rw [hel b hmem]
          cases hmm : b.mat with
          | nil => rw [hmm] at hm; simp at hm
          | cons E rest => rfl
        have hpk : ∑ e : Fin 3, b.dir (U u) e * (D (3 * b.iE + e) v - D (3 * b.iA + e) v) =
            ∑ m : Fin c.ndof1, b.sgn (a.DOF1.getD m 0 / 3) * b.dir (U u) (comp (a.DOF1.getD m 0)) * v m := by
          simp only [hDv, mul_sub, Finset.mul_sum, Finset.sum_sub_distrib]
          rw [Finset.sum_comm]
          rw [Finset.sum_comm (f := fun (e : Fin 3) (m : Fin c.ndof1) => b.dir (U u) e *
            (if a.DOF1.getD m 0 = 3 * b.iA + e then v m else 0))]
          rw [← Finset.sum_sub_distrib]
          refine Finset.sum_congr rfl fun j _ => ?_
          rw [sum_pick, sum_pick]
          unfold Bar.sgn
          ring
        rw [hs, hpk, Finset.mul_sum]
        refine Finset.sum_congr rfl fun m _ => ?_
        unfold Bar.area
        ring
    rw [e2, ← sum_list_swap_fin]
    refine Finset.sum_congr rfl fun m _ => ?_
    rw [← List.sum_map_mul_right]
  have e3 : ((List.range a.U.length).map fun p => ((ef.forcesConst.getD p 0 + lpf * ef.forces.getD p 0) • D p) v).sum =
      ∑ m : Fin c.ndof1, (ef.forcesConst.getD (a.DOF1.getD m 0) 0 + lpf * ef.forces.getD (a.DOF1.getD m 0) 0) * v m := by
    have e4 : ∀ p, ((ef.forcesConst.getD p 0 + lpf * ef.forces.getD p 0) • D p) v = ∑ m : Fin c.ndof1,
        if a.DOF1.getD m 0 = p then (ef.forcesConst.getD p 0 + lpf * ef.forces.getD p 0) * v m else 0 := by
      intro p
      rw [smul_apply, smul_eq_mul, hDv, Finset.mul_sum]
      refine Finset.sum_congr rfl fun m _ => ?_
      split <;> ring
    simp only [e4]
    rw [← sum_list_swap_fin]
    refine Finset.sum_congr rfl fun m _ => ?_
    have hm : (m : Nat) < a.DOF1.length := by rw [he.dofs]; exact m.isLt
    have hlm : a.DOF1.getD m 0 < a.U.length := by
      rw [List.getD_eq_getElem?_getD, List.getElem?_eq_getElem hm]
      exact hlt _ (List.getElem_mem _)
    exact range_pick _ hlm
  have e5 : ∀ m : Fin c.ndof1, residualAt c a lpf V0 u m =
      (ef.forcesConst.getD (a.DOF1.getD m 0) 0 + lpf * ef.forces.getD (a.DOF1.getD m 0) 0) -
        forceFn c a.statev bars (U u) (a.DOF1.getD m 0 / 3) (comp (a.DOF1.getD m 0)) := by
    intro m
    obtain ⟨a1, h3, -⟩ := equilibrium_closed he (u := List.ofFn u) (by simp) hV0 lpf false (hU u)
    unfold residualAt
    rw [h3]
    have hm : (m : Nat) < a.DOF1.length := by rw [he.dofs]; exact m.isLt
    simp only [List.getD_eq_getElem?_getD, List.getElem?_map, List.getElem?_eq_getElem hm, Option.map_some,
      Option.getD_some]
  rw [e1, e3, ← Finset.sum_sub_distrib, ← Finset.sum_neg_distrib]
  refine Finset.sum_congr rfl fun m _ => ?_
  rw [smul_apply, smul_eq_mul, e5]
  show _ = -(_ * v m)
  ring

/-! ## The hypotheses are met -/

/-- The example structure with two elastic bars. -/
def exCtxEl : Ctx ℝ :=
  { exCtx fun q => (q : ℝ) with elems := { (exCtx fun q => (q : ℝ)).elems with mtype := [1, 1] } }

def exBarsEl : List (Bar ℝ) := (exBars fun q => (q : ℝ)).map fun b => { b with law := .el }

theorem exEl_evaluable : Evaluable exCtxEl exBarsEl (exA fun q => (q : ℝ))
    ⟨[((0 : ℚ) : ℝ), ((0 : ℚ) : ℝ), ((0 : ℚ) : ℝ), ((0 : ℚ) : ℝ), ((0 : ℚ) : ℝ), ((-1 : ℚ) : ℝ), ((0 : ℚ) : ℝ), ((0 : ℚ) : ℝ), ((0 : ℚ) : ℝ)],
      List.replicate 9 ((0 : ℚ) : ℝ)⟩ where
  tables := by
    have h := exCtx_bars fun q => (q : ℝ)
    refine { nodes := h.nodes, elems := h.elems, length := rfl, nnodes := h.nnodes, bar := fun k b hb => ?_ }
    match k with
    | 0 =>
      cases hb
      exact ⟨⟨1, 2, rfl, rfl, rfl⟩, rfl, rfl, rfl, rfl, Or.inl ⟨rfl, rfl⟩, by simp⟩
    | 1 =>
      cases hb
      exact ⟨⟨2, 3, rfl, rfl, rfl⟩, rfl, rfl, rfl, rfl, Or.inl ⟨rfl, rfl⟩, by simp⟩
    | k + 2 => cases hb
  fits := by
    obtain ⟨h1, h2, h3, h4, h5, h6, h7, h8, h9, h10, h11⟩ := exA_fits fun q => (q : ℝ)
    exact ⟨h1, h2, h3, h4, h5, h6, h7, h8, h9, h10, h11⟩
  complete := by
    intro b hb
    have hb : b ∈ [_, _] := hb
    simp only [List.mem_cons, List.not_mem_nil, or_false] at hb
    rcases hb with rfl | rfl
    · exact ⟨by simp, by simp, fun h => by cases h⟩
    · exact ⟨by simp, by simp, fun h => by cases h⟩
  statev := ex_evaluable.statev
  ext := rfl
  forces := rfl
  forcesConst := rfl
  dofs := rfl

theorem sqrt16 : √(16 : ℝ) = 4 := by
  rw [show (16 : ℝ) = 4 ^ 2 by norm_num]
  exact Real.sqrt_sq (by norm_num)

theorem sqrt25 : √(25 : ℝ) = 5 := by
  rw [show (25 : ℝ) = 5 ^ 2 by norm_num]
  exact Real.sqrt_sq (by norm_num)

/-- C58: two elastic bars, node 2 pushed down to (4,0,0). -/
example : ∃ a' g, equilibrium exCtxEl (exA fun q => (q : ℝ)) (List.ofFn ![0, 0, -3] ++ [1/2]) [0, 0, 0, 0] .G false = .ok (a', g) ∧
    (∀ b ∈ exBarsEl, b.law = .el) ∧ (∀ b ∈ exBarsEl, len b.ref ≠ 0) ∧ (∀ b ∈ exBarsEl, len (b.axis a'.U) ≠ 0) := by
  obtain ⟨a', h1, h2⟩ := equilibrium_closed exEl_evaluable (u := List.ofFn ![0, 0, -3]) (V0 := [0, 0, 0, 0]) rfl rfl (1/2) false
    (U := [0, 0, 0, 0, 0, -3, 0, 0, 0]) (by
      have hl : List.ofFn ![(0 : ℝ), 0, -3] = [0, 0, -3] := by simp [List.ofFn_succ]
      rw [hl]
      rfl)
  have hall : ∀ P : Bar ℝ → Prop, (∀ b ∈ exBarsEl, P b) ↔ P exBarsEl[0] ∧ P exBarsEl[1] := by
    intro P
    show (∀ b ∈ [exBarsEl[0], exBarsEl[1]], P b) ↔ _
    simp
  refine ⟨a', _, h1, ?_, ?_, ?_⟩
  · rw [hall]
    exact ⟨rfl, rfl⟩
  · rw [hall]
    unfold exBarsEl exBars len Bar.ref
    norm_num
  · rw [hall, h2]
    unfold exBarsEl exBars len Bar.axis row3
    norm_num

/-- C59: the example structure with node 2 pulled up to (4, 0, 21/5): both bars are in tension and the second one
yields. -/
theorem ex_tension {U : List ℝ} (hU : U = [0, 0, 0, 0, 0, 6/5, 0, 0, 0]) (k : Nat) (b : Bar ℝ) (x : BarRes)
    (hb : (exBars fun q => (q : ℝ))[k]? = some b)
    (hx : b.Result U (stateRow (exCtx fun q => (q : ℝ)) (exA fun q => (q : ℝ)).statev k) x) :
    (k = 0 → x.force = 4/25) ∧ (k = 1 → x.force = 3/25) := by
  subst hU
  have h33 : √(33.64 : ℝ) = 5.8 := by
    rw [show (33.64 : ℝ) = 5.8 ^ 2 by norm_num]
    exact Real.sqrt_sq (by norm_num)
  have hs : ∀ b ∈ exBars fun q => (q : ℝ), b.stretch [0, 0, 0, 0, 0, 6/5, 0, 0, 0] = 1.16 := by
    intro b hb
    have hb : b ∈ [_, _] := hb
    simp only [List.mem_cons, List.not_mem_nil, or_false] at hb
    rcases hb with rfl | rfl <;>
    · unfold Bar.stretch len Bar.axis Bar.ref row3
      norm_num
      norm_num at h33
      rw [h33, sqrt25]
      norm_num
  have hst := hs b (List.mem_of_getElem? hb)
  obtain ⟨s1, ⟨de, out, l1, l2, l3⟩, a1, f1⟩ := hx
  rw [s1, hst] at l1
  refine ⟨fun hk => ?_, fun hk => ?_⟩
  · subst hk
    cases hb
    have l1 := Except.ok.inj l1
    have a1 := Option.some.inj a1
    rw [f1, l2, ← l1, ← a1]
    norm_num
  · subst hk
    cases hb
    have hv : (⟨1, 1/2, 1/10⟩ : Spec.Plastic).Valid := ⟨by norm_num, by norm_num, by norm_num⟩
    have hu := umat_real hv [] (1.16 - 1) de 0 0 (Y := 1/10) (by norm_num) (by norm_num)
    have l1 : umatElplastIso (1.16 - 1) de [((1 : ℚ) : ℝ), ((1/2 : ℚ) : ℝ), ((1/10 : ℚ) : ℝ)] (some [0, 0]) = .ok out := l1
    norm_num at l1
    norm_num at hu
    rw [l1] at hu
    have hu := Except.ok.inj hu
    have a1 := Option.some.inj a1
    rw [f1, l2, hu, ← a1]
    unfold Spec.newP Spec.flow
    rw [Real.sign_of_pos (by norm_num)]
    norm_num [abs_of_pos]

theorem ex_ordinary : ∀ b ∈ exBars fun q => (q : ℝ), b.Ordinary := by
  intro b hb
  have hb : b ∈ [_, _] := hb
  simp only [List.mem_cons, List.not_mem_nil, or_false] at hb
  rcases hb with rfl | rfl
  · exact ⟨by norm_num [Bar.area], fun _ => by norm_num [Bar.E], fun h => (by cases h)⟩
  · refine ⟨by norm_num [Bar.area], fun h => ?_, fun _ => ?_⟩
    · cases h
    · exact ⟨⟨1, 1/2, 1/10⟩, [], ⟨by norm_num, by norm_num, by norm_num⟩, by norm_num⟩


example (v : Fin 3 → ℝ) : ∃ a' K, stiffness (exCtx fun q => (q : ℝ)) (exA fun q => (q : ℝ)) [0, 0, 6/5] = .ok (a', K) ∧
    0 ≤ ∑ i, ∑ j, v i * matOf 3 K i j * v j := by
  obtain ⟨⟨a', K⟩, h⟩ := (ex_total (fun q => (q : ℝ)) 0 0 (6/5) 0 0 0 0 0 false).2
  obtain ⟨h1, -⟩ := stiffness_closed ex_evaluable rfl h (U := [0, 0, 0, 0, 0, 6/5, 0, 0, 0]) rfl
  refine ⟨a', K, h, C59_tension_is_stable (exCtx_bars _) ex_ordinary (exA_fits _) h (fun k b x hb hx => ?_) rfl v⟩
  have := ex_tension h1 k b x hb hx
  match k with
  | 0 => rw [this.1 rfl]; norm_num
  | 1 => rw [this.2 rfl]; norm_num
  | k + 2 => cases hb

/-- C60: residual and stiffness of the example structure with node 2 anywhere. -/
example (x y z : ℝ) : ∃ a' K b' g, stiffness (exCtx fun q => (q : ℝ)) (exA fun q => (q : ℝ)) [x, y, z] = .ok (a', K) ∧
    equilibrium (exCtx fun q => (q : ℝ)) (exA fun q => (q : ℝ)) [x, y, z, 0] [0, 0, 0, 0] .G false = .ok (b', g) ∧
    b'.U = a'.U ∧ ∀ i, i < 3 → CoordRow (exCtx fun q => (q : ℝ)) i
      ((fun i => if i = 0 then vec3 ((0 : ℚ) : ℝ) ((0 : ℚ) : ℝ) ((0 : ℚ) : ℝ) else if i = 1 then vec3 ((4 : ℚ) : ℝ) ((0 : ℚ) : ℝ) ((3 : ℚ) : ℝ)
        else vec3 ((8 : ℚ) : ℝ) ((0 : ℚ) : ℝ) ((0 : ℚ) : ℝ)) i) := by
  obtain ⟨⟨a', K⟩, h⟩ := (ex_total (fun q => (q : ℝ)) x y z 0 0 0 0 0 false).2
  obtain ⟨h1, -⟩ := stiffness_closed ex_evaluable rfl h (U := [0, 0, 0, x, y, z, 0, 0, 0]) rfl
  obtain ⟨b', h2, h3⟩ := equilibrium_closed ex_evaluable (u := [x, y, z]) (V0 := [0, 0, 0, 0]) rfl rfl 0 false
    (U := [0, 0, 0, x, y, z, 0, 0, 0]) rfl
  refine ⟨a', K, b', _, h, h2, h3.trans h1.symm, fun i hi => ?_⟩
  match i, hi with
  | 0, _ => rfl
  | 1, _ => rfl
  | 2, _ => rfl

end TrussPy
