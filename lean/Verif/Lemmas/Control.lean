import Verif.Lemmas.Width
import Verif.Spec.Linear
/-!
# The control component in exact arithmetic
-/

namespace TrussPy

theorem abs_le_vnorm (l : List ℝ) (w : ℝ) (hw : w ∈ l) : |w| ≤ Flt.vnorm l := by
  show |w| ≤ Real.sqrt ((l.map fun v => v * v).sum)
  apply Real.abs_le_sqrt
  rw [pow_two]
  apply List.single_le_sum (l := l.map fun v => v * v)
  · intro y hy
    obtain ⟨v, -, rfl⟩ := List.mem_map.1 hy
    exact mul_self_nonneg v
  · exact List.mem_map_of_mem (f := fun v => v * v) hw

theorem vnorm_append_le (l m : List ℝ) : Flt.vnorm l ≤ Flt.vnorm (l ++ m) := by
  show Real.sqrt _ ≤ Real.sqrt _
  apply Real.sqrt_le_sqrt
  rw [List.map_append, List.sum_append]
  have : 0 ≤ (m.map fun v => v * v).sum := by
    apply List.sum_nonneg
    intro y hy
    obtain ⟨v, -, rfl⟩ := List.mem_map.1 hy
    exact mul_self_nonneg v
  linarith

theorem vnorm_neg (l : List ℝ) : Flt.vnorm (l.map fun v => -v) = Flt.vnorm l := by
  show Real.sqrt _ = Real.sqrt _
  rw [List.map_map]
  congr 2
  apply List.map_congr_left
  intro v _
  show -v * -v = v * v
  ring

theorem pyGet_nat {α : Type} (l : List α) (n : Nat) (v : α) : pyGet l (n : Int) = .ok v ↔ l[n]? = some v := by
  unfold pyGet
  simp only [Int.natCast_nonneg, if_true]
  rw [if_neg (by omega), Int.toNat_natCast]
  cases l[n]? with
  | none => simp
  | some w => simp

theorem pyGet_ctrl {α : Type} (l : List α) (j : Int) (hj : j ≠ 0) (v : α) :
    pyGet l ((j.natAbs : Int) - 1) = .ok v ↔ l[j.natAbs - 1]? = some v := by
  have : ((j.natAbs : Int) - 1) = ((j.natAbs - 1 : Nat) : Int) := by omega
  rw [this, pyGet_nat]

/-- If some component of the increment is not zero, the new control component is not zero. -/
theorem signedIdx_ne_zero {env : Env ℝ} (hA : ArgMax env) {d : List ℝ} {i1 : Int} {v1 : ℝ} {j : Int}
    (hm : maxComp env d = .ok (i1, v1)) (hj : signedIdx i1 v1 = .ok j) {w : ℝ} (hw : w ∈ d) (hw0 : w ≠ 0) :
    j ≠ 0 := by
  have hne : d.map Flt.abs ≠ [] := by
    intro h
    rw [List.map_eq_nil_iff] at h
    rw [h] at hw
    cases hw
  obtain ⟨i, v, h1, h2, h3⟩ := hA _ hne
  unfold maxComp at hm
  rw [h1] at hm
  rw [List.getElem?_map] at h2
  cases hi : d[i]? with
  | none => rw [hi] at h2; cases h2
  | some u =>
    rw [hi] at h2
    simp only [hi] at hm
    have hv : |u| = v := Option.some.inj h2
    have hm := Except.ok.inj hm
    have hi1 : (i : Int) + 1 = i1 := congrArg Prod.fst hm
    have hv1 : Flt.abs u * npSign u = v1 := congrArg Prod.snd hm
    have hpos : 0 < |u| := by
      have := h3 _ (List.mem_map_of_mem (f := Flt.abs) hw)
      have h5 : 0 < |w| := abs_pos.2 hw0
      rw [hv]
      exact lt_of_lt_of_le h5 this
    have hu : u ≠ 0 := abs_pos.1 hpos
    unfold signedIdx at hj
    have hs : ∃ s : Int, Flt.sgn v1 = some s ∧ s ≠ 0 := by
      have hv1' : v1 ≠ 0 := by
        rw [← hv1]
        refine mul_ne_zero hpos.ne' ?_
        unfold npSign
        show (match (some (if u < 0 then (-1 : Int) else if u = 0 then 0 else 1)) with
          | some k => (Flt.ofInt k : ℝ)
          | none => Flt.nan) ≠ 0
        rcases lt_or_gt_of_ne hu with h | h
        · rw [if_pos h]
          show ((-1 : Int) : ℝ) ≠ 0
          norm_num
        · rw [if_neg (not_lt.2 h.le), if_neg hu]
          show ((1 : Int) : ℝ) ≠ 0
          norm_num
      rcases lt_or_gt_of_ne hv1' with h | h
      · exact ⟨-1, congrArg some (if_pos h), by decide⟩
      · refine ⟨1, ?_, by decide⟩
        show some _ = some _
        rw [if_neg (not_lt.2 h.le), if_neg hv1']
    obtain ⟨s, hs1, hs2⟩ := hs
    rw [hs1] at hj
    have := Except.ok.inj hj
    rw [← this, ← hi1]
    exact mul_ne_zero (by omega) hs2

theorem sign_cases (j : Int) (hj : j ≠ 0) : (Flt.ofInt j.sign : ℝ) = 1 ∨ (Flt.ofInt j.sign : ℝ) = -1 := by
  rcases lt_or_gt_of_ne hj with h | h
  · right
    rw [Int.sign_eq_neg_one_of_neg h]
    show ((-1 : Int) : ℝ) = -1
    norm_num
  · left
    rw [Int.sign_eq_one_of_pos h]
    show ((1 : Int) : ℝ) = 1
    norm_num

/-- Entry of a quotient of differences. -/
theorem vdiv_vsub_mem {x y d : List ℝ} {i : Nat} {u v w : ℝ} (hx : x[i]? = some u) (hy : y[i]? = some v)
    (hd : d[i]? = some w) : (u - v) / w ∈ vdiv (vsub x y) d := by
  apply List.mem_of_getElem? (i := i)
  simp [vdiv, vsub, List.getElem?_zipWith, hx, hy, hd]

private theorem dot_unit : ∀ (n i : Nat) (dx : List ℝ), dx.length = n → i < n →
    (List.zipWith (· * ·) ((List.replicate n (0 : ℝ)).set i 1) dx).sum = dx.getD i 0
  | 0, _, _, _, h => by omega
  | n + 1, 0, dx, hl, _ => by
    cases dx with
    | nil => simp at hl
    | cons v dx =>
      simp only [List.replicate_succ, List.set_cons_zero, List.zipWith_cons_cons, List.sum_cons, one_mul,
        List.getD_cons_zero]
      have : (List.zipWith (· * ·) (List.replicate n (0 : ℝ)) dx).sum = 0 := by
        clear hl
        induction n generalizing dx with
        | zero => simp
        | succ n ih =>
          cases dx with
          | nil => simp
          | cons w dx => simp [List.replicate_succ, ih]
      linarith
  | n + 1, i + 1, dx, hl, hi => by
    cases dx with
    | nil => simp at hl
    | cons v dx =>
      simp only [List.replicate_succ, List.set_cons_succ, List.zipWith_cons_cons, List.sum_cons, zero_mul,
        zero_add, List.getD_cons_succ]
      exact dot_unit n i dx (by simpa using hl) (by omega)

/-- One Newton iteration with an exact solver moves the control component exactly to its target. -/
theorem newtonIter_control {env : Env ℝ} (hE : ExactSolver env) {P : Problem ℝ} {V0 : List ℝ} {j : Int}
    (hj : j ≠ 0) {Vmax : ℝ} {s s' : Analysis ℝ} {x x' fx dx : List ℝ}
    (h : NewtonIter (extF P V0 j Vmax false) (extDf P j) env.spsolve s x s' x' fx dx) :
    ∃ u, x[j.natAbs - 1]? = some u ∧ dx[j.natAbs - 1]? = some (Vmax - u) := by
  obtain ⟨s1, J, s2, fx1, h1, h2, h3, h4, h5, h6⟩ := h
  obtain ⟨qc, a1, K, k1, k2, rfl, -⟩ := extDf_ok h1
  obtain ⟨gv, vj, l1, l2, rfl⟩ := extF_ok h2
  rw [pyGet_ctrl _ _ hj] at l2
  refine ⟨vj, l2, ?_⟩
  have hlt : j.natAbs - 1 < x.length := (List.getElem?_eq_some_iff.1 l2).1
  have hqc : qc = (List.replicate x.length (0 : ℝ)).set (j.natAbs - 1) 1 := by
    unfold pySet at k1
    have e : ((j.natAbs : Int) - 1) = ((j.natAbs - 1 : Nat) : Int) := by omega
    simp only [e, Int.natCast_nonneg, if_true, List.length_replicate] at k1
    rw [if_neg (by omega)] at k1
    have := Except.ok.inj k1
    rw [← this, Int.toNat_natCast]
  have hA := hE _ _ _ h3
  unfold matVec at hA
  rw [List.map_append, List.map_append] at hA
  have hlast := congrArg List.getLast? hA
  simp only [List.map_cons, List.map_nil, List.getLast?_append, List.getLast?_singleton, Option.some_or,
    Option.some.injEq] at hlast
  rw [hqc, dot_unit x.length _ dx h4 hlt] at hlast
  have hd : dx[j.natAbs - 1]? = some (dx[j.natAbs - 1]'(by omega)) := List.getElem?_eq_getElem _
  rw [List.getD_eq_getElem?_getD, hd, Option.getD_some] at hlast
  rw [hd, hlast]
  congr 1
  ring

end TrussPy
