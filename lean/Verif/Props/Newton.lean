import Verif.Lemmas.Newton
import Verif.Spec.Linear
import Mathlib.Tactic.Ring
import Mathlib.Tactic.Linarith
/-!
# Properties C32, C33: the Newton solver
-/

namespace TrussPy

section C32
variable {F : Type} [Add F] [Neg F] [Flt F]

/-- **C32.** A returning `newton` has performed a sequence of Newton iterations (solve
`df(x) dx = -f(x)`, `x := x + dx`) ending at the returned `x`; between one and `nfev` of them, and
that number is reported; the reported norms are those of the residual at the returned `x` and of the
last update; success is reported exactly if both tolerances are met by the last iteration; no earlier
iteration met them; without success all `nfev` iterations were used.  For arbitrary `f`, `df`, linear
solver and arithmetic. -/
theorem C32_newton_success {S : Type} (f : S → List F → Py (S × List F))
    (df : S → List F → Py (S × List (List F))) (sp : List (List F) → List F → Py (List F)) (s : S)
    (x : List F) (nfev : Int) (ftol xtol : F) (s' : S) (o : NewtonOut F)
    (h : newton f df sp s x nfev ftol xtol = .ok (s', o)) :
    ∃ its last, NewtonRun f df sp s x (its ++ [last]) s' o.x ∧ o.n = (its ++ [last]).length ∧
      1 ≤ o.n ∧ o.n ≤ nfev ∧ o.fnorm = Flt.vnorm last.1 ∧ o.xnorm = Flt.vnorm last.2 ∧
      (o.success = true ↔ Converged ftol xtol last) ∧ (∀ it ∈ its, ¬ Converged ftol xtol it) ∧
      (o.success = false → o.n = nfev) := by
  obtain ⟨its, last, r1, r2, r3, r4, r5, r6, r7, r8⟩ := newtonLoop_spec _ _ _ _ _ _ h
  refine ⟨its, last, r1, ?_, ?_, ?_, r4, r5, r7, r6, ?_⟩
  · rw [r2]; simp
  · rw [r2]; omega
  · rw [r2]; omega
  · intro hs; have := r8 hs; rw [r2]; omega

/-- **C32**, exceptional part: without an allowed iteration `newton` raises, it never returns a
made-up result. -/
theorem C32_newton_no_iterations {S : Type} (f : S → List F → Py (S × List F))
    (df : S → List F → Py (S × List (List F))) (sp : List (List F) → List F → Py (List F)) (s : S)
    (x : List F) (nfev : Int) (ftol xtol : F) (h : nfev ≤ 0) :
    newton f df sp s x nfev ftol xtol = .error .unboundLocal :=
  newton_nfev_nonpos f df sp s x nfev ftol xtol h

/-- **C32** for a residual without side effects: success means that the residual evaluated at the
returned vector is below the tolerance. -/
theorem C32_pure_residual (f : List F → Py (List F)) (df : List F → Py (List (List F)))
    (sp : List (List F) → List F → Py (List F)) (x : List F) (nfev : Int) (ftol xtol : F)
    (o : NewtonOut F)
    (h : newton (fun (_ : Unit) x => (f x).map fun y => ((), y)) (fun _ x => (df x).map fun y => ((), y))
      sp () x nfev ftol xtol = .ok ((), o)) (hs : o.success = true) :
    ∃ fx, f o.x = .ok fx ∧ o.fnorm = Flt.vnorm fx ∧ Flt.lt (Flt.vnorm fx) ftol = true := by
  obtain ⟨its, last, r1, -, -, -, r4, -, r7, -, -⟩ := C32_newton_success _ _ _ _ _ _ _ _ _ _ h
  have key : ∀ (its : List (List F × List F)) (x x' : List F) (last : List F × List F),
      NewtonRun (fun (_ : Unit) x => (f x).map fun y => ((), y))
        (fun _ x => (df x).map fun y => ((), y)) sp () x (its ++ [last]) () x' →
      f x' = .ok last.1 := by
    intro its
    induction its with
    | nil =>
      intro x x' last hr
      cases hr with
      | cons hit hrest =>
        cases hrest
        obtain ⟨_, _, _, _, _, _, _, _, _, h5⟩ := hit
        simp only at h5
        cases hf : f x' with
        | error e => rw [hf] at h5; cases h5
        | ok y => rw [hf] at h5; cases h5; rfl
    | cons it its ih =>
      intro x x' last hr
      cases hr with
      | cons hit hrest => exact ih _ _ _ hrest
  exact ⟨last.1, key its x o.x last r1, r4, ((r7.1 hs)).1⟩

end C32

/-- A case for C32: `x^2 = 2` from `x = 1` on the rationals, tolerance 1/100 for both norms. -/
def exSqrtF (x : List ℚ) : Py (List ℚ) := .ok (x.map fun v => v * v - 2)

/-- its derivative -/
def exSqrtDf (x : List ℚ) : Py (List (List ℚ)) := .ok [x.map fun v => 2 * v]

/-- 1x1 solver -/
def exSolve1 (A : List (List ℚ)) (b : List ℚ) : Py (List ℚ) :=
  match A, b with
  | [[a]], [v] => .ok [v / a]
  | _, _ => .error .valueError

/-- Newton's method converges for `x^2 = 2` within 3 iterations (`C32_pure_residual` applies), while
2 iterations are not enough and the failure is reported. -/
example : (newton (fun (_ : Unit) x => (exSqrtF x).map fun y => ((), y))
      (fun _ x => (exSqrtDf x).map fun y => ((), y)) exSolve1 () [1] 3 (1/100) (1/100)).map
        (fun r => (r.2.success, r.2.n, r.2.x)) = .ok (true, 3, [577/408]) ∧
    (newton (fun (_ : Unit) x => (exSqrtF x).map fun y => ((), y))
      (fun _ x => (exSqrtDf x).map fun y => ((), y)) exSolve1 () [1] 2 (1/100) (1/100)).map
        (fun r => (r.2.success, r.2.n, r.2.x)) = .ok (false, 2, [17/12]) := by
  constructor <;> decide +kernel

/-! ## C33 -/

private theorem dot_add (row : List ℝ) : ∀ (x d : List ℝ), x.length = row.length → d.length = row.length →
    (List.zipWith (· * ·) row (List.zipWith (· + ·) x d)).sum =
      (List.zipWith (· * ·) row x).sum + (List.zipWith (· * ·) row d).sum := by
  induction row with
  | nil => intro x d _ _; simp
  | cons a row ih =>
    intro x d hx hd
    cases x with
    | nil => simp at hx
    | cons u x =>
      cases d with
      | nil => simp at hd
      | cons v d =>
        simp only [List.zipWith_cons_cons, List.sum_cons]
        rw [ih x d (by simpa using hx) (by simpa using hd)]
        ring

private theorem matVec_add (A : List (List ℝ)) (n : Nat) (hA : ∀ row ∈ A, row.length = n) (x d : List ℝ)
    (hx : x.length = n) (hd : d.length = n) :
    matVec A (vadd x d) = vadd (matVec A x) (matVec A d) := by
  unfold matVec vadd
  rw [List.zipWith_map, List.zipWith_self]
  exact List.map_congr_left fun row hr => dot_add row x d (by rw [hx, hA row hr]) (by rw [hd, hA row hr])

private theorem root_aux : ∀ (y b : List ℝ), y.length = b.length →
    vadd y ((vsub y b).map fun v => -v) = b := by
  intro y
  induction y with
  | nil => intro b hb; cases b with
    | nil => rfl
    | cons _ _ => simp at hb
  | cons u y ih =>
    intro b hb
    cases b with
    | nil => simp at hb
    | cons v b =>
      have := ih b (by simpa using hb)
      simp only [vadd, vsub, List.zipWith_cons_cons, List.map_cons] at this ⊢
      rw [this]
      congr 1
      ring

private theorem vsub_self_zero (b : List ℝ) : vsub b b = List.replicate b.length 0 := by
  induction b with
  | nil => rfl
  | cons v b ih => simp only [vsub, List.zipWith_cons_cons, sub_self] at ih ⊢; rw [ih]; rfl

private theorem vnorm_zero (n : Nat) : Flt.vnorm (List.replicate n (0 : ℝ)) = 0 := by
  show Real.sqrt _ = 0
  simp

/-- **C33.** For an affine residual `f x = A x - b` with a regular square matrix `A`, its constant
Jacobian and an exact linear solver: every Newton iteration, from whatever vector, ends in a root; and
with `nfev ≥ 2` and positive tolerances `newton` reports success after at most two iterations and
returns the solution. -/
theorem C33_affine (n : Nat) (A : List (List ℝ)) (b : List ℝ) (hA : A.length = n)
    (hrow : ∀ row ∈ A, row.length = n) (hb : b.length = n)
    (hreg : ∀ v : List ℝ, v.length = n → matVec A v = List.replicate n 0 → v = List.replicate n 0)
    (sp : List (List ℝ) → List ℝ → Py (List ℝ)) (hsp : SolvesExactly sp A n) {S : Type}
    (f : S → List ℝ → Py (S × List ℝ)) (df : S → List ℝ → Py (S × List (List ℝ)))
    (hf : ∀ s x, f s x = .ok (s, vsub (matVec A x) b)) (hdf : ∀ s x, df s x = .ok (s, A))
    (x : List ℝ) (hx : x.length = n) (s : S) :
    (∀ s' x' fx' dx, NewtonIter f df sp s x s' x' fx' dx →
      matVec A x' = b ∧ fx' = List.replicate n 0) ∧
    ∀ (nfev : Int) (ftol xtol : ℝ), 2 ≤ nfev → 0 < ftol → 0 < xtol →
      ∃ o, newton f df sp s x nfev ftol xtol = .ok (s, o) ∧ o.success = true ∧ o.n ≤ 2 ∧
        matVec A o.x = b := by
  have hmv : ∀ v, (matVec A v).length = n := fun v => by simp [matVec, hA]
  -- one step from any vector of the right length
  have step : ∀ y : List ℝ, y.length = n → ∃ dx,
      sp A ((vsub (matVec A y) b).map fun v => -v) = .ok dx ∧ dx.length = n ∧
        (vadd y dx).length = n ∧ matVec A (vadd y dx) = b ∧
        matVec A dx = (vsub (matVec A y) b).map fun v => -v := by
    intro y hy
    obtain ⟨dx, h1, h2, h3⟩ := hsp ((vsub (matVec A y) b).map fun v => -v) (by simp [vsub, hmv, hb])
    refine ⟨dx, h1, h2, by simp [vadd, hy, h2], ?_, h3⟩
    rw [matVec_add A n hrow y dx hy h2, h3]
    exact root_aux _ _ (by rw [hmv, hb])
  have hroot : ∀ y : List ℝ, matVec A y = b → vsub (matVec A y) b = List.replicate n 0 := by
    intro y hy; rw [hy, vsub_self_zero, hb]
  refine ⟨?_, ?_⟩
  · rintro s' x' fx' dx ⟨s1, J, s2, fx, h1, h2, h3, -, h4, h5⟩
    rw [hdf] at h1; cases h1
    rw [hf] at h2; cases h2
    obtain ⟨dx', k1, -, -, k4, -⟩ := step x hx
    rw [k1] at h3; cases h3
    rw [hf] at h5; cases h5
    have : x' = vadd x dx := h4
    rw [this]
    exact ⟨k4, hroot _ k4⟩
  · intro nfev ftol xtol hn hft hxt
    obtain ⟨m, hm⟩ : ∃ m, nfev.toNat = m + 2 := ⟨nfev.toNat - 2, by omega⟩
    obtain ⟨dx, k1, k2, k3, k4, -⟩ := step x hx
    obtain ⟨dx2, l1, l2, -, l4, l5⟩ := step (vadd x dx) k3
    have hz : vsub b b = List.replicate n 0 := by rw [vsub_self_zero, hb]
    have hdx2 : dx2 = List.replicate n 0 := by
      apply hreg dx2 l2
      rw [l5, hroot _ k4]
      simp
    have hlt0 : Flt.lt (Flt.vnorm (List.replicate n (0 : ℝ))) ftol = true := by
      rw [vnorm_zero]; exact decide_eq_true hft
    have hlt1 : Flt.lt (Flt.vnorm (List.replicate n (0 : ℝ))) xtol = true := by
      rw [vnorm_zero]; exact decide_eq_true hxt
    rw [k4] at l1
    by_cases hc : Flt.lt (Flt.vnorm dx) xtol = true
    · refine ⟨⟨vadd x dx, true, 1, Flt.vnorm (vsub b b), Flt.vnorm dx⟩, ?_, rfl, by show (1 : Int) ≤ 2; omega, k4⟩
      simp only [newton, hm, newtonLoop, hf, hdf, bind, Except.bind, k1, k4]
      rw [if_neg (show ¬ dx.length ≠ x.length by rw [k2, hx]; simp), hz, hlt0, hc]
      rfl
    · refine ⟨⟨vadd (vadd x dx) dx2, true, 2, Flt.vnorm (vsub b b), Flt.vnorm dx2⟩, ?_, rfl, le_refl _, l4⟩
      simp only [newton, hm, newtonLoop, hf, hdf, bind, Except.bind, k1, k4]
      rw [if_neg (show ¬ dx.length ≠ x.length by rw [k2, hx]; simp), hz, hlt0, Bool.true_and, if_neg hc]
      rw [hz] at l1
      simp only [l1, l4]
      rw [if_neg (show ¬ dx2.length ≠ (vadd x dx).length by rw [l2, k3]; simp), hz, hdx2, hlt0, hlt1]
      rfl

/-- A case for C33: the system `2x + y = 3, x + 3y = 5` with Cramer's rule as solver meets the
hypotheses. -/
example : let A : List (List ℝ) := [[2, 1], [1, 3]]
    let sp : List (List ℝ) → List ℝ → Py (List ℝ) := fun _ r =>
      match r with
      | [p, q] => .ok [(3 * p - q) / 5, (2 * q - p) / 5]
      | _ => .error .valueError
    (∀ v : List ℝ, v.length = 2 → matVec A v = List.replicate 2 0 → v = List.replicate 2 0) ∧
      SolvesExactly sp A 2 := by
  constructor
  · intro v hv h
    match v, hv with
    | [p, q], _ =>
      simp [matVec, List.replicate] at h ⊢
      obtain ⟨h1, h2⟩ := h
      constructor <;> linarith
  · intro r hr
    match r, hr with
    | [p, q], _ =>
      refine ⟨_, rfl, rfl, ?_⟩
      simp [matVec]
      constructor <;> ring

end TrussPy
