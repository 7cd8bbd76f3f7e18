import Verif.Spec.Mirror
import Verif.Lemmas.NumPy
import Verif.Lemmas.Solver
import Verif.Lemmas.Plasticity
import Mathlib.Data.List.Forall2
import Mathlib.Tactic.Ring
import Mathlib.Tactic.Linarith
/-!
# Path following commutes with changes of sign
-/

set_option linter.unusedSectionVars false

namespace TrussPy

theorem Alike.bind {α β γ δ : Type} {R : α → β → Prop} {S : γ → δ → Prop} {p : Py α} {q : Py β} {f : α → Py γ} {g : β → Py δ}
    (h : Alike R p q) (hf : ∀ x y, R x y → Alike S (f x) (g y)) : Alike S (p >>= f) (q >>= g) := by
  cases h with
  | ok h => exact hf _ _ h
  | error e => exact .error e

theorem Alike.mono {α β : Type} {R S : α → β → Prop} {p : Py α} {q : Py β} (h : Alike R p q) (hRS : ∀ x y, R x y → S x y) :
    Alike S p q := by
  cases h with
  | ok h => exact .ok (hRS _ _ h)
  | error e => exact .error e

theorem Alike.of_map {α β : Type} {p : Py α} {q : Py β} {f : α → β} (h : q = p.map f) : Alike (fun x y => y = f x) p q := by
  subst h
  cases p with
  | error e => exact .error e
  | ok x => exact .ok rfl

theorem Alike.refl {α : Type} (p : Py α) : Alike (fun x y => y = x) p p := by
  cases p with
  | error e => exact .error e
  | ok x => exact .ok rfl

section
variable {σ : Nat → Int}

theorem IsSigns.cast (h : IsSigns σ) (i : Nat) : (σ i : ℝ) = 1 ∨ (σ i : ℝ) = -1 := by
  rcases h i with e | e <;> simp [e]

theorem IsSigns.sq (h : IsSigns σ) (i : Nat) : (σ i : ℝ) * (σ i : ℝ) = 1 := by
  rcases h.cast i with e | e <;> rw [e] <;> norm_num

theorem flipV_get (σ : Nat → Int) (x : List ℝ) (i : Nat) : (flipV σ x)[i]? = x[i]?.map ((σ i : ℝ) * ·) := by
  unfold flipV
  rw [List.getElem?_mapIdx]

@[simp] theorem flipV_length (σ : Nat → Int) (x : List ℝ) : (flipV σ x).length = x.length := by
  unfold flipV; rw [List.length_mapIdx]

theorem flipV_append (σ : Nat → Int) (x : List ℝ) (v : ℝ) : flipV σ (x ++ [v]) = flipV σ x ++ [(σ x.length : ℝ) * v] := by
  unfold flipV; rw [List.mapIdx_append]; simp

theorem flipV_dropLast (σ : Nat → Int) (x : List ℝ) : (flipV σ x).dropLast = flipV σ x.dropLast := by
  apply List.ext_getElem?
  intro i
  rw [List.getElem?_dropLast, flipV_get, flipV_get, List.getElem?_dropLast, flipV_length]
  split <;> rfl

theorem flipV_map (σ : Nat → Int) (x : List ℝ) {f : ℝ → ℝ} (hf : ∀ i v, f ((σ i : ℝ) * v) = (σ i : ℝ) * f v) :
    (flipV σ x).map f = flipV σ (x.map f) := by
  apply List.ext_getElem?
  intro i
  rw [List.getElem?_map, flipV_get, flipV_get, List.getElem?_map]
  cases x[i]? with
  | none => rfl
  | some v => simp [hf]

theorem flipV_vadd (σ : Nat → Int) (x y : List ℝ) : vadd (flipV σ x) (flipV σ y) = flipV σ (vadd x y) := by
  unfold vadd
  apply List.ext_getElem?
  intro i
  rw [flipV_get, List.getElem?_zipWith, List.getElem?_zipWith, flipV_get, flipV_get]
  cases x[i]? <;> cases y[i]? <;> simp [mul_add]

theorem flipV_vsub (σ : Nat → Int) (x y : List ℝ) : vsub (flipV σ x) (flipV σ y) = flipV σ (vsub x y) := by
  unfold vsub
  apply List.ext_getElem?
  intro i
  rw [flipV_get, List.getElem?_zipWith, List.getElem?_zipWith, flipV_get, flipV_get]
  cases x[i]? <;> cases y[i]? <;> simp [mul_sub]

theorem flipV_vdiv (σ : Nat → Int) (x y : List ℝ) : vdiv (flipV σ x) y = flipV σ (vdiv x y) := by
  unfold vdiv
  apply List.ext_getElem?
  intro i
  rw [flipV_get, List.getElem?_zipWith, List.getElem?_zipWith, flipV_get]
  cases x[i]? <;> cases y[i]? <;> simp [mul_div_assoc]

theorem abs_flip (h : IsSigns σ) (i : Nat) (v : ℝ) : |(σ i : ℝ) * v| = |v| := by
  rcases h.cast i with e | e <;> rw [e] <;> simp

theorem flipV_abs (h : IsSigns σ) (x : List ℝ) : (flipV σ x).map Flt.abs = x.map Flt.abs := by
  apply List.ext_getElem?
  intro i
  rw [List.getElem?_map, flipV_get, List.getElem?_map]
  cases x[i]? with
  | none => rfl
  | some v => exact congrArg some (abs_flip h i v)

theorem flipV_norm (h : IsSigns σ) (x : List ℝ) : (Flt.vnorm (flipV σ x) : ℝ) = Flt.vnorm x := by
  show √_ = √_
  congr 2
  apply List.ext_getElem?
  intro i
  rw [List.getElem?_map, flipV_get, List.getElem?_map]
  cases x[i]? with
  | none => rfl
  | some v =>
    simp only [Option.map_some, Option.some.injEq]
    have := h.sq i
    calc _ = ((σ i : ℝ) * (σ i : ℝ)) * (v * v) := by ring
      _ = _ := by rw [this, one_mul]

theorem flipV_all (h : IsSigns σ) (x : List ℝ) (c : ℝ) :
    ((flipV σ x).all fun v => Flt.le (Flt.abs v) c) = x.all fun v => Flt.le (Flt.abs v) c := by
  have e : ∀ l : List ℝ, (l.all fun v => Flt.le (Flt.abs v) c) = (l.map Flt.abs).all fun v => Flt.le v c := by
    intro l; rw [List.all_map]; rfl
  rw [e, e, flipV_abs h]

/-- Position the control component `j` refers to in a vector with `n + 1` entries. -/
def posJ (n : Nat) (j : Int) : Nat := if j = 0 then n else j.natAbs - 1

theorem idx_pos {n : Nat} (j : Int) : (if (0 : Int) ≤ (j.natAbs : Int) - 1 then (j.natAbs : Int) - 1
    else (j.natAbs : Int) - 1 + ((n + 1 : Nat) : Int)) = (posJ n j : Nat) := by
  unfold posJ
  split <;> split <;> omega

theorem pyGet_pos {α : Type} {x : List α} {n : Nat} (hx : x.length = n + 1) (j : Int) :
    pyGet x ((j.natAbs : Int) - 1) = match x[posJ n j]? with
      | some v => .ok v
      | none => .error .indexError := by
  unfold pyGet
  rw [hx, idx_pos]
  simp only
  rw [if_neg (by omega)]
  rfl

theorem pyGet_flip {x : List ℝ} {n : Nat} (hx : x.length = n + 1) (j : Int) :
    Alike (fun u v => v = (σ (posJ n j) : ℝ) * u) (pyGet x ((j.natAbs : Int) - 1)) (pyGet (flipV σ x) ((j.natAbs : Int) - 1)) := by
  rw [pyGet_pos hx, pyGet_pos (n := n) (by simpa using hx), flipV_get]
  cases x[posJ n j]? with
  | none => exact .error _
  | some v => exact .ok rfl

theorem flipJ_natAbs (h : IsSigns σ) (j : Int) : (flipJ σ j).natAbs = j.natAbs := by
  unfold flipJ
  rcases h (j.natAbs - 1) with e | e <;> rw [e] <;> simp

theorem flipJ_flipJ (h : IsSigns σ) (j : Int) : flipJ σ (flipJ σ j) = j := by
  have : flipJ σ (flipJ σ j) = σ (j.natAbs - 1) * (σ (j.natAbs - 1) * j) := by
    show σ ((flipJ σ j).natAbs - 1) * flipJ σ j = _
    rw [flipJ_natAbs h]
    rfl
  rw [this]
  rcases h (j.natAbs - 1) with e | e <;> rw [e] <;> simp

theorem flipJ_inj (h : IsSigns σ) {j k : Int} : flipJ σ j = flipJ σ k ↔ j = k :=
  ⟨fun e => by rw [← flipJ_flipJ h j, e, flipJ_flipJ h], fun e => by rw [e]⟩

theorem flipJ_zero (h : IsSigns σ) {j : Int} : flipJ σ j = 0 ↔ j = 0 := by
  rw [← Int.natAbs_eq_zero, flipJ_natAbs h, Int.natAbs_eq_zero]

theorem posJ_flipJ (h : IsSigns σ) (n : Nat) (j : Int) : posJ n (flipJ σ j) = posJ n j := by
  unfold posJ
  simp only [flipJ_zero h, flipJ_natAbs h]

theorem flipJ_eq (n : Nat) (j : Int) : flipJ σ j = σ (posJ n j) * j := by
  unfold flipJ posJ
  split
  · next h => rw [h]; simp
  · rfl

theorem flipJ_sign (h : IsSigns σ) (n : Nat) (j : Int) : (flipJ σ j).sign = σ (posJ n j) * j.sign := by
  rw [flipJ_eq n]
  rcases h (posJ n j) with e | e <;> rw [e] <;> simp

/-! ## Newton's method -/

/-- `Env.KeepsSigns` for the signs `σ` of the unknowns, where the signs of the equations are among them. -/
def Env.KeepsSignsOf (env : Env ℝ) (σ : Nat → Int) : Prop :=
  ∀ τ, (∀ i, ∃ k, τ i = σ k) → ∀ A b, env.spsolve (flipM τ σ A) (flipV τ b) = (env.spsolve A b).map (flipV σ)

theorem Env.KeepsSigns.of {env : Env ℝ} (h : env.KeepsSigns) {σ : Nat → Int} (hσ : IsSigns σ) : env.KeepsSignsOf σ := by
  intro τ hτ A b
  refine h τ σ (fun i => ?_) hσ A b
  obtain ⟨k, hk⟩ := hτ i
  rw [hk]
  exact hσ k

theorem newtonLoop_flip {S T : Type} {R : S → T → Prop} {f : S → List ℝ → Py (S × List ℝ)} {f' : T → List ℝ → Py (T × List ℝ)}
    {df : S → List ℝ → Py (S × List (List ℝ))} {df' : T → List ℝ → Py (T × List (List ℝ))} {env : Env ℝ} (hE : env.KeepsSignsOf σ)
    {τ : Nat → Int} (hτ : IsSigns τ) (hτσ : ∀ i, ∃ k, τ i = σ k) (hσ : IsSigns σ) {m : Nat} {ftol xtol : ℝ}
    (hf : ∀ s s' x, R s s' → x.length = m →
      Alike (fun p p' => R p.1 p'.1 ∧ p'.2 = flipV τ p.2) (f s x) (f' s' (flipV σ x)))
    (hdf : ∀ s s' x, R s s' → x.length = m →
      Alike (fun p p' => R p.1 p'.1 ∧ p'.2 = flipM τ σ p.2) (df s x) (df' s' (flipV σ x))) :
    ∀ (k : Nat) (n : Int) (s : S) (s' : T) (x : List ℝ), R s s' → x.length = m →
      Alike (fun p p' => R p.1 p'.1 ∧ p'.2 = { p.2 with x := flipV σ p.2.x } ∧ p.2.x.length = m)
        (newtonLoop f df env.spsolve ftol xtol k n s x) (newtonLoop f' df' env.spsolve ftol xtol k n s' (flipV σ x)) := by
  intro k
  induction k with
  | zero => intro n s s' x _ _; exact .error _
  | succ k ih =>
    intro n s s' x hR hx
    unfold newtonLoop
    refine (hdf s s' x hR hx).bind ?_
    rintro ⟨s1, J⟩ ⟨s1', J'⟩ ⟨hR1, hJ⟩
    dsimp only at hR1 hJ ⊢
    subst hJ
    refine (hf s1 s1' x hR1 hx).bind ?_
    rintro ⟨s2, fx⟩ ⟨s2', fx'⟩ ⟨hR2, hfx⟩
    dsimp only at hR2 hfx ⊢
    subst hfx
    have hneg : (flipV τ fx).map (fun v => -v) = flipV τ (fx.map fun v => -v) := flipV_map τ fx fun i v => by ring
    rw [hneg]
    refine (Alike.of_map (hE τ hτσ J (fx.map fun v => -v))).bind ?_
    rintro dx _ rfl
    rw [flipV_length, flipV_length]
    split
    · exact .error _
    · next hl =>
      rw [flipV_vadd]
      have hx' : (vadd x dx).length = m := by
        unfold vadd; rw [List.length_zipWith]; simp only [ne_eq, not_not] at hl; omega
      refine (hf s2 s2' _ hR2 hx').bind ?_
      rintro ⟨s3, gx⟩ ⟨s3', gx'⟩ ⟨hR3, hgx⟩
      dsimp only at hR3 hgx ⊢
      subst hgx
      rw [flipV_norm hτ, flipV_norm hσ]
      split
      · exact .ok ⟨hR3, rfl, hx'⟩
      · cases k with
        | zero => exact .ok ⟨hR3, rfl, hx'⟩
        | succ k => exact ih (n + 1) s3 s3' _ hR3 hx'

/-! ## The extended equations -/

/-- Two problems that differ by the signs `σ` of the components, for analysis objects related by `R`. -/
structure Problem.Flip (P P' : Problem ℝ) (n : Nat) (σ : Nat → Int) (R : Analysis ℝ → Analysis ℝ → Prop) : Prop where
  signs : IsSigns σ
  last : σ n = 1
  g : ∀ a a' V V0 w, R a a' → V.length = n + 1 → V0.length = n + 1 →
    Alike (fun p p' => R p.1 p'.1 ∧ p'.2 = flipV σ p.2 ∧ p.2.length = n) (P.g a V V0 w) (P'.g a' (flipV σ V) (flipV σ V0) w)
  dgdx : ∀ a a' U, R a a' → U.length = n →
    Alike (fun p p' => R p.1 p'.1 ∧ p'.2 = flipM σ σ p.2 ∧ p.2.length = n ∧ ∀ row ∈ p.2, row.length = n)
      (P.dgdx a U) (P'.dgdx a' (flipV σ U))
  f0 : ∀ a a', R a a' → a'.f0red = flipV σ a.f0red ∧ a.f0red.length = n
  setJ : ∀ (a a' : Analysis ℝ) j, R a a' → R { a with j := j } { a' with j := flipJ σ j }
  setK : ∀ (a a' : Analysis ℝ) τ K, R a a' → IsSigns τ → R { a with Kmod := K } { a' with Kmod := flipM τ σ K }
  setD : ∀ (a a' : Analysis ℝ) dV, R a a' → R { a with dVmax := dV } { a' with dVmax := dV }
  save : ∀ (a a' : Analysis ℝ) (V u : List ℝ) (l : ℝ), R a a' → V.length = n + 1 → u.length = n →
    R { a with Vred := V, Ured := u, lpf := some l } { a' with Vred := flipV σ V, Ured := flipV σ u, lpf := some l }

/-- Signs of the extended equations: those of the components, and that of the control component for the last one. -/
def rowSigns (σ : Nat → Int) (n : Nat) (j : Int) (i : Nat) : Int := if i = n then σ (posJ n j) else σ i

theorem rowSigns_signs (h : IsSigns σ) (n : Nat) (j : Int) : IsSigns (rowSigns σ n j) := by
  intro i
  unfold rowSigns
  split
  · exact h _
  · exact h _

theorem rowSigns_of (σ : Nat → Int) (n : Nat) (j : Int) (i : Nat) : ∃ k, rowSigns σ n j i = σ k := by
  unfold rowSigns
  split
  · exact ⟨_, rfl⟩
  · exact ⟨_, rfl⟩

theorem flipV_congr {σ τ : Nat → Int} {x : List ℝ} (h : ∀ i, i < x.length → σ i = τ i) : flipV σ x = flipV τ x := by
  apply List.ext_getElem?
  intro i
  rw [flipV_get, flipV_get]
  by_cases hi : i < x.length
  · rw [h i hi]
  · rw [List.getElem?_eq_none (by omega)]; rfl

section
variable {P P' : Problem ℝ} {n : Nat} {R : Analysis ℝ → Analysis ℝ → Prop}

theorem extF_flip (hP : P.Flip P' n σ R) {V0 V : List ℝ} (j : Int) (Vmax : ℝ) (w : Bool) {a a' : Analysis ℝ} (ha : R a a')
    (hV : V.length = n + 1) (hV0 : V0.length = n + 1) :
    Alike (fun p p' => R p.1 p'.1 ∧ p'.2 = flipV (rowSigns σ n j) p.2)
      (extF P V0 j Vmax w a V) (extF P' (flipV σ V0) (flipJ σ j) ((σ (posJ n j) : ℝ) * Vmax) w a' (flipV σ V)) := by
  unfold extF
  refine (hP.g _ _ V V0 w (hP.setJ a a' j ha) hV hV0).bind ?_
  rintro ⟨a1, r⟩ ⟨a1', r'⟩ ⟨h1, h2, h3⟩
  dsimp only at h1 h2 h3 ⊢
  subst h2
  rw [flipJ_natAbs hP.signs]
  refine (pyGet_flip hV j).bind ?_
  rintro v _ rfl
  refine .ok ⟨h1, ?_⟩
  show (flipV σ r).map _ ++ [_] = flipV _ _
  rw [flipV_append]
  congr 1
  · rw [flipV_map σ r (fun i v => by ring)]
    apply flipV_congr
    intro i hi
    rw [List.length_map, h3] at hi
    unfold rowSigns
    rw [if_neg (by omega)]
  · simp only [List.length_map, h3]
    unfold rowSigns
    rw [if_pos rfl]
    congr 1
    ring

theorem pySet_pos {α : Type} {x : List α} {n : Nat} (hx : x.length = n + 1) (j : Int) (v : α) :
    pySet x ((j.natAbs : Int) - 1) v = if posJ n j ≤ n then .ok (x.set (posJ n j) v) else .error .indexError := by
  unfold pySet
  rw [hx, idx_pos]
  simp only
  by_cases h : posJ n j ≤ n
  · rw [if_neg (by omega), if_pos h]
    rfl
  · rw [if_pos (by omega), if_neg h]

theorem flipM_get (τ σ : Nat → Int) (A : List (List ℝ)) (i : Nat) :
    (flipM τ σ A)[i]? = A[i]?.map fun row => (flipV σ row).map ((τ i : ℝ) * ·) := by
  unfold flipM
  rw [List.getElem?_mapIdx]

theorem extDf_flip (hP : P.Flip P' n σ R) {V : List ℝ} (j : Int) {a a' : Analysis ℝ} (ha : R a a') (hV : V.length = n + 1) :
    Alike (fun p p' => R p.1 p'.1 ∧ p'.2 = flipM (rowSigns σ n j) σ p.2)
      (extDf P j a V) (extDf P' (flipJ σ j) a' (flipV σ V)) := by
  have hs := hP.signs
  unfold extDf
  simp only
  rw [flipJ_natAbs hs, flipV_length, pySet_pos (n := n) (by simp [hV])]
  split
  swap
  · exact .error _
  next hj =>
  rw [py_bind_ok, py_bind_ok, flipV_dropLast]
  refine (hP.dgdx _ _ V.dropLast (hP.setJ a a' j ha) (by simp [hV])).bind ?_
  rintro ⟨a1, K⟩ ⟨a1', K'⟩ ⟨h1, h2, h3, h4⟩
  dsimp only at h1 h2 h3 h4 ⊢
  subst h2
  obtain ⟨f1, f2⟩ := hP.f0 _ _ h1
  have key : (List.zipWith (fun row f0 => row ++ [-f0]) (flipM σ σ K) a1'.f0red) ++
      [(List.replicate V.length (0 : ℝ)).set (posJ n j) 1] =
      flipM (rowSigns σ n j) σ ((List.zipWith (fun row f0 => row ++ [-f0]) K a1.f0red) ++
        [(List.replicate V.length (0 : ℝ)).set (posJ n j) 1]) := by
    rw [f1]
    apply List.ext_getElem?
    intro i
    rw [flipM_get]
    by_cases hi : i < n
    · rw [List.getElem?_append_left (by simp [flipM, h3, f2, hi]), List.getElem?_append_left (by simp [h3, f2, hi]),
        List.getElem?_zipWith, List.getElem?_zipWith, flipM_get, flipV_get]
      have hKi : K[i]? = some (K[i]'(by omega)) := List.getElem?_eq_getElem _
      have hfi : a1.f0red[i]? = some (a1.f0red[i]'(by omega)) := List.getElem?_eq_getElem _
      rw [hKi, hfi]
      simp only [Option.map_some, Option.some.injEq]
      rw [flipV_append, h4 _ (List.getElem_mem _), hP.last, List.map_append]
      unfold rowSigns
      rw [if_neg (by omega)]
      simp
    · rw [List.getElem?_append_right (by simp [flipM, h3, f2]; omega), List.getElem?_append_right (by simp [h3, f2]; omega)]
      have e1 : (List.zipWith (fun row f0 => row ++ [-f0]) (flipM σ σ K) (flipV σ a1.f0red)).length = n := by
        simp [flipM, h3, f2]
      have e2 : (List.zipWith (fun row f0 => row ++ [-f0]) K a1.f0red).length = n := by
        simp [h3, f2]
      rw [e1, e2]
      by_cases hi2 : i = n
      · subst hi2
        simp only [Nat.sub_self, List.getElem?_cons_zero, Option.map_some, Option.some.injEq]
        apply List.ext_getElem?
        intro k
        rw [List.getElem?_map, flipV_get, List.getElem?_set]
        simp only [List.getElem?_replicate, List.length_replicate]
        unfold rowSigns
        rw [if_pos rfl]
        by_cases hk : posJ i j = k
        · subst hk
          rw [if_pos rfl]
          split
          · simp only [Option.map_some, mul_one, Option.some.injEq]
            exact (hs.sq _).symm
          · rfl
        · rw [if_neg hk]
          split
          · simp
          · rfl
      · rw [List.getElem?_eq_none (by simp; omega)]
        rfl
  rw [key]
  exact .ok ⟨hP.setK _ _ _ _ h1 (rowSigns_signs hs n j), rfl⟩

theorem newton_flip (hP : P.Flip P' n σ R) {env : Env ℝ} (hE : env.KeepsSignsOf σ) {V0 x : List ℝ} (j : Int) (Vmax : ℝ)
    {a a' : Analysis ℝ} (ha : R a a') (hx : x.length = n + 1) (hV0 : V0.length = n + 1) (nfev : Int) (ftol xtol : ℝ) :
    Alike (fun p p' => R p.1 p'.1 ∧ p'.2 = { p.2 with x := flipV σ p.2.x } ∧ p.2.x.length = n + 1)
      (newton (extF P V0 j Vmax false) (extDf P j) env.spsolve a x nfev ftol xtol)
      (newton (extF P' (flipV σ V0) (flipJ σ j) ((σ (posJ n j) : ℝ) * Vmax) false) (extDf P' (flipJ σ j)) env.spsolve a'
        (flipV σ x) nfev ftol xtol) :=
  newtonLoop_flip hE (rowSigns_signs hP.signs n j) (rowSigns_of σ n j) hP.signs
    (fun _ _ _ h hx => extF_flip hP j Vmax false h hx hV0) (fun _ _ _ h hx => extDf_flip hP j h hx) _ _ _ _ _ ha hx

/-! ## Control component and step width -/

theorem target_flip (hs : IsSigns σ) {x : List ℝ} (hx : x.length = n + 1) (d : List ℝ) (j : Int) :
    Alike (fun u v => v = (σ (posJ n j) : ℝ) * u) (target x d j) (target (flipV σ x) d (flipJ σ j)) := by
  unfold target
  rw [flipJ_natAbs hs]
  refine (pyGet_flip hx j).bind ?_
  rintro u _ rfl
  refine (Alike.refl _).bind ?_
  rintro _ w rfl
  refine .ok ?_
  rw [flipJ_sign hs n]
  show _ + w * (((σ (posJ n j) * j.sign : Int)) : ℝ) = _ * (u + w * ((j.sign : Int) : ℝ))
  push_cast
  ring

theorem signed_abs (v : ℝ) : Flt.abs v * npSign v = v := by
  rw [npSign_real]
  show |v| * _ = v
  rw [mul_comm]
  rcases lt_trichotomy v 0 with h | h | h
  · rw [Real.sign_of_neg h, abs_of_neg h]; ring
  · rw [h]; simp
  · rw [Real.sign_of_pos h, abs_of_pos h]; ring

theorem maxComp_flip (hs : IsSigns σ) (env : Env ℝ) (d : List ℝ) :
    Alike (fun p p' => ∃ i : Nat, p.1 = (i : Int) + 1 ∧ p'.1 = p.1 ∧ p'.2 = (σ i : ℝ) * p.2)
      (maxComp env d) (maxComp env (flipV σ d)) := by
  unfold maxComp
  rw [flipV_abs hs]
  cases (env.argsortF (d.map Flt.abs)).getLast? with
  | none => exact .error _
  | some i =>
    simp only [flipV_get]
    cases d[i]? with
    | none => exact .error _
    | some v => exact .ok ⟨i, rfl, rfl, by simp only [signed_abs]⟩

theorem sgn_flip (hs : IsSigns σ) (i : Nat) (v : ℝ) : (Flt.sgn ((σ i : ℝ) * v) : Option Int) = (Flt.sgn v).map (σ i * ·) := by
  show some _ = some _
  congr 1
  rcases hs i with e | e
  · rw [e]; simp
  · rw [e]
    rcases lt_trichotomy v 0 with h | h | h
    · have h1 : ¬ ((-1 : Int) : ℝ) * v < 0 := by push_cast; linarith
      have h2 : ¬ ((-1 : Int) : ℝ) * v = 0 := by push_cast; linarith
      rw [if_neg h1, if_neg h2, if_pos h]; rfl
    · subst h; simp
    · have h1 : ((-1 : Int) : ℝ) * v < 0 := by push_cast; linarith
      rw [if_pos h1, if_neg (by linarith), if_neg (by linarith)]; rfl

theorem signedIdx_flip (hs : IsSigns σ) (i : Nat) (v : ℝ) :
    Alike (fun j j' => j' = flipJ σ j) (signedIdx ((i : Int) + 1) v) (signedIdx ((i : Int) + 1) ((σ i : ℝ) * v)) := by
  unfold signedIdx
  rw [sgn_flip hs]
  have hv : (Flt.sgn v : Option Int) = some (if v < 0 then -1 else if v = 0 then 0 else 1) := rfl
  rw [hv]
  refine .ok ?_
  generalize hw : (if v < 0 then (-1 : Int) else if v = 0 then 0 else 1) = w
  have hw' : w = -1 ∨ w = 0 ∨ w = 1 := by rw [← hw]; split <;> [simp; (split <;> simp)]
  have e : ∀ k : Int, k = (i : Int) + 1 ∨ k = -((i : Int) + 1) → k.natAbs - 1 = i := by intro k hk; omega
  unfold flipJ
  rcases hw' with h | h | h <;> subst h
  · rw [e _ (Or.inr (by ring))]; ring
  · simp
  · rw [e _ (Or.inl (by ring))]; ring

theorem nextJ_flip (hs : IsSigns σ) (cfg : PFCfg ℝ) (j : Int) (i : Nat) (v : ℝ) :
    Alike (fun k k' => k' = flipJ σ k) (nextJ cfg j ((i : Int) + 1) v) (nextJ cfg (flipJ σ j) ((i : Int) + 1) ((σ i : ℝ) * v)) := by
  unfold nextJ
  split
  · exact .ok rfl
  · exact signedIdx_flip hs i v

theorem solutionValid_flip (hs : IsSigns σ) (cfg : PFCfg ℝ) {Dx : List ℝ} (hD : Dx.length = n + 1) (d : List ℝ) (j : Int) :
    Alike (fun b b' => b' = b) (solutionValid cfg Dx d j) (solutionValid cfg (flipV σ Dx) d (flipJ σ j)) := by
  unfold solutionValid
  split
  · rw [flipJ_natAbs hs]
    refine (pyGet_flip hD j).bind ?_
    rintro u _ rfl
    refine (Alike.refl _).bind ?_
    rintro _ w rfl
    refine .ok ?_
    congr 1
    rw [mul_div_assoc]
    exact abs_flip hs _ _
  · refine .ok ?_
    rw [flipV_vdiv, flipV_all hs]

theorem dxmaxControl_flip (hs : IsSigns σ) (cfg : PFCfg ℝ) (d d0 : List ℝ) (j j0 z : Int) (s : Bool) (b k nfev : Int) :
    dxmaxControl cfg d d0 (flipJ σ j) (flipJ σ j0) z s b k nfev = dxmaxControl cfg d d0 j j0 z s b k nfev := by
  unfold dxmaxControl
  simp only [flipJ_inj hs]

/-! ## Recycles -/

/-- States of the recycle loop that differ by signs. -/
structure RState.Flip (n : Nat) (σ : Nat → Int) (R : Analysis ℝ → Analysis ℝ → Prop) (st st' : RState ℝ) : Prop where
  x : st'.x = flipV σ st.x
  len : st.x.length = n + 1
  z : st'.z = st.z
  nPre : st'.nPre = st.nPre
  dxmax : st'.dxmax = st.dxmax
  j : st'.j = flipJ σ st.j
  b : st'.b = st.b
  a : R st.a st'.a

/-- What the recycle loop reads, up to signs. -/
structure RCtx.Flip (cfg : PFCfg ℝ) (n : Nat) (σ : Nat → Int) (rc rc' : RCtx ℝ) : Prop where
  x0 : rc'.x0 = flipV σ rc.x0
  len : rc.x0.length = n + 1
  dxmax0 : rc'.dxmax0 = rc.dxmax0
  jPre : rc'.jPre = 0 ↔ rc.jPre = 0
  DxPre : rc'.DxPre = flipV σ rc.DxPre
  lenPre : rc.jPre ≠ 0 → cfg.jFixed = false → rc.DxPre.length = n + 1
  vPre : |rc'.vPre| = |rc.vPre|

theorem attempt_flip (hP : P.Flip P' n σ R) {env : Env ℝ} (hE : env.KeepsSignsOf σ) {cfg : PFCfg ℝ} {rc rc' : RCtx ℝ}
    (hrc : rc.Flip cfg n σ rc') {st st' : RState ℝ} (hst : st.Flip n σ R st') :
    Alike (fun p p' => p.1.Flip n σ R p'.1 ∧ p'.2 = p.2) (attempt env P cfg rc st) (attempt env P' cfg rc' st') := by
  have hs := hP.signs
  obtain ⟨x, z, nPre, dxmax, j, b, a⟩ := st
  obtain ⟨x', z', nPre', dxmax', j', b', a'⟩ := st'
  obtain ⟨e1, e2, e3, e4, e5, e6, e7, e8⟩ := hst
  obtain ⟨x0, d0, jp, Dp, vp⟩ := rc
  obtain ⟨x0', d0', jp', Dp', vp'⟩ := rc'
  obtain ⟨c1, c2, c3, c4, c5, c6, c7⟩ := hrc
  dsimp only at e1 e2 e3 e4 e5 e6 e7 e8 c1 c2 c3 c4 c5 c6 c7
  replace e3 := e3.symm
  replace e4 := e4.symm
  replace e5 := e5.symm
  replace e7 := e7.symm
  replace c3 := c3.symm
  subst e1 e3 e4 e5 e6 e7 c1 c3 c5
  unfold attempt
  dsimp only
  refine (target_flip hs c2 dxmax j).bind ?_
  rintro xm _ rfl
  have hstart : ∃ start : List ℝ, start.length = n + 1 ∧
      (if z = 0 ∧ jp ≠ 0 ∧ cfg.jFixed = false then vadd x0 (Dp.map fun v => v / Flt.abs vp) else x0) = start ∧
      (if z = 0 ∧ jp' ≠ 0 ∧ cfg.jFixed = false then vadd (flipV σ x0) ((flipV σ Dp).map fun v => v / Flt.abs vp')
        else flipV σ x0) = flipV σ start := by
    refine ⟨_, ?_, rfl, ?_⟩
    · split
      · next h => unfold vadd; simp [c2, c6 h.2.1 h.2.2]
      · exact c2
    · have : (jp' ≠ 0) ↔ (jp ≠ 0) := not_congr c4
      simp only [this]
      split
      · have e : (Flt.abs vp' : ℝ) = Flt.abs vp := c7
        rw [e, flipV_map σ Dp (fun i v => mul_div_assoc _ _ _), flipV_vadd]
      · rfl
  obtain ⟨start, s1, s2, s3⟩ := hstart
  rw [s2, s3]
  refine (newton_flip hP hE j xm e8 s1 c2 _ _ _).bind ?_
  rintro ⟨a1, nr⟩ ⟨a1', nr'⟩ ⟨h1, h2, h3⟩
  dsimp only at h1 h2 h3 ⊢
  subst h2
  dsimp only
  rw [flipV_vsub, flipV_vdiv]
  have hD : (vsub nr.x x0).length = n + 1 := by unfold vsub; simp [h3, c2]
  refine (maxComp_flip hs env _).bind ?_
  rintro ⟨i1, v1⟩ ⟨i1', v1'⟩ ⟨i, p1, p2, p3⟩
  dsimp only at p1 p2 p3 ⊢
  subst p1 p2 p3
  rw [flipV_length]
  split
  · exact .error _
  refine (nextJ_flip hs cfg j i v1).bind ?_
  rintro k _ rfl
  refine (solutionValid_flip hs cfg hD dxmax k).bind ?_
  rintro _ valid rfl
  have hw : nextWidth cfg ⟨flipV σ x0, d0, jp', flipV σ Dp, vp'⟩ ⟨flipV σ x, z, nPre, dxmax, flipJ σ j, b, a'⟩ (flipJ σ k)
      { nr with x := flipV σ nr.x } = nextWidth cfg ⟨x0, d0, jp, Dp, vp⟩ ⟨x, z, nPre, dxmax, j, b, a⟩ k nr := by
    unfold nextWidth
    dsimp only
    rw [dxmaxControl_flip hs]
  rw [hw]
  refine (Alike.refl _).bind ?_
  rintro _ dc rfl
  have hd := hP.setD _ _ (some dxmax) h1
  split
  · refine (extF_flip hP j xm true hd h3 c2).bind ?_
    rintro ⟨a2, r⟩ ⟨a2', r'⟩ ⟨h4, -⟩
    exact .ok ⟨⟨rfl, h3, rfl, rfl, rfl, rfl, rfl, h4⟩, rfl⟩
  · split
    · exact .ok ⟨⟨rfl, h3, rfl, rfl, rfl, rfl, rfl, hd⟩, rfl⟩
    · simp only [flipJ_inj hs]
      split
      · exact .ok ⟨⟨rfl, h3, rfl, rfl, rfl, rfl, rfl, hd⟩, rfl⟩
      · refine .ok ⟨⟨rfl, h3, rfl, rfl, rfl, ?_, rfl, hd⟩, rfl⟩
        dsimp only
        split <;> rfl

theorem recycle_flip (hP : P.Flip P' n σ R) {env : Env ℝ} (hE : env.KeepsSignsOf σ) {cfg : PFCfg ℝ} {rc rc' : RCtx ℝ}
    (hrc : rc.Flip cfg n σ rc') : ∀ (fuel : Nat) {st st' : RState ℝ}, st.Flip n σ R st' →
    Alike (fun p p' => p.1.Flip n σ R p'.1 ∧ p'.2 = p.2) (recycle env P cfg rc fuel st) (recycle env P' cfg rc' fuel st') := by
  intro fuel
  induction fuel with
  | zero => intro st st' _; exact .error _
  | succ k ih =>
    intro st st' h
    unfold recycle
    refine (attempt_flip hP hE hrc h).bind ?_
    rintro ⟨s1, o⟩ ⟨s1', o'⟩ ⟨h1, h2⟩
    dsimp only at h1 h2 ⊢
    subst h2
    cases o' with
    | some o => exact .ok ⟨h1, rfl⟩
    | none => exact ih h1

/-! ## Increments -/

/-- States of the increment loop that differ by signs. -/
structure PState.Flip (n : Nat) (σ : Nat → Int) (R : Analysis ℝ → Analysis ℝ → Prop) (s s' : PState ℝ) : Prop where
  x : s'.x = flipV σ s.x
  len : s.x.length = n + 1
  dxmax : s'.dxmax = s.dxmax
  j : s'.j = flipJ σ s.j
  jPre : s'.jPre = 0 ↔ s.jPre = 0
  b : s'.b = s.b
  a : R s.a s'.a

/-- Results of the predictor that differ by signs. -/
structure PreOut.Flip (cfg : PFCfg ℝ) (n : Nat) (σ : Nat → Int) (R : Analysis ℝ → Analysis ℝ → Prop) (p p' : PreOut ℝ) : Prop where
  success : p'.success = p.success
  nPre : p'.nPre = p.nPre
  j : p'.j = flipJ σ p.j
  jPre : p'.jPre = 0 ↔ p.jPre = 0
  DxPre : p'.DxPre = flipV σ p.DxPre
  lenPre : p.jPre ≠ 0 → cfg.jFixed = false → p.DxPre.length = n + 1
  vPre : |p'.vPre| = |p.vPre|
  a : R p.a p'.a

theorem predictor_flip (hP : P.Flip P' n σ R) {env : Env ℝ} (hE : env.KeepsSignsOf σ) {cfg : PFCfg ℝ} {s s' : PState ℝ}
    (h : s.Flip n σ R s') : Alike (fun p p' => p.Flip cfg n σ R p') (predictor env P cfg s) (predictor env P' cfg s') := by
  have hs := hP.signs
  unfold predictor
  have e : (s'.jPre ≠ 0) ↔ (s.jPre ≠ 0) := not_congr h.jPre
  simp only [e]
  split
  · rw [h.x, h.dxmax, h.j]
    refine (target_flip hs h.len s.dxmax s.j).bind ?_
    rintro xm _ rfl
    refine (newton_flip hP hE s.j xm h.a h.len h.len _ _ _).bind ?_
    rintro ⟨a1, nr⟩ ⟨a1', nr'⟩ ⟨h1, h2, h3⟩
    dsimp only at h1 h2 h3 ⊢
    subst h2
    dsimp only
    rw [flipV_vsub, flipV_vdiv]
    have hD : (vsub nr.x s.x).length = n + 1 := by unfold vsub; simp [h3, h.len]
    refine (maxComp_flip hs env _).bind ?_
    rintro ⟨i1, v1⟩ ⟨i1', v1'⟩ ⟨i, p1, p2, p3⟩
    dsimp only at p1 p2 p3 ⊢
    subst p1 p2 p3
    refine (signedIdx_flip hs i v1).bind ?_
    rintro k _ rfl
    have ea : (Flt.abs ((σ i : ℝ) * v1) : ℝ) = Flt.abs v1 := abs_flip hs i v1
    refine .ok ⟨?_, rfl, rfl, flipJ_zero hs, rfl, fun _ _ => hD, ea, h1⟩
    dsimp only
    rw [ea]
  · next hn =>
    refine .ok ⟨rfl, rfl, h.j, h.jPre, rfl, ?_, rfl, h.a⟩
    intro q1 q2
    exact absurd ⟨q1, q2⟩ hn

theorem solveInc_flip (hP : P.Flip P' n σ R) {env : Env ℝ} (hE : env.KeepsSignsOf σ) {cfg : PFCfg ℝ} (dxmax0 : List ℝ) (fuel : Nat)
    {s s' : PState ℝ} (h : s.Flip n σ R s') :
    Alike (fun p p' => (p'.1 = 0 ↔ p.1 = 0) ∧ p.2.1.Flip n σ R p'.2.1 ∧ p'.2.2 = p.2.2)
      (solveInc env P cfg dxmax0 fuel s) (solveInc env P' cfg dxmax0 fuel s') := by
  unfold solveInc
  refine (predictor_flip hP hE h).bind ?_
  intro p p' hp
  have hst : RState.Flip n σ R ⟨s.x, 0, p.nPre, s.dxmax, p.j, s.b, p.a⟩ ⟨s'.x, 0, p'.nPre, s'.dxmax, p'.j, s'.b, p'.a⟩ :=
    ⟨h.x, h.len, rfl, hp.nPre, h.dxmax, hp.j, h.b, hp.a⟩
  dsimp only
  rw [hp.success]
  split
  · exact .ok ⟨hp.jPre, hst, rfl⟩
  · refine (recycle_flip hP hE (rc := ⟨s.x, dxmax0, p.jPre, p.DxPre, p.vPre⟩)
      (rc' := ⟨s'.x, dxmax0, p'.jPre, p'.DxPre, p'.vPre⟩) ⟨h.x, h.len, rfl, hp.jPre, hp.DxPre, hp.lenPre, hp.vPre⟩ fuel hst).bind ?_
    rintro ⟨r, o⟩ ⟨r', o'⟩ ⟨h1, h2⟩
    exact .ok ⟨hp.jPre, h1, h2⟩

theorem flipV_last (hP : P.Flip P' n σ R) {x : List ℝ} (hx : x.length = n + 1) : (flipV σ x).getLast? = x.getLast? := by
  rw [List.getLast?_eq_getElem?, List.getLast?_eq_getElem?, flipV_get, flipV_length, hx, Nat.add_sub_cancel, hP.last]
  cases x[n]? <;> simp

theorem increment_flip (hP : P.Flip P' n σ R) {env : Env ℝ} (hE : env.KeepsSignsOf σ) {cfg : PFCfg ℝ} (dxmax0 : List ℝ) (fuel : Nat)
    {s s' : PState ℝ} (h : s.Flip n σ R s') :
    Alike (fun p p' => p.1.Flip n σ R p'.1 ∧ p'.2 = p.2)
      (increment env P cfg dxmax0 fuel s) (increment env P' cfg dxmax0 fuel s') := by
  unfold increment
  refine (solveInc_flip hP hE dxmax0 fuel h).bind ?_
  rintro ⟨jp, st, o⟩ ⟨jp', st', o'⟩ ⟨h1, h2, h3⟩
  dsimp only at h1 h2 h3 ⊢
  subst h3
  rw [h2.x, flipV_last hP h2.len]
  cases st.x.getLast? with
  | none => exact .error _
  | some l =>
    refine .ok ⟨⟨rfl, h2.len, h2.dxmax, h2.j, h1, h2.b, ?_⟩, rfl⟩
    dsimp only
    rw [flipV_dropLast]
    exact hP.save _ _ _ _ _ h2.a h2.len (by simp [h2.len])

/-- Recorded increments that differ by signs. -/
structure Rec.Flip (σ : Nat → Int) (R : Analysis ℝ → Analysis ℝ → Prop) (r r' : Rec ℝ) : Prop where
  x : r'.x = flipV σ r.x
  a : R r.a r'.a
  out : r'.out = r.out

theorem limitReached_flip (hs : IsSigns σ) (x : List ℝ) (l : Option (Int × ℝ)) :
    limitReached (flipV σ x) l = limitReached x l := by
  cases l with
  | none => rfl
  | some p =>
    obtain ⟨i, lim⟩ := p
    have e : ∀ y : List ℝ, limitReached y (some (i, lim)) = (pyGet (y.map Flt.abs) (i - 1)).map fun v => Flt.lt lim v := by
      intro y
      unfold limitReached pyGet
      simp only [List.length_map, List.getElem?_map]
      generalize (if 0 ≤ i - 1 then i - 1 else i - 1 + (y.length : Int)) = k
      by_cases hk : k < 0
      · simp only [hk, if_true]; rfl
      · simp only [hk, if_false]
        cases y[k.toNat]? <;> rfl
    rw [e, e, flipV_abs hs]

theorem incrLoop_flip (hP : P.Flip P' n σ R) {env : Env ℝ} (hE : env.KeepsSignsOf σ) {cfg : PFCfg ℝ} (dxmax0 : List ℝ) (fuel : Nat) :
    ∀ (k : Nat) {s s' : PState ℝ}, s.Flip n σ R s' →
    Alike (fun p p' => p.1.Flip n σ R p'.1 ∧ List.Forall₂ (Rec.Flip σ R) p.2 p'.2)
      (incrLoop env P cfg dxmax0 fuel k s) (incrLoop env P' cfg dxmax0 fuel k s') := by
  intro k
  induction k with
  | zero => intro s s' h; exact .ok ⟨h, .nil⟩
  | succ k ih =>
    intro s s' h
    unfold incrLoop
    refine (increment_flip hP hE dxmax0 fuel h).bind ?_
    rintro ⟨s1, o⟩ ⟨s1', o'⟩ ⟨h1, h2⟩
    dsimp only at h1 h2 ⊢
    subst h2
    have hr : Rec.Flip σ R ⟨s1.x, s1.a, o'⟩ ⟨s1'.x, s1'.a, o'⟩ := ⟨h1.x, h1.a, rfl⟩
    split
    · exact .ok ⟨h1, .cons hr .nil⟩
    · have e : limitReached s1'.x cfg.xlimit = limitReached s1.x cfg.xlimit := by rw [h1.x, limitReached_flip hP.signs]
      rw [e]
      refine (Alike.refl _).bind ?_
      rintro _ lim rfl
      split
      · exact .ok ⟨h1, .cons hr .nil⟩
      · refine (ih h1).bind ?_
        rintro ⟨s2, rs⟩ ⟨s2', rs'⟩ ⟨h3, h4⟩
        exact .ok ⟨h3, .cons hr h4⟩

theorem recycle_setJ (env : Env ℝ) (P : Problem ℝ) (cfg : PFCfg ℝ) (q : Option Int) (rc : RCtx ℝ) : ∀ (k : Nat) (st : RState ℝ),
    recycle env P { cfg with j := q } rc k st = recycle env P cfg rc k st := by
  intro k
  induction k with
  | zero => intro st; rfl
  | succ k ih =>
    intro st
    unfold recycle
    have e : attempt env P { cfg with j := q } rc st = attempt env P cfg rc st := rfl
    rw [e]
    congr 1
    funext p
    obtain ⟨s1, o⟩ := p
    cases o with
    | some o => rfl
    | none => exact ih s1

theorem incrLoop_setJ (env : Env ℝ) (P : Problem ℝ) (cfg : PFCfg ℝ) (q : Option Int) (d : List ℝ) (fuel : Nat) : ∀ (k : Nat)
    (s : PState ℝ), incrLoop env P { cfg with j := q } d fuel k s = incrLoop env P cfg d fuel k s := by
  intro k
  induction k with
  | zero => intro s; rfl
  | succ k ih =>
    intro s
    unfold incrLoop
    have e : increment env P { cfg with j := q } d fuel s = increment env P cfg d fuel s := by
      unfold increment solveInc
      simp only [recycle_setJ]
      rfl
    rw [e]
    simp only [ih]

/-- Results of `pathfollow` that differ by signs. -/
structure PFOut.Flip (σ : Nat → Int) (R : Analysis ℝ → Analysis ℝ → Prop) (o o' : PFOut ℝ) : Prop where
  startX : o'.startX = flipV σ o.startX
  startA : R o.startA o'.startA
  recs : List.Forall₂ (Rec.Flip σ R) o.recs o'.recs
  final : R o.final o'.final

theorem initDxmax_flip (x : List ℝ) (d : DxMax ℝ) : initDxmax (flipV σ x) d = initDxmax x d := by
  unfold initDxmax
  split
  · apply List.ext_getElem?
    intro i
    rw [List.getElem?_map, List.getElem?_map, flipV_get]
    cases x[i]? <;> rfl
  · rw [flipV_length]
  · rfl

theorem pathfollow_flip (hP : P.Flip P' n σ R) {env : Env ℝ} (hE : env.KeepsSignsOf σ) (cfg : PFCfg ℝ) (fuel : Nat) {x : List ℝ}
    {a a' : Analysis ℝ} (ha : R a a') (hx : x.length = n) :
    Alike (PFOut.Flip σ R) (pathfollow env P cfg fuel x a)
      (pathfollow env P' { cfg with j := cfg.j.map (flipJ σ) } fuel (flipV σ x) a') := by
  have hs := hP.signs
  have e0 : flipV σ x ++ [(0 : ℝ)] = flipV σ (x ++ [0]) := by rw [flipV_append, mul_zero]
  have hl : (x ++ [(0 : ℝ)]).length = n + 1 := by simp [hx]
  unfold pathfollow
  dsimp only
  rw [e0, initDxmax_flip, flipV_length]
  have hj : Alike (fun j j' => j' = flipJ σ j) (startJ cfg (x ++ [0]))
      (startJ { cfg with j := cfg.j.map (flipJ σ) } (flipV σ (x ++ [0]))) := by
    unfold startJ
    dsimp only
    split
    · cases cfg.j with
      | some j => exact .ok rfl
      | none =>
        simp only [Option.map_none]
        split
        · exact .ok (by simp [flipJ])
        · exact .error _
    · rw [flipV_length, hl]
      refine .ok ?_
      unfold flipJ
      have : ((n + 1 : Nat) : Int).natAbs - 1 = n := by omega
      rw [this, hP.last, one_mul]
  refine hj.bind ?_
  rintro j _ rfl
  split
  · exact .error _
  · rw [incrLoop_setJ env P' cfg]
    refine (incrLoop_flip hP hE _ fuel cfg.incs (s := ⟨x ++ [0], _, j, _, 4, a⟩) (s' := ⟨flipV σ (x ++ [0]), _, flipJ σ j, _, 4, a'⟩)
      ⟨rfl, hl, rfl, rfl, Iff.rfl, rfl, ha⟩).bind ?_
    rintro ⟨s, rs⟩ ⟨s', rs'⟩ ⟨h1, h2⟩
    exact .ok ⟨rfl, ha, h2, h1.a⟩

end
end
end TrussPy
