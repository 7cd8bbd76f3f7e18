import Verif.Lemmas.Keep
import Verif.Lemmas.SymmetricSystem
import Verif.Lemmas.Converge
import Verif.Props.Energy
/-!
# Lemmas: symmetric structures
-/

set_option linter.unusedSectionVars false

namespace TrussPy

variable {N : Nat} {Q : M3 ℝ} {τ : Equiv.Perm (Fin N)} {π : Nat → Nat}

/-! ## Vectors -/

theorem orthogonal_inner (hQ : Orthogonal Q) (a b : V3 ℝ) : inner3 (mulVec3 Q a) (mulVec3 Q b) = inner3 a b := by
  have h := fun c d => hQ c d
  unfold inner3 mulVec3
  have e : (Q 0 0 * a 0 + Q 0 1 * a 1 + Q 0 2 * a 2) * (Q 0 0 * b 0 + Q 0 1 * b 1 + Q 0 2 * b 2) +
      (Q 1 0 * a 0 + Q 1 1 * a 1 + Q 1 2 * a 2) * (Q 1 0 * b 0 + Q 1 1 * b 1 + Q 1 2 * b 2) +
      (Q 2 0 * a 0 + Q 2 1 * a 1 + Q 2 2 * a 2) * (Q 2 0 * b 0 + Q 2 1 * b 1 + Q 2 2 * b 2) =
      ∑ c : Fin 3, ∑ d : Fin 3, (Q 0 c * Q 0 d + Q 1 c * Q 1 d + Q 2 c * Q 2 d) * (a c * b d) := by
    simp only [Fin.sum_univ_three]
    ring
  rw [e]
  simp only [h, ite_mul, one_mul, zero_mul, Finset.sum_ite_eq, Finset.mem_univ, if_true, Fin.sum_univ_three]

theorem orthogonal_zero (hQ : Orthogonal Q) {a : V3 ℝ} (h : mulVec3 Q a = 0) : a = 0 := by
  have h1 := orthogonal_inner hQ a a
  rw [h] at h1
  unfold inner3 at h1
  simp only [Pi.zero_apply, mul_zero, add_zero] at h1
  funext d
  have : a d * a d = 0 := by
    have h0 := mul_self_nonneg (a 0)
    have h1' := mul_self_nonneg (a 1)
    have h2 := mul_self_nonneg (a 2)
    match d with
    | 0 => linarith
    | 1 => linarith
    | 2 => linarith
  exact mul_self_eq_zero.1 this

theorem mulVec3_add (a b : V3 ℝ) : mulVec3 Q (a + b) = mulVec3 Q a + mulVec3 Q b := by
  funext d
  simp only [mulVec3, Pi.add_apply]
  ring

theorem mulVec3_smul (s : ℝ) (a : V3 ℝ) : mulVec3 Q (s • a) = s • mulVec3 Q a := by
  funext d
  simp only [mulVec3, Pi.smul_apply, smul_eq_mul]
  ring

/-- The nodal vectors are mapped to themselves: that of the image of a node is the image of its vector. -/
def SymRows (Q : M3 ℝ) (τ : Equiv.Perm (Fin N)) (w : Fin N → V3 ℝ) : Prop := ∀ i, w (τ i) = mulVec3 Q (w i)

/-- Nodal vectors of a table. -/
def rows3 (N : Nat) (L : List ℝ) : Fin N → V3 ℝ := fun i => row3 L i

/-- Image of nodal vectors. -/
def turn (Q : M3 ℝ) (τ : Equiv.Perm (Fin N)) (w : Fin N → V3 ℝ) : Fin N → V3 ℝ := fun i => mulVec3 Q (w (τ.symm i))

theorem turn_image (w : Fin N → V3 ℝ) (i : Fin N) : turn Q τ w (τ i) = mulVec3 Q (w i) := by
  unfold turn
  rw [Equiv.symm_apply_apply]

theorem symRows_iff {w : Fin N → V3 ℝ} : SymRows Q τ w ↔ turn Q τ w = w := by
  constructor
  · intro h
    funext i
    rw [← τ.apply_symm_apply i, turn_image, h]
  · intro h i
    rw [← turn_image, h]

/-- Zero at supported components. -/
def Off (dofs : List Nat) (w : Fin N → V3 ℝ) : Prop :=
  ∀ (i : Fin N) (d : Fin 3), 3 * (i : Nat) + (d : Nat) ∉ dofs → w i d = 0

/-- Nodal vectors of the displacements of the free components. -/
noncomputable def expand (N : Nat) (dofs : List Nat) {n : Nat} (v : Fin n → ℝ) : Fin N → V3 ℝ :=
  fun i d => ∑ m : Fin n, if dofs.getD m 0 = 3 * (i : Nat) + (d : Nat) then v m else 0

/-- Entries at the free components. -/
def restrict (dofs : List Nat) (n : Nat) (w : Fin N → V3 ℝ) : Fin n → ℝ :=
  fun m => if h : dofs.getD m 0 / 3 < N then w ⟨dofs.getD m 0 / 3, h⟩ (comp (dofs.getD m 0)) else 0

section
variable {dofs : List Nat} {n : Nat}

theorem dof_get (hn : dofs.length = n) (m : Fin n) : dofs[(m : Nat)]? = some (dofs.getD m 0) := by
  have h : (m : Nat) < dofs.length := by rw [hn]; exact m.isLt
  rw [List.getD_eq_getElem?_getD, List.getElem?_eq_getElem h]
  rfl

theorem dof_inj (hnd : dofs.Nodup) (hn : dofs.length = n) {m k : Fin n} (h : dofs.getD m 0 = dofs.getD k 0) : m = k := by
  have h1 := dof_get hn m
  have h2 := dof_get hn k
  rw [h] at h1
  exact Fin.ext ((List.getElem?_inj (by rw [hn]; exact m.isLt) hnd).1 (h1.trans h2.symm))

theorem expand_at (hnd : dofs.Nodup) (hn : dofs.length = n) (v : Fin n → ℝ) (i : Fin N) (d : Fin 3) (m : Fin n)
    (h : dofs.getD m 0 = 3 * (i : Nat) + (d : Nat)) : expand N dofs v i d = v m := by
  unfold expand
  rw [Finset.sum_eq_single m]
  · rw [if_pos h]
  · intro k _ hk
    rw [if_neg]
    intro h1
    exact hk (dof_inj hnd hn (h1.trans h.symm))
  · intro h
    exact absurd (Finset.mem_univ _) h

theorem expand_off (hn : dofs.length = n) (v : Fin n → ℝ) : Off dofs (expand N dofs v) := by
  intro i d h
  unfold expand
  refine Finset.sum_eq_zero fun m _ => ?_
  rw [if_neg]
  intro h1
  exact h (h1 ▸ List.mem_of_getElem? (dof_get hn m))

theorem restrict_expand (hnd : dofs.Nodup) (hlt : ∀ i ∈ dofs, i < 3 * N) (hn : dofs.length = n) (v : Fin n → ℝ) :
    restrict dofs n (expand N dofs v) = v := by
  funext m
  have h := hlt _ (List.mem_of_getElem? (dof_get hn m))
  unfold restrict
  rw [dif_pos (by omega), expand_at hnd hn v _ _ m]
  unfold comp
  simp only
  omega

theorem expand_restrict (hnd : dofs.Nodup) (hn : dofs.length = n) {w : Fin N → V3 ℝ} (hw : Off dofs w) :
    expand N dofs (restrict dofs n w) = w := by
  funext i d
  by_cases hp : 3 * (i : Nat) + (d : Nat) ∈ dofs
  · obtain ⟨m, hm⟩ := List.getElem?_of_mem hp
    have hmn : m < n := by rw [← hn]; exact (List.getElem?_eq_some_iff.1 hm).1
    have h1 : dofs.getD m 0 = 3 * (i : Nat) + (d : Nat) := by rw [List.getD_eq_getElem?_getD, hm]; rfl
    rw [expand_at hnd hn _ i d ⟨m, hmn⟩ h1]
    unfold restrict
    have hd := d.isLt
    have h2 : dofs.getD m 0 / 3 = i := by omega
    rw [dif_pos (by simp only [h2]; exact i.isLt)]
    have h3 : comp (dofs.getD m 0) = d := by
      apply Fin.ext
      unfold comp
      simp only
      omega
    simp only [h3]
    congr 1
    exact Fin.ext h2
  · rw [expand_off hn _ i d hp, hw i d hp]

/-- Transformation of the displacements of the free components. -/
noncomputable def turnRed (Q : M3 ℝ) (τ : Equiv.Perm (Fin N)) (dofs : List Nat) (n : Nat) : (Fin n → ℝ) →ₗ[ℝ] (Fin n → ℝ) where
  toFun v := restrict dofs n (turn Q τ (expand N dofs v))
  map_add' v w := by
    have h : expand N dofs (v + w) = expand N dofs v + expand N dofs w := by
      funext i d
      simp only [expand, Pi.add_apply]
      rw [← Finset.sum_add_distrib]
      exact Finset.sum_congr rfl fun m _ => by split <;> simp
    funext m
    simp only [restrict, turn, h, Pi.add_apply, mulVec3_add]
    split <;> simp
  map_smul' s v := by
    have h : expand N dofs (s • v) = s • expand N dofs v := by
      funext i d
      simp only [expand, Pi.smul_apply, smul_eq_mul]
      rw [Finset.mul_sum]
      exact Finset.sum_congr rfl fun m _ => by split <;> simp
    funext m
    simp only [restrict, turn, h, Pi.smul_apply, mulVec3_smul]
    split <;> simp

/-- The image of displacements which are zero at supports is zero at supports. -/
def KeepsSupports (Q : M3 ℝ) (τ : Equiv.Perm (Fin N)) (dofs : List Nat) : Prop :=
  ∀ w : Fin N → V3 ℝ, Off dofs w → Off dofs (turn Q τ w)

theorem expand_turnRed (hnd : dofs.Nodup) (hn : dofs.length = n) (hS : KeepsSupports Q τ dofs) (v : Fin n → ℝ) :
    expand N dofs (turnRed Q τ dofs n v) = turn Q τ (expand N dofs v) :=
  expand_restrict hnd hn (hS _ (expand_off hn v))

theorem turnRed_injective (hQ : Orthogonal Q) (hnd : dofs.Nodup) (hlt : ∀ i ∈ dofs, i < 3 * N) (hn : dofs.length = n)
    (hS : KeepsSupports Q τ dofs) : Function.Injective (turnRed Q τ dofs n) := by
  rw [injective_iff_map_eq_zero]
  intro v hv
  have h := expand_turnRed hnd hn hS v
  rw [hv] at h
  have h0 : expand N dofs (0 : Fin n → ℝ) = 0 := by
    funext i d
    simp [expand]
  rw [h0] at h
  have hz : expand N dofs v = 0 := by
    funext i
    refine orthogonal_zero hQ ?_
    rw [← turn_image, ← h]
    rfl
  rw [← restrict_expand hnd hlt hn v, hz]
  funext m
  simp [restrict]

theorem turnRed_fixed (hnd : dofs.Nodup) (hlt : ∀ i ∈ dofs, i < 3 * N) (hn : dofs.length = n) (hS : KeepsSupports Q τ dofs)
    {v : Fin n → ℝ} : turnRed Q τ dofs n v = v ↔ SymRows Q τ (expand N dofs v) := by
  rw [symRows_iff, ← expand_turnRed hnd hn hS]
  constructor
  · intro h
    rw [h]
  · intro h
    have h1 := congrArg (restrict dofs n) h
    rwa [restrict_expand hnd hlt hn, restrict_expand hnd hlt hn] at h1

theorem dot_expand (hlt : ∀ i ∈ dofs, i < 3 * N) (hn : dofs.length = n) (L : List ℝ) (v : Fin n → ℝ) :
    ∑ m : Fin n, L.getD (dofs.getD m 0) 0 * v m = ∑ i : Fin N, inner3 (rows3 N L i) (expand N dofs v i) := by
  have h3 : ∀ i : Fin N, inner3 (rows3 N L i) (expand N dofs v i) =
      ∑ m : Fin n, ∑ d : Fin 3, row3 L i d * (if dofs.getD m 0 = 3 * (i : Nat) + (d : Nat) then v m else 0) := by
    intro i
    rw [Finset.sum_comm]
    simp only [← Finset.mul_sum, Fin.sum_univ_three]
    rfl
  simp only [h3, sum_pick]
  rw [Finset.sum_comm]
  refine Finset.sum_congr rfl fun m _ => ?_
  have h := hlt _ (List.mem_of_getElem? (dof_get hn m))
  have hi : dofs.getD m 0 / 3 < N := by omega
  rw [Finset.sum_eq_single (⟨dofs.getD m 0 / 3, hi⟩ : Fin N)]
  · simp only [if_true, one_mul]
    congr 1
    unfold row3 comp
    simp only
    congr 1
    omega
  · intro k _ hk
    rw [if_neg (fun h => hk (Fin.ext h.symm)), zero_mul, zero_mul]
  · intro h
    exact absurd (Finset.mem_univ _) h

theorem dot_turnRed (hQ : Orthogonal Q) (hnd : dofs.Nodup) (hlt : ∀ i ∈ dofs, i < 3 * N) (hn : dofs.length = n)
    (hS : KeepsSupports Q τ dofs) {L : List ℝ} (hL : SymRows Q τ (rows3 N L)) (v : Fin n → ℝ) :
    ∑ m : Fin n, L.getD (dofs.getD m 0) 0 * turnRed Q τ dofs n v m = ∑ m : Fin n, L.getD (dofs.getD m 0) 0 * v m := by
  rw [dot_expand hlt hn, dot_expand hlt hn, expand_turnRed hnd hn hS, ← Equiv.sum_comp τ]
  refine Finset.sum_congr rfl fun i _ => ?_
  rw [hL, turn_image, orthogonal_inner hQ]

end

/-! ## Bars -/

/-- The bar `b'` is the image of the bar `b`, possibly with begin and end exchanged. -/
structure Bar.Image (Q : M3 ℝ) (τ : Equiv.Perm (Fin N)) (b b' : Bar ℝ) : Prop where
  ends : ∃ i j : Fin N, b.iA = i ∧ b.iE = j ∧
    ((b'.iA = τ i ∧ b'.iE = τ j ∧ b'.ref = mulVec3 Q b.ref) ∨ (b'.iA = τ j ∧ b'.iE = τ i ∧ b'.ref = -mulVec3 Q b.ref))
  mat : b'.mat = b.mat
  geo : b'.geo = b.geo
  law : b'.law = b.law

theorem Bar.axis_delta (b : Bar ℝ) (U : List ℝ) : b.axis U = b.ref + b.delta U := by
  funext d
  simp only [Bar.axis, Bar.ref, Bar.delta, Pi.add_apply]
  ring

/-- Relative displacements, undeformed axes and signs of a bar and its image. -/
structure Bar.Turned (Q : M3 ℝ) (τ : Equiv.Perm (Fin N)) (σ : ℝ) (b b' : Bar ℝ) : Prop where
  unit : σ * σ = 1
  ref : b'.ref = σ • mulVec3 Q b.ref
  delta : ∀ L L' : List ℝ, (∀ i : Fin N, row3 L' (τ i) = mulVec3 Q (row3 L i)) → b'.delta L' = σ • mulVec3 Q (b.delta L)
  sgn : ∀ i : Fin N, b'.sgn (τ i) = σ * b.sgn i

theorem Bar.Image.turned {b b' : Bar ℝ} (h : b.Image Q τ b') : ∃ σ, b.Turned Q τ σ b' := by
  obtain ⟨i, j, hi, hj, ⟨h1, h2, h3⟩ | ⟨h1, h2, h3⟩⟩ := h.ends
  · refine ⟨1, by norm_num, by rw [h3, one_smul], ?_, ?_⟩
    · intro L L' hL
      funext d
      simp only [Bar.delta, h1, h2, hi, hj, hL, Pi.smul_apply, smul_eq_mul, one_mul, mulVec3]
      ring
    · intro k
      simp only [Bar.sgn, h1, h2, hi, hj, one_mul, Fin.val_inj, τ.injective.eq_iff]
  · refine ⟨-1, by norm_num, by rw [h3, neg_one_smul], ?_, ?_⟩
    · intro L L' hL
      funext d
      simp only [Bar.delta, h1, h2, hi, hj, hL, Pi.smul_apply, smul_eq_mul, mulVec3]
      ring
    · intro k
      simp only [Bar.sgn, h1, h2, hi, hj, Fin.val_inj, τ.injective.eq_iff]
      ring

theorem len_smul_unit {σ : ℝ} (h : σ * σ = 1) (v : V3 ℝ) : len (σ • v) = len v := by
  unfold len
  congr 1
  simp only [Pi.smul_apply, smul_eq_mul, mul_pow]
  rw [pow_two σ, h]
  ring

theorem Bar.Turned.axis {σ : ℝ} {b b' : Bar ℝ} (h : b.Turned Q τ σ b') {U : List ℝ} (hU : SymRows Q τ (rows3 N U)) :
    b'.axis U = σ • mulVec3 Q (b.axis U) := by
  rw [Bar.axis_delta, Bar.axis_delta, h.ref, h.delta U U hU, mulVec3_add, smul_add]

theorem Bar.Turned.lens (hQ : Orthogonal Q) {σ : ℝ} {b b' : Bar ℝ} (h : b.Turned Q τ σ b') {U : List ℝ}
    (hU : SymRows Q τ (rows3 N U)) : len b'.ref = len b.ref ∧ len (b'.axis U) = len (b.axis U) := by
  rw [h.ref, h.axis hU, len_smul_unit h.unit, len_smul_unit h.unit, orthogonal_len hQ, orthogonal_len hQ]
  exact ⟨rfl, rfl⟩

theorem Bar.Turned.dir (hQ : Orthogonal Q) {σ : ℝ} {b b' : Bar ℝ} (h : b.Turned Q τ σ b') {U : List ℝ}
    (hU : SymRows Q τ (rows3 N U)) : b'.dir U = σ • mulVec3 Q (b.dir U) := by
  funext d
  unfold Bar.dir
  rw [(h.lens hQ hU).2, h.axis hU]
  simp only [Pi.smul_apply, smul_eq_mul, mulVec3]
  ring

theorem Bar.Image.result (hQ : Orthogonal Q) {b b' : Bar ℝ} (h : b.Image Q τ b') {U : List ℝ} (hU : SymRows Q τ (rows3 N U))
    {row : Option (List ℝ)} {x : BarRes} (hx : b'.Result U row x) : b.Result U row x := by
  obtain ⟨σ, ht⟩ := h.turned
  obtain ⟨l1, l2⟩ := ht.lens hQ hU
  obtain ⟨s1, s2, s3, s4⟩ := hx
  refine ⟨?_, by rw [← h.law, ← h.mat]; exact s2, by rw [← h.geo]; exact s3, s4⟩
  rw [s1]
  unfold Bar.stretch
  rw [l1, l2]

/-- The structure is mapped to itself: bar `π k` is the image of bar `k`. -/
structure SymBars (Q : M3 ℝ) (τ : Equiv.Perm (Fin N)) (π : Nat → Nat) (bars : List (Bar ℝ)) : Prop where
  perm : Rearranges π bars.length
  bar : ∀ k, k < bars.length → ∃ b b', bars[k]? = some b ∧ bars[π k]? = some b' ∧ b.Image Q τ b'

variable {c : Ctx ℝ} {bars : List (Bar ℝ)}

theorem SymBars.results (hQ : Orthogonal Q) (hS : SymBars Q τ π bars) {U : List ℝ} (hU : SymRows Q τ (rows3 N U))
    {sv : Option (List (List ℝ))} (hsv : ∀ k, k < bars.length → stateRow c sv (π k) = stateRow c sv k) {xs : List BarRes}
    (hx : Results.Of c bars U sv xs) {k : Nat} (hk : k < bars.length) :
    ∃ b b' x, bars[k]? = some b ∧ bars[π k]? = some b' ∧ xs[k]? = some x ∧ xs[π k]? = some x ∧ b.Image Q τ b' := by
  obtain ⟨b, b', h1, h2, h3⟩ := hS.bar k hk
  have hk' : k < xs.length := by rw [hx.length]; exact hk
  have hπ : π k < xs.length := by rw [hx.length]; exact (List.getElem?_eq_some_iff.1 h2).1
  refine ⟨b, b', xs[k], h1, h2, List.getElem?_eq_getElem hk', ?_, h3⟩
  rw [List.getElem?_eq_getElem hπ]
  congr 1
  have r1 := hx.result k b _ h1 (List.getElem?_eq_getElem hk')
  have r2 := h3.result hQ hU (hx.result (π k) b' _ h2 (List.getElem?_eq_getElem hπ))
  rw [hsv k hk] at r2
  exact r2.unique r1

theorem SymBars.sum (hQ : Orthogonal Q) (hS : SymBars Q τ π bars) {U : List ℝ} (hU : SymRows Q τ (rows3 N U))
    {sv : Option (List (List ℝ))} (hsv : ∀ k, k < bars.length → stateRow c sv (π k) = stateRow c sv k) {xs : List BarRes}
    (hx : Results.Of c bars U sv xs) {f f' : Bar ℝ × BarRes → ℝ}
    (h : ∀ b b' x, b.Image Q τ b' → f' (b', x) = f (b, x)) :
    ((bars.zip xs).map f').sum = ((bars.zip xs).map f).sum := by
  have hl : (bars.zip xs).length = bars.length := by rw [List.length_zip, hx.length, Nat.min_self]
  symm
  refine sum_rearranged (π := π) rfl (by rw [hl]; exact hS.perm) ?_
  intro k hk
  rw [hl] at hk
  obtain ⟨b, b', x, h1, h2, h3, h4, h5⟩ := hS.results hQ hU hsv hx hk
  refine ⟨(b', x), (b, x), ?_, ?_, (h b b' x h5).symm⟩
  · rw [List.getElem?_zip_eq_some]; exact ⟨h2, h4⟩
  · rw [List.getElem?_zip_eq_some]; exact ⟨h1, h3⟩

theorem symmetric_nodeForce (hQ : Orthogonal Q) (hS : SymBars Q τ π bars) {U : List ℝ} (hU : SymRows Q τ (rows3 N U))
    {sv : Option (List (List ℝ))} (hsv : ∀ k, k < bars.length → stateRow c sv (π k) = stateRow c sv k) {xs : List BarRes}
    (hx : Results.Of c bars U sv xs) : SymRows Q τ fun i : Fin N => nodeForce bars xs U i := by
  intro i
  funext d
  have h : nodeForce bars xs U (τ i) d =
      ((bars.zip xs).map fun p => p.1.sgn i * (p.2.force * mulVec3 Q (p.1.dir U) d)).sum := by
    refine hS.sum hQ hU hsv hx ?_
    intro b b' x hb
    obtain ⟨σ, ht⟩ := hb.turned
    simp only [ht.sgn, ht.dir hQ hU, Pi.smul_apply, smul_eq_mul]
    have := ht.unit
    calc σ * b.sgn i * (x.force * (σ * mulVec3 Q (b.dir U) d)) = σ * σ * (b.sgn i * (x.force * mulVec3 Q (b.dir U) d)) := by ring
      _ = _ := by rw [this, one_mul]
  refine h.trans ?_
  simp only [mulVec3, nodeForce]
  rw [← List.sum_map_mul_left, ← List.sum_map_mul_left, ← List.sum_map_mul_left, ← List.sum_map_add, ← List.sum_map_add]
  congr 1
  refine List.map_congr_left fun p _ => ?_
  ring

theorem inner3_smul (s t : ℝ) (a b : V3 ℝ) : inner3 (s • a) (t • b) = s * t * inner3 a b := by
  simp only [inner3, Pi.smul_apply, smul_eq_mul]
  ring

/-- The quadratic form of the stiffness matrix is invariant. -/
theorem symmetric_quadratic (hQ : Orthogonal Q) (hS : SymBars Q τ π bars) (hB : c.Bars bars)
    {a a' : Analysis ℝ} (hf : a.Fits c) (hsup : KeepsSupports Q τ a.DOF1)
    (hsv : ∀ k, k < bars.length → stateRow c a.statev (π k) = stateRow c a.statev k)
    {V : List ℝ} {K : List (List ℝ)} (h : stiffness c a V = .ok (a', K)) (hU : SymRows Q τ (rows3 N a'.U)) {n : Nat}
    (hn : a.DOF1.length = n) (v : Fin n → ℝ) :
    ∑ i, ∑ j, turnRed Q τ a.DOF1 n v i * matOf n K i j * turnRed Q τ a.DOF1 n v j = ∑ i, ∑ j, v i * matOf n K i j * v j := by
  have hget : ∀ (v : Fin n → ℝ) {dU : List ℝ}, scatter (List.replicate (3 * c.nnodes) 0) a.DOF1 (List.ofFn v) = .ok dU →
      rows3 N dU = expand N a.DOF1 v := by
    intro v dU hd
    subst hn
    funext i d
    show dU.getD (3 * (i : Nat) + (d : Nat)) 0 = _
    rw [scatter_getD hd (by simp) hf.dofNodup (by simpa using hf.dof)]
    have h0 : (if 3 * (i : Nat) + (d : Nat) ∈ a.DOF1 then (0 : ℝ)
        else (List.replicate (3 * c.nnodes) (0 : ℝ)).getD (3 * (i : Nat) + (d : Nat)) 0) = 0 := by
      split
      · rfl
      · rw [List.getD_eq_getElem?_getD, List.getElem?_replicate]
        split <;> rfl
    rw [h0, zero_add]
    refine Finset.sum_congr rfl fun m _ => ?_
    have hg : a.DOF1.getD m 0 = a.DOF1[m] := by
      rw [List.getD_eq_getElem?_getD, List.getElem?_eq_getElem m.isLt]
      rfl
    rw [hg, List.getD_eq_getElem?_getD, List.getElem?_ofFn]
    simp
  obtain ⟨dU, hd⟩ := scatter_ok (u := List.replicate (3 * c.nnodes) (0 : ℝ)) (v := List.ofFn v) (idx := a.DOF1) (by simp [hn])
  obtain ⟨dT, hdT⟩ := scatter_ok (u := List.replicate (3 * c.nnodes) (0 : ℝ)) (v := List.ofFn (turnRed Q τ a.DOF1 n v))
    (idx := a.DOF1) (by simp [hn])
  obtain ⟨xs, x1, x2⟩ := quadratic_scatter hB hf h hn v hd
  obtain ⟨ys, y1, y2⟩ := quadratic_scatter hB hf h hn _ hdT
  have : ys = xs := y1.unique x1
  subst this
  rw [x2, y2]
  have hrel : ∀ i : Fin N, row3 dT (τ i) = mulVec3 Q (row3 dU i) := by
    intro i
    have h1 := congrFun (hget _ hdT) (τ i)
    have h2 := congrFun (hget _ hd) i
    rw [expand_turnRed hf.dofNodup hn hsup, turn_image] at h1
    unfold rows3 at h1 h2
    rw [h1, h2]
  refine hS.sum hQ hU hsv x1 ?_
  intro b b' x hb
  obtain ⟨σ, ht⟩ := hb.turned
  obtain ⟨l1, l2⟩ := ht.lens hQ hU
  have i1 : inner3 (b'.dir a'.U) (b'.delta dT) = inner3 (b.dir a'.U) (b.delta dU) := by
    rw [ht.dir hQ hU, ht.delta dU dT hrel, inner3_smul, ht.unit, one_mul, orthogonal_inner hQ]
  have i2 : inner3 (b'.delta dT) (b'.delta dT) = inner3 (b.delta dU) (b.delta dU) := by
    rw [ht.delta dU dT hrel, inner3_smul, ht.unit, one_mul, orthogonal_inner hQ]
  simp only [l1, l2, i1, i2]

end TrussPy
