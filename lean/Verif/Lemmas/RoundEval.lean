import Verif.Lemmas.Close
import Verif.Spec.RoundedTruss
import Verif.Props.Eval
import Verif.Props.Mechanics
import Verif.Lemmas.Run
/-!
# Evaluation of a truss in rounded numbers
-/

set_option linter.unusedSectionVars false

namespace TrussPy

variable {F : Type} [Zero F] [One F] [Add F] [Sub F] [Mul F] [Div F] [Neg F] [Flt F]

/-- `D` nested operations on numbers up to `C` stay accurate. -/
structure Acc (val : F → ℝ) (δ C : ℝ) (D : Nat) : Prop where
  rounds : Rounds val δ
  one : 1 ≤ C
  small : δ * lev C D ≤ 1

section
variable {val : F → ℝ} {δ C : ℝ} {D m : Nat} {x x' : F} {y y' : ℝ}

theorem Acc.lev (A : Acc val δ C D) (h : m < D) : δ * grow (TrussPy.lev C m) ≤ 1 :=
  (mul_le_mul_of_nonneg_left (lev_mono A.one (show m + 1 ≤ D from h)) A.rounds.pos.le).trans A.small

theorem Acc.up (A : Acc val δ C D) {k : Nat} (h : Close val δ (TrussPy.lev C m) x y) (hk : m ≤ k) : Close val δ (TrussPy.lev C k) x y :=
  h.mono A.rounds.pos.le (lev_mono A.one hk)

theorem Acc.add (A : Acc val δ C D) (hm : m < D) (h : Close val δ (TrussPy.lev C m) x y) (h' : Close val δ (TrussPy.lev C m) x' y') :
    Close val δ (TrussPy.lev C (m + 1)) (x + x') (y + y') := h.add A.rounds (lev_ge A.one m) (A.lev hm) h'

theorem Acc.sub (A : Acc val δ C D) (hm : m < D) (h : Close val δ (TrussPy.lev C m) x y) (h' : Close val δ (TrussPy.lev C m) x' y') :
    Close val δ (TrussPy.lev C (m + 1)) (x - x') (y - y') := h.sub A.rounds (lev_ge A.one m) (A.lev hm) h'

theorem Acc.mul (A : Acc val δ C D) (hm : m < D) (h : Close val δ (TrussPy.lev C m) x y) (h' : Close val δ (TrussPy.lev C m) x' y') :
    Close val δ (TrussPy.lev C (m + 1)) (x * x') (y * y') := h.mul A.rounds (lev_ge A.one m) (A.lev hm) h'

theorem Acc.neg (A : Acc val δ C D) (hm : m < D) (h : Close val δ (TrussPy.lev C m) x y) :
    Close val δ (TrussPy.lev C m) (-x) (-y) := h.neg A.rounds (lev_ge A.one m) (A.lev hm)

theorem Acc.div (A : Acc val δ C D) (hm : m < D) (h : Close val δ (TrussPy.lev C m) x y) (h' : Close val δ (TrussPy.lev C m) x' y')
    (hy : 1 ≤ TrussPy.lev C m * |y'|) : Close val δ (TrussPy.lev C (m + 1)) (x / x') (y / y') :=
  h.div A.rounds (lev_ge A.one m) (A.lev hm) h' hy

theorem Acc.sqrt (A : Acc val δ C D) (hm : m < D) (h : Close val δ (TrussPy.lev C m) x y) (hy : 1 ≤ TrussPy.lev C m * y) :
    Close val δ (TrussPy.lev C (m + 1)) (Flt.sqrt x) (√y) := h.sqrt A.rounds (lev_ge A.one m) (A.lev hm) hy

theorem Acc.zero (A : Acc val δ C D) (hm : m < D) : Close val δ (TrussPy.lev C m) (0 : F) 0 := close_zero A.rounds (lev_ge A.one m) (A.lev hm)

theorem Acc.unit (A : Acc val δ C D) (hm : m < D) : Close val δ (TrussPy.lev C m) (1 : F) 1 := close_one A.rounds (lev_ge A.one m) (A.lev hm)

theorem lev_far (hC : 1 ≤ C) {k : Nat} {t : ℝ} (h : 1 ≤ C * t) : 1 ≤ TrussPy.lev C k * t := by
  have h0 : 0 ≤ t := by
    by_contra hn
    have := mul_nonpos_of_nonneg_of_nonpos (by linarith : 0 ≤ C) (not_le.1 hn).le
    linarith
  exact h.trans (mul_le_mul_of_nonneg_right (lev_mono hC (Nat.zero_le k)) h0)

theorem far_sqrt (hC : 1 ≤ C) {t : ℝ} (h : 1 ≤ C * t) : 1 ≤ C * |√t| := by
  have h0 : 0 ≤ t := by
    by_contra hn
    have := mul_nonpos_of_nonneg_of_nonpos (by linarith : 0 ≤ C) (not_le.1 hn).le
    linarith
  rw [abs_of_nonneg (Real.sqrt_nonneg _)]
  have h2 : 1 ≤ (C * √t) ^ 2 := by
    rw [mul_pow, Real.sq_sqrt h0]
    nlinarith
  by_contra hn
  have h3 : 0 ≤ C * √t := by positivity
  nlinarith [not_le.1 hn]

theorem Acc.dot3 (A : Acc val δ C D) (hm : m + 2 < D) {v w : V3 F} {v' w' : V3 ℝ} (h : ∀ d, Close val δ (TrussPy.lev C m) (v d) (v' d))
    (h' : ∀ d, Close val δ (TrussPy.lev C m) (w d) (w' d)) :
    Close val δ (TrussPy.lev C (m + 3)) (TrussPy.dot3 v w) (TrussPy.dot3 v' w') := by
  have hp : ∀ d, Close val δ (TrussPy.lev C (m + 1)) (v d * w d) (v' d * w' d) := fun d => A.mul (by omega) (h d) (h' d)
  exact A.add (by omega) (A.add (by omega) (hp 0) (hp 1)) (A.up (hp 2) (by omega))

/-- The results of an element are close. -/
structure OutClose (val : F → ℝ) (δ C : ℝ) (o : TrussOut F) (o' : TrussOut ℝ) : Prop where
  n : ∀ d, Close val δ (TrussPy.lev C 7) (o.n d) (o'.n d)
  L : Close val δ (TrussPy.lev C 6) o.L o'.L
  l : Close val δ (TrussPy.lev C 6) o.l o'.l
  farL : 1 ≤ C * |o'.L|
  farl : 1 ≤ C * |o'.l|
  lam : Close val δ (TrussPy.lev C 7) o.lam o'.lam
  stress : Close val δ (TrussPy.lev C 9) o.stress o'.stress
  dsde : Close val δ (TrussPy.lev C 0) o.dsde o'.dsde
  A : Close val δ (TrussPy.lev C 0) o.A o'.A
  N : Close val δ (TrussPy.lev C 10) o.N o'.N

theorem eval_close (A : Acc val δ C D) (hD : 13 ≤ D) {b : Bar F} (hel : b.law = .el) {U U0 : List F} {W W0 : List ℝ}
    (hUW : ∀ i, W.getD i 0 = val (U.getD i 0)) (hW : ∀ i, |W.getD i 0| ≤ C)
    (hA : ∀ d, |val (b.XA d)| ≤ C) (hE : ∀ d, |val (b.XE d)| ≤ C) (hm : |(b.image val).mat.getD 0 0| ≤ C)
    (hg : |(b.image val).geo.getD 0 0| ≤ C) (hr : 1 ≤ C * TrussPy.dot3 (b.image val).ref (b.image val).ref)
    (hx : 1 ≤ C * TrussPy.dot3 ((b.image val).axis W) ((b.image val).axis W)) {sv : Option (List F)} {sv' : Option (List ℝ)} {o : TrussOut F} {o' : TrussOut ℝ}
    (h : b.eval U U0 sv = .ok o) (h' : (b.image val).eval W W0 sv' = .ok o') : OutClose val δ C o o' := by
  have hδ := A.rounds.pos.le
  have hC := A.one
  unfold Bar.eval trussCore at h h'
  simp only [Bar.image, hel, Umat.call, umatEl] at h h'
  obtain ⟨mo, h1, h⟩ := py_bind_eq_ok.1 h
  obtain ⟨E, h2, h1⟩ := py_bind_eq_ok.1 h1
  cases h1
  obtain ⟨G, h3, h⟩ := py_bind_eq_ok.1 h
  cases h
  obtain ⟨mo', h1', h'⟩ := py_bind_eq_ok.1 h'
  obtain ⟨E', h2', h1'⟩ := py_bind_eq_ok.1 h1'
  cases h1'
  obtain ⟨G', h3', h'⟩ := py_bind_eq_ok.1 h'
  cases h'
  have q2 := pyGet_ok_nat.1 h2
  have q3 := pyGet_ok_nat.1 h3
  have q2' := pyGet_ok_nat.1 h2'
  have q3' := pyGet_ok_nat.1 h3'
  rw [List.getElem?_map, q2] at q2'
  rw [List.getElem?_map, q3] at q3'
  cases q2'
  cases q3'
  simp only [Bar.image, List.getD_eq_getElem?_getD, List.getElem?_map, q2, q3, Option.map_some, Option.getD_some] at hm hg
  have cE : Close val δ (TrussPy.lev C 0) E (val E) := close_self hδ hm
  have cG : Close val δ (TrussPy.lev C 0) G (val G) := close_self hδ hg
  have cU : ∀ (i : Nat) (d : Fin 3), Close val δ (TrussPy.lev C 0) (row3 U i d) (row3 W i d) := by
    intro i d
    unfold row3
    rw [hUW]
    exact close_self hδ (by rw [← hUW]; exact hW _)
  have cX : ∀ d, Close val δ (TrussPy.lev C 1) (b.XE d - b.XA d) (val (b.XE d) - val (b.XA d)) :=
    fun d => A.sub (by omega) (close_self hδ (hE d)) (close_self hδ (hA d))
  have cx : ∀ d, Close val δ (TrussPy.lev C 2) (b.XE d - b.XA d + (row3 U b.iE d - row3 U b.iA d))
      (val (b.XE d) - val (b.XA d) + (row3 W b.iE d - row3 W b.iA d)) :=
    fun d => A.add (by omega) (cX d) (A.sub (by omega) (cU _ d) (cU _ d))
  have hax : (b.image val).axis W = fun d => val (b.XE d) - val (b.XA d) + (row3 W b.iE d - row3 W b.iA d) := by
    funext d
    show (val (b.XE d) + row3 W b.iE d) - (val (b.XA d) + row3 W b.iA d) = _
    ring
  rw [hax] at hx
  have cd := A.dot3 (by omega) cx cx
  have cD := A.dot3 (by omega) cX cX
  have cl := A.sqrt (by omega) cd (lev_far hC hx)
  have cL := A.up (A.sqrt (by omega) cD (lev_far hC hr)) (show 5 ≤ 6 by omega)
  have fl := far_sqrt hC hx
  have fL := far_sqrt hC hr
  have cn : ∀ d, _ := fun d => A.div (by omega) (A.up (cx d) (show 2 ≤ 6 by omega)) cl (lev_far hC fl)
  have clam := A.div (by omega) cl cL (lev_far hC fL)
  have ce := A.sub (by omega) clam (A.unit (by omega))
  have cs := A.mul (by omega) (A.up cE (show 0 ≤ 8 by omega)) ce
  have cN := A.mul (by omega) cs (A.up cG (show 0 ≤ 9 by omega))
  exact ⟨cn, cL, cl, fL, fl, clam, cs, cE, cG, cN⟩

theorem trussK_close (A : Acc val δ C D) (hD : 13 ≤ D) {o : TrussOut F} {o' : TrussOut ℝ} (h : OutClose val δ C o o') (i k : Fin 3) :
    Close val δ (TrussPy.lev C 13) (trussK o i k) (trussK o' i k) := by
  have hC := A.one
  have c1 := A.up (A.mul (by omega) h.dsde h.A) (show 1 ≤ 6 by omega)
  have c2 := A.div (by omega) c1 h.L (lev_far hC h.farL)
  have c3 : Close val δ (TrussPy.lev C 8) (outer3 o.n o.n i k) (outer3 o'.n o'.n i k) := A.mul (by omega) (h.n i) (h.n k)
  have c4 := A.mul (by omega) (A.up c2 (show 7 ≤ 8 by omega)) c3
  have c5 := A.div (by omega) h.N (A.up h.l (show 6 ≤ 10 by omega)) (lev_far hC h.farl)
  have c6 : Close val δ (TrussPy.lev C 8) (eye3 i k : F) (eye3 i k : ℝ) := by
    unfold eye3
    split
    · exact A.unit (by omega)
    · exact A.zero (by omega)
  have c7 := A.sub (by omega) c6 c3
  have c8 := A.mul (by omega) c5 (A.up c7 (show 9 ≤ 11 by omega))
  exact A.add (by omega) (A.up c4 (show 9 ≤ 12 by omega)) c8

/-! ## Assembly -/

/-- Nodal vectors are close. -/
structure RowsClose (val : F → ℝ) (δ C : ℝ) (r : List (V3 F)) (r' : List (V3 ℝ)) : Prop where
  length : r.length = r'.length
  close : ∀ i d, Close val δ C (r.getD i (fun _ => 0) d) (r'.getD i (fun _ => 0) d)

theorem RowsClose.set (A : Acc val δ C D) {r : List (V3 F)} {r' : List (V3 ℝ)} (h : RowsClose val δ (TrussPy.lev C m) r r') (p : Nat) {v : V3 F} {v' : V3 ℝ}
    (hv : ∀ d, Close val δ (TrussPy.lev C m) (v d) (v' d)) : RowsClose val δ (TrussPy.lev C m) (r.set p v) (r'.set p v') := by
  refine ⟨by simp [h.length], fun i d => ?_⟩
  rw [List.getD_eq_getElem?_getD, List.getD_eq_getElem?_getD, List.getElem?_set, List.getElem?_set, h.length]
  have hc := h.close i d
  rw [List.getD_eq_getElem?_getD, List.getD_eq_getElem?_getD] at hc
  by_cases hpi : p = i
  · subst hpi
    by_cases hl : p < r'.length
    · rw [if_pos rfl, if_pos rfl, if_pos hl, if_pos hl]
      exact hv d
    · rw [if_pos rfl, if_pos rfl, if_neg hl, if_neg hl]
      rw [List.getElem?_eq_none (by rw [h.length]; omega), List.getElem?_eq_none (by omega)] at hc
      exact hc
  · rw [if_neg hpi, if_neg hpi]
    exact hc

theorem addBar_close (A : Acc val δ C D) (hm : 11 ≤ m) (hD : m < D) {r : List (V3 F)} {r' : List (V3 ℝ)} (h : RowsClose val δ (TrussPy.lev C m) r r') {b : Bar F}
    {o : TrussOut F} {o' : TrussOut ℝ} (ho : OutClose val δ C o o') :
    RowsClose val δ (TrussPy.lev C (m + 1)) (addBar r (b, o)) (addBar r' (b.image val, o')) := by
  have h1 : RowsClose val δ (TrussPy.lev C (m + 1)) r r' := ⟨h.length, fun i d => A.up (h.close i d) (by omega)⟩
  have cn : ∀ d, Close val δ (TrussPy.lev C m) (o.N * o.n d) (o'.N * o'.n d) :=
    fun d => A.up (A.mul (by omega) ho.N (A.up (ho.n d) (show 7 ≤ 10 by omega))) hm
  have cn' : ∀ d, Close val δ (TrussPy.lev C m) (o.N * -(o.n d)) (o'.N * -(o'.n d)) :=
    fun d => A.up (A.mul (by omega) ho.N (A.up (A.neg (by omega) (ho.n d)) (show 7 ≤ 10 by omega))) hm
  unfold addBar
  exact (h1.set A b.iA fun d => A.add hD (h.close _ d) (cn' d)).set A b.iE fun d => A.add hD (h.close _ d) (cn d)

theorem addBars_close (A : Acc val δ C D) {bars : List (Bar F)} : ∀ {outs : List (TrussOut F)} {outs' : List (TrussOut ℝ)} {m : Nat} {r : List (V3 F)} {r' : List (V3 ℝ)},
    11 ≤ m → m + bars.length ≤ D → RowsClose val δ (TrussPy.lev C m) r r' → outs.length = bars.length → outs'.length = bars.length →
    (∀ (i : Nat) o o', outs[i]? = some o → outs'[i]? = some o' → OutClose val δ C o o') →
    RowsClose val δ (TrussPy.lev C (m + bars.length)) ((bars.zip outs).foldl addBar r) (((bars.map (Bar.image val)).zip outs').foldl addBar r') := by
  induction bars with
  | nil => intro outs outs' m r r' _ _ h _ _ _; exact h
  | cons b bars ih =>
    intro outs outs' m r r' hm hD h hl hl' ho
    cases outs with
    | nil => simp at hl
    | cons o outs =>
      cases outs' with
      | nil => simp at hl'
      | cons o' outs' =>
        simp only [List.length_cons] at hD hl hl'
        have h1 := addBar_close A hm (by omega) h (b := b) (ho 0 o o' rfl rfl)
        have h2 := ih (outs := outs) (outs' := outs') (m := m + 1) (by omega) (by omega) h1 (by omega) (by omega) (fun i p p' g g' => ho (i + 1) p p' (by simpa using g) (by simpa using g'))
        rw [show m + 1 + bars.length = m + (bars.length + 1) by omega] at h2
        exact h2

/-- Block entry. -/
def blockAt {R : Type} [Zero R] (K : List (List (M3 R))) (p q : Nat) : M3 R := (K.getD p []).getD q fun _ _ => 0

/-- Block matrices are close. -/
structure BlocksClose (val : F → ℝ) (δ C : ℝ) (K : List (List (M3 F))) (K' : List (List (M3 ℝ))) : Prop where
  shape : ∀ p, (K.getD p []).length = (K'.getD p []).length
  close : ∀ p q i k, Close val δ C (blockAt K p q i k) (blockAt K' p q i k)

theorem getD_modify_row {R : Type} [Zero R] (K : List (List (M3 R))) (a p : Nat) (f : List (M3 R) → List (M3 R)) (hf : f [] = []) :
    (K.modify a f).getD p [] = if a = p then f (K.getD p []) else K.getD p [] := by
  rw [List.getD_eq_getElem?_getD, List.getD_eq_getElem?_getD, List.getElem?_modify]
  cases K[p]? with
  | none =>
    by_cases h : a = p
    · simp [h, hf]
    · simp [h]
  | some r =>
    by_cases h : a = p
    · simp [h]
    · simp [h]

theorem addBlock_close (A : Acc val δ C D) (hD : m < D) {K : List (List (M3 F))} {K' : List (List (M3 ℝ))} (h : BlocksClose val δ (TrussPy.lev C m) K K')
    (a b : Nat) {t : M3 F} {t' : M3 ℝ} (ht : ∀ i k, Close val δ (TrussPy.lev C m) (t i k) (t' i k)) :
    BlocksClose val δ (TrussPy.lev C (m + 1)) (addBlock K a b t) (addBlock K' a b t') := by
  refine ⟨fun p => ?_, fun p q i k => ?_⟩
  · unfold addBlock
    rw [getD_modify_row _ _ _ _ (by simp), getD_modify_row _ _ _ _ (by simp)]
    split
    · simp only [List.length_modify]
      exact h.shape p
    · exact h.shape p
  · have hc := h.close p q i k
    have hs := h.shape p
    unfold blockAt at hc ⊢
    unfold addBlock
    rw [getD_modify_row _ _ _ _ (by simp), getD_modify_row _ _ _ _ (by simp)]
    generalize K.getD p [] = R at hc hs ⊢
    generalize K'.getD p [] = R' at hc hs ⊢
    split
    · simp only [List.getD_eq_getElem?_getD, List.getElem?_modify] at hc ⊢
      by_cases hq : q < R'.length
      · rw [List.getElem?_eq_getElem (by omega), List.getElem?_eq_getElem hq] at hc ⊢
        by_cases hb : b = q
        · simp only [hb, if_true, Option.map_eq_map, Option.map_some, Option.getD_some] at hc ⊢
          exact A.add hD hc (ht i k)
        · simp only [hb, if_false, Option.map_eq_map, Option.map_some, Option.getD_some] at hc ⊢
          exact A.up hc (by omega)
      · rw [List.getElem?_eq_none (by omega), List.getElem?_eq_none (by omega)] at hc ⊢
        simp only [Option.map_eq_map, Option.map_none] at hc ⊢
        exact A.up hc (by omega)
    · exact A.up hc (by omega)

theorem addBarK_close (A : Acc val δ C D) (hm : 13 ≤ m) (hD : m + 3 < D) {K : List (List (M3 F))} {K' : List (List (M3 ℝ))} (h : BlocksClose val δ (TrussPy.lev C m) K K')
    {b : Bar F} {o : TrussOut F} {o' : TrussOut ℝ} (ho : OutClose val δ C o o') :
    BlocksClose val δ (TrussPy.lev C (m + 4)) (addBarK K (b, o)) (addBarK K' (b.image val, o')) := by
  have hk := trussK_close A (by omega) ho
  have hk' : ∀ n, 13 ≤ n → ∀ i k, Close val δ (TrussPy.lev C n) (trussK o i k) (trussK o' i k) := fun n hn i k => A.up (hk i k) hn
  have hn : ∀ n, 13 ≤ n → ∀ i k, Close val δ (TrussPy.lev C n) (-(trussK o i k)) (-(trussK o' i k)) :=
    fun n hn i k => A.up (A.neg (by omega) (hk i k)) hn
  unfold addBarK
  exact addBlock_close A (by omega) (addBlock_close A (by omega) (addBlock_close A (by omega) (addBlock_close A (by omega) h _ _ (hk' m hm)) _ _
    (hn (m + 1) (by omega))) _ _ (hn (m + 2) (by omega))) _ _ (hk' (m + 3) (by omega))

theorem addBarsK_close (A : Acc val δ C D) {bars : List (Bar F)} : ∀ {outs : List (TrussOut F)} {outs' : List (TrussOut ℝ)} {m : Nat} {K : List (List (M3 F))} {K' : List (List (M3 ℝ))},
    13 ≤ m → m + 4 * bars.length ≤ D → BlocksClose val δ (TrussPy.lev C m) K K' → outs.length = bars.length → outs'.length = bars.length →
    (∀ (i : Nat) o o', outs[i]? = some o → outs'[i]? = some o' → OutClose val δ C o o') →
    BlocksClose val δ (TrussPy.lev C (m + 4 * bars.length)) ((bars.zip outs).foldl addBarK K) (((bars.map (Bar.image val)).zip outs').foldl addBarK K') := by
  induction bars with
  | nil => intro outs outs' m r r' _ _ h _ _ _; exact h
  | cons b bars ih =>
    intro outs outs' m r r' hm hD h hl hl' ho
    cases outs with
    | nil => simp at hl
    | cons o outs =>
      cases outs' with
      | nil => simp at hl'
      | cons o' outs' =>
        simp only [List.length_cons] at hD hl hl'
        have h1 := addBarK_close A hm (by omega) h (b := b) (ho 0 o o' rfl rfl)
        have h2 := ih (outs := outs) (outs' := outs') (m := m + 4) (by omega) (by omega) h1 (by omega) (by omega) (fun i p p' g g' => ho (i + 1) p p' (by simpa using g) (by simpa using g'))
        rw [show m + 4 + 4 * bars.length = m + 4 * (bars.length + 1) by omega] at h2
        exact h2

theorem kOut_block {R : Type} [Zero R] (K : List (List (M3 R))) (p q : Nat) :
    kOut K p q = blockAt K (p / 3) (q / 3) ⟨p % 3, Nat.mod_lt _ (by decide)⟩ ⟨q % 3, Nat.mod_lt _ (by decide)⟩ := by
  unfold kOut blockAt
  simp only [List.getD_eq_getElem?_getD]
  cases K[p / 3]? with
  | none => simp
  | some row =>
    simp only [Option.getD_some]
    cases row[q / 3]? <;> rfl

/-! ## Evaluation of the whole structure -/

variable {c : Ctx F} {bars : List (Bar F)} {a : Analysis F} {ef : StepForces F} {c' : Ctx ℝ} {a' : Analysis ℝ}

theorem placed_eq {u v W W' : List ℝ} {dofs : List Nat} (hl : v.length = dofs.length) (hnd : dofs.Nodup) (hlt : ∀ i ∈ dofs, i < u.length)
    (h : Placed u dofs v W) (hs : scatter u dofs v = .ok W') : W' = W := by
  apply List.ext_getElem?
  intro i
  by_cases hi : i ∈ dofs
  · obtain ⟨m, hm⟩ := List.getElem?_of_mem hi
    rw [scatter_mem hs hl hnd hlt hm, h.free m i hm]
  · rw [scatter_other hs hi, h.locked i hi]

theorem placed_image (hR : Rounds val δ) (E : Evaluable c bars a ef) (T : Twin val c a c' a') {v : List F} (hv : v.length = c.ndof1) {U : List F}
    (hU : scatter a.U a.DOF1 v = .ok U) {W : List ℝ} (h : Placed a'.U a'.DOF1 (v.map val) W) (i : Nat) : W.getD i 0 = val (U.getD i 0) := by
  by_cases hi : i ∈ a.DOF1
  · obtain ⟨m, hm⟩ := List.getElem?_of_mem hi
    have h1 := scatter_mem hU (by rw [hv, E.dofs]) E.fits.dofNodup (fun i hi => by rw [E.fits.U]; exact E.fits.dof i hi) hm
    have h2 := h.free m i (by rw [T.dof1]; exact hm)
    rw [List.getD_eq_getElem?_getD, List.getD_eq_getElem?_getD, h1, h2, List.getElem?_map]
    cases v[m]? with
    | none => exact hR.zero.symm
    | some x => rfl
  · have h1 := T.locked i hi
    rw [List.getD_eq_getElem?_getD, List.getD_eq_getElem?_getD] at h1 ⊢
    rw [scatter_other hU hi, h.locked i (by rw [T.dof1]; exact hi), h1]

theorem outs_close (A : Acc val δ C D) (hD : 13 ≤ D) (hel : ∀ b ∈ bars, b.law = .el) {U U0 : List F} {W W0 : List ℝ}
    (hUW : ∀ i, W.getD i 0 = val (U.getD i 0)) (hM : Moderate C (bars.map (Bar.image val)) (ef.image val))
    (hW : Clear C (bars.map (Bar.image val)) W) {sv : Option (List (List F))} {sv' : Option (List (List ℝ))} {outs : List (TrussOut F)} {outs' : List (TrussOut ℝ)}
    (h : evalAll c U U0 sv bars 0 = .ok outs) (h' : evalAll c' W W0 sv' (bars.map (Bar.image val)) 0 = .ok outs')
    {i : Nat} {o : TrussOut F} {o' : TrussOut ℝ} (ho : outs[i]? = some o) (ho' : outs'[i]? = some o') : OutClose val δ C o o' := by
  have hi : i < bars.length := by
    have := evalAll_length h
    have := (List.getElem?_eq_some_iff.1 ho).1
    omega
  have hb := List.getElem?_eq_getElem hi
  set b := bars[i] with hbd
  obtain ⟨o1, g1, g2⟩ := evalAll_get h hb
  obtain ⟨o2, g3, g4⟩ := evalAll_get h' (show (bars.map (Bar.image val))[i]? = some (b.image val) by rw [List.getElem?_map, hb]; rfl)
  rw [ho] at g1
  cases g1
  rw [ho'] at g3
  cases g3
  have hmem := List.mem_of_getElem? hb
  have hmem' : b.image val ∈ bars.map (Bar.image val) := List.mem_map_of_mem hmem
  have hC0 : 0 ≤ C := by have := A.one; linarith
  refine eval_close A hD (hel b hmem) hUW (fun i => ?_) (hM.begin_ _ hmem') (hM.end_ _ hmem') (hM.modulus _ hmem') (hM.area _ hmem') (hM.ref _ hmem') (hW.axis _ hmem') g2 g4
  rw [List.getD_eq_getElem?_getD]
  cases hWi : W[i]? with
  | none => simpa using hC0
  | some w => exact hW.disp w (List.mem_of_getElem? hWi)

theorem zeroR_close (A : Acc val δ C D) (hm : m < D) (n : Nat) : RowsClose val δ (TrussPy.lev C m) (zeroR n : List (V3 F)) (zeroR n) := by
  refine ⟨by simp [zeroR], fun i d => ?_⟩
  have h1 : (zeroR n : List (V3 F)).getD i (fun _ => 0) = fun _ => 0 := by
    unfold zeroR
    rw [List.getD_eq_getElem?_getD, List.getElem?_replicate]
    split <;> rfl
  have h2 : (zeroR n : List (V3 ℝ)).getD i (fun _ => 0) = fun _ => 0 := by
    unfold zeroR
    rw [List.getD_eq_getElem?_getD, List.getElem?_replicate]
    split <;> rfl
  rw [h1, h2]
  exact A.zero hm

theorem zeroK_close (A : Acc val δ C D) (hm : m < D) (n : Nat) : BlocksClose val δ (TrussPy.lev C m) (zeroK n : List (List (M3 F))) (zeroK n) := by
  have h0 : ∀ {R : Type} [Zero R] (p : Nat), (zeroK n : List (List (M3 R))).getD p [] = if p < n then List.replicate n (fun _ _ => 0) else [] := by
    intro R _ p
    unfold zeroK
    rw [List.getD_eq_getElem?_getD, List.getElem?_replicate]
    split <;> rfl
  have h1 : ∀ {R : Type} [Zero R] (p q : Nat), blockAt (zeroK n : List (List (M3 R))) p q = fun _ _ => 0 := by
    intro R _ p q
    unfold blockAt
    rw [h0, List.getD_eq_getElem?_getD]
    split
    · rw [List.getElem?_replicate]
      split <;> rfl
    · rfl
  refine ⟨fun p => ?_, fun p q i k => ?_⟩
  · rw [h0, h0]
    split <;> simp
  · rw [h1, h1]
    exact A.zero hm

theorem residual_close (A : Acc val δ C D) (hm : m + 1 < D) (hC : m ≠ 0) {r : List (V3 F)} {r' : List (V3 ℝ)} (h : RowsClose val δ (TrussPy.lev C m) r r')
    {fc f g : List F} {g' : List ℝ} {lpf : F} (hl : |val lpf| ≤ C) (hfc : ∀ v ∈ fc.map val, |v| ≤ C) (hf : ∀ v ∈ f.map val, |v| ≤ C)
    (e : residual r fc f lpf = .ok g) (e' : residual r' (fc.map val) (f.map val) (val lpf) = .ok g') {p : Nat} (hp : p < 3 * r.length) :
    ∃ x y, g[p]? = some x ∧ g'[p]? = some y ∧ Close val δ (TrussPy.lev C (m + 2)) x y := by
  have hδ := A.rounds.pos.le
  have hi : p / 3 < r.length := by omega
  have hi' : p / 3 < r'.length := by rw [← h.length]; exact hi
  obtain ⟨k, q, h1, h2, h3⟩ := (residual_get e).2 (p / 3) _ (List.getElem?_eq_getElem hi) ⟨p % 3, Nat.mod_lt _ (by decide)⟩
  obtain ⟨k', q', h1', h2', h3'⟩ := (residual_get e').2 (p / 3) _ (List.getElem?_eq_getElem hi') ⟨p % 3, Nat.mod_lt _ (by decide)⟩
  simp only [Nat.div_add_mod] at h1 h2 h3 h1' h2' h3'
  rw [List.getElem?_map, h1] at h1'
  rw [List.getElem?_map, h2] at h2'
  cases h1'
  cases h2'
  refine ⟨_, _, h3, h3', ?_⟩
  have hc := h.close (p / 3) ⟨p % 3, Nat.mod_lt _ (by decide)⟩
  rw [List.getD_eq_getElem?_getD, List.getD_eq_getElem?_getD, List.getElem?_eq_getElem hi, List.getElem?_eq_getElem hi', Option.getD_some,
    Option.getD_some] at hc
  have ck : Close val δ (TrussPy.lev C 0) k (val k) := close_self hδ (hfc _ (List.mem_map_of_mem (List.mem_of_getElem? h1)))
  have cq : Close val δ (TrussPy.lev C 0) q (val q) := close_self hδ (hf _ (List.mem_map_of_mem (List.mem_of_getElem? h2)))
  have cl : Close val δ (TrussPy.lev C 0) lpf (val lpf) := close_self hδ hl
  exact A.add hm (A.add (by omega) (A.neg (by omega) hc) (A.up ck (Nat.zero_le _))) (A.up (A.mul (by omega) cl cq) (by omega))

/-- Levels of the results of an evaluation. -/
structure EvalNear (val : F → ℝ) (δ C : ℝ) (D : Nat) (a1 : Analysis F) (g : List F) (a1' : Analysis ℝ) (g' : List ℝ) : Prop where
  g : NearList val (TrussPy.lev C D * δ) g g'
  stretch : NearList val (TrussPy.lev C D * δ) a1.stretch a1'.stretch
  stress : NearList val (TrussPy.lev C D * δ) a1.elementStress a1'.elementStress
  force : NearList val (TrussPy.lev C D * δ) a1.elementForce a1'.elementForce
  size : ∀ y ∈ g', |y| ≤ TrussPy.lev C D

theorem Acc.near (A : Acc val δ C D) (h : Close val δ (TrussPy.lev C m) x y) (hm : m ≤ D) : |val x - y| ≤ TrussPy.lev C D * δ := (A.up h hm).err

theorem nearList_map {α β : Type} {outs : List α} {outs' : List β} {f : α → F} {f' : β → ℝ} {ε : ℝ} (hl : outs.length = outs'.length)
    (h : ∀ (i : Nat) o o', outs[i]? = some o → outs'[i]? = some o' → |val (f o) - f' o'| ≤ ε) : NearList val ε (outs.map f) (outs'.map f') := by
  refine ⟨by simp [hl], fun i x y hx hy => ?_⟩
  rw [List.getElem?_map] at hx hy
  obtain ⟨o, ho, rfl⟩ := Option.map_eq_some_iff.1 hx
  obtain ⟨o', ho', rfl⟩ := Option.map_eq_some_iff.1 hy
  exact h i o o' ho ho'

theorem afterG_reports {R : Type} [Zero R] [One R] [Add R] [Sub R] [Mul R] [Div R] [Neg R] [Flt R] (c : Ctx R) (w : Bool) (lpf : R) (u U U0 : List R)
    (bars : List (Bar R)) (outs : List (TrussOut R)) (g : List R) (a : Analysis R) :
    (afterG c w lpf u U U0 bars outs g a).stretch = outs.map (·.lam) ∧ (afterG c w lpf u U U0 bars outs g a).elementStress = outs.map (·.stress) ∧
      (afterG c w lpf u U U0 bars outs g a).elementForce = outs.map (·.N) := by
  unfold afterG
  simp only
  split <;> exact ⟨rfl, rfl, rfl⟩

theorem equil_close (A : Acc val δ C D) (hD : 13 + bars.length ≤ D) (E : Evaluable c bars a ef)
    (E' : Evaluable c' (bars.map (Bar.image val)) a' (ef.image val)) (T : Twin val c a c' a') (hel : ∀ b ∈ bars, b.law = .el)
    (hM : Moderate C (bars.map (Bar.image val)) (ef.image val)) {v : List F} (hv : v.length = c.ndof1) {lpf : F} (hlpf : |val lpf| ≤ C) {W : List ℝ}
    (hP : Placed a'.U a'.DOF1 (v.map val) W) (hW : Clear C (bars.map (Bar.image val)) W) {V0 : List F} (hV0 : V0.length = c.ndof1 + 1) {V0' : List ℝ}
    (hV0' : V0'.length = c.ndof1 + 1) (w w' : Bool) :
    ∃ a1 g a1' g', equilibrium c a (v ++ [lpf]) V0 .G w = .ok (a1, g) ∧ equilibrium c' a' (v.map val ++ [val lpf]) V0' .G w' = .ok (a1', g') ∧
      EvalNear val δ C D a1 g a1' g' := by
  obtain ⟨⟨⟨a1, g⟩, h1⟩, -⟩ := C56_evaluation_total E.tables E.fits E.complete E.statev E.ext E.forces E.forcesConst E.dofs
    (V := v ++ [lpf]) (V0 := V0) (by simp [hv]) hV0 w
  obtain ⟨⟨⟨a1', g'⟩, h1'⟩, -⟩ := C56_evaluation_total E'.tables E'.fits E'.complete E'.statev E'.ext E'.forces E'.forcesConst E'.dofs
    (V := v.map val ++ [val lpf]) (V0 := V0') (by simp [hv, T.ndof1]) (by rw [hV0', T.ndof1]) w'
  obtain ⟨l, u, u0, U, U0, outs, ef1, G, e1, e2, e3, e4, e5, e6, e7, e8⟩ := equilibrium_G E.tables E.fits h1
  obtain ⟨l', u', u0', U', U0', outs', ef1', G', e1', e2', e3', e4', e5', e6', e7', e8'⟩ := equilibrium_G E'.tables E'.fits h1'
  rw [E.ext] at e5
  cases e5
  rw [E'.ext] at e5'
  cases e5'
  have hs : splitV c a (v ++ [lpf]) V0 = .ok (lpf, v, V0.take c.ndof1) := by
    unfold splitV
    rw [if_pos (by simp [hv]), List.getLast?_append]
    simp [← hv]
  have hs' : splitV c' a' (v.map val ++ [val lpf]) V0' = .ok (val lpf, v.map val, V0'.take c'.ndof1) := by
    unfold splitV
    have hv' : (v.map val).length = c'.ndof1 := by rw [List.length_map, hv, T.ndof1]
    rw [if_pos (by rw [List.length_append, hv']; simp), List.getLast?_append]
    simp [← hv']
  rw [hs] at e1
  cases e1
  rw [hs'] at e1'
  cases e1'
  have hWU : U' = W := placed_eq (by rw [List.length_map, hv, E'.dofs, T.ndof1]) E'.fits.dofNodup
    (fun i hi => by rw [E'.fits.U]; exact E'.fits.dof i hi) hP e2'
  subst hWU
  have hUW := placed_image A.rounds E T hv e2 hP
  have hO : ∀ (i : Nat) o o', outs[i]? = some o → outs'[i]? = some o' → OutClose val δ C o o' :=
    fun i o o' ho ho' => outs_close A (by omega) hel hUW hM hW e4 e4' ho ho'
  have hl := evalAll_length e4
  have hl' := evalAll_length e4'
  rw [List.length_map] at hl'
  have hr := addBars_close A (m := 11) le_rfl (by omega) (zeroR_close A (by omega) c.nnodes) hl hl' hO
  rw [T.nnodes] at e6'
  have hp : ∀ p ∈ a.DOF1, ∃ x y, G[p]? = some x ∧ G'[p]? = some y ∧ Close val δ (TrussPy.lev C (11 + bars.length + 2)) x y := by
    intro p hp
    refine residual_close A (by omega) (by omega) hr hlpf hM.forcesConst hM.forces e6 e6' ?_
    rw [addBars_length]
    simpa [zeroR] using E.fits.dof p hp
  have hG : g = a.DOF1.map fun i => G.getD i 0 := by
    have := npTake_eq_map (0 : F) (l := G) (idx := a.DOF1) (fun i hi => by
      obtain ⟨x, y, g1, -, -⟩ := hp i hi
      exact (List.getElem?_eq_some_iff.1 g1).1)
    rw [this] at e7
    cases e7
    rfl
  have hG' : g' = a.DOF1.map fun i => G'.getD i 0 := by
    have := npTake_eq_map (0 : ℝ) (l := G') (idx := a.DOF1) (fun i hi => by
      obtain ⟨x, y, -, g1, -⟩ := hp i hi
      exact (List.getElem?_eq_some_iff.1 g1).1)
    rw [T.dof1, this] at e7'
    cases e7'
    rfl
  refine ⟨a1, g, a1', g', h1, h1', ?_, ?_, ?_, ?_, ?_⟩
  · rw [hG, hG']
    refine nearList_map rfl fun i o o' ho ho' => ?_
    rw [ho] at ho'
    cases ho'
    obtain ⟨x, y, g1, g2, g3⟩ := hp o (List.mem_of_getElem? ho)
    rw [List.getD_eq_getElem?_getD, List.getD_eq_getElem?_getD, g1, g2]
    exact A.near g3 (by omega)
  · rw [e8, e8', (afterG_reports ..).1, (afterG_reports ..).1]
    exact nearList_map (by omega) fun i o o' ho ho' => A.near (hO i o o' ho ho').lam (by omega)
  · rw [e8, e8', (afterG_reports ..).2.1, (afterG_reports ..).2.1]
    exact nearList_map (by omega) fun i o o' ho ho' => A.near (hO i o o' ho ho').stress (by omega)
  · rw [e8, e8', (afterG_reports ..).2.2, (afterG_reports ..).2.2]
    exact nearList_map (by omega) fun i o o' ho ho' => A.near (hO i o o' ho ho').N (by omega)
  · intro t ht
    rw [hG'] at ht
    obtain ⟨p, hp1, rfl⟩ := List.mem_map.1 ht
    obtain ⟨x, y, -, g2, g3⟩ := hp p hp1
    simp only [List.getD_eq_getElem?_getD, g2, Option.getD_some]
    exact (A.up g3 (by omega)).bound

theorem stiff_close (A : Acc val δ C D) (hD : 14 + 4 * bars.length ≤ D) (E : Evaluable c bars a ef)
    (E' : Evaluable c' (bars.map (Bar.image val)) a' (ef.image val)) (T : Twin val c a c' a') (hel : ∀ b ∈ bars, b.law = .el)
    (hM : Moderate C (bars.map (Bar.image val)) (ef.image val)) {v : List F} (hv : v.length = c.ndof1) {W : List ℝ}
    (hP : Placed a'.U a'.DOF1 (v.map val) W) (hW : Clear C (bars.map (Bar.image val)) W) (hl : a.lpf.isSome = true) (hl' : a'.lpf.isSome = true) :
    ∃ a1 K a1' K', stiffness c a v = .ok (a1, K) ∧ stiffness c' a' (v.map val) = .ok (a1', K') ∧ K.length = c.ndof1 ∧ (∀ row ∈ K, row.length = c.ndof1) ∧
      NearMatrix val (TrussPy.lev C D * δ) K K' := by
  obtain ⟨-, h1⟩ := C56_evaluation_total E.tables E.fits E.complete E.statev E.ext E.forces E.forcesConst E.dofs
    (V := v ++ [0]) (V0 := v ++ [0]) (by simp [hv]) (by simp [hv]) false
  obtain ⟨-, h1'⟩ := C56_evaluation_total E'.tables E'.fits E'.complete E'.statev E'.ext E'.forces E'.forcesConst E'.dofs
    (V := v.map val ++ [0]) (V0 := v.map val ++ [0]) (by simp [hv, T.ndof1]) (by simp [hv, T.ndof1]) false
  obtain ⟨⟨a1, K⟩, h1⟩ := h1 hl
  obtain ⟨⟨a1', K'⟩, h1'⟩ := h1' hl'
  rw [List.dropLast_concat] at h1 h1'
  obtain ⟨l, u, u0, U, U0, outs, e1, e2, e3, e4, e5, e6⟩ := stiffness_inv E.tables E.fits h1
  obtain ⟨l', u', u0', U', U0', outs', e1', e2', e3', e4', e5', e6'⟩ := stiffness_inv E'.tables E'.fits h1'
  obtain ⟨lp, hlp⟩ := Option.isSome_iff_exists.1 hl
  obtain ⟨lp', hlp'⟩ := Option.isSome_iff_exists.1 hl'
  unfold splitV at e1 e1'
  rw [if_neg (by omega), hlp] at e1
  rw [if_neg (by rw [List.length_map, T.ndof1]; omega), hlp'] at e1'
  cases e1
  cases e1'
  have hWU : U' = W := placed_eq (by rw [List.length_map, hv, E'.dofs, T.ndof1]) E'.fits.dofNodup
    (fun i hi => by rw [E'.fits.U]; exact E'.fits.dof i hi) hP e2'
  subst hWU
  have hUW := placed_image A.rounds E T hv e2 hP
  have hO : ∀ (i : Nat) o o', outs[i]? = some o → outs'[i]? = some o' → OutClose val δ C o o' :=
    fun i o o' ho ho' => outs_close A (by omega) hel hUW hM hW e4 e4' ho ho'
  have hlo := evalAll_length e4
  have hlo' := evalAll_length e4'
  rw [List.length_map] at hlo'
  have hr := addBarsK_close A (m := 13) le_rfl (by omega) (zeroK_close A (by omega) c.nnodes) hlo hlo' hO
  rw [T.nnodes, T.dof1] at e5'
  refine ⟨a1, K, a1', K', h1, h1', by rw [e5]; simp [E.dofs], by rw [e5]; simp [E.dofs], ?_⟩
  rw [e5, e5']
  refine ⟨by simp, fun i r r' hr1 hr2 => ?_⟩
  rw [List.getElem?_map] at hr1 hr2
  obtain ⟨p, hp, rfl⟩ := Option.map_eq_some_iff.1 hr1
  rw [hp] at hr2
  cases hr2
  refine nearList_map rfl fun j q q' hq hq' => ?_
  rw [hq] at hq'
  cases hq'
  rw [kOut_block, kOut_block]
  exact A.near (hr.close _ _ _ _) (by omega)

end

end TrussPy
