import Verif.Lemmas.Getters
import Verif.Spec.Results
import Verif.ExamplesRun
import Verif.Props.Run
/-!
# C83, C84: getters of results and the methods of the result handler
-/

set_option linter.unusedSectionVars false

namespace TrussPy

variable {F : Type} [Zero F] [One F] [Add F] [Sub F] [Mul F] [Div F] [Neg F] [Flt F]

/-! ## C83 -/

/-- **C83** For every result of a run: `get_U()` and `get_r()` are tables with a row of three for each node, and the calls with
`flat=True` return the same numbers row after row. -/
theorem C83_tables {argsort : List Int → List Nat} {env : Env F} {fuel : Nat} {m m1 m2 : Model F}
    (hb : m.build argsort = .ok m1) (hr : m1.run env fuel = .ok m2) :
    ∃ d res, m1.dims = some d ∧ m2.results = some res ∧ ∀ a ∈ res.R, ∀ red,
      (∃ T, a.getU false false = .table T ∧ T.length = d.nnodes ∧ (∀ row ∈ T, row.length = 3) ∧
        a.getU true red = .vec T.flatten) ∧
      ∃ T, a.getR false false = .table T ∧ T.length = d.nnodes ∧ (∀ row ∈ T, row.length = 3) ∧
        a.getR true red = .vec T.flatten := by
  obtain ⟨c, d, res, h1, h2, h3, h4, h5, h6⟩ := run_result_cases hb hr
  refine ⟨d, res, h2, h3, ?_⟩
  intro a ha red
  have hf := (h6 a ha).fits
  have hU : a.U.length = 3 * d.nnodes := by rw [hf.U, h4]
  have hn : a.U.length / 3 = d.nnodes := by omega
  refine ⟨⟨tableRows d.nnodes a.U, ?_, by simp [tableRows], tableRows_width hU, ?_⟩,
    ⟨a.r.map fun v => [v 0, v 1, v 2], rfl, by rw [List.length_map, hf.r, h4], ?_, rfl⟩⟩
  · simp [Analysis.getU, hn]
  · rw [tableRows_flatten _ _ hU]; rfl
  · intro row hrow
    obtain ⟨v, -, rfl⟩ := List.mem_map.1 hrow
    rfl

/-- **C83** For every result of a run which the predictor did not end, and for the undeformed one: `get_U(red=True)` are the
entries of `get_U(flat=True)` at the free degrees of freedom, all others are zero. -/
theorem C83_reduced_displacements {argsort : List Int → List Nat} {env : Env F} {fuel : Nat} {m m1 m2 : Model F}
    (hb : m.build argsort = .ok m1) (hr : m1.run env fuel = .ok m2) (hn : 0 < m1.settings.nsteps) :
    ∃ c d res r0 outs, m1.ctx = some c ∧ m1.dims = some d ∧ m2.results = some res ∧ RunCalls env fuel m1 c outs ∧
      res.R = r0 :: (recorded outs).map (·.a) ∧
      ∀ a ∈ r0 :: ((recorded outs).filter (·.out != .predictor)).map (·.a),
        ∃ v w, a.getU true false = .vec v ∧ a.getU false true = .vec w ∧ ReducedTo v d.dof1 w := by
  obtain ⟨c, d, r0, outs, h1, h2, h3, h4, h5, h6, h7, h8, h9, h10, res, h11, h12⟩ := run_summary hb hr
  have e : res.R = r0 :: (recorded outs).map (·.a) := by
    rcases h12 with ⟨e, -⟩ | ⟨-, e⟩
    · omega
    · exact e
  refine ⟨c, d, res, r0, outs, h1, h2, h11, h9, e, ?_⟩
  intro a ha
  refine ⟨a.U, a.Ured, rfl, rfl, ?_⟩
  have key : ∀ a : Analysis F, Inv d c a → npTake a.U a.DOF1 = .ok a.Ured → ReducedTo a.U d.dof1 a.Ured := by
    intro a hI ht
    rw [hI.dof1] at ht
    obtain ⟨t1, t2⟩ := (npTake_eq_ok_iff _ _ _).1 ht
    refine ⟨t1, ?_, ?_⟩
    · intro k i hk
      obtain ⟨t3, t4⟩ := t2 k (List.getElem?_eq_some_iff.1 hk).1
      rw [hk] at t3
      have t3 : a.Ured[k]? = a.U[i]? := t3
      exact ⟨t3.symm, fun e => t4 (t3.trans e)⟩
    · intro i hi hni
      exact hI.U i (by rw [hI.fits.U, h3] at hi; exact hi) hni
  rcases List.mem_cons.1 ha with rfl | ha
  · refine key _ h7 ?_
    rw [h7.dof1, h6.U, h6.Ured, npTake_eq_ok_iff]
    refine ⟨by simp, ?_⟩
    intro k hk
    have hlt : d.dof1[k] < 3 * d.nnodes := by
      have := h7.fits.dof d.dof1[k] (by rw [h7.dof1]; exact List.getElem_mem hk)
      omega
    simp [hk, hlt]
  · obtain ⟨r, hr, rfl⟩ := List.mem_map.1 ha
    obtain ⟨hr, ho⟩ := List.mem_filter.1 hr
    obtain ⟨k, hk⟩ := List.getElem?_of_mem hr
    have hl : k < (r0 :: (recorded outs).map (·.a)).length := by
      have := (List.getElem?_eq_some_iff.1 hk).1
      simp; omega
    have hI := h8 k _ r (List.getElem?_eq_getElem hl) hk
    exact key _ hI.next (hI.solved h4 (by simpa using ho)).1.reduced

/-- **C83** For every result of a run `get_r(red=True)` is a vector of zeros, whatever the internal forces are. -/
theorem C83_reduced_forces_never_set {argsort : List Int → List Nat} {env : Env F} {fuel : Nat} {m m1 m2 : Model F}
    (hb : m.build argsort = .ok m1) (hr : m1.run env fuel = .ok m2) :
    ∃ d res, m1.dims = some d ∧ m2.results = some res ∧ ∀ a ∈ res.R,
      a.getR false true = .vec (List.replicate d.dof1.length 0) := by
  obtain ⟨c, d, ft, r0, outs, a1, R, le, h1, h2, h3, h4, h5, h6, h7, h8, h9, h10, h11, h12⟩ := build_run hb hr
  have hall := h11.rred
  have h0 : r0.rred = List.replicate d.dof1.length 0 := h8.rred.symm
  have hrec : ∀ a ∈ (recorded outs).map (·.a), a.rred = List.replicate d.dof1.length 0 :=
    fun a ha => hall a (List.mem_cons_of_mem _ ha)
  rcases h12 with ⟨e1, e2⟩ | ⟨e1, e2, e3⟩
  · refine ⟨d, _, h2, e2, ?_⟩
    have : outs = [] := List.eq_nil_of_length_eq_zero (h10.trans e1)
    subst this
    have hR : R = [r0, r0] := by
      generalize hx : ([] : List (PFOut F)) = o' at h11
      generalize hy : (⟨R, le⟩ : Results F) = o'' at h11
      cases h11 with
      | nil => cases hy; rfl
      | snoc => simp at hx
    intro a ha
    simp only [hR] at ha
    show Got.vec a.rred = _
    rcases List.mem_cons.1 ha with rfl | ha
    · rw [h0]
    · rw [List.mem_singleton.1 ha, h0]
  · refine ⟨d, _, h2, e2, ?_⟩
    intro a ha
    simp only [e3] at ha
    show Got.vec a.rred = _
    rcases List.mem_cons.1 ha with rfl | ha
    · rw [h0]
    · rw [hrec a ha]

/-- The bar of the examples: internal force 1/4 at the free node, reduced displacements as in the table, reduced forces zero. -/
example : showR (fun a => (a.getU false false, a.getU true false, a.getU false true)) (buildRun 1 (exBarModel 1 [1])) =
    .ok [(.table [[0, 0, 0], [0, 0, 0]], .vec [0, 0, 0, 0, 0, 0], .vec [0]),
      (.table [[0, 0, 0], [1 / 4, 0, 0]], .vec [0, 0, 0, 1 / 4, 0, 0], .vec [1 / 4]),
      (.table [[0, 0, 0], [1 / 2, 0, 0]], .vec [0, 0, 0, 1 / 2, 0, 0], .vec [1 / 2]),
      (.table [[0, 0, 0], [1, 0, 0]], .vec [0, 0, 0, 1, 0, 0], .vec [1])] := by decide +kernel

/-- Same bar: the free component of the internal force is 1/4, 1/2, 1 in the flat vector, the reduced vector says 0. -/
theorem C83_reduced_forces_counterexample :
    showR (fun a => (a.getR true false, a.getR false true)) (buildRun 1 (exBarModel 1 [1])) =
    .ok [(.vec [0, 0, 0, 0, 0, 0], .vec [0]), (.vec [-1 / 4, 0, 0, 1 / 4, 0, 0], .vec [0]),
      (.vec [-1 / 2, 0, 0, 1 / 2, 0, 0], .vec [0]), (.vec [-1, 0, 0, 1, 0, 0], .vec [0])] := by decide +kernel

/-- A result ended by the predictor: the reduced vector is not the free part of the table. -/
theorem C83_predictor_counterexample :
    showR (fun a => (a.getU true false, a.getU false true)) (buildRun 1
      { exBarModel 1 [1] with settings := { (exBarModel 1 [1]).settings with
          nsteps := 1, incs := .const 1, xtol := -4, ftol := -4 } }) =
    .ok [(.vec [0, 0, 0, 0, 0, 0], .vec [0]), (.vec [0, 0, 0, 1 / 4, 0, 0], .vec [0])] := by decide +kernel

/-! ## C84 -/

/-- **C84** A sequence of changes of the result list succeeds if and only if the list is never empty when a change is made;
otherwise it ends with `IndexError`. -/
theorem C84_when {R : List (Analysis F)} {ops : List ResOp} :
    ((∃ R', resOps R ops = .ok R') ↔ ∀ done op rest, ops = done ++ op :: rest → 0 < (R.length : Int) + netChange done) ∧
    ∀ e, resOps R ops = .error e → e = .indexError := by
  induction ops generalizing R with
  | nil =>
    refine ⟨⟨fun _ d op r h => absurd h.symm (by simp), fun _ => ⟨R, rfl⟩⟩, ?_⟩
    intro e h
    cases h
  | cons op ops ih =>
    by_cases hR : R = []
    · subst hR
      have : resOps ([] : List (Analysis F)) (op :: ops) = .error .indexError := by
        rw [resOps_cons, resOp_empty]; rfl
      refine ⟨⟨fun ⟨R', h⟩ => ?_, fun h => ?_⟩, fun e h => ?_⟩
      · rw [this] at h; cases h
      · have := h [] op ops rfl
        simp [netChange] at this
      · rw [this] at h; cases h; rfl
    · obtain ⟨R', hR'⟩ := resOp_total op hR
      have he : resOps R (op :: ops) = resOps R' ops := by rw [resOps_cons, hR']; rfl
      obtain ⟨hl, hpos⟩ := resOp_length hR'
      rw [he]
      obtain ⟨h1, h2⟩ := ih (R := R')
      refine ⟨h1.trans ⟨fun h done op' rest hd => ?_, fun h done op' rest hd => ?_⟩, h2⟩
      · cases done with
        | nil => simp [netChange]; exact hpos
        | cons o done =>
          simp only [List.cons_append, List.cons.injEq] at hd
          obtain ⟨rfl, hd⟩ := hd
          have := h done op' rest hd
          simp only [netChange, List.map_cons, List.sum_cons] at *
          omega
      · have := h (op :: done) op' rest (by rw [hd]; rfl)
        simp only [netChange, List.map_cons, List.sum_cons] at *
        omega

/-- **C84** After any sequence of changes every result is one that was there before, the first one is the first one, and the
number of results is what copies and removals say. -/
theorem C84_content {R R' : List (Analysis F)} {ops : List ResOp} (h : resOps R ops = .ok R') :
    (∀ a ∈ R', a ∈ R) ∧ (R' ≠ [] → R'.head? = R.head?) ∧ (R'.length : Int) = R.length + netChange ops := by
  induction ops generalizing R with
  | nil => cases h; exact ⟨fun _ h => h, fun _ => rfl, by simp [netChange]⟩
  | cons op ops ih =>
    rw [resOps_cons] at h
    obtain ⟨R1, h1, h⟩ := py_bind_eq_ok.1 h
    obtain ⟨i1, i2, i3⟩ := ih h
    obtain ⟨hl, -⟩ := resOp_length h1
    obtain ⟨a, t, i, e1, e2, e3⟩ := resOp_ok h1
    have hlast : R.getLastD a ∈ R := by
      have h5 : R.getLastD a ∈ i ++ [R.getLastD a] := List.mem_append_right _ (List.mem_singleton.2 rfl)
      rwa [← e2] at h5
    have hin : ∀ x ∈ R1, x ∈ R := by
      intro x hx
      rw [e3] at hx
      cases op with
      | copy =>
        rcases List.mem_append.1 hx with hx | hx
        · exact hx
        · rw [List.mem_singleton.1 hx]; exact hlast
      | removeLast => rw [e2]; exact List.mem_append_left _ hx
      | dupFirst =>
        rcases List.mem_cons.1 hx with rfl | hx
        · rw [e1]; exact List.mem_cons_self ..
        · exact hx
    have hhead : R1 ≠ [] → R1.head? = R.head? := by
      intro hne
      rw [e3] at hne ⊢
      cases op with
      | copy => rw [e1]; rfl
      | removeLast =>
        rw [e2]
        cases i with
        | nil => exact absurd rfl hne
        | cons b i => rfl
      | dupFirst => rw [e1]; rfl
    refine ⟨fun x hx => hin x (i1 x hx), fun hne => ?_, ?_⟩
    · have : R1 ≠ [] := by
        intro h0
        rw [h0] at h i1
        cases R' with
        | nil => exact hne rfl
        | cons b _ => exact absurd (i1 b (List.mem_cons_self ..)) (by simp)
      exact (i2 hne).trans (hhead this)
    · rw [i3, hl]
      simp only [netChange, List.map_cons, List.sum_cons]
      omega

/-- **C84** Removing the last result undoes a copy; after `duplicate_first_increment` `get_result` finds every result one
position later. -/
theorem C84_inverse {R : List (Analysis F)} (h : R ≠ []) :
    resOps R [.copy, .removeLast] = .ok R ∧
    (∃ R', resOp R .dupFirst = .ok R' ∧ getResult R' 0 = getResult R 0 ∧
      ∀ i : Nat, getResult R' (i + 1) = getResult R i) ∧
    ∃ R', resOp R .copy = .ok R' ∧ getResult R' (-1) = getResult R (-1) ∧ ∀ i : Nat, i < R.length → getResult R' i = getResult R i := by
  cases R with
  | nil => exact absurd rfl h
  | cons a t =>
    have hl : (a :: t).getLast? = some ((a :: t).getLast h) := List.getLast?_eq_getLast_of_ne_nil h
    refine ⟨?_, ⟨a :: a :: t, rfl, rfl, ?_⟩, ⟨(a :: t) ++ [(a :: t).getLast h], ?_, ?_, ?_⟩⟩
    · have : resOp (a :: t ++ [(a :: t).getLast h]) .removeLast = .ok (a :: t) := by
        simp only [resOp, List.getLast?_concat, List.dropLast_concat]
      rw [resOps_cons]
      simp only [resOp, hl, Except.bind, resOps_cons] at this ⊢
      rw [this]
      rfl
    · intro i
      unfold getResult
      rw [show ((i : Int) + 1) = ((i + 1 : Nat) : Int) from by omega, pyGet_natCast, pyGet_natCast]
      rfl
    · simp only [resOp, hl]
    · have h1 : getResult (a :: t ++ [(a :: t).getLast h]) (-1) = .ok ((a :: t).getLast h) := by
        unfold getResult
        rw [pyGet_neg (by omega) (by simp; omega)]
        simp
      have h2 : getResult (a :: t) (-1) = .ok ((a :: t).getLast h) := by
        unfold getResult
        rw [pyGet_neg (by omega) (by simp)]
        rw [← hl, List.getLast?_eq_getElem?]
        congr 1
        simp
      rw [h1, h2]
    · intro i hi
      unfold getResult
      rw [pyGet_natCast, pyGet_natCast, List.getElem?_append_left hi]

/-- Build and run of the bar example, then changes of its results (shown by their load factors). -/
example : ((buildRun 1 (exBarModel 1 [1])).bind fun m => match m.results with
      | none => .error .attributeError
      | some res => (resOps res.R [.removeLast, .dupFirst, .copy]).bind fun R => (getResult R (-1)).bind fun a =>
          .ok (R.map (·.lpf), a.lpf)) =
    .ok ([some 0, some 0, some (1 / 4), some (1 / 2), some (1 / 2)], some (1 / 2)) := by decide +kernel

/-- On a single result two removals fail. -/
example : (resOps [(Analysis.fresh 1 1 [] [0, 1, 2] 0 : Analysis ℚ)] [.removeLast, .removeLast]).map List.length =
    .error .indexError := by decide +kernel

end TrussPy
