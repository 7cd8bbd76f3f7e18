import Verif.Props.DrawLimits
/-!
# C76, C77: colours of the elements, axis of a path
-/

set_option linter.unusedSectionVars false

namespace TrussPy

variable {F : Type} [Zero F] [One F] [Add F] [Sub F] [Mul F] [Div F] [Neg F] [Flt F]

/-! ## C76 -/

/-- What a returning `plot_model` has painted. -/
theorem drawn_paints {auto : List (Cmd F) → (F × F) × (F × F)} {m : Model F} {view : PlotView} {contour : ContourArg F}
    {lim : LimScale F} {scale : F} {cbar : CbarArg F} {inc : Int} {cmds : List (Cmd F)}
    (hh : drawModel auto m view contour lim scale cbar inc = .ok cmds) :
    ∃ d res r con, pModel m none inc = .ok d ∧ m.results = some res ∧
      pyGet res.R (if inc < 0 then (res.R.length : Int) + inc else inc) = .ok r ∧
      chooseContour r (if inc < 0 then (res.R.length : Int) + inc else inc) contour cbar = .ok con ∧
      (barLines cmds).length = d.segments.length ∧
      (∀ (k : Nat) (c : Cmd F), (barLines cmds)[k]? = some c → ∃ p, PaintOf con k p ∧ cmdPaint c = some p) ∧
      colourBar con d.segments.length = .ok (colorBars cmds) := by
  have hview : (∃ h v, PlaneView view h v) ∨ view = .d3 ∨ view = .other := by
    cases view
    · exact .inl ⟨0, 2, .inl ⟨rfl, rfl, rfl⟩⟩
    · exact .inl ⟨0, 1, .inr (.inl ⟨rfl, rfl, rfl⟩)⟩
    · exact .inl ⟨1, 2, .inr (.inr ⟨rfl, rfl, rfl⟩)⟩
    · exact .inr (.inl rfl)
    · exact .inr (.inr rfl)
  have hB : ∀ B : List (Cmd F), (∀ c ∈ B, ∃ a b, c = .colorbar a b) → colorBars B = B := by
    intro B h
    unfold colorBars
    rw [List.filter_eq_self]
    intro c hc
    obtain ⟨a, b, rfl⟩ := h c hc
    rfl
  rcases hview with ⟨h, v, hv⟩ | rfl | rfl
  · obtain ⟨d, res, r, con, A, L, B, Z, pts, h1, h2, h3, h4, rfl, h6, h7, h8, h9, h10, h11, h12, h13, h14, h15, ax, h16⟩ :=
      plane_parts hv hh
    obtain ⟨c1, c2, n1, n2, n3⟩ := axisNames_plane (F := F) hv
    have hL : ∀ p : Cmd F → Bool, (Cmd.figure :: (A ++ [Cmd.marks2 pts] ++ L ++ B) ++ Z ++ axisNames view).filter p =
        [Cmd.figure].filter p ++ (A.filter p ++ [Cmd.marks2 pts].filter p ++ L.filter p ++ B.filter p) ++ Z.filter p ++
          [Cmd.axisNames2 c1 c2].filter p := by
      intro p
      rw [n3, show Cmd.figure :: (A ++ [Cmd.marks2 pts] ++ L ++ B) = [Cmd.figure] ++ (A ++ [Cmd.marks2 pts] ++ L ++ B) from rfl]
      simp only [List.filter_append]
    have hbar : barLines (Cmd.figure :: (A ++ [Cmd.marks2 pts] ++ L ++ B) ++ Z ++ axisNames view) = barLines L := by
      unfold barLines
      rw [hL, limits_filter h14, bars_filter h12, force2_filter h6]
      · simp
      all_goals (intros; rfl)
    have hcol : colorBars (Cmd.figure :: (A ++ [Cmd.marks2 pts] ++ L ++ B) ++ Z ++ axisNames view) = B := by
      refine Eq.trans ?_ (hB B h12)
      unfold colorBars
      rw [hL, limits_filter h14, lines_filter h9, force2_filter h6]
      · simp
      all_goals (intros; rfl)
    refine ⟨d, res, r, con, h1, h2, h3, h4, by rw [hbar, h10], ?_, by rw [hcol, h13]⟩
    intro k c hc
    rw [hbar] at hc
    obtain ⟨s, hs⟩ : ∃ s, d.segments[k]? = some s := by
      have := (List.getElem?_eq_some_iff.1 hc).1
      rw [h10] at this
      exact ⟨_, List.getElem?_eq_getElem this⟩
    obtain ⟨cmd, p, k1, k2, x0, x1, y0, y1, rfl, -⟩ := h11 k s hs
    rw [hc] at k1; cases k1
    exact ⟨p, k2, rfl⟩
  · obtain ⟨d, res, r, con, A, L, B, Z, pts, h1, h2, h3, h4, rfl, h6, h7, h8, h9, h10, h11, h12, h13, h14, h15, -⟩ :=
      space_parts hh
    have n3 : (axisNames .d3 : List (Cmd F)) = [.axisNames3 'x' 'y' 'z'] := rfl
    have hL : ∀ p : Cmd F → Bool, (Cmd.figure :: .axes3 :: (A ++ [Cmd.marks3 pts] ++ L ++ B) ++ Z ++ axisNames .d3).filter p =
        [Cmd.figure, .axes3].filter p ++ (A.filter p ++ [Cmd.marks3 pts].filter p ++ L.filter p ++ B.filter p) ++ Z.filter p ++
          [Cmd.axisNames3 'x' 'y' 'z'].filter p := by
      intro p
      rw [n3, show Cmd.figure :: .axes3 :: (A ++ [Cmd.marks3 pts] ++ L ++ B) =
        [Cmd.figure, .axes3] ++ (A ++ [Cmd.marks3 pts] ++ L ++ B) from rfl]
      simp only [List.filter_append]
    have hbar : barLines (Cmd.figure :: .axes3 :: (A ++ [Cmd.marks3 pts] ++ L ++ B) ++ Z ++ axisNames .d3) = barLines L := by
      unfold barLines
      rw [hL, limits_filter h14, bars_filter h12, force3_filter h6]
      · simp
      all_goals (intros; rfl)
    have hcol : colorBars (Cmd.figure :: .axes3 :: (A ++ [Cmd.marks3 pts] ++ L ++ B) ++ Z ++ axisNames .d3) = B := by
      refine Eq.trans ?_ (hB B h12)
      unfold colorBars
      rw [hL, limits_filter h14, lines_filter h9, force3_filter h6]
      · simp
      all_goals (intros; rfl)
    refine ⟨d, res, r, con, h1, h2, h3, h4, by rw [hbar, h10], ?_, by rw [hcol, h13]⟩
    intro k c hc
    rw [hbar] at hc
    obtain ⟨s, hs⟩ : ∃ s, d.segments[k]? = some s := by
      have := (List.getElem?_eq_some_iff.1 hc).1
      rw [h10] at this
      exact ⟨_, List.getElem?_eq_getElem this⟩
    obtain ⟨cmd, p, k1, k2, x0, x1, y0, y1, z0, z1, rfl, -⟩ := h11 k s hs
    rw [hc] at k1; cases k1
    exact ⟨p, k2, rfl⟩
  · exact (C74_unknown_view hh).elim

theorem contourData_value {r : Analysis F} {q : Contour} {k : Nat} {v : F} (h : (contourData r q)[k]? = some v) :
    ContourValue r q k v := by
  cases q
  · exact .stretch h
  · exact .force h
  · exact .stress h

theorem colourBar_some {vals : List F} {lims : Option (F × F)} {n : Nat} {l : List (Cmd F)}
    (h : colourBar (some (vals, lims)) n = .ok l) : ∃ lo hi, lims = some (lo, hi) ∧ l = [.colorbar lo hi] := by
  unfold colourBar at h
  simp only at h
  split at h
  · cases h
  · split at h
    · cases h
    · next lo hi => cases h; exact ⟨lo, hi, rfl, rfl⟩

/-- The data of a plot with contour. -/
theorem pModel_contour {m : Model F} {inc : Int} {d : PlotData F} {res : Results F} {r : Analysis F} {q : Contour} {lim : F × F}
    (h : pModel m none inc = .ok d) (hr : m.results = some res)
    (hg : pyGet res.R (if inc < 0 then (res.R.length : Int) + inc else inc) = .ok r)
    (h0 : (if inc < 0 then (res.R.length : Int) + inc else inc) ≠ 0) (hl : contourLimits r q = .ok lim) :
    pModel m (some q) inc = .ok { d with contour := some (contourData r q, lim.1, lim.2) } := by
  unfold pModel at h ⊢
  split at h
  case h_2 => cases h
  next nt et ft res' h1 h2 h3 h4 =>
  rw [hr] at h4; cases h4
  simp only [hg, py_bind_ok] at h ⊢
  obtain ⟨⟨lpf, c0⟩, h6, h⟩ := py_bind_eq_ok.1 h
  unfold plotFactor at h6
  rw [if_neg h0] at h6
  split at h6
  · cases h6
  next l hlpf =>
  cases h6
  simp only [plotContour, py_bind_ok] at h
  split at h
  · cases h
  next ef h8 =>
  obtain ⟨loads, h9, h⟩ := py_bind_eq_ok.1 h
  obtain ⟨segs, h10, h⟩ := py_bind_eq_ok.1 h
  cases h
  simp only [plotFactor, if_neg h0, hlpf, py_bind_ok, plotContour, hl, h9, h10, py_pure]

/-- **C76** With a contour quantity and automatic limits, `plot_model` of an increment other than the undeformed state paints
element number `k` by the value of the quantity in row `k` of the chosen result, and the colour bar has the limits of C57. -/
theorem C76_automatic_colours {auto : List (Cmd F) → (F × F) × (F × F)} {m : Model F} {view : PlotView} {q : Contour}
    {lim : LimScale F} {scale : F} {inc : Int} {cmds : List (Cmd F)}
    (hh : drawModel auto m view (.name q) lim scale .auto inc = .ok cmds) {res : Results F} (hres : m.results = some res)
    {k : Nat} (hk : NamesResult res.R.length inc k) (hk0 : k ≠ 0) :
    ∃ d r vals lo hi, pModel m (some q) inc = .ok d ∧ d.contour = some (vals, lo, hi) ∧ res.R[k]? = some r ∧
      colorBars cmds = [.colorbar lo hi] ∧ (barLines cmds).length = d.segments.length ∧
      ∀ (n : Nat) (c : Cmd F), (barLines cmds)[n]? = some c → ∃ v, ContourValue r q n v ∧ cmdPaint c = some (.shade v) := by
  obtain ⟨d, res', r, con, h1, h2, h3, h4, h5, h6, h7⟩ := drawn_paints hh
  rw [hres] at h2; cases h2
  have h0 : (if inc < 0 then (res.R.length : Int) + inc else inc) ≠ 0 := by rw [names_inc hk]; omega
  unfold chooseContour at h4
  rw [if_neg h0] at h4
  obtain ⟨l, hl, h4⟩ := py_bind_eq_ok.1 h4
  cases h4
  obtain ⟨lo, hi, e1, e2⟩ := colourBar_some h7
  cases e1
  refine ⟨_, r, _, lo, hi, pModel_contour h1 hres h3 h0 hl, rfl, ?_, e2, h5, ?_⟩
  · rw [names_inc hk, pyGet_ok_nat] at h3
    exact h3
  · intro n c hc
    obtain ⟨p, p1, p2⟩ := h6 n c hc
    rcases p1 with ⟨p1, -⟩ | ⟨vals, lims, v, p1, p3, rfl⟩
    · cases p1
    · cases p1
      exact ⟨v, contourData_value p3, p2⟩

/-- **C76** Limits given by `cbar_limits` are used unchanged, for the same values. -/
theorem C76_given_colour_limits {auto : List (Cmd F) → (F × F) × (F × F)} {m : Model F} {view : PlotView} {q : Contour}
    {lim : LimScale F} {scale lo hi : F} {inc : Int} {cmds : List (Cmd F)}
    (hh : drawModel auto m view (.name q) lim scale (.given (some (lo, hi))) inc = .ok cmds) {res : Results F}
    (hres : m.results = some res) {k : Nat} (hk : NamesResult res.R.length inc k) (hk0 : k ≠ 0) :
    ∃ r, res.R[k]? = some r ∧ colorBars cmds = [.colorbar lo hi] ∧
      ∀ (n : Nat) (c : Cmd F), (barLines cmds)[n]? = some c → ∃ v, ContourValue r q n v ∧ cmdPaint c = some (.shade v) := by
  obtain ⟨d, res', r, con, h1, h2, h3, h4, h5, h6, h7⟩ := drawn_paints hh
  rw [hres] at h2; cases h2
  have h0 : (if inc < 0 then (res.R.length : Int) + inc else inc) ≠ 0 := by rw [names_inc hk]; omega
  unfold chooseContour at h4
  rw [if_neg h0] at h4
  cases h4
  obtain ⟨lo', hi', e1, e2⟩ := colourBar_some h7
  cases e1
  refine ⟨r, ?_, e2, ?_⟩
  · rw [names_inc hk, pyGet_ok_nat] at h3
    exact h3
  · intro n c hc
    obtain ⟨p, p1, p2⟩ := h6 n c hc
    rcases p1 with ⟨p1, -⟩ | ⟨vals, lims, v, p1, p3, rfl⟩
    · cases p1
    · cases p1
      exact ⟨v, contourData_value p3, p2⟩

/-- **C76** A tuple of quantity and limits is the same as the quantity with these limits as `cbar_limits`. -/
theorem C76_contour_tuple (auto : List (Cmd F) → (F × F) × (F × F)) (m : Model F) (view : PlotView) (q : Contour)
    (lim : LimScale F) (scale : F) (lims : Option (F × F)) (cbar : CbarArg F) (inc : Int) :
    drawModel auto m view (.pair (some q) lims) lim scale cbar inc = drawModel auto m view (.name q) lim scale (.given lims) inc := by
  rfl

/-- **C76** Without contour quantity, with an unknown name and for the undeformed state the elements are grey and there is no
colour bar. -/
theorem C76_no_colours {auto : List (Cmd F) → (F × F) × (F × F)} {m : Model F} {view : PlotView} {contour : ContourArg F}
    {lim : LimScale F} {scale : F} {cbar : CbarArg F} {inc : Int} {cmds : List (Cmd F)}
    (hh : drawModel auto m view contour lim scale cbar inc = .ok cmds) {res : Results F} (hres : m.results = some res)
    (hc : contour = .none ∨ contour = .unknown ∨ NamesResult res.R.length inc 0) :
    colorBars cmds = [] ∧ ∀ c ∈ barLines cmds, cmdPaint c = some .plain := by
  obtain ⟨d, res', r, con, h1, h2, h3, h4, h5, h6, h7⟩ := drawn_paints hh
  rw [hres] at h2; cases h2
  have hcon : con = none := by
    unfold chooseContour at h4
    by_cases h0 : (if inc < 0 then (res.R.length : Int) + inc else inc) = 0
    · rw [if_pos h0] at h4; cases h4; rfl
    · rw [if_neg h0] at h4
      rcases hc with rfl | rfl | hc
      · cases h4; rfl
      · cases h4; rfl
      · exact absurd (names_inc hc) h0
  subst hcon
  refine ⟨?_, ?_⟩
  · unfold colourBar at h7
    exact (Except.ok.inj h7).symm
  · intro c hc
    obtain ⟨n, hn⟩ := List.getElem?_of_mem hc
    obtain ⟨p, p1, p2⟩ := h6 n c hn
    rcases p1 with ⟨-, rfl⟩ | ⟨_, _, _, p1, -⟩
    · exact p2
    · cases p1

/-- **C76** (limitation) `cbar_limits=None` never gives a picture of a deformed state with contour, although `plot_elems` has a
branch for it: the colour bar asks for `None[0]`. -/
theorem C76_no_limits_raises {auto : List (Cmd F) → (F × F) × (F × F)} {m : Model F} {view : PlotView} {q : Contour}
    {lim : LimScale F} {scale : F} {inc : Int} {cmds : List (Cmd F)} {res : Results F} (hres : m.results = some res)
    {k : Nat} (hk : NamesResult res.R.length inc k) (hk0 : k ≠ 0) :
    drawModel auto m view (.name q) lim scale (.given none) inc ≠ .ok cmds := by
  intro hh
  obtain ⟨d, res', r, con, h1, h2, h3, h4, h5, h6, h7⟩ := drawn_paints hh
  rw [hres] at h2; cases h2
  have h0 : (if inc < 0 then (res.R.length : Int) + inc else inc) ≠ 0 := by rw [names_inc hk]; omega
  unfold chooseContour at h4
  rw [if_neg h0] at h4
  cases h4
  obtain ⟨lo', hi', e1, -⟩ := colourBar_some h7
  cases e1

/-- Increment 2 of the example (stretch 3/2), automatic limits, given limits, limits `None`. -/
example : (showDraw .xz (.name .stretch) (.scalar 1) 1 .auto 2 (buildRun 1 (exBarModel 1 [1]))).map
      (fun l => (colorBars l, barLines l)) =
      .ok ([.colorbar (1 / 2) (3 / 2)], [.line2 0 (3 / 2) 0 0 (.shade (3 / 2))]) ∧
    (showDraw .xz (.name .force) (.scalar 1) 1 (.given (some (-4, 4))) 2 (buildRun 1 (exBarModel 1 [1]))).map
      (fun l => (colorBars l, barLines l)) =
      .ok ([.colorbar (-4) 4], [.line2 0 (3 / 2) 0 0 (.shade (1 / 2))]) ∧
    showDraw .xz (.name .force) (.scalar 1) 1 (.given none) 2 (buildRun 1 (exBarModel 1 [1])) = .error .typeError ∧
    (showDraw .xz (.name .force) (.scalar 1) 1 .auto 0 (buildRun 1 (exBarModel 1 [1]))).map
      (fun l => (colorBars l, barLines l)) = .ok ([], [.line2 0 1 0 0 .plain]) := by
  decide +kernel

/-! ## C77 -/

theorem rangeUp_spec (b : Int) : ∀ (n : Nat) (a : Int), (n : Int) = b - a → 
    rangeUp b 1 n a = (List.range n).map fun (k : Nat) => a + (k : Int) := by
  intro n
  induction n with
  | zero => intro a _; rfl
  | succ n ih =>
    intro a h
    rw [rangeUp, if_pos (by omega), ih (a + 1) (by omega), List.range_succ_eq_map, List.map_cons, List.map_map]
    congr 1
    · simp
    · apply List.map_congr_left
      intro k _
      simp only [Function.comp, Nat.succ_eq_add_one]
      omega

theorem rangeUp_neg (b : Int) : ∀ (n : Nat) (a : Int), b ≤ a → rangeUp b 1 n a = [] := by
  intro n a h
  cases n with
  | zero => rfl
  | succ n => rw [rangeUp, if_neg (by omega)]

/-- Consecutive labels are ascending. -/
theorem range_pairwise (a b : Int) : (NodePath.range a b 1).labels.Pairwise (· < ·) := by
  unfold NodePath.labels
  simp only
  rw [if_pos (by decide)]
  by_cases h : a ≤ b
  · rw [rangeUp_spec b _ a (by omega), List.pairwise_map]
    refine List.Pairwise.imp ?_ List.pairwise_lt_range
    intro x y hxy
    omega
  · rw [rangeUp_neg _ _ _ (by omega)]
    exact List.Pairwise.nil

theorem pathAxis_ok {x : NodePath} {xs : List Int} {ticks : List (Int × Int)} (h : pathAxis x = .ok (xs, ticks)) :
    x.labels ≠ [] ∧ (xs = x.labels ∧ (∃ a b, x.labels = (NodePath.range a b 1).labels) ∧ (∀ t ∈ ticks, t.2 = t.1) ∨
      xs = (List.range x.labels.length).map Int.ofNat ∧ ticks = x.labels.zipIdx.map fun p => ((p.2 : Int), p.1)) := by
  unfold pathAxis at h
  obtain ⟨⟨lo, hi⟩, e1, h⟩ := py_bind_eq_ok.1 h
  refine ⟨?_, ?_⟩
  · intro h0
    rw [h0] at e1
    cases e1
  · cases x with
    | list l => cases h; exact .inr ⟨rfl, rfl⟩
    | range a b d =>
      simp only at h
      split at h
      · next he =>
        cases h
        refine .inl ⟨rfl, ⟨_, _, he⟩, ?_⟩
        intro t ht
        obtain ⟨_, -, rfl⟩ := List.mem_map.1 ht
        rfl
      · cases h; exact .inr ⟨rfl, rfl⟩

/-- **C77** `plot_path` draws the nodes of the path from left to right in the given order, at different abscissae, and a tick at
the abscissa of a node bears the label of that node, whether the path is a list or a range, ascending or not. -/
theorem C77_path_axis {x : NodePath} {xs : List Int} {ticks : List (Int × Int)} (h : pathAxis x = .ok (xs, ticks)) :
    xs.length = x.labels.length ∧ xs.Pairwise (· < ·) ∧
      ∀ (k : Nat) (a l t : Int), xs[k]? = some a → x.labels[k]? = some l → (a, t) ∈ ticks → t = l := by
  rcases (pathAxis_ok h).2 with ⟨rfl, ⟨a, b, e⟩, ht⟩ | ⟨rfl, rfl⟩
  · refine ⟨rfl, by rw [e]; exact range_pairwise a b, ?_⟩
    intro k a l t h1 h2 h3
    rw [h1] at h2; cases h2
    exact ht _ h3
  · refine ⟨by simp, ?_, ?_⟩
    · rw [List.pairwise_map]
      refine List.Pairwise.imp ?_ List.pairwise_lt_range
      intro x y hxy
      exact Int.ofNat_lt.2 hxy
    · intro k a l t h1 h2 h3
      obtain ⟨p, hp, e⟩ := List.mem_map.1 h3
      obtain ⟨e1, rfl⟩ := Prod.mk.inj e
      rw [List.getElem?_map, Option.map_eq_some_iff] at h1
      obtain ⟨k', hk', rfl⟩ := h1
      obtain ⟨hk1, hk2⟩ := List.getElem?_eq_some_iff.1 hk'
      rw [List.getElem_range] at hk2
      subst hk2
      have e2 : p.2 = k := by
        have : (p.2 : Int) = (k : Int) := e1
        exact_mod_cast this
      have := List.mem_zipIdx hp
      obtain ⟨-, -, hx⟩ := this
      rw [hx]
      have h2' := (List.getElem?_eq_some_iff.1 h2).2
      simpa [e2] using h2'

/-- Labels of an ascending range without gaps. -/
theorem labels_unit {a b : Int} (h : a < b) :
    (NodePath.range a b 1).labels = (List.range (b - a).toNat).map fun (k : Nat) => a + (k : Int) := by
  unfold NodePath.labels
  simp only
  rw [if_pos (by decide), rangeUp_spec b _ a (by omega)]

private theorem foldl_min_le (l : List Int) : ∀ a : Int, (∀ x ∈ l, a ≤ x) → l.foldl min a = a := by
  induction l with
  | nil => intro a _; rfl
  | cons x l ih =>
    intro a h
    rw [List.foldl_cons, min_eq_left (h x (List.mem_cons_self ..))]
    exact ih a fun y hy => h y (List.mem_cons_of_mem _ hy)

private theorem foldl_max_mem (l : List Int) : ∀ a m : Int, a ≤ m → (∀ x ∈ l, x ≤ m) → (m = a ∨ m ∈ l) → l.foldl max a = m := by
  induction l with
  | nil => intro a m _ _ h; rcases h with h | h; exact h.symm; cases h
  | cons x l ih =>
    intro a m h1 h2 h3
    rw [List.foldl_cons]
    have hx := h2 x (List.mem_cons_self ..)
    refine ih _ m (max_le h1 hx) (fun y hy => h2 y (List.mem_cons_of_mem _ hy)) ?_
    rcases h3 with h3 | h3
    · exact .inl (le_antisymm (h3.trans_le (le_max_left _ _)) (max_le h1 hx))
    · rcases List.mem_cons.1 h3 with h3 | h3
      · exact .inl (le_antisymm (h3.trans_le (le_max_right _ _)) (max_le h1 hx))
      · exact .inr h3

/-- **C77** For a range of consecutive labels `a`, ..., `b - 1` the abscissae are the labels and there are eleven ticks, bearing
their positions: the points that divide the span from the first to the last label into ten equal parts, rounded down. -/
theorem C77_range_ticks {a b : Int} (h : a < b) :
    ∃ ticks, pathAxis (.range a b 1) = .ok ((List.range (b - a).toNat).map (fun (k : Nat) => a + (k : Int)), ticks) ∧
      ticks.length = 11 ∧ ∀ k : Nat, k ≤ 10 → ∃ t, ticks[k]? = some (t, t) ∧
        10 * t ≤ 10 * a + (b - 1 - a) * k ∧ 10 * a + (b - 1 - a) * k < 10 * t + 10 := by
  have hm : minMax (NodePath.range a b 1).labels = .ok (a, b - 1) := by
    rw [labels_unit h]
    obtain ⟨n, hn⟩ : ∃ n, (b - a).toNat = n + 1 := ⟨(b - a).toNat - 1, by omega⟩
    rw [hn, List.range_succ_eq_map, List.map_cons, List.map_map]
    unfold minMax
    simp only [Nat.cast_zero, add_zero]
    have hle : ∀ x ∈ List.map ((fun (k : Nat) => a + (k : Int)) ∘ Nat.succ) (List.range n), a ≤ x ∧ x ≤ b - 1 := by
      intro x hx
      obtain ⟨k, hk, rfl⟩ := List.mem_map.1 hx
      rw [List.mem_range] at hk
      simp only [Function.comp, Nat.succ_eq_add_one]
      constructor <;> push_cast <;> omega
    rw [foldl_min_le _ _ fun x hx => (hle x hx).1,
      foldl_max_mem _ _ (b - 1) (by omega) (fun x hx => (hle x hx).2) ?_]
    by_cases h0 : n = 0
    · exact .inl (by omega)
    · refine .inr (List.mem_map.2 ⟨n - 1, List.mem_range.2 (by omega), ?_⟩)
      simp only [Function.comp, Nat.succ_eq_add_one]
      push_cast
      omega
  unfold pathAxis
  rw [hm]
  simp only [bind, Except.bind]
  rw [show b - 1 + 1 = b by omega, if_pos rfl]
  refine ⟨_, by rw [labels_unit h]; rfl, by simp [intTicks], ?_⟩
  intro k hk
  refine ⟨a + (b - 1 - a) * (k : Int) / 10, ?_, by omega, by omega⟩
  simp only [intTicks, List.map_map, List.getElem?_map]
  rw [List.getElem?_range (by omega)]
  rfl

/-- **C77** The first tick is at the first label, the last tick at the last one. -/
theorem C77_end_ticks {a b : Int} (h : a < b) {xs : List Int} {ticks : List (Int × Int)}
    (hp : pathAxis (.range a b 1) = .ok (xs, ticks)) :
    ticks.head? = some (a, a) ∧ ticks.getLast? = some (b - 1, b - 1) := by
  obtain ⟨t, h1, h2, h3⟩ := C77_range_ticks h
  rw [hp] at h1
  have h1 := congrArg Prod.snd (Except.ok.inj h1)
  simp only at h1
  subst h1
  obtain ⟨u, e1, e2, e3⟩ := h3 0 (by omega)
  obtain ⟨v, f1, f2, f3⟩ := h3 10 (by omega)
  rw [List.head?_eq_getElem?, List.getLast?_eq_getElem?, h2, e1, f1]
  have : u = a := by push_cast at e2 e3; omega
  have : v = b - 1 := by push_cast at f2 f3; omega
  subst_vars
  exact ⟨rfl, rfl⟩

/-- Labels 4 to 29. -/
example : (pathAxis (.range 4 30 1)).map (fun p => (p.1.length, p.2.map (·.1))) =
    .ok (26, [4, 6, 9, 11, 14, 16, 19, 21, 24, 26, 29]) := by decide +kernel

/-- **C77** For a path given as a list every node has a tick. -/
theorem C77_list_ticks {l : List Int} {xs : List Int} {ticks : List (Int × Int)} (h : pathAxis (.list l) = .ok (xs, ticks)) :
    ∀ (k : Nat) (a n : Int), xs[k]? = some a → l[k]? = some n → (a, n) ∈ ticks := by
  unfold pathAxis at h
  obtain ⟨⟨lo, hi⟩, e1, h⟩ := py_bind_eq_ok.1 h
  cases h
  intro k a n h1 h2
  rw [List.getElem?_map, Option.map_eq_some_iff] at h1
  obtain ⟨k', hk', rfl⟩ := h1
  obtain ⟨hk1, hk2⟩ := List.getElem?_eq_some_iff.1 hk'
  rw [List.getElem_range] at hk2
  subst hk2
  refine List.mem_map.2 ⟨(n, k), ?_, rfl⟩
  exact List.mem_of_getElem? (i := k) (by
    rw [List.getElem?_zipIdx]
    have h2 : l[k]? = some n := h2
    rw [show (NodePath.list l).labels = l from rfl, h2]
    simp)

/-- **C77** For a path with a gap, a step back or a repetition, even if it is a range, every node has a tick. -/
theorem C77_gap_ticks {x : NodePath} {xs : List Int} {ticks : List (Int × Int)} (h : pathAxis x = .ok (xs, ticks))
    {i : Nat} {p q : Int} (hp : x.labels[i]? = some p) (hq : x.labels[i + 1]? = some q) (hne : q ≠ p + 1) :
    ∀ (k : Nat) (a n : Int), xs[k]? = some a → x.labels[k]? = some n → (a, n) ∈ ticks := by
  rcases (pathAxis_ok h).2 with ⟨rfl, ⟨a, b, e⟩, ht⟩ | ⟨rfl, rfl⟩
  · exfalso
    by_cases hab : a < b
    · rw [e, labels_unit hab, List.getElem?_map, Option.map_eq_some_iff] at hp hq
      obtain ⟨u, hu, rfl⟩ := hp
      obtain ⟨v, hv, rfl⟩ := hq
      obtain ⟨_, hu⟩ := List.getElem?_eq_some_iff.1 hu
      obtain ⟨_, hv⟩ := List.getElem?_eq_some_iff.1 hv
      rw [List.getElem_range] at hu hv
      subst hu hv
      apply hne
      push_cast
      omega
    · rw [e] at hp
      unfold NodePath.labels at hp
      simp only at hp
      rw [if_pos (by decide), rangeUp_neg _ _ _ (by omega)] at hp
      cases hp
  · intro k a n h1 h2
    rw [List.getElem?_map, Option.map_eq_some_iff] at h1
    obtain ⟨k', hk', rfl⟩ := h1
    obtain ⟨hk1, hk2⟩ := List.getElem?_eq_some_iff.1 hk'
    rw [List.getElem_range] at hk2
    subst hk2
    refine List.mem_map.2 ⟨(n, k), List.mem_of_getElem? (i := k) ?_, rfl⟩
    rw [List.getElem?_zipIdx, h2]
    simp

private theorem rangeUp_get {b d : Int} (hd : 0 < d) : ∀ (n : Nat) (a : Int), b - a ≤ n → ∀ (k : Nat) (x : Int),
    (rangeUp b d n a)[k]? = some x ↔ x = a + k * d ∧ x < b := by
  intro n
  induction n with
  | zero =>
    intro a h k x
    have : 0 ≤ (k : Int) * d := by positivity
    simp only [rangeUp, List.getElem?_nil]
    constructor
    · intro h; cases h
    · rintro ⟨rfl, h2⟩
      push_cast at h
      omega
  | succ n ih =>
    intro a h k x
    have hkd : 0 ≤ (k : Int) * d := by positivity
    rw [rangeUp]
    split
    · next hab =>
      cases k with
      | zero =>
        simp only [List.getElem?_cons_zero, Option.some.injEq, Nat.cast_zero, zero_mul, add_zero]
        constructor
        · rintro rfl; exact ⟨rfl, hab⟩
        · rintro ⟨rfl, _⟩; rfl
      | succ k =>
        rw [List.getElem?_cons_succ, ih (a + d) (by push_cast at h; omega)]
        have : a + d + (k : Int) * d = a + ((k + 1 : Nat) : Int) * d := by push_cast; ring
        rw [this]
    · next hab =>
      constructor
      · intro h; simp at h
      · rintro ⟨rfl, h2⟩; omega

private theorem rangeDown_get {b d : Int} (hd : d < 0) : ∀ (n : Nat) (a : Int), a - b ≤ n → ∀ (k : Nat) (x : Int),
    (rangeDown b d n a)[k]? = some x ↔ x = a + k * d ∧ b < x := by
  intro n
  induction n with
  | zero =>
    intro a h k x
    have : (k : Int) * d ≤ 0 := mul_nonpos_of_nonneg_of_nonpos (by positivity) hd.le
    simp only [rangeDown, List.getElem?_nil]
    constructor
    · intro h; cases h
    · rintro ⟨rfl, h2⟩
      push_cast at h
      omega
  | succ n ih =>
    intro a h k x
    have hkd : (k : Int) * d ≤ 0 := mul_nonpos_of_nonneg_of_nonpos (by positivity) hd.le
    rw [rangeDown]
    split
    · next hab =>
      cases k with
      | zero =>
        simp only [List.getElem?_cons_zero, Option.some.injEq, Nat.cast_zero, zero_mul, add_zero]
        constructor
        · rintro rfl; exact ⟨rfl, hab⟩
        · rintro ⟨rfl, _⟩; rfl
      | succ k =>
        rw [List.getElem?_cons_succ, ih (a + d) (by push_cast at h; omega)]
        have : a + d + (k : Int) * d = a + ((k + 1 : Nat) : Int) * d := by push_cast; ring
        rw [this]
    · next hab =>
      constructor
      · intro h; simp at h
      · rintro ⟨rfl, h2⟩; omega

/-- **C77** The path given by `range(a, b, d)` runs through `a`, `a + d`, `a + 2 d`, ... as long as `b` is not reached, upwards
or downwards. -/
theorem C77_range_labels {a b d : Int} (hd : d ≠ 0) (k : Nat) (x : Int) :
    (NodePath.range a b d).labels[k]? = some x ↔ x = a + k * d ∧ (0 < d ∧ x < b ∨ d < 0 ∧ b < x) := by
  unfold NodePath.labels
  simp only
  rcases lt_or_gt_of_ne hd with h | h
  · rw [if_neg (by omega), if_pos h, rangeDown_get h _ _ (by omega)]
    have : ¬ 0 < d := by omega
    simp [h, this]
  · rw [if_pos h, rangeUp_get h _ _ (by omega)]
    have : ¬ d < 0 := by omega
    simp [h, this]

example : (NodePath.range 9 (-2) (-4)).labels = [9, 5, 1] ∧ (NodePath.range 2 9 3).labels = [2, 5, 8] := by decide

/-- A range with gaps and a descending one. -/
example : pathAxis (.range 2 9 3) = .ok ([0, 1, 2], [(0, 2), (1, 5), (2, 8)]) ∧
    pathAxis (.range 4 2 (-1)) = .ok ([0, 1], [(0, 4), (1, 3)]) := by decide +kernel

/-- **C77** An axis is drawn exactly for a path with at least one node. -/
theorem C77_empty_path (x : NodePath) : (∃ r, pathAxis x = .ok r) ↔ x.labels ≠ [] := by
  constructor
  · rintro ⟨⟨xs, ticks⟩, h⟩
    exact (pathAxis_ok h).1
  · intro h
    unfold pathAxis
    obtain ⟨p, hp⟩ : ∃ p, minMax x.labels = .ok p := by
      cases hl : x.labels with
      | nil => exact absurd hl h
      | cons a l => exact ⟨_, rfl⟩
    rw [hp, py_bind_ok]
    cases x with
    | list l => exact ⟨_, rfl⟩
    | range a b d =>
      simp only
      split <;> exact ⟨_, rfl⟩

/-- A list of labels, a descending range, and a range of consecutive labels with some ticks. -/
example : pathAxis (.list [7, 3, 5]) = .ok ([0, 1, 2], [(0, 7), (1, 3), (2, 5)]) ∧
    pathAxis (.range 3 0 (-1)) = .ok ([0, 1, 2], [(0, 3), (1, 2), (2, 1)]) ∧
    pathAxis (.range 1 4 1) = .ok ([1, 2, 3], [1, 1, 1, 1, 1, 2, 2, 2, 2, 2, 3].map fun t => (t, t)) ∧
    pathAxis (.range 1 1 1) = .error .valueError := by decide +kernel

end TrussPy
