import Verif.Lemmas.Draw
/-!
# Lemmas: pictures which can be drawn
-/

set_option linter.unusedSectionVars false

namespace TrussPy

variable {F : Type} [Zero F] [One F] [Add F] [Sub F] [Mul F] [Div F] [Neg F] [Flt F]

theorem list_of_three {α : Type} {l : List α} (h : l.length = 3) : ∃ a b c, l = [a, b, c] := by
  match l, h with
  | [a, b, c], _ => exact ⟨a, b, c, rfl⟩

/-- Rows of the tables from which a result `r` can be drawn. -/
structure CanDraw (X : List (List F)) (E : List (List Int)) (P : List (List F)) (r : Analysis F) : Prop where
  coords : ∀ row ∈ X, row.length = 3
  conns : ∀ e ∈ E, ∃ a b : Nat, e = [(a : Int) + 1, (b : Int) + 1] ∧ a < X.length ∧ b < X.length
  elems : E ≠ []
  rows : P.length = X.length
  width : ∀ row ∈ P, 3 * r.step ≤ row.length
  step : 1 ≤ r.step
  lpf : r.lpf.isSome
  const : ∃ ef, r.extForces = some ef ∧ ef.forcesConst.length = 3 * X.length
  stretch : r.stretch.length = E.length
  force : r.elementForce.length = E.length
  stress : r.elementStress.length = E.length

theorem deformed_width {coords : List (List F)} {U : List F} (h : ∀ row ∈ coords, row.length = 3) :
    (deformed coords U).length = coords.length ∧ ∀ row ∈ deformed coords U, row.length = 3 := by
  refine ⟨by simp [deformed], ?_⟩
  intro row hr
  unfold deformed at hr
  obtain ⟨p, hp, rfl⟩ := List.mem_map.1 hr
  have : p.1 ∈ coords := by
    have := List.mem_map_of_mem (f := Prod.fst) hp
    rwa [List.zipIdx_map_fst] at this
  simp [h _ this]

theorem plotLoads_total {fc : List F} {lpf : F} {rows : List (List F)} (h3 : ∀ row ∈ rows, row.length = 3)
    (hl : fc.length = 3 * rows.length) : ∃ loads, plotLoads fc lpf rows = .ok loads ∧ loads.length = rows.length ∧
      ∀ row ∈ loads, row.length = 3 := by
  refine ⟨_, if_pos ⟨h3, hl⟩, by simp, ?_⟩
  intro row hr
  obtain ⟨p, hp, rfl⟩ := List.mem_map.1 hr
  have : p.1 ∈ rows := by
    have := List.mem_map_of_mem (f := Prod.fst) hp
    rwa [List.zipIdx_map_fst] at this
  simp [h3 _ this]

theorem mapM_total {α β : Type} {f : α → Py β} : ∀ {l : List α}, (∀ x ∈ l, ∃ y, f x = .ok y) → ∃ r, l.mapM f = .ok r
  | [], _ => ⟨[], rfl⟩
  | a :: l, h => by
    obtain ⟨b, hb⟩ := h a (by simp)
    obtain ⟨r, hr⟩ := mapM_total (l := l) fun x hx => h x (by simp [hx])
    exact ⟨b :: r, by rw [List.mapM_cons, hb, py_bind_ok, hr]; rfl⟩

theorem plotSegment_total {X : List (List F)} {a b : Nat} (ha : a < X.length) (hb : b < X.length) :
    plotSegment X [(a : Int) + 1, (b : Int) + 1] = .ok (X[a], X[b]) := by
  have h1 : pyGet X ((a : Int) + 1 - 1) = .ok X[a] := by
    rw [Int.add_sub_cancel, pyGet_ok_nat]
    exact List.getElem?_eq_getElem ha
  have h2 : pyGet X ((b : Int) + 1 - 1) = .ok X[b] := by
    rw [Int.add_sub_cancel, pyGet_ok_nat]
    exact List.getElem?_eq_getElem hb
  show (do
    let p ← pyGet X ((a : Int) + 1 - 1)
    let q ← pyGet X ((b : Int) + 1 - 1)
    return (p, q)) = _
  rw [h1, py_bind_ok, h2]
  rfl

theorem forceLoop_total {view : PlotView} (hv : view ≠ .other) (scale : F) : ∀ {l : List (List F × List F)} (ax : Bool),
    (∀ p ∈ l, p.1.length = 3 ∧ p.2.length = 3) → ∃ out, forceLoop view scale l ax = .ok out
  | [], ax, _ => ⟨_, rfl⟩
  | (f, X) :: l, ax, h => by
    have hl : ∀ p ∈ l, p.1.length = 3 ∧ p.2.length = 3 := fun p hp => h p (by simp [hp])
    obtain ⟨h1, h2⟩ := h (f, X) (by simp)
    obtain ⟨f0, f1, f2, rfl⟩ := list_of_three h1
    obtain ⟨x0, x1, x2, rfl⟩ := list_of_three h2
    obtain ⟨o1, g1⟩ := forceLoop_total hv scale true hl
    obtain ⟨o2, g2⟩ := forceLoop_total hv scale ax hl
    rw [forceLoop]
    split
    · exact ⟨o2, g2⟩
    · cases view with
      | other => exact absurd rfl hv
      | d3 =>
        refine ⟨(openAxes ax ++ arrows3 scale x0 x1 x2 f0 f1 f2 ++ o1.1, o1.2), ?_⟩
        show (forceLoop .d3 scale l true >>= fun q => _) = _
        rw [g1]
        rfl
      | xz =>
        refine ⟨(arrows2 scale x0 x2 f0 f2 ++ o2.1, o2.2), ?_⟩
        show (forceLoop .xz scale l ax >>= fun q => _) = _
        rw [g2]
        rfl
      | xy =>
        refine ⟨(arrows2 scale x0 x1 f0 f1 ++ o2.1, o2.2), ?_⟩
        show (forceLoop .xy scale l ax >>= fun q => _) = _
        rw [g2]
        rfl
      | yz =>
        refine ⟨(arrows2 scale x1 x2 f1 f2 ++ o2.1, o2.2), ?_⟩
        show (forceLoop .yz scale l ax >>= fun q => _) = _
        rw [g2]
        rfl

theorem plane_of_view {view : PlotView} (hv : view ≠ .other) (h3 : view ≠ .d3) :
    ∃ h v, PlaneView view h v ∧ h < 3 ∧ v < 3 := by
  cases view with
  | other => exact absurd rfl hv
  | d3 => exact absurd rfl h3
  | xz => exact ⟨0, 2, .inl ⟨rfl, rfl, rfl⟩, by decide, by decide⟩
  | xy => exact ⟨0, 1, .inr (.inl ⟨rfl, rfl, rfl⟩), by decide, by decide⟩
  | yz => exact ⟨1, 2, .inr (.inr ⟨rfl, rfl, rfl⟩), by decide, by decide⟩

theorem plotNodes_total {view : PlotView} (hv : view ≠ .other) {X : List (List F)} (hX : ∀ row ∈ X, row.length = 3) (ax : Bool) :
    ∃ out, plotNodes view X ax = .ok out := by
  unfold plotNodes
  by_cases h3 : view = .d3
  · rw [if_pos h3]
    obtain ⟨r, hr⟩ := mapM_total (l := X) (f := fun row => (do
      let x ← pyGet row 0
      let y ← pyGet row 1
      let z ← pyGet row 2
      return (x, y, z) : Py (F × F × F))) (by
        intro row hrow
        obtain ⟨a, b, c, rfl⟩ := list_of_three (hX row hrow)
        exact ⟨(a, b, c), rfl⟩)
    exact ⟨_, by rw [hr]; rfl⟩
  · rw [if_neg h3]
    obtain ⟨h, v, hp, hh, hvv⟩ := plane_of_view hv h3
    rw [hp.axes, py_bind_ok]
    simp only
    obtain ⟨r, hr⟩ := mapM_total (l := X) (f := fun row => (do
      let x ← pyGet row (h : Int)
      let y ← pyGet row (v : Int)
      return (x, y) : Py (F × F))) (by
        intro row hrow
        have h1 : pyGet row (h : Int) = .ok (row[h]'(by rw [hX row hrow]; exact hh)) :=
          pyGet_ok_nat.2 (List.getElem?_eq_getElem _)
        have h2 : pyGet row (v : Int) = .ok (row[v]'(by rw [hX row hrow]; exact hvv)) :=
          pyGet_ok_nat.2 (List.getElem?_eq_getElem _)
        exact ⟨_, by rw [h1, py_bind_ok, h2]; rfl⟩)
    exact ⟨_, by rw [hr]; rfl⟩

theorem elemLines_total {view : PlotView} (hv : view ≠ .other) {p q : List F} (hp : p.length = 3) (hq : q.length = 3)
    (c : Paint F) : ∃ out, elemLines view p q c = .ok out := by
  obtain ⟨p0, p1, p2, rfl⟩ := list_of_three hp
  obtain ⟨q0, q1, q2, rfl⟩ := list_of_three hq
  cases view with
  | other => exact absurd rfl hv
  | d3 => exact ⟨_, rfl⟩
  | xz => exact ⟨_, rfl⟩
  | xy => exact ⟨_, rfl⟩
  | yz => exact ⟨_, rfl⟩

/-- A contour with a value for every element, and limits. -/
def ConOK (con : Option (List F × Option (F × F))) (n : Nat) : Prop :=
  ∀ vals lims, con = some (vals, lims) → n ≤ vals.length ∧ lims.isSome

theorem elemLoop_total {view : PlotView} (hv : view ≠ .other) {X : List (List F)} (hX : ∀ row ∈ X, row.length = 3)
    {con : Option (List F × Option (F × F))} : ∀ {conns : List (List Int)} {k : Nat},
      (∀ e ∈ conns, ∃ a b : Nat, e = [(a : Int) + 1, (b : Int) + 1] ∧ a < X.length ∧ b < X.length) →
      ConOK con (k + conns.length) → ∃ out, elemLoop view X con conns k = .ok out
  | [], _, _, _ => ⟨_, rfl⟩
  | e :: es, k, he, hc => by
    obtain ⟨a, b, rfl, ha, hb⟩ := he e (by simp)
    obtain ⟨rest, hrest⟩ := elemLoop_total hv hX (con := con) (conns := es) (k := k + 1) (fun e h => he e (by simp [h])) (by
      intro vals lims h
      have := hc vals lims h
      rw [List.length_cons] at this
      exact ⟨by omega, this.2⟩)
    obtain ⟨c, hp⟩ : ∃ c, elemPaint con k = .ok c := by
      unfold elemPaint
      split
      · exact ⟨_, rfl⟩
      · next vals lims =>
        have hk : k < vals.length := by
          have := (hc vals lims rfl).1
          rw [List.length_cons] at this
          omega
        have : pyGet vals (k : Int) = .ok vals[k] := pyGet_ok_nat.2 (List.getElem?_eq_getElem hk)
        rw [this]
        exact ⟨_, rfl⟩
    obtain ⟨ls, hls⟩ := elemLines_total hv (hX _ (List.getElem_mem ha)) (hX _ (List.getElem_mem hb)) c
    refine ⟨ls ++ rest, ?_⟩
    rw [elemLoop, plotSegment_total ha hb, py_bind_ok]
    simp only []
    rw [hp, py_bind_ok, hls, py_bind_ok, hrest, py_bind_ok]
    rfl

theorem colourBar_total {con : Option (List F × Option (F × F))} {n : Nat} (hn : n ≠ 0) (hc : ConOK con n) :
    ∃ out, colourBar con n = .ok out := by
  unfold colourBar
  cases con with
  | none => exact ⟨_, rfl⟩
  | some p =>
    obtain ⟨vals, lims⟩ := p
    simp only [if_neg hn]
    have := (hc vals lims rfl).2
    cases lims with
    | none => cases this
    | some q => exact ⟨_, rfl⟩

/-- Arguments `lim_scale` which are accepted in the view. -/
def LimOK (view : PlotView) : LimScale F → Prop
  | .scalar _ => True
  | .tuple l => l.length = 6 → view = .d3

theorem setLimits_total {view : PlotView} {lim : LimScale F} (h : LimOK view lim) (lx ly : F × F) :
    ∃ out, setLimits view lim lx ly = .ok out := by
  unfold setLimits
  split
  · exact ⟨_, rfl⟩
  · exact ⟨_, rfl⟩
  · rw [if_pos (h rfl)]
    exact ⟨_, rfl⟩
  · exact ⟨_, rfl⟩
  · simp only []
    split
    · exact ⟨_, rfl⟩
    · exact ⟨_, rfl⟩

theorem pyMax_total {l : List F} (h : l ≠ []) : ∃ m, pyMax l = .ok m := by
  cases l with
  | nil => exact absurd rfl h
  | cons a l => exact ⟨_, rfl⟩

theorem contourLimits_total {r : Analysis F} (q : Contour) (h1 : r.stretch ≠ []) (h2 : r.elementForce ≠ [])
    (h3 : r.elementStress ≠ []) : ∃ lim, contourLimits r q = .ok lim := by
  cases q with
  | stretch =>
    obtain ⟨m, hm⟩ := pyMax_total (l := r.stretch.map fun l => Flt.abs (l - 1)) (by simpa using h1)
    exact ⟨(1 - m, 1 + m), by simp only [contourLimits, hm]; rfl⟩
  | force =>
    obtain ⟨m, hm⟩ := pyMax_total (l := r.elementForce.map Flt.abs) (by simpa using h2)
    exact ⟨(-m, m), by simp only [contourLimits, hm]; rfl⟩
  | stress =>
    obtain ⟨m, hm⟩ := pyMax_total (l := r.elementStress.map Flt.abs) (by simpa using h3)
    exact ⟨(-m, m), by simp only [contourLimits, hm]; rfl⟩

/-- Arguments `contour` and `cbar_limits` which are accepted: no `None` instead of limits, no tuple with an unknown name. -/
def ContourOK : ContourArg F → CbarArg F → Prop
  | .name _, .given none => False
  | .pair none _, _ => False
  | .pair _ none, _ => False
  | _, _ => True

theorem chooseContour_total {r : Analysis F} {inc : Int} {contour : ContourArg F} {cbar : CbarArg F} {n : Nat}
    (hn : n ≠ 0) (h1 : r.stretch.length = n) (h2 : r.elementForce.length = n) (h3 : r.elementStress.length = n)
    (hc : ContourOK contour cbar) : ∃ con, chooseContour r inc contour cbar = .ok con ∧ ConOK con n := by
  have hd : ∀ q, (contourData r q).length = n := by
    intro q
    cases q
    · exact h1
    · exact h2
    · exact h3
  unfold chooseContour
  split
  · exact ⟨none, rfl, fun _ _ h => by cases h⟩
  · cases contour with
    | none => exact ⟨none, rfl, fun _ _ h => by cases h⟩
    | unknown => exact ⟨none, rfl, fun _ _ h => by cases h⟩
    | name q =>
      cases cbar with
      | auto =>
        obtain ⟨lim, hl⟩ := contourLimits_total (r := r) q (by rintro h; rw [h] at h1; exact hn h1.symm)
          (by rintro h; rw [h] at h2; exact hn h2.symm) (by rintro h; rw [h] at h3; exact hn h3.symm)
        refine ⟨some (contourData r q, some lim), by simp only [hl]; rfl, ?_⟩
        intro vals lims h
        cases h
        exact ⟨(hd q).ge, rfl⟩
      | given lims =>
        cases lims with
        | none => exact hc.elim
        | some lim =>
          refine ⟨some (contourData r q, some lim), rfl, ?_⟩
          intro vals lims h
          cases h
          exact ⟨(hd q).ge, rfl⟩
    | pair q lims =>
      cases q with
      | none => exact hc.elim
      | some q =>
        cases lims with
        | none => exact hc.elim
        | some lim =>
          refine ⟨some (contourData r q, some lim), rfl, ?_⟩
          intro vals lims h
          cases h
          exact ⟨(hd q).ge, rfl⟩

theorem plotFactor_total {r : Analysis F} (h : r.lpf.isSome) (con : Option Contour) (inc : Int) :
    ∃ p, plotFactor r con inc = .ok p ∧ (p.2 = none ∨ p.2 = con) := by
  unfold plotFactor
  split
  · exact ⟨_, rfl, .inl rfl⟩
  · cases hl : r.lpf with
    | none => rw [hl] at h; cases h
    | some l => exact ⟨_, rfl, .inr rfl⟩

theorem CanDraw.slice {coords : List (List F)} {conns : List (List Int)} {forces : List (List F)} {r : Analysis F}
    (h : CanDraw coords conns forces r) : (∀ row ∈ stepSlice forces (r.step - 1), row.length = 3) ∧
      (stepSlice forces (r.step - 1)).length = coords.length := by
  refine ⟨?_, by simp [stepSlice, h.rows]⟩
  intro row hr
  obtain ⟨r', hr', rfl⟩ := List.mem_map.1 hr
  have := h.width r' hr'
  have := h.step
  rw [List.length_take, List.length_drop]
  omega

/-- The index `inc` after counting from the end. -/
theorem inc_names {n : Nat} {inc : Int} {k : Nat} (hk : NamesResult n inc k) :
    (if inc < 0 then (n : Int) + inc else inc) = (k : Int) := names_inc hk

/-- A result can be selected. -/
theorem pModel_total {m : Model F} {nt : NodeTab F} {et : ElemTab F} {ft : ForceTab F} {res : Results F}
    (h1 : m.nodes = some nt) (h2 : m.elems = some et) (h3 : m.forces = some ft) (h4 : m.results = some res)
    {r : Analysis F} {inc : Int} {k : Nat} (hk : NamesResult res.R.length inc k) (hr : res.R[k]? = some r)
    (hd : CanDraw nt.coords.rows et.conns.rows ft.forces.rows r) (con : Option Contour) : ∃ d, pModel m con inc = .ok d := by
  have hne : et.conns.rows.length ≠ 0 := fun h => hd.elems (List.length_eq_zero_iff.1 h)
  obtain ⟨⟨lpf, con'⟩, hl, -⟩ := plotFactor_total hd.lpf con (k : Int)
  obtain ⟨cd, hcd⟩ : ∃ cd, plotContour r con' = .ok cd := by
    cases con' with
    | none => exact ⟨_, rfl⟩
    | some q =>
      obtain ⟨lim, hlim⟩ := contourLimits_total (r := r) q (by intro h; rw [← hd.stretch, h] at hne; exact hne rfl)
        (by intro h; rw [← hd.force, h] at hne; exact hne rfl) (by intro h; rw [← hd.stress, h] at hne; exact hne rfl)
      exact ⟨some (contourData r q, lim.1, lim.2), by simp only [plotContour, hlim]; rfl⟩
  obtain ⟨ef, e1, e2⟩ := hd.const
  obtain ⟨s1, s2⟩ := hd.slice
  obtain ⟨loads, l1, -⟩ := plotLoads_total (lpf := lpf) s1 (by rw [s2]; exact e2)
  obtain ⟨w1, w2⟩ := deformed_width (U := r.U) hd.coords
  obtain ⟨segs, hs⟩ := mapM_total (l := et.conns.rows) (f := plotSegment (deformed nt.coords.rows r.U)) (by
    intro e he
    obtain ⟨a, b, rfl, ha, hb⟩ := hd.conns e he
    exact ⟨_, plotSegment_total (w1 ▸ ha) (w1 ▸ hb)⟩)
  refine ⟨⟨loads, deformed nt.coords.rows r.U, segs, cd⟩, ?_⟩
  unfold pModel
  rw [h1, h2, h3, h4]
  simp only
  rw [inc_names hk, pyGet_ok_nat.2 hr, py_bind_ok, hl, py_bind_ok]
  simp only
  rw [hcd, py_bind_ok, e1]
  simp only
  rw [l1, py_bind_ok, hs]
  rfl

/-- A result can be drawn. -/
theorem drawModel_total {auto : List (Cmd F) → (F × F) × (F × F)} {m : Model F} {nt : NodeTab F} {et : ElemTab F}
    {ft : ForceTab F} {res : Results F}
    (h1 : m.nodes = some nt) (h2 : m.elems = some et) (h3 : m.forces = some ft) (h4 : m.results = some res)
    {r : Analysis F} {inc : Int} {k : Nat} (hk : NamesResult res.R.length inc k) (hr : res.R[k]? = some r)
    (hd : CanDraw nt.coords.rows et.conns.rows ft.forces.rows r) {view : PlotView} (hv : view ≠ .other)
    {contour : ContourArg F} {cbar : CbarArg F} (hc : ContourOK contour cbar) {lim : LimScale F} (hlim : LimOK view lim)
    (scale : F) : ∃ cmds, drawModel auto m view contour lim scale cbar inc = .ok cmds := by
  have hne : et.conns.rows.length ≠ 0 := fun h => hd.elems (List.length_eq_zero_iff.1 h)
  obtain ⟨⟨lpf, con'⟩, hl, -⟩ := plotFactor_total hd.lpf none (k : Int)
  obtain ⟨con, hcon, hok⟩ := chooseContour_total (inc := (k : Int)) hne hd.stretch hd.force hd.stress hc
  obtain ⟨ef, e1, e2⟩ := hd.const
  obtain ⟨s1, s2⟩ := hd.slice
  obtain ⟨loads, l1, l2, l3⟩ := plotLoads_total (lpf := lpf) s1 (by rw [s2]; exact e2)
  obtain ⟨w1, w2⟩ := deformed_width (U := r.U) hd.coords
  obtain ⟨⟨arrows, ax⟩, ha⟩ := forceLoop_total hv scale (l := loads.zip (deformed nt.coords.rows r.U)) false (by
    intro p hp
    exact ⟨l3 _ (List.of_mem_zip hp).1, w2 _ (List.of_mem_zip hp).2⟩)
  obtain ⟨marks, hm⟩ := plotNodes_total hv w2 ax
  obtain ⟨lines, hls⟩ := elemLoop_total hv w2 (con := con) (conns := et.conns.rows) (k := 0) (by rw [w1]; exact hd.conns)
    (by rw [Nat.zero_add]; exact hok)
  obtain ⟨bar, hbar⟩ := colourBar_total hne hok
  obtain ⟨limits, hlims⟩ := setLimits_total hlim (auto (.figure :: (arrows ++ marks ++ lines ++ bar))).1
    (auto (.figure :: (arrows ++ marks ++ lines ++ bar))).2
  refine ⟨.figure :: (arrows ++ marks ++ lines ++ bar) ++ limits ++ axisNames view, ?_⟩
  unfold drawModel
  rw [h1, h2, h3, h4]
  simp only
  rw [inc_names hk, pyGet_ok_nat.2 hr, py_bind_ok, hl, py_bind_ok]
  simp only
  rw [hcon, py_bind_ok, e1]
  simp only
  rw [l1, py_bind_ok, ha, py_bind_ok]
  simp only
  rw [hm, py_bind_ok, hls, py_bind_ok, hbar, py_bind_ok, hlims]
  rfl

end TrussPy
