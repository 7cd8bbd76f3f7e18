import Verif.Lemmas.Draw
import Verif.Props.Plot
/-!
# C74-C77: the picture handed over to matplotlib
-/

set_option linter.unusedSectionVars false

namespace TrussPy

variable {F : Type} [Zero F] [One F] [Add F] [Sub F] [Mul F] [Div F] [Neg F] [Flt F]

/-! ## C74 -/

/-- Filtering the commands of a picture by a kind which is none of limits, colour bars and names. -/
theorem filter_picture {p : Cmd F → Bool} {H A M L B Z N : List (Cmd F)} (hB : B.filter p = []) (hZ : Z.filter p = [])
    (hN : N.filter p = []) (hH : H.filter p = []) :
    (H ++ (A ++ M ++ L ++ B) ++ Z ++ N).filter p = A.filter p ++ M.filter p ++ L.filter p := by
  simp [List.filter_append, hB, hZ, hN, hH]

theorem limits_filter {p : Cmd F → Bool} {Z : List (Cmd F)} (hZ : ∀ c ∈ Z, IsLimit c)
    (hx : ∀ a b, p (.xlim a b) = false) (hy : ∀ a b, p (.ylim a b) = false) (hz : ∀ a b, p (.zlim a b) = false)
    (ha : p .aspectEqual = false) (hf : ∀ a, p (.frame a) = false) : Z.filter p = [] := by
  apply filter_nil_of
  intro c hc
  rcases hZ c hc with ⟨a, b, rfl⟩ | ⟨a, b, rfl⟩ | ⟨a, b, rfl⟩ | rfl | ⟨a, rfl⟩
  · exact hx a b
  · exact hy a b
  · exact hz a b
  · exact ha
  · exact hf a

theorem bars_filter {p : Cmd F → Bool} {B : List (Cmd F)} (hB : ∀ c ∈ B, ∃ a b, c = .colorbar a b)
    (h : ∀ a b, p (.colorbar a b) = false) : B.filter p = [] := by
  apply filter_nil_of
  intro c hc
  obtain ⟨a, b, rfl⟩ := hB c hc
  exact h a b

theorem force2_filter {p : Cmd F → Bool} {A : List (Cmd F)} (hA : ∀ c ∈ A, IsForce2 c)
    (h : ∀ a b c d, p (.arrow2 a b c d) = false) (h' : ∀ a b c d, p (.ghost2 a b c d) = false) : A.filter p = [] := by
  apply filter_nil_of
  intro c hc
  have := hA c hc
  cases c <;> first | exact this.elim | exact h .. | exact h' ..

theorem force3_filter {p : Cmd F → Bool} {A : List (Cmd F)} (hA : ∀ c ∈ A, IsForce3 c)
    (h : ∀ a b c d e f, p (.arrow3 a b c d e f) = false) (h' : ∀ a b c d e f, p (.ghost3 a b c d e f) = false) :
    A.filter p = [] := by
  apply filter_nil_of
  intro c hc
  have := hA c hc
  cases c <;> first | exact this.elim | exact h .. | exact h' ..

theorem lines_filter {p : Cmd F → Bool} {L : List (Cmd F)} (hL : ∀ c ∈ L, IsLine c)
    (h : ∀ a b c d e, p (.line2 a b c d e) = false) (h' : ∀ a b c d e f g, p (.line3 a b c d e f g) = false) :
    L.filter p = [] := by
  apply filter_nil_of
  intro c hc
  have := hL c hc
  cases c <;> first | exact this.elim | exact h .. | exact h' ..

theorem arrows2_count {scale xx yy fi fj : F} : (arrowCmds (arrows2 scale xx yy fi fj)).length =
    (if Flt.eq fi 0 then 0 else 1) + (if Flt.eq fj 0 then 0 else 1) := by
  unfold arrows2 arrowCmds
  cases Flt.eq fi 0 <;> cases Flt.eq fj 0 <;> rfl

theorem arrows3_count {scale xx yy zz fi fj fk : F} : (arrowCmds (arrows3 scale xx yy zz fi fj fk)).length =
    (if Flt.eq fi 0 then 0 else 1) + (if Flt.eq fj 0 then 0 else 1) + (if Flt.eq fk 0 then 0 else 1) := by
  unfold arrows3 arrowCmds
  cases Flt.eq fi 0 <;> cases Flt.eq fj 0 <;> cases Flt.eq fk 0 <;> rfl

theorem zero_count {f : List F} (h : (f.all fun v => Flt.eq v 0) = true) (cs : List Nat) :
    (cs.filter fun c => (f[c]?).any fun v => !Flt.eq v 0).length = 0 := by
  rw [List.length_eq_zero_iff, List.filter_eq_nil_iff]
  intro c _ hc
  rw [Option.any_eq_true] at hc
  obtain ⟨v, hv, hc⟩ := hc
  rw [List.all_eq_true] at h
  rw [h v (List.mem_of_getElem? hv)] at hc
  cases hc

theorem arrowCmds_append (a b : List (Cmd F)) : arrowCmds (a ++ b) = arrowCmds a ++ arrowCmds b := List.filter_append ..

theorem forceLoop_count2 {view : PlotView} {h v : Nat} (hv : PlaneView view h v) {scale : F} :
    ∀ {loads points : List (List F)} {ax ax' : Bool} {cmds : List (Cmd F)},
      forceLoop view scale (loads.zip points) ax = .ok (cmds, ax') → 
        (arrowCmds cmds).length = loadedCount [h, v] loads points := by
  intro loads
  induction loads with
  | nil => intro points ax ax' cmds hh; cases hh; simp [loadedCount, arrowCmds]
  | cons f loads ih =>
    intro points ax ax' cmds hh
    cases points with
    | nil => cases hh; rfl
    | cons X points =>
    rw [List.zip_cons_cons, forceLoop] at hh
    by_cases hz : (f.all fun v => Flt.eq v 0) = true
    · rw [if_pos hz] at hh
      rw [ih hh, loadedCount, loadedCount, List.length_cons, List.take_succ_cons, List.map_cons, List.sum_cons, zero_count hz,
        Nat.zero_add]
    · rw [if_neg hz] at hh
      obtain ⟨k, hk⟩ := hv.force
      rw [hk] at hh
      simp only [py_bind_ok] at hh
      obtain ⟨xx, e1, hh⟩ := py_bind_eq_ok.1 hh
      obtain ⟨yy, e2, hh⟩ := py_bind_eq_ok.1 hh
      obtain ⟨fi, e3, hh⟩ := py_bind_eq_ok.1 hh
      obtain ⟨fj, e4, hh⟩ := py_bind_eq_ok.1 hh
      rw [if_neg hv.not_d3] at hh
      obtain ⟨⟨cs, ax1⟩, e5, hh⟩ := py_bind_eq_ok.1 hh
      cases hh
      rw [pyGet_ok_nat] at e1 e2 e3 e4
      rw [arrowCmds_append, List.length_append, ih e5, arrows2_count, loadedCount, loadedCount,
        List.length_cons, List.take_succ_cons, List.map_cons, List.sum_cons]
      congr 1
      simp only [List.filter, e3, e4, Option.any_some]
      cases Flt.eq fi 0 <;> cases Flt.eq fj 0 <;> rfl

theorem forceLoop_count3 {scale : F} :
    ∀ {loads points : List (List F)} {ax ax' : Bool} {cmds : List (Cmd F)},
      forceLoop .d3 scale (loads.zip points) ax = .ok (cmds, ax') → 
        (arrowCmds cmds).length = loadedCount [0, 1, 2] loads points := by
  intro loads
  induction loads with
  | nil => intro points ax ax' cmds hh; cases hh; simp [loadedCount, arrowCmds]
  | cons f loads ih =>
    intro points ax ax' cmds hh
    cases points with
    | nil => cases hh; rfl
    | cons X points =>
    rw [List.zip_cons_cons, forceLoop] at hh
    by_cases hz : (f.all fun v => Flt.eq v 0) = true
    · rw [if_pos hz] at hh
      rw [ih hh, loadedCount, loadedCount, List.length_cons, List.take_succ_cons, List.map_cons, List.sum_cons, zero_count hz,
        Nat.zero_add]
    · rw [if_neg hz] at hh
      rw [show forceAxes PlotView.d3 = .ok (0, 1, 2) from rfl] at hh
      simp only [py_bind_ok] at hh
      obtain ⟨xx, e1, hh⟩ := py_bind_eq_ok.1 hh
      obtain ⟨yy, e2, hh⟩ := py_bind_eq_ok.1 hh
      obtain ⟨fi, e3, hh⟩ := py_bind_eq_ok.1 hh
      obtain ⟨fj, e4, hh⟩ := py_bind_eq_ok.1 hh
      rw [if_pos trivial] at hh
      obtain ⟨zz, e6, hh⟩ := py_bind_eq_ok.1 hh
      obtain ⟨fk, e7, hh⟩ := py_bind_eq_ok.1 hh
      obtain ⟨⟨cs, ax1⟩, e5, hh⟩ := py_bind_eq_ok.1 hh
      cases hh
      rw [pyGet0] at e1 e3
      rw [pyGet1] at e2 e4
      rw [pyGet2] at e6 e7
      have ho : arrowCmds (openAxes ax : List (Cmd F)) = [] := by cases ax <;> rfl
      rw [arrowCmds_append, arrowCmds_append, List.length_append, List.length_append, ih e5, arrows3_count, ho, loadedCount, loadedCount,
        List.length_cons, List.take_succ_cons, List.map_cons, List.sum_cons, List.length_nil, Nat.zero_add]
      congr 1
      simp only [List.filter, e3, e4, e7, Option.any_some]
      cases Flt.eq fi 0 <;> cases Flt.eq fj 0 <;> cases Flt.eq fk 0 <;> rfl

theorem axisNames_plane {view : PlotView} {h v : Nat} (hv : PlaneView view h v) : ∃ c1 c2, letterComponent c1 = some h ∧
    letterComponent c2 = some v ∧ (axisNames view : List (Cmd F)) = [.axisNames2 c1 c2] := by
  rcases hv with ⟨rfl, rfl, rfl⟩ | ⟨rfl, rfl, rfl⟩ | ⟨rfl, rfl, rfl⟩
  · exact ⟨'x', 'z', rfl, rfl, rfl⟩
  · exact ⟨'x', 'y', rfl, rfl, rfl⟩
  · exact ⟨'y', 'z', rfl, rfl, rfl⟩

/-- **C74** In a plane view `plot_model` draws the selected data (see C48, C49) projected to the plane named by the view: one
arrow for each nonzero component in the plane of the load of each node, at that node and `force_scale` times as long; one
marker per node; one line per element, in order, between its ends; and the axes bear the names of the two coordinates. -/
theorem C74_plane_picture {auto : List (Cmd F) → (F × F) × (F × F)} {m : Model F} {view : PlotView} {contour : ContourArg F}
    {lim : LimScale F} {scale : F} {cbar : CbarArg F} {inc : Int} {cmds : List (Cmd F)} {h v : Nat} (hv : PlaneView view h v)
    (hh : drawModel auto m view contour lim scale cbar inc = .ok cmds) :
    ∃ d, pModel m none inc = .ok d ∧
      (∀ x y dx dy, Cmd.arrow2 x y dx dy ∈ cmds ↔ WantedArrow2 d.loads d.points scale h v x y dx dy) ∧
      (arrowCmds cmds).length = loadedCount [h, v] d.loads d.points ∧
      (∃ pts, markers cmds = [.marks2 pts] ∧ Projected2 h v d.points pts) ∧
      (barLines cmds).length = d.segments.length ∧
      (∀ (k : Nat) (s : List F × List F), d.segments[k]? = some s →
        ∃ cmd c, (barLines cmds)[k]? = some cmd ∧ BarLine2 h v s.1 s.2 c cmd) ∧
      Cmd.axes3 ∉ cmds ∧ ∀ c1 c2, Cmd.axisNames2 c1 c2 ∈ cmds → letterComponent c1 = some h ∧ letterComponent c2 = some v := by
  obtain ⟨d, res, r, con, A, L, B, Z, pts, h1, h2, h3, h4, rfl, h6, h7, h8, h9, h10, h11, h12, h13, h14, h15, ax, h16⟩ :=
    plane_parts hv hh
  obtain ⟨c1, c2, n1, n2, n3⟩ := axisNames_plane (F := F) hv
  have hL : ∀ p : Cmd F → Bool, (Cmd.figure :: (A ++ [Cmd.marks2 pts] ++ L ++ B) ++ Z ++ axisNames view).filter p =
      [Cmd.figure].filter p ++ (A.filter p ++ [Cmd.marks2 pts].filter p ++ L.filter p ++ B.filter p) ++ Z.filter p ++
        [Cmd.axisNames2 c1 c2].filter p := by
    intro p
    rw [n3, show Cmd.figure :: (A ++ [Cmd.marks2 pts] ++ L ++ B) = [Cmd.figure] ++ (A ++ [Cmd.marks2 pts] ++ L ++ B) from rfl]
    simp only [List.filter_append]
  have hbar : barLines (Cmd.figure :: (A ++ [Cmd.marks2 pts] ++ L ++ B) ++ Z ++ axisNames view) = barLines L := by
    unfold barLines
    rw [hL, limits_filter h14, bars_filter h12, force2_filter h6]
    · simp
    all_goals (intros; rfl)
  refine ⟨d, h1, ?_, ?_, ⟨pts, ?_, h8⟩, ?_, ?_, ?_, ?_⟩
  · intro x y dx dy
    rw [← h7, n3]
    simp only [List.cons_append, List.mem_cons, List.mem_append, reduceCtorEq, false_or, or_false, List.not_mem_nil]
    constructor
    · rintro (((h | h) | h) | h)
      · exact h
      · exact (h9 _ h).elim
      · obtain ⟨a, b, h⟩ := h12 _ h; cases h
      · rcases h14 _ h with ⟨a, b, h⟩ | ⟨a, b, h⟩ | ⟨a, b, h⟩ | h | ⟨a, h⟩ <;> cases h
    · intro h
      exact .inl (.inl (.inl h))
  · rw [← forceLoop_count2 hv h16]
    unfold arrowCmds
    rw [hL, limits_filter h14, bars_filter h12, lines_filter h9]
    · simp
    all_goals (intros; rfl)
  · unfold markers
    rw [hL, limits_filter h14, bars_filter h12, lines_filter h9, force2_filter h6]
    · simp
    all_goals (intros; rfl)
  · rw [hbar, h10]
  · intro k s hs
    obtain ⟨cmd, c, k1, -, k3⟩ := h11 k s hs
    exact ⟨cmd, c, by rw [hbar, k1], k3⟩
  · rw [n3]
    simp only [List.cons_append, List.mem_cons, List.mem_append, reduceCtorEq, false_or, or_false, List.not_mem_nil]
    rintro (((h | h) | h) | h)
    · exact (h6 _ h).elim
    · exact (h9 _ h).elim
    · obtain ⟨a, b, h⟩ := h12 _ h; cases h
    · rcases h14 _ h with ⟨a, b, h⟩ | ⟨a, b, h⟩ | ⟨a, b, h⟩ | h | ⟨a, h⟩ <;> cases h
  · intro e1 e2 he
    rw [n3] at he
    simp only [List.cons_append, List.mem_cons, List.mem_append, reduceCtorEq, false_or, or_false, List.not_mem_nil,
      Cmd.axisNames2.injEq] at he
    rcases he with (((h | h) | h) | h) | ⟨rfl, rfl⟩
    · exact (h6 _ h).elim
    · exact (h9 _ h).elim
    · obtain ⟨a, b, h⟩ := h12 _ h; cases h
    · rcases h14 _ h with ⟨a, b, h⟩ | ⟨a, b, h⟩ | ⟨a, b, h⟩ | h | ⟨a, h⟩ <;> cases h
    · exact ⟨n1, n2⟩

/-- **C74** In the 3-d view all three components are drawn, on one set of axes, which is opened before anything is drawn.
(The first figure stays empty.) -/
theorem C74_space_picture {auto : List (Cmd F) → (F × F) × (F × F)} {m : Model F} {contour : ContourArg F}
    {lim : LimScale F} {scale : F} {cbar : CbarArg F} {inc : Int} {cmds : List (Cmd F)}
    (hh : drawModel auto m .d3 contour lim scale cbar inc = .ok cmds) :
    ∃ d, pModel m none inc = .ok d ∧
      (∀ x0 x1 y0 y1 z0 z1, Cmd.arrow3 x0 x1 y0 y1 z0 z1 ∈ cmds ↔ WantedArrow3 d.loads d.points scale x0 x1 y0 y1 z0 z1) ∧
      (arrowCmds cmds).length = loadedCount [0, 1, 2] d.loads d.points ∧
      (∃ pts, markers cmds = [.marks3 pts] ∧ Projected3 d.points pts) ∧
      (barLines cmds).length = d.segments.length ∧
      (∀ (k : Nat) (s : List F × List F), d.segments[k]? = some s →
        ∃ cmd c, (barLines cmds)[k]? = some cmd ∧ BarLine3 s.1 s.2 c cmd) ∧
      (∃ tail, cmds = .figure :: .axes3 :: tail ∧ Cmd.axes3 ∉ tail ∧ Cmd.figure ∉ tail) ∧
      ∀ c1 c2 c3, Cmd.axisNames3 c1 c2 c3 ∈ cmds →
        letterComponent c1 = some 0 ∧ letterComponent c2 = some 1 ∧ letterComponent c3 = some 2 := by
  obtain ⟨d, res, r, con, A, L, B, Z, pts, h1, h2, h3, h4, rfl, h6, h7, h8, h9, h10, h11, h12, h13, h14, h15, A', ax, h16, h17, -⟩ :=
    space_parts hh
  have n3 : (axisNames .d3 : List (Cmd F)) = [.axisNames3 'x' 'y' 'z'] := rfl
  have hL : ∀ p : Cmd F → Bool, (Cmd.figure :: .axes3 :: (A ++ [Cmd.marks3 pts] ++ L ++ B) ++ Z ++ axisNames .d3).filter p =
      [Cmd.figure, .axes3].filter p ++ (A.filter p ++ [Cmd.marks3 pts].filter p ++ L.filter p ++ B.filter p) ++ Z.filter p ++
        [Cmd.axisNames3 'x' 'y' 'z'].filter p := by
    intro p
    rw [n3, show Cmd.figure :: .axes3 :: (A ++ [Cmd.marks3 pts] ++ L ++ B) =
      [Cmd.figure, .axes3] ++ (A ++ [Cmd.marks3 pts] ++ L ++ B) from rfl]
    simp only [List.filter_append]
  have hbar : barLines (Cmd.figure :: .axes3 :: (A ++ [Cmd.marks3 pts] ++ L ++ B) ++ Z ++ axisNames .d3) = barLines L := by
    unfold barLines
    rw [hL, limits_filter h14, bars_filter h12, force3_filter h6]
    · simp
    all_goals (intros; rfl)
  refine ⟨d, h1, ?_, ?_, ⟨pts, ?_, h8⟩, ?_, ?_, ⟨(A ++ [Cmd.marks3 pts] ++ L ++ B) ++ Z ++ axisNames .d3, rfl, ?_, ?_⟩, ?_⟩
  · intro x0 x1 y0 y1 z0 z1
    rw [← h7, n3]
    simp only [List.cons_append, List.mem_cons, List.mem_append, reduceCtorEq, false_or, or_false, List.not_mem_nil]
    constructor
    · rintro (((h | h) | h) | h)
      · exact h
      · exact (h9 _ h).elim
      · obtain ⟨a, b, h⟩ := h12 _ h; cases h
      · rcases h14 _ h with ⟨a, b, h⟩ | ⟨a, b, h⟩ | ⟨a, b, h⟩ | h | ⟨a, h⟩ <;> cases h
    · intro h
      exact .inl (.inl (.inl h))
  · rw [← forceLoop_count3 h16, h17]
    unfold arrowCmds
    rw [hL, limits_filter h14, bars_filter h12, lines_filter h9]
    · simp
    all_goals (intros; rfl)
  · unfold markers
    rw [hL, limits_filter h14, bars_filter h12, lines_filter h9, force3_filter h6]
    · simp
    all_goals (intros; rfl)
  · rw [hbar, h10]
  · intro k s hs
    obtain ⟨cmd, c, k1, -, k3⟩ := h11 k s hs
    exact ⟨cmd, c, by rw [hbar, k1], k3⟩
  · rw [n3]
    simp only [List.mem_cons, List.mem_append, reduceCtorEq, or_false, List.not_mem_nil]
    rintro (((h | h) | h) | h)
    · exact (h6 _ h).elim
    · exact (h9 _ h).elim
    · obtain ⟨a, b, h⟩ := h12 _ h; cases h
    · rcases h14 _ h with ⟨a, b, h⟩ | ⟨a, b, h⟩ | ⟨a, b, h⟩ | h | ⟨a, h⟩ <;> cases h
  · rw [n3]
    simp only [List.mem_cons, List.mem_append, reduceCtorEq, or_false, List.not_mem_nil]
    rintro (((h | h) | h) | h)
    · exact (h6 _ h).elim
    · exact (h9 _ h).elim
    · obtain ⟨a, b, h⟩ := h12 _ h; cases h
    · rcases h14 _ h with ⟨a, b, h⟩ | ⟨a, b, h⟩ | ⟨a, b, h⟩ | h | ⟨a, h⟩ <;> cases h
  · intro e1 e2 e3 he
    rw [n3] at he
    simp only [List.cons_append, List.mem_cons, List.mem_append, reduceCtorEq, false_or, or_false, List.not_mem_nil,
      Cmd.axisNames3.injEq] at he
    rcases he with (((h | h) | h) | h) | ⟨rfl, rfl, rfl⟩
    · exact (h6 _ h).elim
    · exact (h9 _ h).elim
    · obtain ⟨a, b, h⟩ := h12 _ h; cases h
    · rcases h14 _ h with ⟨a, b, h⟩ | ⟨a, b, h⟩ | ⟨a, b, h⟩ | h | ⟨a, h⟩ <;> cases h
    · exact ⟨rfl, rfl, rfl⟩

/-- **C74** Any other name of a view raises; no picture is returned. -/
theorem C74_unknown_view {auto : List (Cmd F) → (F × F) × (F × F)} {m : Model F} {contour : ContourArg F}
    {lim : LimScale F} {scale : F} {cbar : CbarArg F} {inc : Int} {cmds : List (Cmd F)} :
    drawModel auto m .other contour lim scale cbar inc ≠ .ok cmds := by
  intro hh
  obtain ⟨nt, et, ft, res, r, ef, lpf, loads, con, A, ax, marks, L, B, Z, -, -, -, -, -, -, -, -, -, -, h11, -⟩ := drawModel_ok hh
  unfold plotNodes at h11
  rw [if_neg (by decide)] at h11
  obtain ⟨x, h, -⟩ := py_bind_eq_ok.1 h11
  cases h

/-- What the examples show of a picture. -/
def showDraw (view : PlotView) (contour : ContourArg ℚ) (lim : LimScale ℚ) (scale : ℚ) (cbar : CbarArg ℚ) (inc : Int)
    (r : Py (Model ℚ)) : Py (List (Cmd ℚ)) := do
  let m ← r
  drawModel boxAround m view contour lim scale cbar inc

/-- The bar of the example at its last increment: elongated from 1 to 2, load 1, drawn with half a unit per unit of load. -/
example : showDraw .xz .none (.scalar 2) (1 / 2) .auto (-1) (buildRun 1 (exBarModel 1 [1])) =
    .ok [.figure, .arrow2 2 0 (1 / 2) 0, .ghost2 2 (5 / 2) 0 0, .marks2 [(0, 0), (2, 0)], .line2 0 2 0 0 .plain,
      .xlim (-5 / 4) (15 / 4), .ylim (-5 / 2) (5 / 2), .aspectEqual, .axisNames2 'x' 'z'] := by decide +kernel

example : showDraw .d3 (.name .force) (.scalar 1) (1 / 2) .auto (-1) (buildRun 1 (exBarModel 1 [1])) =
    .ok [.figure, .axes3, .ghost3 2 (5 / 2) 0 0 0 0, .arrow3 2 (5 / 2) 0 0 0 0, .marks3 [(0, 0, 0), (2, 0, 0)],
      .line3 0 2 0 0 0 0 .halo, .line3 0 2 0 0 0 0 (.shade 1), .colorbar (-1) 1, .xlim 0 (5 / 2), .ylim (-5 / 4) (5 / 4),
      .xlim (-5 / 2) (5 / 2), .ylim (-5 / 2) (5 / 2), .zlim (-5 / 2) (5 / 2), .frame (5 / 2), .axisNames3 'x' 'y' 'z'] := by
  decide +kernel

example : PlaneView .xz 0 2 ∧ PlaneView .xy 0 1 ∧ PlaneView .yz 1 2 := by
  unfold PlaneView
  decide

example : showDraw .other .none (.scalar 2) 1 .auto (-1) (buildRun 1 (exBarModel 1 [1])) = .error .unboundLocal := by
  decide +kernel

end TrussPy
