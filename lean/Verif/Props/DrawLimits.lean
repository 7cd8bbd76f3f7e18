import Verif.Props.Draw
import Mathlib.Tactic.Ring
/-!
# C75: nothing that is drawn is cut off
-/

set_option linter.unusedSectionVars false

namespace TrussPy

variable {F : Type} [Zero F] [One F] [Add F] [Sub F] [Mul F] [Div F] [Neg F] [Flt F]

/-- The selection used by `finalX`. -/
def xlimOf : Cmd F → Option (F × F)
  | .xlim a b => some (a, b)
  | _ => none

/-- The selection used by `finalY`. -/
def ylimOf : Cmd F → Option (F × F)
  | .ylim a b => some (a, b)
  | _ => none

/-- The selection used by `finalZ`. -/
def zlimOf : Cmd F → Option (F × F)
  | .zlim a b => some (a, b)
  | _ => none

theorem finalX_eq (l : List (Cmd F)) : finalX l = (l.filterMap xlimOf).getLast? := rfl
theorem finalY_eq (l : List (Cmd F)) : finalY l = (l.filterMap ylimOf).getLast? := rfl
theorem finalZ_eq (l : List (Cmd F)) : finalZ l = (l.filterMap zlimOf).getLast? := rfl

/-- Only the commands of `setLimits` count for the limits. -/
theorem final_limits {P Z N : List (Cmd F)} (hP : ∀ c ∈ P, xlimOf c = none ∧ ylimOf c = none ∧ zlimOf c = none)
    (hN : ∀ c ∈ N, xlimOf c = none ∧ ylimOf c = none ∧ zlimOf c = none) :
    finalX (P ++ Z ++ N) = finalX Z ∧ finalY (P ++ Z ++ N) = finalY Z ∧ finalZ (P ++ Z ++ N) = finalZ Z := by
  have key : ∀ f : Cmd F → Option (F × F), (∀ c ∈ P, f c = none) → (∀ c ∈ N, f c = none) →
      (P ++ Z ++ N).filterMap f = Z.filterMap f := by
    intro f h1 h2
    rw [List.filterMap_append, List.filterMap_append, List.filterMap_eq_nil_iff.2 h1, List.filterMap_eq_nil_iff.2 h2]
    simp
  rw [finalX_eq, finalY_eq, finalZ_eq, key _ (fun c h => (hP c h).1) (fun c h => (hN c h).1),
    key _ (fun c h => (hP c h).2.1) (fun c h => (hN c h).2.1), key _ (fun c h => (hP c h).2.2) (fun c h => (hN c h).2.2)]
  exact ⟨rfl, rfl, rfl⟩

/-- The limits of a returning `plot_model` are the last ones set by `plot_elems` from what matplotlib has chosen for the
picture so far. -/
theorem drawn_limits {auto : List (Cmd F) → (F × F) × (F × F)} {m : Model F} {view : PlotView} {contour : ContourArg F}
    {lim : LimScale F} {scale : F} {cbar : CbarArg F} {inc : Int} {cmds : List (Cmd F)}
    (hh : drawModel auto m view contour lim scale cbar inc = .ok cmds) :
    ∃ P Z, cmds = P ++ Z ++ axisNames view ∧ setLimits view lim (auto P).1 (auto P).2 = .ok Z ∧ (∀ c ∈ Z, IsLimit c) ∧
      finalX cmds = finalX Z ∧ finalY cmds = finalY Z ∧ finalZ cmds = finalZ Z ∧
      ((∃ h v, PlaneView view h v) ∨ view = .d3) := by
  have hview : (∃ h v, PlaneView view h v) ∨ view = .d3 ∨ view = .other := by
    cases view
    · exact .inl ⟨0, 2, .inl ⟨rfl, rfl, rfl⟩⟩
    · exact .inl ⟨0, 1, .inr (.inl ⟨rfl, rfl, rfl⟩)⟩
    · exact .inl ⟨1, 2, .inr (.inr ⟨rfl, rfl, rfl⟩)⟩
    · exact .inr (.inl rfl)
    · exact .inr (.inr rfl)
  have hN : ∀ c ∈ (axisNames view : List (Cmd F)), xlimOf c = none ∧ ylimOf c = none ∧ zlimOf c = none := by
    intro c hc
    cases view <;> simp [axisNames] at hc <;> subst hc <;> exact ⟨rfl, rfl, rfl⟩
  rcases hview with ⟨h, v, hv⟩ | rfl | rfl
  · obtain ⟨d, res, r, con, A, L, B, Z, pts, h1, h2, h3, h4, rfl, h6, h7, h8, h9, h10, h11, h12, h13, h14, h15, ax, h16⟩ :=
      plane_parts hv hh
    have hP : ∀ c ∈ Cmd.figure :: (A ++ [Cmd.marks2 pts] ++ L ++ B), xlimOf c = none ∧ ylimOf c = none ∧ zlimOf c = none := by
      intro c hc
      simp only [List.mem_cons, List.mem_append, List.not_mem_nil, or_false] at hc
      rcases hc with rfl | ((h | rfl) | h) | h
      · exact ⟨rfl, rfl, rfl⟩
      · have := h6 c h
        cases c <;> first | exact this.elim | exact ⟨rfl, rfl, rfl⟩
      · exact ⟨rfl, rfl, rfl⟩
      · have := h9 c h
        cases c <;> first | exact this.elim | exact ⟨rfl, rfl, rfl⟩
      · obtain ⟨a, b, rfl⟩ := h12 c h
        exact ⟨rfl, rfl, rfl⟩
    obtain ⟨f1, f2, f3⟩ := final_limits (Z := Z) hP hN
    exact ⟨_, Z, rfl, h15, h14, f1, f2, f3, .inl ⟨h, v, hv⟩⟩
  · obtain ⟨d, res, r, con, A, L, B, Z, pts, h1, h2, h3, h4, rfl, h6, h7, h8, h9, h10, h11, h12, h13, h14, h15, -⟩ :=
      space_parts hh
    have hP : ∀ c ∈ Cmd.figure :: .axes3 :: (A ++ [Cmd.marks3 pts] ++ L ++ B),
        xlimOf c = none ∧ ylimOf c = none ∧ zlimOf c = none := by
      intro c hc
      simp only [List.mem_cons, List.mem_append, List.not_mem_nil, or_false] at hc
      rcases hc with rfl | rfl | ((h | rfl) | h) | h
      · exact ⟨rfl, rfl, rfl⟩
      · exact ⟨rfl, rfl, rfl⟩
      · have := h6 c h
        cases c <;> first | exact this.elim | exact ⟨rfl, rfl, rfl⟩
      · exact ⟨rfl, rfl, rfl⟩
      · have := h9 c h
        cases c <;> first | exact this.elim | exact ⟨rfl, rfl, rfl⟩
      · obtain ⟨a, b, rfl⟩ := h12 c h
        exact ⟨rfl, rfl, rfl⟩
    obtain ⟨f1, f2, f3⟩ := final_limits (Z := Z) hP hN
    exact ⟨_, Z, rfl, h15, h14, f1, f2, f3, .inr rfl⟩
  · exact (C74_unknown_view hh).elim

/-- Limits set by `plot_elems` in a plane view for a scale from 1 to 100. -/
theorem setLimits_plane_real {view : PlotView} {h v : Nat} (hv : PlaneView view h v) {s : ℝ} (h1 : 1 ≤ s) (h2 : s < 100)
    (lx ly : ℝ × ℝ) : setLimits view (.scalar s) lx ly = .ok
      [.xlim ((lx.2 + lx.1) / 2 - s * max ((lx.2 - lx.1) / 2) ((ly.2 - ly.1) / 2))
          ((lx.2 + lx.1) / 2 + s * max ((lx.2 - lx.1) / 2) ((ly.2 - ly.1) / 2)),
        .ylim ((ly.2 + ly.1) / 2 - s * max ((lx.2 - lx.1) / 2) ((ly.2 - ly.1) / 2))
          ((ly.2 + ly.1) / 2 + s * max ((lx.2 - lx.1) / 2) ((ly.2 - ly.1) / 2)), .aspectEqual] := by
  have e1 : Flt.lt s (0 : ℝ) = false := decide_eq_false (by linarith)
  have e2 : Flt.lt (Flt.abs s) (Flt.ofInt 100 : ℝ) = true :=
    decide_eq_true (by
      show |s| < ((100 : Int) : ℝ)
      rw [abs_of_pos (by linarith)]
      norm_num
      exact h2)
  have e3 : ∀ a b : ℝ, pyMax2 a b = max a b := by
    intro a b
    unfold pyMax2
    by_cases h : a < b
    · rw [if_pos (show Flt.lt a b = true from decide_eq_true h), max_eq_right h.le]
    · rw [if_neg (by rw [show Flt.lt a b = false from decide_eq_false h]; simp), max_eq_left (not_lt.1 h)]
  have e4 : (Flt.ofInt 2 : ℝ) = 2 := by
    show ((2 : Int) : ℝ) = 2
    norm_num
  unfold setLimits
  simp only [e1, e2, e3, e4, if_neg hv.not_d3, Bool.false_and, if_true, Bool.false_eq_true, if_false, List.append_nil]
  rfl

/-- A wider interval. -/
theorem widened {a b c s : ℝ} (hab : a ≤ b) (hc : (b - a) / 2 ≤ c) (hs : 1 ≤ s) :
    (b + a) / 2 - s * c ≤ a ∧ b ≤ (b + a) / 2 + s * c := by
  have h0 : 0 ≤ c := by linarith
  have : c ≤ s * c := by nlinarith
  constructor <;> linarith

theorem Inside2.mono {lx ly lx' ly' : ℝ × ℝ} (hx : lx'.1 ≤ lx.1 ∧ lx.2 ≤ lx'.2) (hy : ly'.1 ≤ ly.1 ∧ ly.2 ≤ ly'.2) {c : Cmd ℝ}
    (h : Inside2 lx ly c) : Inside2 lx' ly' c := by
  obtain ⟨a, b⟩ := hx
  obtain ⟨a', b'⟩ := hy
  cases c <;> try trivial
  case marks2 pts =>
    intro p hp
    obtain ⟨⟨p1, p2⟩, p3, p4⟩ := h p hp
    exact ⟨⟨a.trans p1, p2.trans b⟩, a'.trans p3, p4.trans b'⟩
  all_goals
    obtain ⟨⟨⟨p1, p2⟩, p3, p4⟩, ⟨p5, p6⟩, p7, p8⟩ := h
    exact ⟨⟨⟨a.trans p1, p2.trans b⟩, a.trans p3, p4.trans b⟩, ⟨a'.trans p5, p6.trans b'⟩, a'.trans p7, p8.trans b'⟩

theorem Inside3.mono {lx ly lx' ly' : ℝ × ℝ} (hx : lx'.1 ≤ lx.1 ∧ lx.2 ≤ lx'.2) (hy : ly'.1 ≤ ly.1 ∧ ly.2 ≤ ly'.2) {c : Cmd ℝ}
    (h : Inside3 lx ly c) : Inside3 lx' ly' c := by
  obtain ⟨a, b⟩ := hx
  obtain ⟨a', b'⟩ := hy
  cases c <;> try trivial
  case marks3 pts =>
    intro p hp
    obtain ⟨⟨p1, p2⟩, p3, p4⟩ := h p hp
    exact ⟨⟨a.trans p1, p2.trans b⟩, a'.trans p3, p4.trans b'⟩
  all_goals
    obtain ⟨⟨⟨p1, p2⟩, p3, p4⟩, ⟨p5, p6⟩, p7, p8⟩ := h
    exact ⟨⟨⟨a.trans p1, p2.trans b⟩, a.trans p3, p4.trans b⟩, ⟨a'.trans p5, p6.trans b'⟩, a'.trans p7, p8.trans b'⟩

/-- Every arrow of a plane view comes with a transparent line from its foot to its tip. -/
theorem arrow_ghost {view : PlotView} {h v : Nat} (hv : PlaneView view h v) {scale : F} :
    ∀ {ps : List (List F × List F)} {ax ax' : Bool} {cmds : List (Cmd F)}, forceLoop view scale ps ax = .ok (cmds, ax') →
      ∀ x y dx dy, Cmd.arrow2 x y dx dy ∈ cmds → Cmd.ghost2 x (x + dx) y (y + dy) ∈ cmds := by
  intro ps
  induction ps with
  | nil =>
    intro ax ax' cmds hh
    cases hh
    simp
  | cons q ps ih =>
    obtain ⟨f, X⟩ := q
    intro ax ax' cmds hh
    rw [forceLoop] at hh
    by_cases hz : (f.all fun v => Flt.eq v 0) = true
    · rw [if_pos hz] at hh
      exact ih hh
    · rw [if_neg hz] at hh
      obtain ⟨k, hk⟩ := hv.force
      rw [hk] at hh
      simp only [py_bind_ok] at hh
      obtain ⟨xx, e1, hh⟩ := py_bind_eq_ok.1 hh
      obtain ⟨yy, e2, hh⟩ := py_bind_eq_ok.1 hh
      obtain ⟨fi, e3, hh⟩ := py_bind_eq_ok.1 hh
      obtain ⟨fj, e4, hh⟩ := py_bind_eq_ok.1 hh
      rw [if_neg hv.not_d3] at hh
      obtain ⟨⟨cs, ax1⟩, e5, hh⟩ := py_bind_eq_ok.1 hh
      cases hh
      intro x y dx dy hm
      rcases List.mem_append.1 hm with hm | hm
      · apply List.mem_append_left
        unfold arrows2 at hm ⊢
        rcases List.mem_append.1 hm with hm | hm
        · apply List.mem_append_left
          split at hm
          · simp at hm
          · next hf =>
            rw [if_neg hf]
            simp only [List.mem_cons, List.not_mem_nil, or_false, reduceCtorEq, Cmd.arrow2.injEq] at hm
            obtain ⟨rfl, rfl, rfl, rfl⟩ := hm
            simp
        · apply List.mem_append_right
          split at hm
          · simp at hm
          · next hf =>
            rw [if_neg hf]
            simp only [List.mem_cons, List.not_mem_nil, or_false, reduceCtorEq, Cmd.arrow2.injEq] at hm
            obtain ⟨rfl, rfl, rfl, rfl⟩ := hm
            simp
      · exact List.mem_append_right _ (ih e5 x y dx dy hm)

/-- **C75** (plane views) If `lim_scale` is at least 1 (and less than 100, from where on matplotlib's limits are kept) nothing
is cut off: every marker, every line and every arrow, from foot to tip, lies inside the axis limits; both axes have the same
extent and the same unit, so lengths and angles are not distorted. -/
theorem C75_plane_limits {auto : List (Cmd ℝ) → (ℝ × ℝ) × (ℝ × ℝ)} (ha : Autoscales auto) {m : Model ℝ} {view : PlotView}
    {h v : Nat} (hv : PlaneView view h v) {contour : ContourArg ℝ} {s scale : ℝ} (h1 : 1 ≤ s) (h2 : s < 100)
    {cbar : CbarArg ℝ} {inc : Int} {cmds : List (Cmd ℝ)}
    (hh : drawModel auto m view contour (.scalar s) scale cbar inc = .ok cmds) :
    ∃ lx ly, finalX cmds = some lx ∧ finalY cmds = some ly ∧
      (∀ c ∈ cmds, Inside2 lx ly c ∧ ArrowInside2 lx ly c) ∧ lx.2 - lx.1 = ly.2 - ly.1 ∧ Cmd.aspectEqual ∈ cmds := by
  obtain ⟨P, Z, e, h3, h4, h5, h6, -, -⟩ := drawn_limits hh
  rw [setLimits_plane_real hv h1 h2] at h3
  have h3 := (Except.ok.inj h3).symm
  set M := max (((auto P).1.2 - (auto P).1.1) / 2) (((auto P).2.2 - (auto P).2.1) / 2) with hM
  have w1 := widened (ha.ascX P) (le_max_left _ _ : _ ≤ M) h1
  have w2 := widened (ha.ascY P) (le_max_right _ _ : _ ≤ M) h1
  refine ⟨(((auto P).1.2 + (auto P).1.1) / 2 - s * M, ((auto P).1.2 + (auto P).1.1) / 2 + s * M),
    (((auto P).2.2 + (auto P).2.1) / 2 - s * M, ((auto P).2.2 + (auto P).2.1) / 2 + s * M),
    by rw [h5, h3]; rfl, by rw [h6, h3]; rfl, ?_, by simp only; ring, by rw [e, h3]; simp⟩
  obtain ⟨d, res, r, con, A, L, B, Z', pts, k1, k2, k3, k4, k5, k6, k7, k8, k9, k10, k11, k12, k13, k14, k15, ax, k16⟩ :=
    plane_parts hv hh
  have hP : P = .figure :: (A ++ [.marks2 pts] ++ L ++ B) := by
    have h0 := setLimits_plane_real hv h1 h2 (auto (.figure :: (A ++ [.marks2 pts] ++ L ++ B))).1
      (auto (.figure :: (A ++ [.marks2 pts] ++ L ++ B))).2
    rw [k15] at h0
    have hl : Z'.length = Z.length := by
      rw [Except.ok.inj h0, h3]
      rfl
    rw [e, List.append_assoc, List.append_assoc] at k5
    exact (List.append_inj' k5 (by simp [hl])).1
  have hin : ∀ c ∈ P, Inside2 (auto P).1 (auto P).2 c := fun c hc => ha.plane P c hc
  have hout : ∀ c ∈ Z ++ axisNames view, (∀ lx ly, Inside2 lx ly c) ∧ ∀ lx ly, ArrowInside2 lx ly c := by
    intro c hc
    rcases List.mem_append.1 hc with hc | hc
    · rcases h4 c hc with ⟨a, b, rfl⟩ | ⟨a, b, rfl⟩ | ⟨a, b, rfl⟩ | rfl | ⟨a, rfl⟩ <;>
        exact ⟨fun _ _ => trivial, fun _ _ => trivial⟩
    · obtain ⟨c1, c2, -, -, n3⟩ := axisNames_plane (F := ℝ) hv
      rw [n3, List.mem_singleton] at hc
      subst hc
      exact ⟨fun _ _ => trivial, fun _ _ => trivial⟩
  intro c hc
  rw [e, List.append_assoc] at hc
  have hc0 := List.mem_append.1 hc
  clear hc
  rcases hc0 with hc | hc
  · refine ⟨(hin c hc).mono w1 w2, ?_⟩
    cases c <;> try trivial
    case arrow2 x y dx dy =>
      have hA : Cmd.arrow2 x y dx dy ∈ A := by
        rw [hP] at hc
        simp only [List.mem_cons, List.mem_append, reduceCtorEq, false_or, or_false, List.not_mem_nil] at hc
        rcases hc with (h | h) | h
        · exact h
        · exact (k9 _ h).elim
        · obtain ⟨a, b, h⟩ := k12 _ h; cases h
      have hg : Cmd.ghost2 x (x + dx) y (y + dy) ∈ P := by
        rw [hP]
        have := arrow_ghost hv k16 x y dx dy hA
        simp [this]
      exact (hin _ hg).mono w1 w2
  · obtain ⟨o1, o2⟩ := hout c hc
    exact ⟨o1 _ _, o2 _ _⟩

/-- Limits set by `plot_elems` in the 3-d view for a scale from 1 to 100. -/
theorem setLimits_space_real {s : ℝ} (h1 : 1 ≤ s) (h2 : s < 100) (lx ly : ℝ × ℝ) :
    ∃ M a b c d, setLimits .d3 (.scalar s) lx ly =
      .ok [.xlim a b, .ylim c d, .xlim (-M) M, .ylim (-M) M, .zlim (-M) M, .frame M] ∧
      (-M ≤ lx.1 ∧ lx.2 ≤ M) ∧ -M ≤ ly.1 ∧ ly.2 ≤ M := by
  have e1 : Flt.lt s (0 : ℝ) = false := decide_eq_false (by linarith)
  have e2 : Flt.lt (Flt.abs s) (Flt.ofInt 100 : ℝ) = true :=
    decide_eq_true (by
      show |s| < ((100 : Int) : ℝ)
      rw [abs_of_pos (by linarith)]
      norm_num
      exact h2)
  have e3 : ∀ a b : ℝ, a ≤ pyMax2 a b ∧ b ≤ pyMax2 a b := by
    intro a b
    unfold pyMax2
    by_cases h : a < b
    · rw [if_pos (show Flt.lt a b = true from decide_eq_true h)]; exact ⟨h.le, le_rfl⟩
    · rw [if_neg (by rw [show Flt.lt a b = false from decide_eq_false h]; simp)]; exact ⟨le_rfl, not_lt.1 h⟩
  unfold setLimits
  simp only [e1, e2, if_true, Bool.false_eq_true, if_false]
  refine ⟨_, _, _, _, _, rfl, ?_⟩
  set N := pyMax2 (pyMax2 (pyMax2 (Flt.abs lx.1) (Flt.abs lx.2)) (Flt.abs ly.1)) (Flt.abs ly.2) with hN
  have q4 := (e3 (pyMax2 (pyMax2 (Flt.abs lx.1) (Flt.abs lx.2)) (Flt.abs ly.1)) (Flt.abs ly.2)).2
  have q0 := (e3 (pyMax2 (pyMax2 (Flt.abs lx.1) (Flt.abs lx.2)) (Flt.abs ly.1)) (Flt.abs ly.2)).1
  have q3 := (e3 (pyMax2 (Flt.abs lx.1) (Flt.abs lx.2)) (Flt.abs ly.1)).2
  have q5 := (e3 (pyMax2 (Flt.abs lx.1) (Flt.abs lx.2)) (Flt.abs ly.1)).1
  have q1 := (e3 (Flt.abs lx.1) (Flt.abs lx.2)).1
  have q2 := (e3 (Flt.abs lx.1) (Flt.abs lx.2)).2
  rw [← hN] at q4 q0
  have r1 : |lx.1| ≤ N := q1.trans (q5.trans q0)
  have r2 : |lx.2| ≤ N := q2.trans (q5.trans q0)
  have r3 : |ly.1| ≤ N := q3.trans q0
  have r4 : |ly.2| ≤ N := q4
  have hN0 : 0 ≤ N := (abs_nonneg _).trans r1
  have hs : N ≤ s * N := by nlinarith
  have a1 := neg_le_of_abs_le r1
  have a2 := le_of_abs_le r2
  have a3 := neg_le_of_abs_le r3
  have a4 := le_of_abs_le r4
  refine ⟨⟨?_, ?_⟩, ?_, ?_⟩ <;> linarith

/-- Every arrow of the 3-d view comes with a transparent line from its foot to its tip. -/
theorem arrow_ghost3 {scale : F} :
    ∀ {ps : List (List F × List F)} {ax ax' : Bool} {cmds : List (Cmd F)}, forceLoop .d3 scale ps ax = .ok (cmds, ax') →
      ∀ x0 x1 y0 y1 z0 z1, Cmd.arrow3 x0 x1 y0 y1 z0 z1 ∈ cmds → Cmd.ghost3 x0 x1 y0 y1 z0 z1 ∈ cmds := by
  intro ps
  induction ps with
  | nil =>
    intro ax ax' cmds hh
    cases hh
    simp
  | cons q ps ih =>
    obtain ⟨f, X⟩ := q
    intro ax ax' cmds hh
    rw [forceLoop] at hh
    by_cases hz : (f.all fun v => Flt.eq v 0) = true
    · rw [if_pos hz] at hh
      exact ih hh
    · rw [if_neg hz] at hh
      rw [show forceAxes PlotView.d3 = .ok (0, 1, 2) from rfl] at hh
      simp only [py_bind_ok] at hh
      obtain ⟨xx, e1, hh⟩ := py_bind_eq_ok.1 hh
      obtain ⟨yy, e2, hh⟩ := py_bind_eq_ok.1 hh
      obtain ⟨fi, e3, hh⟩ := py_bind_eq_ok.1 hh
      obtain ⟨fj, e4, hh⟩ := py_bind_eq_ok.1 hh
      rw [if_pos trivial] at hh
      obtain ⟨zz, e6, hh⟩ := py_bind_eq_ok.1 hh
      obtain ⟨fk, e7, hh⟩ := py_bind_eq_ok.1 hh
      obtain ⟨⟨cs, ax1⟩, e5, hh⟩ := py_bind_eq_ok.1 hh
      cases hh
      intro x0 x1 y0 y1 z0 z1 hm
      have key : ∀ (b : Bool) (a0 a1 b0 b1 c0 c1 : F),
          Cmd.arrow3 x0 x1 y0 y1 z0 z1 ∈ (if b then [] else [Cmd.ghost3 a0 a1 b0 b1 c0 c1, .arrow3 a0 a1 b0 b1 c0 c1]) →
          Cmd.ghost3 x0 x1 y0 y1 z0 z1 ∈ (if b then [] else [Cmd.ghost3 a0 a1 b0 b1 c0 c1, .arrow3 a0 a1 b0 b1 c0 c1]) := by
        intro b a0 a1 b0 b1 c0 c1
        cases b
        · simp
        · simp
      rcases List.mem_append.1 hm with hm | hm
      · apply List.mem_append_left
        rcases List.mem_append.1 hm with hm | hm
        · unfold openAxes at hm
          split at hm <;> simp at hm
        · apply List.mem_append_right
          unfold arrows3 at hm ⊢
          simp only [List.mem_append] at hm ⊢
          rcases hm with (hm | hm) | hm
          · exact .inl (.inl (key _ _ _ _ _ _ _ hm))
          · exact .inl (.inr (key _ _ _ _ _ _ _ hm))
          · exact .inr (key _ _ _ _ _ _ _ hm)
      · exact List.mem_append_right _ (ih e5 _ _ _ _ _ _ hm)

/-- **C75** (3-d view, horizontal directions) Every marker, line and arrow, from foot to tip, has its x and
y coordinates inside the axis limits, and the three axes have the same extent.
Missing from the full statement: the z coordinates, see `C75_height_counterexample`: matplotlib's z limits are never asked for. -/
theorem C75_space_limits_partial {auto : List (Cmd ℝ) → (ℝ × ℝ) × (ℝ × ℝ)} (ha : Autoscales auto) {m : Model ℝ}
    {contour : ContourArg ℝ} {s scale : ℝ} (h1 : 1 ≤ s) (h2 : s < 100) {cbar : CbarArg ℝ} {inc : Int} {cmds : List (Cmd ℝ)}
    (hh : drawModel auto m .d3 contour (.scalar s) scale cbar inc = .ok cmds) :
    ∃ M, finalX cmds = some (-M, M) ∧ finalY cmds = some (-M, M) ∧ finalZ cmds = some (-M, M) ∧
      (∀ c ∈ cmds, Inside3 (-M, M) (-M, M) c) ∧
      ∀ x0 x1 y0 y1 z0 z1, Cmd.arrow3 x0 x1 y0 y1 z0 z1 ∈ cmds →
        ((-M ≤ x0 ∧ x0 ≤ M) ∧ -M ≤ x1 ∧ x1 ≤ M) ∧ (-M ≤ y0 ∧ y0 ≤ M) ∧ -M ≤ y1 ∧ y1 ≤ M := by
  obtain ⟨P, Z, e, h3, h4, h5, h6, h7, -⟩ := drawn_limits hh
  obtain ⟨M, a, b, c, d, g1, g2, g3⟩ := setLimits_space_real h1 h2 (auto P).1 (auto P).2
  rw [h3] at g1
  have g1 := Except.ok.inj g1
  refine ⟨M, by rw [h5, g1]; rfl, by rw [h6, g1]; rfl, by rw [h7, g1]; rfl, ?_⟩
  have hin : ∀ c ∈ cmds, Inside3 (-M, M) (-M, M) c := ?_
  · refine ⟨hin, ?_⟩
    intro x0 x1 y0 y1 z0 z1 hm
    obtain ⟨d, res, r, con, A, L, B, Z', pts, k1, k2, k3, k4, k5, k6, k7, k8, k9, k10, k11, k12, k13, k14, k15, A', ax, k16, k17,
      k18⟩ := space_parts hh
    have hA : Cmd.arrow3 x0 x1 y0 y1 z0 z1 ∈ A := by
      rw [k5] at hm
      simp only [List.cons_append, List.mem_cons, List.mem_append, reduceCtorEq, false_or, or_false, List.not_mem_nil, axisNames] at hm
      rcases hm with ((h | h) | h) | h
      · exact h
      · exact (k9 _ h).elim
      · obtain ⟨a, b, h⟩ := k12 _ h; cases h
      · rcases k14 _ h with ⟨a, b, h⟩ | ⟨a, b, h⟩ | ⟨a, b, h⟩ | h | ⟨a, h⟩ <;> cases h
    have hA' : Cmd.arrow3 x0 x1 y0 y1 z0 z1 ∈ A' := by
      have : Cmd.arrow3 x0 x1 y0 y1 z0 z1 ∈ arrowCmds A := List.mem_filter.2 ⟨hA, rfl⟩
      rw [← k17] at this
      exact (List.mem_filter.1 this).1
    have hg : Cmd.ghost3 x0 x1 y0 y1 z0 z1 ∈ cmds := by
      rcases k18 _ (arrow_ghost3 k16 _ _ _ _ _ _ hA') with h | h
      · cases h
      · rw [k5]
        simp [h]
    exact hin _ hg
  intro c hc
  rw [e, List.append_assoc] at hc
  rcases List.mem_append.1 hc with hc | hc
  · exact (ha.space P c hc).mono g2 g3
  · rcases List.mem_append.1 hc with hc | hc
    · rcases h4 c hc with ⟨a, b, rfl⟩ | ⟨a, b, rfl⟩ | ⟨a, b, rfl⟩ | rfl | ⟨a, rfl⟩ <;> trivial
    · simp [axisNames] at hc
      subst hc
      trivial

/-- **C75** Limits given as a tuple are used unchanged, whatever matplotlib would have chosen: four numbers for x and y, two
for both. -/
theorem C75_given_limits {auto : List (Cmd F) → (F × F) × (F × F)} {m : Model F} {view : PlotView} {contour : ContourArg F}
    {a b c d scale : F} {l : List F} (hl : l = [a, b, c, d] ∨ l = [a, b] ∧ c = a ∧ d = b) {cbar : CbarArg F} {inc : Int}
    {cmds : List (Cmd F)} (hh : drawModel auto m view contour (.tuple l) scale cbar inc = .ok cmds) :
    finalX cmds = some (a, b) ∧ finalY cmds = some (c, d) ∧ finalZ cmds = none := by
  obtain ⟨P, Z, e, h3, h4, h5, h6, h7, -⟩ := drawn_limits hh
  rcases hl with rfl | ⟨rfl, rfl, rfl⟩
  · have h3 := Except.ok.inj h3
    rw [h5, h6, h7, ← h3]
    exact ⟨rfl, rfl, rfl⟩
  · have h3 := Except.ok.inj h3
    rw [h5, h6, h7, ← h3]
    exact ⟨rfl, rfl, rfl⟩

/-- **C75** Six numbers are limits for x, y and z; they are possible in the 3-d view only. -/
theorem C75_six_limits {auto : List (Cmd F) → (F × F) × (F × F)} {m : Model F} {view : PlotView} {contour : ContourArg F}
    {a b c d f g scale : F} {cbar : CbarArg F} {inc : Int}
    {cmds : List (Cmd F)} (hh : drawModel auto m view contour (.tuple [a, b, c, d, f, g]) scale cbar inc = .ok cmds) :
    view = .d3 ∧ finalX cmds = some (a, b) ∧ finalY cmds = some (c, d) ∧ finalZ cmds = some (f, g) := by
  obtain ⟨P, Z, e, h3, h4, h5, h6, h7, -⟩ := drawn_limits hh
  unfold setLimits at h3
  simp only at h3
  split at h3
  · next hd =>
    have h3 := Except.ok.inj h3
    rw [h5, h6, h7, ← h3]
    exact ⟨hd, rfl, rfl, rfl⟩
  · cases h3

/-- Sizes of the drawn coordinate frames. -/
def frames (cmds : List (Cmd F)) : List F := cmds.filterMap fun | .frame m => some m | _ => none

/-- **C75** With six limits the coordinate frame has half the size of the smallest upper limit. -/
theorem C75_six_limits_frame {auto : List (Cmd ℝ) → (ℝ × ℝ) × (ℝ × ℝ)} {m : Model ℝ} {view : PlotView} {contour : ContourArg ℝ}
    {a b c d f g scale : ℝ} {cbar : CbarArg ℝ} {inc : Int}
    {cmds : List (Cmd ℝ)} (hh : drawModel auto m view contour (.tuple [a, b, c, d, f, g]) scale cbar inc = .ok cmds) :
    min (min b d) g / 2 ∈ frames cmds := by
  obtain ⟨P, Z, e, h3, h4, h5, h6, h7, -⟩ := drawn_limits hh
  have hmin : ∀ x y : ℝ, pyMin2 x y = min x y := by
    intro x y
    unfold pyMin2
    by_cases h : y < x
    · rw [if_pos (show Flt.lt y x = true from decide_eq_true h), min_eq_right h.le]
    · rw [if_neg (by rw [show Flt.lt y x = false from decide_eq_false h]; decide), min_eq_left (not_lt.1 h)]
  unfold setLimits at h3
  simp only at h3
  split at h3
  · have h3 := Except.ok.inj h3
    rw [e, ← h3, hmin, hmin]
    have h2 : (Flt.ofInt 1 : ℝ) / Flt.ofInt 2 * min (min b d) g = min (min b d) g / 2 := by
      show ((1 : Int) : ℝ) / ((2 : Int) : ℝ) * _ = _
      push_cast
      ring
    rw [h2]
    simp [frames]
  · cases h3

/-- **C75** A negative `lim_scale` above -100 sets the limits to plus and minus its absolute value in every direction, whatever
the picture contains; in the 3-d view the coordinate frame has this size. -/
theorem C75_fixed_limits {auto : List (Cmd ℝ) → (ℝ × ℝ) × (ℝ × ℝ)} {m : Model ℝ} {view : PlotView} {contour : ContourArg ℝ}
    {s scale : ℝ} (h1 : s < 0) (h2 : -100 < s) {cbar : CbarArg ℝ} {inc : Int} {cmds : List (Cmd ℝ)}
    (hh : drawModel auto m view contour (.scalar s) scale cbar inc = .ok cmds) :
    finalX cmds = some (s, -s) ∧ finalY cmds = some (s, -s) ∧
      finalZ cmds = (if view = .d3 then some (s, -s) else none) ∧ (view = .d3 → -s ∈ frames cmds) := by
  obtain ⟨P, Z, e, h3, h4, h5, h6, h7, h8⟩ := drawn_limits hh
  have e1 : Flt.lt s (0 : ℝ) = true := decide_eq_true h1
  have e2 : Flt.lt (Flt.abs s) (Flt.ofInt 100 : ℝ) = true :=
    decide_eq_true (by
      show |s| < ((100 : Int) : ℝ)
      rw [abs_of_neg h1]
      norm_num
      linarith)
  unfold setLimits at h3
  simp only [e1, e2, if_true, neg_neg] at h3
  by_cases hv : view = .d3
  · rw [if_pos hv] at h3
    have h3 := Except.ok.inj h3
    rw [h5, h6, h7, ← h3, if_pos hv]
    refine ⟨rfl, rfl, rfl, fun _ => ?_⟩
    rw [e, ← h3]
    simp [frames]
  · rw [if_neg hv] at h3
    have h3 := Except.ok.inj h3
    rw [h5, h6, h7, ← h3, if_neg hv]
    exact ⟨rfl, rfl, rfl, fun h => absurd h hv⟩

/-- **C75** With a `lim_scale` of absolute value 100 or more no limits are set, those chosen by matplotlib stay in force; the
coordinate frame of the 3-d view has size one. -/
theorem C75_no_limits {auto : List (Cmd ℝ) → (ℝ × ℝ) × (ℝ × ℝ)} {m : Model ℝ} {view : PlotView} {contour : ContourArg ℝ}
    {s scale : ℝ} (h1 : 100 ≤ |s|) {cbar : CbarArg ℝ} {inc : Int} {cmds : List (Cmd ℝ)}
    (hh : drawModel auto m view contour (.scalar s) scale cbar inc = .ok cmds) :
    finalX cmds = none ∧ finalY cmds = none ∧ finalZ cmds = none ∧ (view = .d3 → 1 ∈ frames cmds) := by
  obtain ⟨P, Z, e, h3, h4, h5, h6, h7, h8⟩ := drawn_limits hh
  have e2 : Flt.lt (Flt.abs s) (Flt.ofInt 100 : ℝ) = false :=
    decide_eq_false (by
      show ¬ |s| < ((100 : Int) : ℝ)
      norm_num
      exact h1)
  unfold setLimits at h3
  simp only [e2, Bool.false_eq_true, if_false, Bool.and_false, ite_self, List.nil_append, List.append_nil] at h3
  by_cases hv : view = .d3
  · rw [if_pos hv] at h3
    have h3 := Except.ok.inj h3
    rw [h5, h6, h7, ← h3]
    refine ⟨rfl, rfl, rfl, fun _ => ?_⟩
    rw [e, ← h3]
    simp [frames]
  · rw [if_neg hv] at h3
    have h3 := Except.ok.inj h3
    rw [h5, h6, h7, ← h3]
    exact ⟨rfl, rfl, rfl, fun h => absurd h hv⟩

/-! ## The box is a possible choice of limits -/

theorem hull_bounds (l : List ℝ) : (hull l).1 ≤ 0 ∧ 0 ≤ (hull l).2 ∧ ∀ x ∈ l, (hull l).1 ≤ x ∧ x ≤ (hull l).2 := by
  induction l with
  | nil => exact ⟨le_rfl, le_rfl, by simp⟩
  | cons a l ih =>
    obtain ⟨i1, i2, i3⟩ := ih
    have e1 : (hull (a :: l)).1 = if Flt.lt a (hull l).1 then a else (hull l).1 := rfl
    have e2 : (hull (a :: l)).2 = if Flt.lt (hull l).2 a then a else (hull l).2 := rfl
    have b1 : (hull (a :: l)).1 ≤ a ∧ (hull (a :: l)).1 ≤ (hull l).1 := by
      rw [e1]
      by_cases h : a < (hull l).1
      · rw [if_pos (show Flt.lt a (hull l).1 = true from decide_eq_true h)]; exact ⟨le_rfl, h.le⟩
      · rw [if_neg (by rw [show Flt.lt a (hull l).1 = false from decide_eq_false h]; simp)]; exact ⟨not_lt.1 h, le_rfl⟩
    have b2 : a ≤ (hull (a :: l)).2 ∧ (hull l).2 ≤ (hull (a :: l)).2 := by
      rw [e2]
      by_cases h : (hull l).2 < a
      · rw [if_pos (show Flt.lt (hull l).2 a = true from decide_eq_true h)]; exact ⟨le_rfl, h.le⟩
      · rw [if_neg (by rw [show Flt.lt (hull l).2 a = false from decide_eq_false h]; simp)]; exact ⟨not_lt.1 h, le_rfl⟩
    refine ⟨b1.2.trans i1, i2.trans b2.2, ?_⟩
    intro x hx
    rcases List.mem_cons.1 hx with rfl | hx
    · exact ⟨b1.1, b2.1⟩
    · exact ⟨b1.2.trans (i3 x hx).1, (i3 x hx).2.trans b2.2⟩

/-- The hypothesis on matplotlib can be met. -/
theorem boxAround_autoscales : Autoscales (boxAround (F := ℝ)) := by
  have hx : ∀ (cs : List (Cmd ℝ)) (c : Cmd ℝ), c ∈ cs → ∀ x ∈ cmdXs c, (boxAround cs).1.1 ≤ x ∧ x ≤ (boxAround cs).1.2 :=
    fun cs c hc x hx => (hull_bounds _).2.2 x (List.mem_flatMap.2 ⟨c, hc, hx⟩)
  have hy : ∀ (cs : List (Cmd ℝ)) (c : Cmd ℝ), c ∈ cs → ∀ x ∈ cmdYs c, (boxAround cs).2.1 ≤ x ∧ x ≤ (boxAround cs).2.2 :=
    fun cs c hc x hx => (hull_bounds _).2.2 x (List.mem_flatMap.2 ⟨c, hc, hx⟩)
  refine ⟨fun cs => (hull_bounds _).1.trans (hull_bounds _).2.1, fun cs => (hull_bounds _).1.trans (hull_bounds _).2.1, ?_, ?_⟩
  · intro cs c hc
    have kx := hx cs c hc
    have ky := hy cs c hc
    cases c <;> try trivial
    case marks2 pts =>
      intro p hp
      exact ⟨kx p.1 (List.mem_map_of_mem hp), ky p.2 (List.mem_map_of_mem hp)⟩
    all_goals exact ⟨⟨kx _ (by simp [cmdXs]), kx _ (by simp [cmdXs])⟩, ky _ (by simp [cmdYs]), ky _ (by simp [cmdYs])⟩
  · intro cs c hc
    have kx := hx cs c hc
    have ky := hy cs c hc
    cases c <;> try trivial
    case marks3 pts =>
      intro p hp
      exact ⟨kx p.1 (List.mem_map_of_mem hp), ky p.2.1 (List.mem_map.2 ⟨p, hp, rfl⟩)⟩
    all_goals exact ⟨⟨kx _ (by simp [cmdXs]), kx _ (by simp [cmdXs])⟩, ky _ (by simp [cmdYs]), ky _ (by simp [cmdYs])⟩

/-- A tower: a bar of height 5, loaded sideways by 1. -/
def exTower : Model ℚ where
  nodes := some ⟨[1, 2], ⟨3, [[0, 0, 0], [0, 0, 5]]⟩⟩
  elems := some ⟨[1], ⟨2, [[1, 2]]⟩, [1], [1], ⟨false, 1, [[1]]⟩, ⟨false, 1, [[1]]⟩⟩
  bounds := some ⟨[1], .d2 ⟨3, [[0, 0, 0]]⟩⟩
  forces := some ⟨[2], ⟨3, [[1, 0, 0]]⟩⟩
  settings := exSettings

/-- In the 3-d view the top of the tower at z = 5 is outside the limits -1 and 1; in the plane view it is inside. -/
theorem C75_height_counterexample :
    showDraw .d3 .none (.scalar 1) 1 .auto 0 (exTower.build refArgsort) =
      .ok [.figure, .axes3, .ghost3 0 1 0 0 5 5, .arrow3 0 1 0 0 5 5, .marks3 [(0, 0, 0), (0, 0, 5)],
        .line3 0 0 0 0 0 5 .plain, .xlim 0 1, .ylim (-1 / 2) (1 / 2), .xlim (-1) 1, .ylim (-1) 1, .zlim (-1) 1, .frame 1,
        .axisNames3 'x' 'y' 'z'] ∧
    showDraw .xz .none (.scalar 1) 1 .auto 0 (exTower.build refArgsort) =
      .ok [.figure, .arrow2 0 5 1 0, .ghost2 0 1 5 5, .marks2 [(0, 0), (0, 5)], .line2 0 0 0 5 .plain,
        .xlim (-2) 3, .ylim 0 5, .aspectEqual, .axisNames2 'x' 'z'] := by
  constructor <;> decide +kernel

/-- Given limits; six of them in a plane view raise. -/
example : (showDraw .xz .none (.tuple [0, 3, -1, 1]) 1 .auto 0 (exTower.build refArgsort)).map (fun l => (finalX l, finalY l)) =
      .ok (some (0, 3), some (-1, 1)) ∧
    (showDraw .d3 .none (.tuple [0, 3, -1, 1, 0, 6]) 1 .auto 0 (exTower.build refArgsort)).map (fun l => (finalZ l, frames l)) =
      .ok (some (0, 6), [1 / 2]) ∧
    showDraw .xz .none (.tuple [0, 3, -1, 1, 0, 6]) 1 .auto 0 (exTower.build refArgsort) = .error .typeError := by
  decide +kernel

/-- Fixed limits and no limits. -/
example : (showDraw .xz .none (.scalar (-7)) 1 .auto 0 (exTower.build refArgsort)).map (fun l => (finalX l, finalY l)) =
      .ok (some (-7, 7), some (-7, 7)) ∧
    (showDraw .d3 .none (.scalar (-7)) 1 .auto 0 (exTower.build refArgsort)).map (fun l => (finalZ l, frames l)) =
      .ok (some (-7, 7), [7]) ∧
    (showDraw .d3 .none (.scalar 100) 1 .auto 0 (exTower.build refArgsort)).map (fun l => (finalZ l, frames l)) =
      .ok (none, [1]) := by
  decide +kernel

end TrussPy
