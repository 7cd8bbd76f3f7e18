import Verif.Spec.Draw
import Verif.Lemmas.Plot
/-!
# Lemmas on drawing commands
-/

set_option linter.unusedSectionVars false

namespace TrussPy

variable {F : Type} [Zero F] [One F] [Add F] [Sub F] [Mul F] [Div F] [Neg F] [Flt F]

theorem pyGet0 {α : Type} {l : List α} {a : α} : pyGet l 0 = .ok a ↔ l[0]? = some a := pyGet_ok_nat (i := 0)
theorem pyGet1 {α : Type} {l : List α} {a : α} : pyGet l 1 = .ok a ↔ l[1]? = some a := pyGet_ok_nat (i := 1)
theorem pyGet2 {α : Type} {l : List α} {a : α} : pyGet l 2 = .ok a ↔ l[2]? = some a := pyGet_ok_nat (i := 2)

theorem PlaneView.not_d3 {view : PlotView} {h v : Nat} (hv : PlaneView view h v) : view ≠ .d3 := by
  rcases hv with ⟨rfl, -⟩ | ⟨rfl, -⟩ | ⟨rfl, -⟩ <;> decide

theorem PlaneView.axes {view : PlotView} {h v : Nat} (hv : PlaneView view h v) : viewAxes view = .ok ((h : Int), (v : Int)) := by
  rcases hv with ⟨rfl, rfl, rfl⟩ | ⟨rfl, rfl, rfl⟩ | ⟨rfl, rfl, rfl⟩ <;> rfl

theorem PlaneView.force {view : PlotView} {h v : Nat} (hv : PlaneView view h v) :
    ∃ k, forceAxes view = .ok ((h : Int), (v : Int), k) := by
  rcases hv with ⟨rfl, rfl, rfl⟩ | ⟨rfl, rfl, rfl⟩ | ⟨rfl, rfl, rfl⟩
  · exact ⟨1, rfl⟩
  · exact ⟨2, rfl⟩
  · exact ⟨0, rfl⟩

/-- One node's arrow in a plane view. -/
def NodeArrow2 (scale : F) (h v : Nat) (f p : List F) (x y dx dy : F) : Prop :=
  ∃ c : F, p[h]? = some x ∧ p[v]? = some y ∧ Loaded c ∧
    (f[h]? = some c ∧ dx = scale * c ∧ dy = 0 ∨ f[v]? = some c ∧ dx = 0 ∧ dy = scale * c)

/-- One node's arrow in the 3-d view. -/
def NodeArrow3 (scale : F) (f p : List F) (x0 x1 y0 y1 z0 z1 : F) : Prop :=
  ∃ c : F, p[0]? = some x0 ∧ p[1]? = some y0 ∧ p[2]? = some z0 ∧ Loaded c ∧
    (f[0]? = some c ∧ x1 = x0 + scale * c ∧ y1 = y0 ∧ z1 = z0 ∨ f[1]? = some c ∧ x1 = x0 ∧ y1 = y0 + scale * c ∧ z1 = z0 ∨
      f[2]? = some c ∧ x1 = x0 ∧ y1 = y0 ∧ z1 = z0 + scale * c)

theorem not_loaded_of_all {f : List F} (h : (f.all fun v => Flt.eq v 0) = true) {i : Nat} {c : F} (hc : f[i]? = some c)
    (hl : Loaded c) : False := by
  rw [List.all_eq_true] at h
  have := h c (List.mem_of_getElem? hc)
  unfold Loaded at hl
  rw [hl] at this
  cases this

/-- Commands of `plot_force` in a plane view. -/
def IsForce2 : Cmd F → Prop
  | .arrow2 .. => True
  | .ghost2 .. => True
  | _ => False

/-- Commands of `plot_force` in the 3-d view, apart from the opening of axes. -/
def IsForce3 : Cmd F → Prop
  | .arrow3 .. => True
  | .ghost3 .. => True
  | _ => False

theorem arrows2_mem {scale xx yy fi fj x y dx dy : F} : Cmd.arrow2 x y dx dy ∈ arrows2 scale xx yy fi fj ↔
    x = xx ∧ y = yy ∧ (Loaded fi ∧ dx = scale * fi ∧ dy = 0 ∨ Loaded fj ∧ dx = 0 ∧ dy = scale * fj) := by
  unfold arrows2 Loaded
  cases Flt.eq fi 0 <;> cases Flt.eq fj 0 <;> (simp; try tauto)

theorem arrows2_kind {scale xx yy fi fj : F} : ∀ c ∈ arrows2 scale xx yy fi fj, IsForce2 c := by
  unfold arrows2
  intro c hc
  simp only [List.mem_append] at hc
  rcases hc with hc | hc
  all_goals
    split at hc
    · simp at hc
    · simp only [List.mem_cons, List.not_mem_nil, or_false] at hc
      rcases hc with rfl | rfl <;> trivial

theorem arrows3_mem {scale xx yy zz fi fj fk x0 x1 y0 y1 z0 z1 : F} :
    Cmd.arrow3 x0 x1 y0 y1 z0 z1 ∈ arrows3 scale xx yy zz fi fj fk ↔
    x0 = xx ∧ y0 = yy ∧ z0 = zz ∧ (Loaded fi ∧ x1 = xx + scale * fi ∧ y1 = yy ∧ z1 = zz ∨
      Loaded fj ∧ x1 = xx ∧ y1 = yy + scale * fj ∧ z1 = zz ∨ Loaded fk ∧ x1 = xx ∧ y1 = yy ∧ z1 = zz + scale * fk) := by
  unfold arrows3 Loaded
  cases Flt.eq fi 0 <;> cases Flt.eq fj 0 <;> cases Flt.eq fk 0 <;> simp <;> tauto

theorem arrows3_kind {scale xx yy zz fi fj fk : F} : ∀ c ∈ arrows3 scale xx yy zz fi fj fk, IsForce3 c := by
  unfold arrows3
  intro c hc
  simp only [List.mem_append] at hc
  rcases hc with (hc | hc) | hc
  all_goals
    split at hc
    · simp at hc
    · simp only [List.mem_cons, List.not_mem_nil, or_false] at hc
      rcases hc with rfl | rfl <;> trivial

theorem forceLoop_plane {view : PlotView} {h v : Nat} (hv : PlaneView view h v) {scale : F} :
    ∀ {ps : List (List F × List F)} {ax ax' : Bool} {cmds : List (Cmd F)},
      forceLoop view scale ps ax = .ok (cmds, ax') → ax' = ax ∧ (∀ c ∈ cmds, IsForce2 c) ∧
        ∀ x y dx dy, Cmd.arrow2 x y dx dy ∈ cmds ↔ ∃ q ∈ ps, NodeArrow2 scale h v q.1 q.2 x y dx dy := by
  intro ps
  induction ps with
  | nil =>
    intro ax ax' cmds hh
    cases hh
    exact ⟨rfl, by simp, by simp⟩
  | cons q ps ih =>
    obtain ⟨f, X⟩ := q
    intro ax ax' cmds hh
    rw [forceLoop] at hh
    by_cases hz : (f.all fun v => Flt.eq v 0) = true
    · rw [if_pos hz] at hh
      obtain ⟨i1, i2, i3⟩ := ih hh
      refine ⟨i1, i2, ?_⟩
      intro x y dx dy
      rw [i3]
      constructor
      · rintro ⟨q, hq, h⟩
        exact ⟨q, List.mem_cons_of_mem _ hq, h⟩
      · rintro ⟨q, hq, h⟩
        rcases List.mem_cons.1 hq with rfl | hq
        · obtain ⟨c, -, -, hl, ⟨hc, -⟩ | ⟨hc, -⟩⟩ := h
          · exact (not_loaded_of_all hz hc hl).elim
          · exact (not_loaded_of_all hz hc hl).elim
        · exact ⟨q, hq, h⟩
    · rw [if_neg hz] at hh
      obtain ⟨k, hk⟩ := hv.force
      rw [hk] at hh
      simp only [py_bind_ok] at hh
      obtain ⟨xx, e1, hh⟩ := py_bind_eq_ok.1 hh
      obtain ⟨yy, e2, hh⟩ := py_bind_eq_ok.1 hh
      obtain ⟨fi, e3, hh⟩ := py_bind_eq_ok.1 hh
      obtain ⟨fj, e4, hh⟩ := py_bind_eq_ok.1 hh
      rw [if_neg hv.not_d3] at hh
      obtain ⟨⟨cs, ax1⟩, e5, hh⟩ := py_bind_eq_ok.1 hh
      cases hh
      rw [pyGet_ok_nat] at e1 e2 e3 e4
      obtain ⟨i1, i2, i3⟩ := ih e5
      refine ⟨i1, ?_, ?_⟩
      · intro c hc
        rcases List.mem_append.1 hc with hc | hc
        · exact arrows2_kind c hc
        · exact i2 c hc
      · intro x y dx dy
        rw [List.mem_append, i3, arrows2_mem]
        constructor
        · rintro (⟨rfl, rfl, h⟩ | ⟨q, hq, h⟩)
          · refine ⟨(f, X), List.mem_cons_self, ?_⟩
            rcases h with ⟨a, b, c⟩ | ⟨a, b, c⟩
            · exact ⟨fi, e1, e2, a, .inl ⟨e3, b, c⟩⟩
            · exact ⟨fj, e1, e2, a, .inr ⟨e4, b, c⟩⟩
          · exact ⟨q, List.mem_cons_of_mem _ hq, h⟩
        · rintro ⟨q, hq, h⟩
          rcases List.mem_cons.1 hq with rfl | hq
          · left
            obtain ⟨c, h1, h2, h3, h4⟩ := h
            simp only at h1 h2 h4
            rw [e1] at h1; cases h1
            rw [e2] at h2; cases h2
            refine ⟨rfl, rfl, ?_⟩
            rcases h4 with ⟨a, b, d⟩ | ⟨a, b, d⟩
            · rw [e3] at a; cases a; exact .inl ⟨h3, b, d⟩
            · rw [e4] at a; cases a; exact .inr ⟨h3, b, d⟩
          · exact .inr ⟨q, hq, h⟩

theorem forceLoop_space {scale : F} :
    ∀ {ps : List (List F × List F)} {ax ax' : Bool} {cmds : List (Cmd F)},
      forceLoop .d3 scale ps ax = .ok (cmds, ax') →
        (∃ tail, cmds = tail ∧ ax' = ax ∧ tail = [] ∨
          ax' = true ∧ cmds = openAxes ax ++ tail ∧ ∀ c ∈ tail, IsForce3 c) ∧
        ∀ x0 x1 y0 y1 z0 z1, Cmd.arrow3 x0 x1 y0 y1 z0 z1 ∈ cmds ↔ ∃ q ∈ ps, NodeArrow3 scale q.1 q.2 x0 x1 y0 y1 z0 z1 := by
  intro ps
  induction ps with
  | nil =>
    intro ax ax' cmds hh
    cases hh
    exact ⟨⟨[], .inl ⟨rfl, rfl, rfl⟩⟩, by simp⟩
  | cons q ps ih =>
    obtain ⟨f, X⟩ := q
    intro ax ax' cmds hh
    rw [forceLoop] at hh
    by_cases hz : (f.all fun v => Flt.eq v 0) = true
    · rw [if_pos hz] at hh
      obtain ⟨i1, i3⟩ := ih hh
      refine ⟨i1, ?_⟩
      intro x0 x1 y0 y1 z0 z1
      rw [i3]
      constructor
      · rintro ⟨q, hq, h⟩
        exact ⟨q, List.mem_cons_of_mem _ hq, h⟩
      · rintro ⟨q, hq, h⟩
        rcases List.mem_cons.1 hq with rfl | hq
        · obtain ⟨c, -, -, -, hl, ⟨hc, -⟩ | ⟨hc, -⟩ | ⟨hc, -⟩⟩ := h
          all_goals exact (not_loaded_of_all hz hc hl).elim
        · exact ⟨q, hq, h⟩
    · rw [if_neg hz] at hh
      rw [show forceAxes PlotView.d3 = .ok (0, 1, 2) from rfl] at hh
      simp only [py_bind_ok] at hh
      obtain ⟨xx, e1, hh⟩ := py_bind_eq_ok.1 hh
      obtain ⟨yy, e2, hh⟩ := py_bind_eq_ok.1 hh
      obtain ⟨fi, e3, hh⟩ := py_bind_eq_ok.1 hh
      obtain ⟨fj, e4, hh⟩ := py_bind_eq_ok.1 hh
      rw [if_pos trivial] at hh
      obtain ⟨zz, e6, hh⟩ := py_bind_eq_ok.1 hh
      obtain ⟨fk, e7, hh⟩ := py_bind_eq_ok.1 hh
      obtain ⟨⟨cs, ax1⟩, e5, hh⟩ := py_bind_eq_ok.1 hh
      cases hh
      rw [pyGet0] at e1 e3
      rw [pyGet1] at e2 e4
      rw [pyGet2] at e6 e7
      obtain ⟨⟨tail, i1⟩, i3⟩ := ih e5
      refine ⟨⟨arrows3 scale xx yy zz fi fj fk ++ cs, .inr ⟨?_, by simp, ?_⟩⟩, ?_⟩
      · rcases i1 with ⟨-, h, -⟩ | ⟨h, -⟩ <;> exact h
      · intro c hc
        rcases List.mem_append.1 hc with hc | hc
        · exact arrows3_kind c hc
        · rcases i1 with ⟨rfl, -, rfl⟩ | ⟨-, rfl, h⟩
          · simp at hc
          · exact h c (by simpa [openAxes] using hc)
      · intro x0 x1 y0 y1 z0 z1
        rw [List.mem_append, List.mem_append, i3, arrows3_mem]
        have hop : Cmd.arrow3 x0 x1 y0 y1 z0 z1 ∉ (openAxes ax : List (Cmd F)) := by
          unfold openAxes
          split <;> simp
        constructor
        · rintro ((h | ⟨rfl, rfl, rfl, h⟩) | ⟨q, hq, h⟩)
          · exact (hop h).elim
          · refine ⟨(f, X), List.mem_cons_self, ?_⟩
            rcases h with ⟨a, b⟩ | ⟨a, b⟩ | ⟨a, b⟩
            · exact ⟨fi, e1, e2, e6, a, .inl ⟨e3, b⟩⟩
            · exact ⟨fj, e1, e2, e6, a, .inr (.inl ⟨e4, b⟩)⟩
            · exact ⟨fk, e1, e2, e6, a, .inr (.inr ⟨e7, b⟩)⟩
          · exact ⟨q, List.mem_cons_of_mem _ hq, h⟩
        · rintro ⟨q, hq, h⟩
          rcases List.mem_cons.1 hq with rfl | hq
          · left; right
            obtain ⟨c, h1, h2, h2', h3, h4⟩ := h
            simp only at h1 h2 h2' h4
            rw [e1] at h1; cases h1
            rw [e2] at h2; cases h2
            rw [e6] at h2'; cases h2'
            refine ⟨rfl, rfl, rfl, ?_⟩
            rcases h4 with ⟨a, b⟩ | ⟨a, b⟩ | ⟨a, b⟩
            · rw [e3] at a; cases a; exact .inl ⟨h3, b⟩
            · rw [e4] at a; cases a; exact .inr (.inl ⟨h3, b⟩)
            · rw [e7] at a; cases a; exact .inr (.inr ⟨h3, b⟩)
          · exact .inr ⟨q, hq, h⟩

theorem mem_zip_iff {α β : Type} {as : List α} {bs : List β} {P : α → β → Prop} :
    (∃ q ∈ as.zip bs, P q.1 q.2) ↔ ∃ (i : Nat) (a : α) (b : β), as[i]? = some a ∧ bs[i]? = some b ∧ P a b := by
  constructor
  · rintro ⟨⟨a, b⟩, hq, h⟩
    obtain ⟨i, hi⟩ := List.getElem?_of_mem hq
    rw [List.getElem?_zip_eq_some] at hi
    exact ⟨i, a, b, hi.1, hi.2, h⟩
  · rintro ⟨i, a, b, h1, h2, h⟩
    exact ⟨(a, b), List.mem_of_getElem? (i := i) (List.getElem?_zip_eq_some.2 ⟨h1, h2⟩), h⟩

theorem plotNodes_plane {view : PlotView} {h v : Nat} (hv : PlaneView view h v) {X : List (List F)} {ax : Bool}
    {cmds : List (Cmd F)} (hh : plotNodes view X ax = .ok cmds) : ∃ pts, cmds = [.marks2 pts] ∧ Projected2 h v X pts := by
  unfold plotNodes at hh
  rw [if_neg hv.not_d3, hv.axes] at hh
  simp only [py_bind_ok] at hh
  obtain ⟨pts, e1, hh⟩ := py_bind_eq_ok.1 hh
  cases hh
  obtain ⟨k1, k2⟩ := mapM_get e1
  refine ⟨pts, rfl, k1, ?_⟩
  intro i p hp
  obtain ⟨y, g1, g2⟩ := k2 i p hp
  obtain ⟨a, g3, g2⟩ := py_bind_eq_ok.1 g2
  obtain ⟨b, g4, g2⟩ := py_bind_eq_ok.1 g2
  cases g2
  exact ⟨a, b, g1, pyGet_ok_nat.1 g3, pyGet_ok_nat.1 g4⟩

theorem plotNodes_space {X : List (List F)} {ax : Bool}
    {cmds : List (Cmd F)} (hh : plotNodes .d3 X ax = .ok cmds) :
    ∃ pts, cmds = openAxes ax ++ [.marks3 pts] ∧ Projected3 X pts := by
  unfold plotNodes at hh
  rw [if_pos rfl] at hh
  obtain ⟨pts, e1, hh⟩ := py_bind_eq_ok.1 hh
  cases hh
  obtain ⟨k1, k2⟩ := mapM_get e1
  refine ⟨pts, rfl, k1, ?_⟩
  intro i p hp
  obtain ⟨y, g1, g2⟩ := k2 i p hp
  obtain ⟨a, g3, g2⟩ := py_bind_eq_ok.1 g2
  obtain ⟨b, g4, g2⟩ := py_bind_eq_ok.1 g2
  obtain ⟨c, g5, g2⟩ := py_bind_eq_ok.1 g2
  cases g2
  exact ⟨a, b, c, g1, pyGet0.1 g3, pyGet1.1 g4, pyGet2.1 g5⟩

theorem elemPaint_ok {con : Option (List F × Option (F × F))} {k : Nat} {c : Paint F} (h : elemPaint con k = .ok c) :
    PaintOf con k c := by
  unfold elemPaint at h
  cases con with
  | none => cases h; exact .inl ⟨rfl, rfl⟩
  | some x =>
    obtain ⟨vals, lims⟩ := x
    obtain ⟨v, e1, h⟩ := py_bind_eq_ok.1 h
    cases h
    exact .inr ⟨vals, lims, v, rfl, pyGet_ok_nat.1 e1, rfl⟩

/-- Commands of `plot_elems` in its loop. -/
def IsLine : Cmd F → Prop
  | .line2 .. => True
  | .line3 .. => True
  | _ => False

theorem elemLines_plane {view : PlotView} {h v : Nat} (hv : PlaneView view h v) {p q : List F} {con : Option (List F × Option (F × F))}
    {k : Nat} {c : Paint F} (hc : PaintOf con k c) {cmds : List (Cmd F)} (hh : elemLines view p q c = .ok cmds) :
    ∃ cmd, barLines cmds = [cmd] ∧ BarLine2 h v p q c cmd ∧ ∀ x ∈ cmds, IsLine x := by
  unfold elemLines at hh
  simp only at hh
  rw [if_neg hv.not_d3, hv.axes] at hh
  simp only [py_bind_ok] at hh
  obtain ⟨x0, e1, hh⟩ := py_bind_eq_ok.1 hh
  obtain ⟨x1, e2, hh⟩ := py_bind_eq_ok.1 hh
  obtain ⟨y0, e3, hh⟩ := py_bind_eq_ok.1 hh
  obtain ⟨y1, e4, hh⟩ := py_bind_eq_ok.1 hh
  cases hh
  rw [pyGet_ok_nat] at e1 e2 e3 e4
  refine ⟨.line2 x0 x1 y0 y1 c, ?_, ⟨x0, x1, y0, y1, rfl, e1, e2, e3, e4⟩, ?_⟩
  · rcases hc with ⟨-, rfl⟩ | ⟨_, _, v, -, -, rfl⟩ <;> rfl
  · intro x hx
    obtain ⟨_, -, rfl⟩ := List.mem_map.1 hx
    trivial

theorem elemLines_space {p q : List F} {con : Option (List F × Option (F × F))}
    {k : Nat} {c : Paint F} (hc : PaintOf con k c) {cmds : List (Cmd F)} (hh : elemLines .d3 p q c = .ok cmds) :
    ∃ cmd, barLines cmds = [cmd] ∧ BarLine3 p q c cmd ∧ ∀ x ∈ cmds, IsLine x := by
  unfold elemLines at hh
  simp only at hh
  rw [if_pos trivial] at hh
  obtain ⟨x0, e1, hh⟩ := py_bind_eq_ok.1 hh
  obtain ⟨x1, e2, hh⟩ := py_bind_eq_ok.1 hh
  obtain ⟨y0, e3, hh⟩ := py_bind_eq_ok.1 hh
  obtain ⟨y1, e4, hh⟩ := py_bind_eq_ok.1 hh
  obtain ⟨z0, e5, hh⟩ := py_bind_eq_ok.1 hh
  obtain ⟨z1, e6, hh⟩ := py_bind_eq_ok.1 hh
  cases hh
  rw [pyGet0] at e1 e2
  rw [pyGet1] at e3 e4
  rw [pyGet2] at e5 e6
  refine ⟨.line3 x0 x1 y0 y1 z0 z1 c, ?_, ⟨x0, x1, y0, y1, z0, z1, rfl, e1, e2, e3, e4, e5, e6⟩, ?_⟩
  · rcases hc with ⟨-, rfl⟩ | ⟨_, _, v, -, -, rfl⟩ <;> rfl
  · intro x hx
    obtain ⟨_, -, rfl⟩ := List.mem_map.1 hx
    trivial

theorem barLines_append (a b : List (Cmd F)) : barLines (a ++ b) = barLines a ++ barLines b := List.filter_append ..

/-- The loop over the elements, for any notion `B` of the line of a bar. -/
theorem elemLoop_lines {view : PlotView} {B : List F → List F → Paint F → Cmd F → Prop} {X : List (List F)}
    {con : Option (List F × Option (F × F))}
    (hB : ∀ {p q : List F} {k : Nat} {c : Paint F}, PaintOf con k c → ∀ {cmds : List (Cmd F)},
      elemLines view p q c = .ok cmds → ∃ cmd, barLines cmds = [cmd] ∧ B p q c cmd ∧ ∀ x ∈ cmds, IsLine x) :
    ∀ {es : List (List Int)} {k : Nat} {cmds : List (Cmd F)}, elemLoop view X con es k = .ok cmds →
      ∃ segs, es.mapM (plotSegment X) = .ok segs ∧ (barLines cmds).length = es.length ∧ (∀ x ∈ cmds, IsLine x) ∧
        ∀ (i : Nat) (s : List F × List F), segs[i]? = some s →
          ∃ cmd c, (barLines cmds)[i]? = some cmd ∧ PaintOf con (k + i) c ∧ B s.1 s.2 c cmd := by
  intro es
  induction es with
  | nil =>
    intro k cmds h
    cases h
    exact ⟨[], rfl, rfl, by simp, by simp⟩
  | cons e es ih =>
    intro k cmds h
    rw [elemLoop] at h
    obtain ⟨⟨p, q⟩, e1, h⟩ := py_bind_eq_ok.1 h
    obtain ⟨c, e2, h⟩ := py_bind_eq_ok.1 h
    obtain ⟨line, e3, h⟩ := py_bind_eq_ok.1 h
    obtain ⟨rest, e4, h⟩ := py_bind_eq_ok.1 h
    cases h
    obtain ⟨segs, i1, i2, i3, i4⟩ := ih e4
    have hp := elemPaint_ok e2
    obtain ⟨cmd, g1, g2, g3⟩ := hB hp e3
    refine ⟨(p, q) :: segs, ?_, ?_, ?_, ?_⟩
    · rw [List.mapM_cons, e1, i1]
      rfl
    · rw [barLines_append, g1, List.length_append, i2]
      simp [Nat.add_comm]
    · intro x hx
      rcases List.mem_append.1 hx with hx | hx
      · exact g3 x hx
      · exact i3 x hx
    · intro i s hs
      rw [barLines_append, g1]
      cases i with
      | zero => cases hs; exact ⟨cmd, c, rfl, hp, g2⟩
      | succ i =>
        obtain ⟨cmd', c', j1, j2, j3⟩ := i4 i s hs
        refine ⟨cmd', c', j1, ?_, j3⟩
        rwa [show k + (i + 1) = k + 1 + i by omega]

/-- Everything a returning `plot_model` has handed over. -/
theorem drawModel_ok {auto : List (Cmd F) → (F × F) × (F × F)} {m : Model F} {view : PlotView} {contour : ContourArg F}
    {lim : LimScale F} {scale : F} {cbar : CbarArg F} {inc : Int} {cmds : List (Cmd F)}
    (h : drawModel auto m view contour lim scale cbar inc = .ok cmds) :
    ∃ nt et ft res r ef lpf loads con arrows ax marks lines bar limits, m.nodes = some nt ∧ m.elems = some et ∧
      m.forces = some ft ∧ m.results = some res ∧
      pyGet res.R (if inc < 0 then (res.R.length : Int) + inc else inc) = .ok r ∧ r.extForces = some ef ∧
      plotFactor r none (if inc < 0 then (res.R.length : Int) + inc else inc) = .ok (lpf, none) ∧
      chooseContour r (if inc < 0 then (res.R.length : Int) + inc else inc) contour cbar = .ok con ∧
      plotLoads ef.forcesConst lpf (stepSlice ft.forces.rows (r.step - 1)) = .ok loads ∧
      forceLoop view scale (loads.zip (deformed nt.coords.rows r.U)) false = .ok (arrows, ax) ∧
      plotNodes view (deformed nt.coords.rows r.U) ax = .ok marks ∧
      elemLoop view (deformed nt.coords.rows r.U) con et.conns.rows 0 = .ok lines ∧
      colourBar con et.conns.rows.length = .ok bar ∧
      setLimits view lim (auto (.figure :: (arrows ++ marks ++ lines ++ bar))).1
        (auto (.figure :: (arrows ++ marks ++ lines ++ bar))).2 = .ok limits ∧
      cmds = .figure :: (arrows ++ marks ++ lines ++ bar) ++ limits ++ axisNames view := by
  unfold drawModel at h
  split at h
  case h_2 => cases h
  next nt et ft res h1 h2 h3 h4 =>
  simp only at h
  generalize hi : (if inc < 0 then (res.R.length : Int) + inc else inc) = inc' at h ⊢
  obtain ⟨r, h5, h⟩ := py_bind_eq_ok.1 h
  obtain ⟨⟨lpf, c0⟩, h6, h⟩ := py_bind_eq_ok.1 h
  simp only at h
  obtain ⟨con, h7, h⟩ := py_bind_eq_ok.1 h
  have hc0 : c0 = none := by
    unfold plotFactor at h6
    split at h6
    · cases h6; rfl
    · split at h6
      · cases h6
      · cases h6; rfl
  subst hc0
  split at h
  · cases h
  next ef h8 =>
  obtain ⟨loads, h9, h⟩ := py_bind_eq_ok.1 h
  obtain ⟨⟨arrows, ax⟩, h10, h⟩ := py_bind_eq_ok.1 h
  simp only at h
  obtain ⟨marks, h11, h⟩ := py_bind_eq_ok.1 h
  obtain ⟨lines, h12, h⟩ := py_bind_eq_ok.1 h
  obtain ⟨bar, h13, h⟩ := py_bind_eq_ok.1 h
  obtain ⟨limits, h14, h⟩ := py_bind_eq_ok.1 h
  cases h
  exact ⟨nt, et, ft, res, r, ef, lpf, loads, con, arrows, ax, marks, lines, bar, limits, h1, h2, h3, h4, hi ▸ h5, h8,
    hi ▸ h6, hi ▸ h7, h9, h10, h11, h12, h13, h14, rfl⟩

theorem setLimits_kind {view : PlotView} {lim : LimScale F} {lx ly : F × F} {cmds : List (Cmd F)}
    (h : setLimits view lim lx ly = .ok cmds) : ∀ c ∈ cmds, (∃ a b, c = .xlim a b) ∨ (∃ a b, c = .ylim a b) ∨
      (∃ a b, c = .zlim a b) ∨ c = .aspectEqual ∨ ∃ a, c = .frame a := by
  have key : ∀ {l : List (Cmd F)}, (.ok l : Py (List (Cmd F))) = .ok cmds → (∀ c ∈ l, (∃ a b, c = .xlim a b) ∨ (∃ a b, c = .ylim a b) ∨
      (∃ a b, c = .zlim a b) ∨ c = .aspectEqual ∨ ∃ a, c = .frame a) → ∀ c ∈ cmds, (∃ a b, c = .xlim a b) ∨ (∃ a b, c = .ylim a b) ∨
      (∃ a b, c = .zlim a b) ∨ c = .aspectEqual ∨ ∃ a, c = .frame a := by
    intro l h1 h2
    rw [← Except.ok.inj h1]
    exact h2
  unfold setLimits at h
  split at h
  · exact key h (by simp)
  · exact key h (by simp)
  · split at h
    · exact key h (by simp)
    · cases h
  · exact key h (by simp)
  · simp only at h
    split at h
    · refine key h ?_
      intro c hc
      rcases List.mem_append.1 hc with hc | hc
      · split at hc
        · simp at hc
        · split at hc
          · simp at hc
            rcases hc with rfl | rfl <;> simp
          · simp at hc
      · split at hc
        · simp at hc
          rcases hc with rfl | rfl | rfl | rfl <;> simp
        · simp at hc
          subst hc; simp
    · refine key h ?_
      intro c hc
      rcases List.mem_append.1 hc with hc | hc
      · rcases List.mem_append.1 hc with hc | hc
        · split at hc
          · simp at hc
          · split at hc
            · simp at hc
              rcases hc with rfl | rfl <;> simp
            · simp at hc
        · simp at hc; subst hc; simp
      · split at hc
        · simp at hc
          rcases hc with rfl | rfl <;> simp
        · simp at hc

theorem colourBar_kind {con : Option (List F × Option (F × F))} {n : Nat} {cmds : List (Cmd F)}
    (h : colourBar con n = .ok cmds) : ∀ c ∈ cmds, ∃ a b, c = .colorbar a b := by
  unfold colourBar at h
  split at h
  · cases h; simp
  · split at h
    · cases h
    · split at h
      · cases h
      · cases h; simp

/-- Removing all commands of other kinds. -/
theorem filter_nil_of {p : Cmd F → Bool} {l : List (Cmd F)} (h : ∀ c ∈ l, p c = false) : l.filter p = [] := by
  rw [List.filter_eq_nil_iff]
  intro c hc
  rw [h c hc]
  simp

/-- The data selected by a returning `plot_model`. -/
theorem drawn_data {m : Model F} {inc : Int} {nt : NodeTab F} {et : ElemTab F} {ft : ForceTab F} {res : Results F}
    {r : Analysis F} {ef : StepForces F} {lpf : F} {loads : List (List F)} {segs : List (List F × List F)}
    (h1 : m.nodes = some nt) (h2 : m.elems = some et) (h3 : m.forces = some ft) (h4 : m.results = some res)
    (h5 : pyGet res.R (if inc < 0 then (res.R.length : Int) + inc else inc) = .ok r) (h6 : r.extForces = some ef)
    (h7 : plotFactor r none (if inc < 0 then (res.R.length : Int) + inc else inc) = .ok (lpf, none))
    (h8 : plotLoads ef.forcesConst lpf (stepSlice ft.forces.rows (r.step - 1)) = .ok loads)
    (h9 : et.conns.rows.mapM (plotSegment (deformed nt.coords.rows r.U)) = .ok segs) :
    pModel m none inc = .ok ⟨loads, deformed nt.coords.rows r.U, segs, none⟩ := by
  unfold pModel
  rw [h1, h2, h3, h4]
  simp only [h5, h7, py_bind_ok, plotContour, h6, h8, h9, py_pure]

/-- Limits: what `setLimits` can hand over. -/
def IsLimit (c : Cmd F) : Prop :=
  (∃ a b, c = .xlim a b) ∨ (∃ a b, c = .ylim a b) ∨ (∃ a b, c = .zlim a b) ∨ c = .aspectEqual ∨ ∃ a, c = .frame a

/-- The commands of a plane view, in order. -/
theorem plane_parts {auto : List (Cmd F) → (F × F) × (F × F)} {m : Model F} {view : PlotView} {contour : ContourArg F}
    {lim : LimScale F} {scale : F} {cbar : CbarArg F} {inc : Int} {cmds : List (Cmd F)} {h v : Nat} (hv : PlaneView view h v)
    (hh : drawModel auto m view contour lim scale cbar inc = .ok cmds) :
    ∃ (d : PlotData F) (res : Results F) (r : Analysis F) (con : Option (List F × Option (F × F))) (A L B Z : List (Cmd F))
      (pts : List (F × F)), pModel m none inc = .ok d ∧ m.results = some res ∧
      pyGet res.R (if inc < 0 then (res.R.length : Int) + inc else inc) = .ok r ∧
      chooseContour r (if inc < 0 then (res.R.length : Int) + inc else inc) contour cbar = .ok con ∧
      cmds = .figure :: (A ++ [.marks2 pts] ++ L ++ B) ++ Z ++ axisNames view ∧
      (∀ c ∈ A, IsForce2 c) ∧
      (∀ x y dx dy, Cmd.arrow2 x y dx dy ∈ A ↔ WantedArrow2 d.loads d.points scale h v x y dx dy) ∧
      Projected2 h v d.points pts ∧ (∀ c ∈ L, IsLine c) ∧ (barLines L).length = d.segments.length ∧
      (∀ (i : Nat) (s : List F × List F), d.segments[i]? = some s →
        ∃ cmd c, (barLines L)[i]? = some cmd ∧ PaintOf con i c ∧ BarLine2 h v s.1 s.2 c cmd) ∧
      (∀ c ∈ B, ∃ a b, c = .colorbar a b) ∧ colourBar con d.segments.length = .ok B ∧ (∀ c ∈ Z, IsLimit c) ∧
      setLimits view lim (auto (.figure :: (A ++ [.marks2 pts] ++ L ++ B))).1
        (auto (.figure :: (A ++ [.marks2 pts] ++ L ++ B))).2 = .ok Z ∧
      ∃ ax, forceLoop view scale (d.loads.zip d.points) false = .ok (A, ax) := by
  obtain ⟨nt, et, ft, res, r, ef, lpf, loads, con, A, ax, marks, L, B, Z, h1, h2, h3, h4, h5, h6, h7, h8, h9, h10, h11, h12, h13,
    h14, rfl⟩ := drawModel_ok hh
  obtain ⟨-, f2, f3⟩ := forceLoop_plane hv h10
  obtain ⟨pts, rfl, g2⟩ := plotNodes_plane hv h11
  obtain ⟨segs, e1, e2, e3, e4⟩ := elemLoop_lines (B := BarLine2 h v) (fun hc _ => elemLines_plane hv hc) h12
  have hd := drawn_data h1 h2 h3 h4 h5 h6 h7 h9 e1
  have hlen := (mapM_get e1).1
  refine ⟨_, res, r, con, A, L, B, Z, pts, hd, h4, h5, h8, rfl, f2, ?_, g2, e3, by rw [e2, hlen], ?_, colourBar_kind h13,
    by rw [← h13, hlen], setLimits_kind h14, h14, ax, h10⟩
  · intro x y dx dy
    rw [f3, mem_zip_iff (P := fun f p => NodeArrow2 scale h v f p x y dx dy)]
    unfold WantedArrow2 NodeArrow2
    constructor
    · rintro ⟨i, f, p, a, b, c, k⟩
      exact ⟨i, f, p, c, a, b, k⟩
    · rintro ⟨i, f, p, c, a, b, k⟩
      exact ⟨i, f, p, a, b, c, k⟩
  · intro i s hs
    obtain ⟨cmd, c, k1, k2, k3⟩ := e4 i s hs
    rw [Nat.zero_add] at k2
    exact ⟨cmd, c, k1, k2, k3⟩

/-- The commands of the 3-d view, in order. -/
theorem space_parts {auto : List (Cmd F) → (F × F) × (F × F)} {m : Model F} {contour : ContourArg F}
    {lim : LimScale F} {scale : F} {cbar : CbarArg F} {inc : Int} {cmds : List (Cmd F)}
    (hh : drawModel auto m .d3 contour lim scale cbar inc = .ok cmds) :
    ∃ (d : PlotData F) (res : Results F) (r : Analysis F) (con : Option (List F × Option (F × F))) (A L B Z : List (Cmd F))
      (pts : List (F × F × F)), pModel m none inc = .ok d ∧ m.results = some res ∧
      pyGet res.R (if inc < 0 then (res.R.length : Int) + inc else inc) = .ok r ∧
      chooseContour r (if inc < 0 then (res.R.length : Int) + inc else inc) contour cbar = .ok con ∧
      cmds = .figure :: .axes3 :: (A ++ [.marks3 pts] ++ L ++ B) ++ Z ++ axisNames .d3 ∧
      (∀ c ∈ A, IsForce3 c) ∧
      (∀ x0 x1 y0 y1 z0 z1, Cmd.arrow3 x0 x1 y0 y1 z0 z1 ∈ A ↔ WantedArrow3 d.loads d.points scale x0 x1 y0 y1 z0 z1) ∧
      Projected3 d.points pts ∧ (∀ c ∈ L, IsLine c) ∧ (barLines L).length = d.segments.length ∧
      (∀ (i : Nat) (s : List F × List F), d.segments[i]? = some s →
        ∃ cmd c, (barLines L)[i]? = some cmd ∧ PaintOf con i c ∧ BarLine3 s.1 s.2 c cmd) ∧
      (∀ c ∈ B, ∃ a b, c = .colorbar a b) ∧ colourBar con d.segments.length = .ok B ∧ (∀ c ∈ Z, IsLimit c) ∧
      setLimits .d3 lim (auto (.figure :: .axes3 :: (A ++ [.marks3 pts] ++ L ++ B))).1
        (auto (.figure :: .axes3 :: (A ++ [.marks3 pts] ++ L ++ B))).2 = .ok Z ∧
      ∃ A' ax, forceLoop .d3 scale (d.loads.zip d.points) false = .ok (A', ax) ∧ arrowCmds A' = arrowCmds A ∧
        ∀ c, c ∈ A' → c = .axes3 ∨ c ∈ A := by
  obtain ⟨nt, et, ft, res, r, ef, lpf, loads, con, A, ax, marks, L, B, Z, h1, h2, h3, h4, h5, h6, h7, h8, h9, h10, h11, h12, h13,
    h14, rfl⟩ := drawModel_ok hh
  obtain ⟨⟨tail, f2⟩, f3⟩ := forceLoop_space h10
  obtain ⟨pts, rfl, g2⟩ := plotNodes_space h11
  obtain ⟨segs, e1, e2, e3, e4⟩ := elemLoop_lines (B := BarLine3) (fun hc _ => elemLines_space hc) h12
  have hd := drawn_data h1 h2 h3 h4 h5 h6 h7 h9 e1
  have hlen := (mapM_get e1).1
  have hf : ∃ T : List (Cmd F), A ++ openAxes ax = .axes3 :: T ∧ (∀ c ∈ T, IsForce3 c) ∧
      (∀ x0 x1 y0 y1 z0 z1, Cmd.arrow3 x0 x1 y0 y1 z0 z1 ∈ T ↔ Cmd.arrow3 x0 x1 y0 y1 z0 z1 ∈ A) ∧ arrowCmds A = arrowCmds T ∧
      ∀ c, c ∈ A → c = .axes3 ∨ c ∈ T := by
    rcases f2 with ⟨rfl, rfl, rfl⟩ | ⟨rfl, rfl, k⟩
    · exact ⟨[], rfl, by simp, by simp, rfl, by simp⟩
    · refine ⟨tail, by simp [openAxes], k, ?_, rfl, by simp [openAxes]⟩
      intro x0 x1 y0 y1 z0 z1
      simp [openAxes]
  obtain ⟨T, t1, t2, t3, t4, t5⟩ := hf
  have hcmd : ∀ R : List (Cmd F), A ++ (openAxes ax ++ [Cmd.marks3 pts]) ++ L ++ R = .axes3 :: (T ++ [Cmd.marks3 pts] ++ L ++ R) := by
    intro R
    rw [← List.append_assoc A, t1]
    simp
  rw [hcmd] at h14
  refine ⟨_, res, r, con, T, L, B, Z, pts, hd, h4, h5, h8, ?_, t2, ?_, g2, e3, by rw [e2, hlen], ?_, colourBar_kind h13,
    by rw [← h13, hlen], setLimits_kind h14, h14, A, ax, h10, t4, t5⟩
  · rw [hcmd]
  · intro x0 x1 y0 y1 z0 z1
    rw [t3, f3, mem_zip_iff (P := fun f p => NodeArrow3 scale f p x0 x1 y0 y1 z0 z1)]
    unfold WantedArrow3 NodeArrow3
    constructor
    · rintro ⟨i, f, p, a, b, c, k⟩
      exact ⟨i, f, p, c, a, b, k⟩
    · rintro ⟨i, f, p, c, a, b, k⟩
      exact ⟨i, f, p, a, b, c, k⟩
  · intro i s hs
    obtain ⟨cmd, c, k1, k2, k3⟩ := e4 i s hs
    rw [Nat.zero_add] at k2
    exact ⟨cmd, c, k1, k2, k3⟩

end TrussPy
