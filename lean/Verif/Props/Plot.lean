import Verif.Lemmas.Plot
import Verif.ExamplesRun
import Verif.ExamplesReal
import Mathlib.Algebra.Order.Group.Abs
import Mathlib.Tactic.Linarith
/-!
# C48-C51, C57: what is drawn
-/

set_option linter.unusedSectionVars false

namespace TrussPy

variable {F : Type} [Zero F] [One F] [Add F] [Sub F] [Mul F] [Div F] [Neg F] [Flt F]

/-! ## C48 -/

theorem plotSegment_joins {labels : List Int} (hl : Consecutive labels) {X : List (List F)} {e : List Int}
    (he : ∃ a b, e = [a, b] ∧ a ∈ labels ∧ b ∈ labels) {seg : List F × List F} (h : plotSegment X e = .ok seg) :
    JoinsNodes labels X e seg := by
  obtain ⟨a, b, rfl, ha, hb⟩ := he
  obtain ⟨i, hi⟩ := List.getElem?_of_mem ha
  obtain ⟨j, hj⟩ := List.getElem?_of_mem hb
  have h' : (do
    let p ← pyGet X (a - 1)
    let q ← pyGet X (b - 1)
    return (p, q)) = (.ok seg : Py _) := h
  obtain ⟨p, h1, h'⟩ := py_bind_eq_ok.1 h'
  obtain ⟨q, h2, h'⟩ := py_bind_eq_ok.1 h'
  cases h'
  rw [hl i a hi, Int.add_sub_cancel, pyGet_ok_nat] at h1
  rw [hl j b hj, Int.add_sub_cancel, pyGet_ok_nat] at h2
  exact ⟨a, b, i, j, rfl, hi, hj, h1, h2⟩

/-- **C48** (labels 1..n) `plot_model` draws one segment per element, in order, and it joins the displaced positions of
the two nodes named in the element's connectivity.
Missing from the full statement: other labels, see `C48_exact_labels` and `C48_wrong_nodes_counterexample`. -/
theorem C48_right_nodes_partial {m : Model F} {con : Option Contour} {inc : Int} {d : PlotData F} {nt : NodeTab F}
    {et : ElemTab F} (h : pModel m con inc = .ok d) (hn : m.nodes = some nt) (he : m.elems = some et)
    (hl : Consecutive nt.labels)
    (hc : ∀ e ∈ et.conns.rows, ∃ a b, e = [a, b] ∧ a ∈ nt.labels ∧ b ∈ nt.labels) :
    ∃ res r, m.results = some res ∧ r ∈ res.R ∧ (∀ k, NamesResult res.R.length inc k → res.R[k]? = some r) ∧
      DisplacedPoints nt.coords.rows r.U d.points ∧ d.segments.length = et.conns.rows.length ∧
      ∀ (k : Nat) (e : List Int), et.conns.rows[k]? = some e →
        ∃ seg, d.segments[k]? = some seg ∧ JoinsNodes nt.labels d.points e seg := by
  obtain ⟨nt', et', ft, res, r, ef, lpf, con', h1, h2, h3, h4, h5, h6, h7, h8, h9, h10, -⟩ := pModel_ok h
  rw [hn] at h1; cases h1
  rw [he] at h2; cases h2
  obtain ⟨k1, k2⟩ := mapM_get h10
  refine ⟨res, r, h4, pyGet_mem h5, ?_, ?_, k1, ?_⟩
  · intro k hk
    rw [names_inc hk, pyGet_ok_nat] at h5
    exact h5
  · rw [h9]; exact deformed_points _ _
  · intro k e hk
    obtain ⟨seg, g1, g2⟩ := k2 k e hk
    exact ⟨seg, g1, plotSegment_joins hl (hc e (List.mem_of_getElem? hk)) g2⟩

/-- Distinguishable points: row `k` has `k` entries. -/
def spread (F : Type) [Zero F] (n : Nat) : List (List F) := (List.range n).map fun k => List.replicate k (0 : F)

/-- **C48** Among distinct positive labels these are the only ones for which every element is drawn correctly. -/
theorem C48_exact_labels {labels : List Int} (hnd : labels.Nodup) (hpos : ∀ l ∈ labels, 0 < l) :
    (∀ (X : List (List F)), X.length = labels.length → ∀ a ∈ labels, ∀ b ∈ labels,
      ∃ seg, plotSegment X [a, b] = .ok seg ∧ JoinsNodes labels X [a, b] seg) ↔ Consecutive labels := by
  have hseg : ∀ (X : List (List F)) (a b : Int) (p q : List F), pyGet X (a - 1) = .ok p → pyGet X (b - 1) = .ok q →
      plotSegment X [a, b] = .ok (p, q) := by
    intro X a b p q h1 h2
    show (do
      let p ← pyGet X (a - 1)
      let q ← pyGet X (b - 1)
      return (p, q)) = _
    rw [h1, py_bind_ok, h2]
    rfl
  constructor
  · intro h i l hi
    have hm := List.mem_of_getElem? hi
    have hil : i < labels.length := (List.getElem?_eq_some_iff.1 hi).1
    have hX : ∀ (k : Nat) (p : List F), (spread F labels.length)[k]? = some p → p.length = k := by
      intro k p hp
      unfold spread at hp
      rw [List.getElem?_map, Option.map_eq_some_iff] at hp
      obtain ⟨k', h1, rfl⟩ := hp
      obtain ⟨_, h2⟩ := List.getElem?_eq_some_iff.1 h1
      rw [List.getElem_range] at h2
      simp [h2]
    obtain ⟨seg, h1, a, b, i', j', h2, h3, h4, h5, h6⟩ := h (spread F labels.length) (by simp [spread]) l hm l hm
    cases h2
    have hp := hpos l hm
    have h1' : (do
      let p ← pyGet (spread F labels.length) (l - 1)
      let q ← pyGet (spread F labels.length) (l - 1)
      return (p, q)) = (.ok seg : Py _) := h1
    obtain ⟨p, g1, h1'⟩ := py_bind_eq_ok.1 h1'
    obtain ⟨q, g2, h1'⟩ := py_bind_eq_ok.1 h1'
    cases h1'
    obtain ⟨n, hn⟩ : ∃ n : Nat, l - 1 = n := ⟨(l - 1).toNat, by omega⟩
    rw [hn, pyGet_ok_nat] at g1
    have e1 := hX _ _ g1
    have e2 : p.length = i' := hX _ _ h5
    have : i' = i := by
      have h7 := whereEq_of_idx hnd h3
      rw [whereEq_of_idx hnd hi] at h7
      simpa using h7.symm
    omega
  · intro hl X hX a ha b hb
    obtain ⟨i, hi⟩ := List.getElem?_of_mem ha
    obtain ⟨j, hj⟩ := List.getElem?_of_mem hb
    have hil : i < labels.length := (List.getElem?_eq_some_iff.1 hi).1
    have hjl : j < labels.length := (List.getElem?_eq_some_iff.1 hj).1
    refine ⟨(X[i]'(by omega), X[j]'(by omega)), ?_, a, b, i, j, rfl, hi, hj, List.getElem?_eq_getElem _, List.getElem?_eq_getElem _⟩
    apply hseg
    · rw [hl i a hi, Int.add_sub_cancel, pyGet_ok_nat, List.getElem?_eq_getElem]
    · rw [hl j b hj, Int.add_sub_cancel, pyGet_ok_nat, List.getElem?_eq_getElem]

/-- The example with three nodes labelled 0, 1, 2 and a bar between nodes 1 and 2. -/
def exZeroLabels : Model ℚ where
  nodes := some ⟨[0, 1, 2], ⟨3, [[0, 0, 0], [1, 0, 0], [2, 0, 0]]⟩⟩
  elems := some ⟨[1], ⟨2, [[1, 2]]⟩, [1], [1], ⟨false, 1, [[1]]⟩, ⟨false, 1, [[1]]⟩⟩
  bounds := some ⟨[0, 1], .d2 ⟨3, [[0, 0, 0], [0, 0, 0]]⟩⟩
  forces := some ⟨[2], ⟨3, [[1, 0, 0]]⟩⟩
  settings := exSettings

/-- What the examples show of a plot. -/
def showPlot (f : PlotData ℚ → β) (con : Option Contour) (inc : Int) (r : Py (Model ℚ)) : Py β := do
  let m ← r
  let d ← pModel m con inc
  return f d

/-- The bar between nodes 1 and 2 at x = 1 and x = 2 is drawn between x = 0 and x = 1, where the nodes 0 and 1 are. -/
theorem C48_wrong_nodes_counterexample : 
    showPlot (fun d => (d.points, d.segments)) none 0 (exZeroLabels.build refArgsort) =
      .ok ([[0, 0, 0], [1, 0, 0], [2, 0, 0]], [([0, 0, 0], [1, 0, 0])]) := by
  decide +kernel

/-- Labels far from 1..n make the plot fail. -/
theorem C48_large_labels_counterexample : showPlot (·.segments) none 0 (({ exZeroLabels with
      nodes := some ⟨[0, 1, 20], ⟨3, [[0, 0, 0], [1, 0, 0], [2, 0, 0]]⟩⟩
      elems := some ⟨[1], ⟨2, [[1, 20]]⟩, [1], [1], ⟨false, 1, [[1]]⟩, ⟨false, 1, [[1]]⟩⟩
      forces := some ⟨[20], ⟨3, [[1, 0, 0]]⟩⟩ }).build refArgsort) = .error .indexError := by
  decide +kernel

/-- Labels 1, 2: the bar of the example at its last increment, elongated from 1 to 2, with its force as contour. -/
example : showPlot (fun d => (d.points, d.segments)) none (-1) (buildRun 1 (exBarModel 1 [1])) =
    .ok ([[0, 0, 0], [2, 0, 0]], [([0, 0, 0], [2, 0, 0])]) ∧
    showPlot (fun d => (d.loads, d.contour)) (some .force) (-1) (buildRun 1 (exBarModel 1 [1])) =
    .ok ([[0, 0, 0], [1, 0, 0]], some ([1], -1, 1)) := by decide +kernel

example : Consecutive [1, 2] ∧ ∀ e ∈ [[(1 : Int), 2]], ∃ a b, e = [a, b] ∧ a ∈ [(1 : Int), 2] ∧ b ∈ [(1 : Int), 2] := by
  refine ⟨?_, ?_⟩
  · intro i l h
    match i with
    | 0 => cases h; rfl
    | 1 => cases h; rfl
    | i + 2 => simp at h
  · intro e he
    simp only [List.mem_singleton] at he
    exact ⟨1, 2, he, by decide, by decide⟩

/-! ## C49 -/

/-- **C49** `plot_model(inc)` for an increment other than the undeformed state draws the external load of the recorded
equilibrium: constant load plus load factor times step load of result number `k`.  `inc = -1` is the last result and
so on. -/
theorem C49_plotted_loads {argsort : List Int → List Nat} {env : Env F} {fuel : Nat} {m m1 m2 : Model F}
    (hb : m.build argsort = .ok m1) (hr : m1.run env fuel = .ok m2) (hn : 0 < m1.settings.nsteps) {res : Results F}
    (hres : m2.results = some res) {con : Option Contour} {inc : Int} {k : Nat}
    (hk : NamesResult res.R.length inc k) (hk0 : k ≠ 0) {d : PlotData F} (h : pModel m2 con inc = .ok d) :
    ∃ r, res.R[k]? = some r ∧ LoadsOf r d.loads := by
  obtain ⟨c, dd, ft, r0, outs, a1, R, le, h1, h2, h3, h4, h5, h6, h7, h8, h9, h10, h11, h12⟩ := build_run hb hr
  rcases h12 with ⟨e, -⟩ | ⟨-, e1, e2⟩
  · omega
  rw [hres] at e1; cases e1
  obtain ⟨_, _, _, _, _, _, -, -, -, -, -, -, -, -, -, hf, -⟩ := run_ok hr
  obtain ⟨nt', et', ft', res, r, ef, lpf, con', k1, k2, k3, k4, k5, k6, k7, k8, k9, k10, -⟩ := pModel_ok h
  rw [hres] at k4; cases k4
  rw [hf, h3] at k3; cases k3
  simp only at k5 k7
  rw [names_inc hk] at k5 k7
  rw [pyGet_ok_nat] at k5
  refine ⟨r, k5, ?_⟩
  obtain ⟨k, rfl⟩ : ∃ k', k = k' + 1 := ⟨k - 1, by omega⟩
  rw [e2, List.getElem?_cons_succ, List.getElem?_map, Option.map_eq_some_iff] at k5
  obtain ⟨q, hq, rfl⟩ := k5
  obtain ⟨s, fc, s1, s2, s3⟩ := h11.slices q (List.mem_of_getElem? hq)
  rw [s3] at k6; cases k6
  rcases k7 with ⟨k7, -⟩ | ⟨-, k7, -⟩
  · omega
  obtain ⟨p1, p2⟩ := plotLoads_ok k8
  refine ⟨_, lpf, s3, k7, p1, ?_⟩
  rw [s2, Nat.add_sub_cancel] at p2
  exact p2

/-- **C49** The plot of increment 0 shows the full table of step 1 with factor 1. -/
theorem C49_undeformed_loads {m : Model F} {con : Option Contour} {inc : Int} {d : PlotData F} {res : Results F}
    {ft : ForceTab F} (h : pModel m con inc = .ok d) (hres : m.results = some res) (hft : m.forces = some ft)
    (hk : NamesResult res.R.length inc 0) : ∃ r ef, res.R[0]? = some r ∧ r.extForces = some ef ∧ d.contour = none ∧
      ∀ (i : Nat) (row : List F), d.loads[i]? = some row → ∀ k, k < 3 → ∃ c f, ef.forcesConst[3 * i + k]? = some c ∧
        (columnsOf ft.forces.rows (r.step - 1))[3 * i + k]? = some f ∧ row[k]? = some (c + 1 * f) := by
  obtain ⟨nt', et', ft', res, r, ef, lpf, con', k1, k2, k3, k4, k5, k6, k7, k8, k9, k10, k11⟩ := pModel_ok h
  rw [hres] at k4; cases k4
  rw [hft] at k3; cases k3
  rw [names_inc hk] at k5 k7
  rw [pyGet_ok_nat] at k5
  rcases k7 with ⟨-, rfl, rfl⟩ | ⟨k7, -⟩
  · refine ⟨r, ef, k5, k6, ?_, ?_⟩
    · rcases k11 with ⟨-, k11⟩ | ⟨q, lim, k11, -⟩
      · exact k11
      · cases k11
    · intro i row hi
      rw [columnsOf_eq]
      exact ((plotLoads_ok k8).2 i row hi).2
  · exact absurd rfl k7

/-- `inc` may be further below zero than there are results: it is then counted from the end twice. Here
`inc = -5` of four results shows the last one instead of raising. -/
theorem C49_counts_twice_counterexample : 
    showPlot (·.segments) none (-5) (buildRun 1 (exBarModel 1 [1])) = .ok [([0, 0, 0], [2, 0, 0])] ∧
    showPlot (·.segments) none (-1) (buildRun 1 (exBarModel 1 [1])) = .ok [([0, 0, 0], [2, 0, 0])] ∧
    (showR (fun a => a.lpf) (buildRun 1 (exBarModel 1 [1]))).map List.length = .ok 4 := by decide +kernel

/-- Loads drawn in the example: increments 2 and 3 (`-2` and `-1`); the last is 1/2 constant plus 1/4 of 2. -/
example : showPlot (·.loads) none 2 (buildRun 1 (exBarModel 1 [1])) = .ok [[0, 0, 0], [1 / 2, 0, 0]] ∧
    showPlot (·.loads) none (-2) (buildRun 1 (exBarModel 1 [1])) = .ok [[0, 0, 0], [1 / 2, 0, 0]] ∧
    showPlot (·.loads) none 3 (buildRun 1 (exBarModel 1 [1])) = .ok [[0, 0, 0], [1 / 2 + 1 / 4 * 2, 0, 0]] := by
  decide +kernel

example : NamesResult 4 3 3 ∧ NamesResult 4 (-1) 3 ∧ NamesResult 4 (-4) 0 := by
  refine ⟨⟨by omega, by omega⟩, ⟨by omega, by omega⟩, ⟨by omega, by omega⟩⟩

/-! ## C57 -/

theorem pyMax_bound {l : List ℝ} {m : ℝ} (h : pyMax l = .ok m) : m ∈ l ∧ ∀ x ∈ l, x ≤ m := by
  cases l with
  | nil => cases h
  | cons a as =>
    have h : as.foldl (fun m b => if Flt.lt m b then b else m) a = m := Except.ok.inj h
    subst h
    have key : ∀ (as : List ℝ) (a : ℝ), (as.foldl (fun m b => if Flt.lt m b then b else m) a) ∈ a :: as ∧
        ∀ x ∈ a :: as, x ≤ as.foldl (fun m b => if Flt.lt m b then b else m) a := by
      intro as
      induction as with
      | nil => intro a; simp
      | cons b as ih =>
        intro a
        rw [List.foldl_cons]
        obtain ⟨i1, i2⟩ := ih (if Flt.lt a b then b else a)
        have hmax : a ≤ (if Flt.lt a b then b else a) ∧ b ≤ (if Flt.lt a b then b else a) := by
          by_cases hab : Flt.lt a b = true
          · rw [if_pos hab]
            have : a < b := by simpa [Flt.lt] using hab
            exact ⟨this.le, le_refl _⟩
          · rw [if_neg hab]
            have : ¬ a < b := by simpa [Flt.lt] using hab
            exact ⟨le_refl _, not_lt.1 this⟩
        constructor
        · rcases List.mem_cons.1 i1 with i1 | i1
          · rw [i1]
            split <;> simp
          · simp [i1]
        · intro x hx
          have h0 := i2 _ (List.mem_cons_self ..)
          rcases List.mem_cons.1 hx with rfl | hx
          · exact hmax.1.trans h0
          · rcases List.mem_cons.1 hx with rfl | hx
            · exact hmax.2.trans h0
            · exact i2 x (List.mem_cons_of_mem _ hx)
    exact key as a

/-- **C57** With automatic limits no value is outside the colour bar, the bar is symmetric about the neutral value
(1 for stretches, 0 for forces and stresses), and it is not wider than needed: some value reaches an end. -/
theorem C57_contour_limits {m : Model ℝ} {q : Contour} {inc : Int} {d : PlotData ℝ} (h : pModel m (some q) inc = .ok d)
    {vals : List ℝ} {lo hi : ℝ} (hd : d.contour = some (vals, lo, hi)) :
    (∀ v ∈ vals, lo ≤ v ∧ v ≤ hi) ∧ (lo + hi) / 2 = (if q = .stretch then 1 else 0) ∧ ∃ v ∈ vals, v = lo ∨ v = hi := by
  obtain ⟨_, _, _, _, r, _, _, con', -, -, -, -, -, -, h7, -, -, -, h8⟩ := pModel_ok h
  rcases h8 with ⟨-, h8⟩ | ⟨q', lim, hc, h9, h8⟩
  · rw [hd] at h8; cases h8
  have hq : q' = q := by
    rcases h7 with ⟨-, -, h7⟩ | ⟨-, -, h7⟩
    · rw [hc] at h7; cases h7
    · rw [hc] at h7; cases h7; rfl
  subst hq
  rw [hd] at h8
  simp only [Option.some.injEq, Prod.mk.injEq] at h8
  obtain ⟨rfl, rfl, rfl⟩ := h8
  cases q' with
  | stretch =>
    obtain ⟨M, h10, h9⟩ := py_bind_eq_ok.1 h9
    cases h9
    obtain ⟨g1, g2⟩ := pyMax_bound h10
    refine ⟨?_, by simp, ?_⟩
    · intro v hv
      have : |v - 1| ≤ M := g2 _ (List.mem_map_of_mem hv)
      obtain ⟨i1, i2⟩ := abs_le.1 this
      constructor <;> simp only <;> linarith
    · obtain ⟨v, hv, e⟩ := List.mem_map.1 g1
      refine ⟨v, hv, ?_⟩
      have e : |v - 1| = M := e
      rcases abs_eq (show (0:ℝ) ≤ M by rw [← e]; exact abs_nonneg _) |>.1 e with e | e
      · right; simp only; linarith
      · left; simp only; linarith
  | force =>
    obtain ⟨M, h10, h9⟩ := py_bind_eq_ok.1 h9
    cases h9
    obtain ⟨g1, g2⟩ := pyMax_bound h10
    refine ⟨?_, by simp, ?_⟩
    · intro v hv
      have : |v| ≤ M := g2 _ (List.mem_map_of_mem hv)
      exact abs_le.1 this
    · obtain ⟨v, hv, e⟩ := List.mem_map.1 g1
      refine ⟨v, hv, ?_⟩
      have e : |v| = M := e
      rcases abs_eq (show (0:ℝ) ≤ M by rw [← e]; exact abs_nonneg _) |>.1 e with e | e
      · right; exact e
      · left; exact e
  | stress =>
    obtain ⟨M, h10, h9⟩ := py_bind_eq_ok.1 h9
    cases h9
    obtain ⟨g1, g2⟩ := pyMax_bound h10
    refine ⟨?_, by simp, ?_⟩
    · intro v hv
      have : |v| ≤ M := g2 _ (List.mem_map_of_mem hv)
      exact abs_le.1 this
    · obtain ⟨v, hv, e⟩ := List.mem_map.1 g1
      refine ⟨v, hv, ?_⟩
      have e : |v| = M := e
      rcases abs_eq (show (0:ℝ) ≤ M by rw [← e]; exact abs_nonneg _) |>.1 e with e | e
      · right; exact e
      · left; exact e

/-- Stretches of the example: 3/2 at increment 2, limits 1/2 and 3/2. -/
example : showPlot (·.contour) (some .stretch) 2 (buildRun 1 (exBarModel 1 [1])) =
    .ok (some ([3 / 2], 1 / 2, 3 / 2)) := by decide +kernel

/-! ## C50 -/

/-- **C50** `plot_history` hands over `1 + len(R)` points whatever is plotted, beginning with 0. -/
theorem C50_history_length {m : Model F} {n0 n1 : Int} {X Y : List Char} {xs ys : List F}
    (h : pHistory m n0 n1 X Y = .ok (xs, ys)) : ∃ res, m.results = some res ∧ xs.length = 1 + res.R.length ∧
      ys.length = 1 + res.R.length := by
  unfold pHistory at h
  split at h
  case h_2 => cases h
  next res nt h1 h2 =>
  obtain ⟨ps, h3, h⟩ := py_bind_eq_ok.1 h
  have := histLoop_length _ h3
  cases h
  refine ⟨res, h1, ?_, ?_⟩
  · split
    · simp [arangeF]
    · simp [this]; omega
  · split
    · simp [arangeF]
    · simp [this]; omega

/-- **C50** After `build` and `run`: for distinct labels and every pair of nodes and of nodal quantities the history
begins with (0, 0) and continues with one point per result, in order, showing the quantities of that result at these
nodes. -/
theorem C50_history_aligned {argsort : List Int → List Nat} (has : IsArgsort argsort) {env : Env F} {fuel : Nat} {m m1 m2 : Model F}
    (hb : m.build argsort = .ok m1) (hr : m1.run env fuel = .ok m2) {res : Results F} (hres : m2.results = some res)
    {nt : NodeTab F} (hnt : m1.nodes = some nt) (hnd : nt.labels.Nodup)
    {i j : Nat} {n0 n1 : Int} (hi : nt.labels[i]? = some n0)
    (hj : nt.labels[j]? = some n1) {X Y : String} (hX : X ∈ nodalQuantities) (hY : Y ∈ nodalQuantities) :
    ∃ xs ys, pHistory m2 n0 n1 X.toList Y.toList = .ok (xs, ys) ∧ xs.length = 1 + res.R.length ∧
      ys.length = 1 + res.R.length ∧ xs[0]? = some 0 ∧ ys[0]? = some 0 ∧
      ∀ (k : Nat) (r : Analysis F), res.R[k]? = some r → ∃ x y, xs[k + 1]? = some x ∧ ys[k + 1]? = some y ∧
        Shows r i X x ∧ Shows r j Y y := by
  obtain ⟨c, d', h1, h2, h3, h4⟩ := run_sizes hb hr hres
  have hlen := build_nodes_length has hb hnt h2
  obtain ⟨_, _, _, _, _, _, -, -, -, -, -, -, hn, -⟩ := run_ok hr
  have hfit : ∀ r ∈ res.R, r.U.length = 3 * nt.labels.length ∧ r.r.length = nt.labels.length ∧ ∃ l, r.lpf = some l := by
    intro r hr
    obtain ⟨f, l⟩ := h4 r hr
    exact ⟨by rw [f.U, h3, hlen], by rw [f.r, h3, hlen], l⟩
  obtain ⟨ps, k1, k2⟩ := histLoop_shows hnd hi hj hX hY res.R hfit (Flt.nan : F) Flt.nan
  have hno : ∀ Y ∈ nodalQuantities, hasSub "Increments".toList Y.toList = false := by decide
  refine ⟨0 :: ps.map (·.1), 0 :: ps.map (·.2), ?_, ?_, ?_, rfl, rfl, ?_⟩
  · unfold pHistory
    rw [hres, hn, hnt]
    simp only
    rw [k1, py_bind_ok]
    simp only [hno X hX, hno Y hY]
    rfl
  · simp [histLoop_length _ k1]; omega
  · simp [histLoop_length _ k1]; omega
  · intro k r hk
    obtain ⟨p, p1, p2, p3⟩ := k2 k r hk
    exact ⟨p.1, p.2, by simp [p1], by simp [p1], p2, p3⟩

/-- **C50** `plot_path` hands over one value per node of the path: the quantity of the chosen result at that node. -/
theorem C50_path_aligned {argsort : List Int → List Nat} (has : IsArgsort argsort) {env : Env F} {fuel : Nat} {m m1 m2 : Model F}
    (hb : m.build argsort = .ok m1) (hr : m1.run env fuel = .ok m2) {res : Results F} (hres : m2.results = some res)
    {nt : NodeTab F} (hnt : m1.nodes = some nt) (hnd : nt.labels.Nodup)
    {path : List Int} (hp : ∀ n ∈ path, n ∈ nt.labels) (hne : path ≠ [])
    {Y : String} (hY : Y ∈ nodalQuantities) {inc : Int} {k : Nat} (hk : NamesResult res.R.length inc k) :
    ∃ r ys, res.R[k]? = some r ∧ pPath m2 path inc Y.toList = .ok ys ∧ ys.length = path.length ∧
      ∀ (n : Nat) (l : Int) (i : Nat), path[n]? = some l → nt.labels[i]? = some l →
        ∃ y, ys[n]? = some y ∧ Shows r i Y y := by
  obtain ⟨c, d', h1, h2, h3, h4⟩ := run_sizes hb hr hres
  have hlen := build_nodes_length has hb hnt h2
  obtain ⟨_, _, _, _, _, _, -, -, -, -, -, -, hn, -⟩ := run_ok hr
  have hrk : res.R[k]? = some (res.R[k]'hk.1) := List.getElem?_eq_getElem _
  have hget : pyGet res.R inc = .ok (res.R[k]'hk.1) := by
    have hk' := hk.2
    generalize res.R[k]'hk.1 = r at hrk
    rcases hk' with q2 | q2
    · rw [q2, pyGet_ok_nat]; exact hrk
    · have := hk.1
      rw [pyGet_neg (by omega) (by omega), q2, show ((k : Int) - res.R.length + res.R.length).toNat = k by omega]
      exact hrk
  obtain ⟨f, l, hl⟩ := h4 _ (List.mem_of_getElem? hrk)
  obtain ⟨ys, k1, k2⟩ := pathLoop_shows hnd hY (by rw [f.U, h3, hlen]) (by rw [f.r, h3, hlen]) hl path hp (Flt.nan : F)
  refine ⟨_, ys, hrk, ?_, pathLoop_length _ k1, k2⟩
  unfold pPath
  rw [hres, hn, hnt]
  simp only
  rw [hget, py_bind_ok, k1, py_bind_ok, if_neg (by simpa using hne)]
  rfl

/-- **C50** An empty path raises `ValueError`, and an increment that names no result `IndexError` for every path. -/
theorem C50_path_errors {env : Env F} {fuel : Nat} {m1 m2 : Model F}
    (hr : m1.run env fuel = .ok m2) {res : Results F} (hres : m2.results = some res)
    {nt : NodeTab F} (hnt : m1.nodes = some nt) (Y : List Char) :
    (∀ inc k, NamesResult res.R.length inc k → pPath m2 [] inc Y = .error .valueError) ∧
    (∀ path inc, (∀ k, ¬ NamesResult res.R.length inc k) → pPath m2 path inc Y = .error .indexError) := by
  obtain ⟨_, _, _, _, _, _, -, -, -, -, -, -, hn, -⟩ := run_ok hr
  constructor
  · intro inc k hk
    have hget : ∃ r, pyGet res.R inc = .ok r := by
      refine ⟨res.R[k]'hk.1, ?_⟩
      have hrk : res.R[k]? = some (res.R[k]'hk.1) := List.getElem?_eq_getElem _
      have hk' := hk.2
      generalize res.R[k]'hk.1 = r at hrk
      rcases hk' with q2 | q2
      · rw [q2, pyGet_ok_nat]; exact hrk
      · have := hk.1
        rw [pyGet_neg (by omega) (by omega), q2, show ((k : Int) - res.R.length + res.R.length).toNat = k by omega]
        exact hrk
    obtain ⟨r, hget⟩ := hget
    unfold pPath
    rw [hres, hn, hnt]
    simp only
    rw [hget, py_bind_ok]
    rfl
  · intro path inc hk
    have hget : pyGet res.R inc = .error .indexError := by
      unfold pyGet
      simp only
      by_cases h0 : 0 ≤ inc
      · have := hk inc.toNat
        rw [if_pos h0, if_neg (by omega), List.getElem?_eq_none (by unfold NamesResult at this; omega)]
      · have := hk (inc + res.R.length).toNat
        unfold NamesResult at this
        rw [if_neg h0, if_pos (by omega)]
    unfold pPath
    rw [hres, hn, hnt]
    simp only
    rw [hget]
    rfl

/-- **C50** `Increments` on an axis gives the numbers 0, 1, ..., len(R). -/
theorem C50_increment_axis {m : Model F} {n0 n1 : Int} {Y : List Char} {xs ys : List F}
    (h : pHistory m n0 n1 "Increments".toList Y = .ok (xs, ys)) : ∃ res, m.results = some res ∧
      xs.length = 1 + res.R.length ∧ ∀ k, k < 1 + res.R.length → xs[k]? = some (Flt.ofInt (k : Int)) := by
  unfold pHistory at h
  split at h
  case h_2 => cases h
  next res nt h1 h2 =>
  obtain ⟨ps, h3, h⟩ := py_bind_eq_ok.1 h
  rw [if_pos (by decide)] at h
  cases h
  refine ⟨res, h1, by simp [arangeF], ?_⟩
  intro k hk
  simp [arangeF, hk]

/-- State variables belong to elements but are looked up by the position of a node: in the example with one bar and two
nodes, node 1 gives the state variables of bar 1, and node 2, which is connected to the same bar, raises. -/
theorem C50_state_variable_counterexample :
    (do let m ← buildRun 1 (exBarModel 2 [1, 1, 3 / 8])
        pHistory m 1 1 "LPF".toList "State Variable 2".toList) = .ok ([0, 0, 1 / 4, 1 / 2, 1 / 8], [0, 0, 0, 1 / 8, 3 / 8]) ∧
    (do let m ← buildRun 1 (exBarModel 2 [1, 1, 3 / 8])
        pHistory m 2 2 "LPF".toList "State Variable 2".toList) = .error .indexError := by decide +kernel

/-- Displacement of node 2 against load factor in the example, and a path at the last increment. -/
example :
    (do let m ← buildRun 1 (exBarModel 2 [1, 1, 3 / 8])
        pHistory m 2 2 "Displacement X".toList "LPF".toList) = .ok ([0, 0, 1 / 4, 5 / 8, 9 / 8], [0, 0, 1 / 4, 1 / 2, 1 / 8]) ∧
    (do let m ← buildRun 1 (exBarModel 2 [1, 1, 3 / 8])
        pPath m [2, 1] (-1) "Displacement X".toList) = .ok [9 / 8, 0] := by decide +kernel

/-! ## C51 -/

/-- **C51** (increments below 1000) The movie shows every requested increment exactly once, in increasing order, and
nothing else, whatever was on disk and in whatever order or multiplicity the increments were requested.
Missing from the full statement: increments from 1000 on, see `C51_not_in_order`, and negative ones. -/
theorem C51_movie_in_order_partial {P : Type} {plot : Int → Py P} {disk : OnDisk P} {incs : List Int} {pics : List P}
    (h : pMovie plot disk incs = .ok pics) (hlt : ∀ i ∈ incs, 0 ≤ i ∧ i < 1000) :
    ∃ shown : List Int, shown.Pairwise (· < ·) ∧ (∀ i, i ∈ shown ↔ i ∈ incs) ∧
      List.Forall₂ (fun i p => plot i = .ok p) shown pics := by
  obtain ⟨shown, h1, h2, h3, h4, h5⟩ := pMovie_ok h
  have hle : ∀ {a b : Int}, a ∈ incs → b ∈ incs → strLe (frameName a) (frameName b) = true → a ≤ b := by
    intro a b ha hb hab
    obtain ⟨a0, a1⟩ := hlt a ha
    obtain ⟨b0, b1⟩ := hlt b hb
    obtain ⟨a, rfl⟩ := Int.eq_ofNat_of_zero_le a0
    obtain ⟨b, rfl⟩ := Int.eq_ofNat_of_zero_le b0
    have := (frameName_le (by omega) (by omega)).1 hab
    omega
  refine ⟨shown, ?_, ?_, h5⟩
  · rw [List.nodup_iff_pairwise_ne, List.pairwise_map] at h3
    rw [List.pairwise_map] at h4
    refine (List.pairwise_and_iff.2 ⟨h3, h4⟩).imp_of_mem ?_
    intro a b ha hb hab
    have := hle (h1 a ha) (h1 b hb) hab.2
    rcases lt_or_eq_of_le this with h | h
    · exact h
    · subst h; exact absurd rfl hab.1
  · intro i
    refine ⟨h1 i, ?_⟩
    intro hi
    obtain ⟨k, hk, e⟩ := List.mem_map.1 (h2 i hi)
    have e1 := hle (h1 k hk) hi (by rw [e]; exact strLe_refl _)
    have e2 := hle hi (h1 k hk) (by rw [e]; exact strLe_refl _)
    rwa [show i = k by omega]

/-- **C51** The default, all increments of at most 1000 results: frame number `k` shows increment `k + 1`. -/
theorem C51_all_increments_partial {P : Type} {plot : Int → Py P} {disk : OnDisk P} {n : Nat} {pics : List P}
    (h : pMovie plot disk (allIncs n) = .ok pics) (hn : n ≤ 1000) : pics.length = n - 1 ∧
      ∀ (k : Nat) (p : P), pics[k]? = some p → plot ((k : Int) + 1) = .ok p := by
  have hmem : ∀ i, i ∈ allIncs n ↔ 1 ≤ i ∧ i < n := by
    intro i
    simp only [allIncs, List.mem_map, List.mem_range]
    constructor
    · rintro ⟨k, hk, rfl⟩; omega
    · intro hi; exact ⟨(i - 1).toNat, by omega, by omega⟩
  obtain ⟨shown, h1, h2, h3⟩ := C51_movie_in_order_partial h (fun i hi => by have := (hmem i).1 hi; omega)
  have hs : (allIncs n).Pairwise (· < ·) := by
    unfold allIncs
    rw [List.pairwise_map]
    exact List.pairwise_lt_range.imp (by intro a b hab; omega)
  have hall : shown = allIncs n := by
    have hp : shown.Perm (allIncs n) := by
      rw [List.perm_ext_iff_of_nodup (h1.imp fun h => by omega) (hs.imp fun h => by omega)]
      exact h2
    exact sorted_perm_eq hp (h1.imp fun h => by omega) (hs.imp fun h => by omega)
  subst hall
  refine ⟨by rw [← h3.length_eq]; simp [allIncs], ?_⟩
  intro k p hk
  have hkl := (List.getElem?_eq_some_iff.1 hk).1
  rw [← h3.length_eq] at hkl
  have := List.forall₂_iff_get.1 h3
  have := this.2 k hkl (List.getElem?_eq_some_iff.1 hk).1
  simp only [List.get_eq_getElem] at this
  rw [(List.getElem?_eq_some_iff.1 hk).2] at this
  simpa [allIncs] using this

/-- A movie is made whenever the plots succeed and no file named `figures` is in the way. -/
theorem C51_movie_exists {P : Type} {plot : Int → Py P} {disk : OnDisk P} (hd : disk ≠ .file) {incs : List Int}
    (hp : ∀ i ∈ incs, ∃ p, plot i = .ok p) : ∃ pics, pMovie plot disk incs = .ok pics := by
  have key : ∀ (incs : List Int) (d : Dir P), (∀ i ∈ incs, ∃ p, plot i = .ok p) → ∃ d', frameLoop plot incs d = .ok d' := by
    intro incs
    induction incs with
    | nil => intro d _; exact ⟨d, rfl⟩
    | cons i incs ih =>
      intro d h
      obtain ⟨p, hp⟩ := h i (by simp)
      obtain ⟨d', h'⟩ := ih (savefig d (frameName i) p) (fun k hk => h k (by simp [hk]))
      refine ⟨d', ?_⟩
      unfold frameLoop
      rw [hp, py_bind_ok]
      exact h'
  obtain ⟨d', h'⟩ := key incs [] hp
  refine ⟨pngToGif d', ?_⟩
  have h0 : disk.rmtree.mkdir = .ok [] := by
    cases disk with
    | absent => rfl
    | file => exact absurd rfl hd
    | dir d => rfl
  unfold pMovie
  rw [h0, py_bind_ok, h', py_bind_ok]
  rfl

/-- **C51** A plain file named `figures` is not removed, and no movie is made. -/
theorem C51_file_in_the_way {P : Type} (plot : Int → Py P) (incs : List Int) :
    pMovie plot .file incs = .error .ioError := rfl

/-- **C51** fails for every movie with increments 999 and 1000: the frame of increment 1000 precedes that of 999. -/
theorem C51_not_in_order {P : Type} {plot : Int → Py P} {disk : OnDisk P} {incs : List Int} {pics : List P}
    (h : pMovie plot disk incs = .ok pics) (h1 : 999 ∈ incs) (h2 : 1000 ∈ incs)
    (hinj : ∀ i ∈ incs, ∀ k ∈ incs, ∀ p, plot i = .ok p → plot k = .ok p → i = k) :
    ¬ ∃ shown : List Int, shown.Pairwise (· < ·) ∧ (∀ i, i ∈ shown ↔ i ∈ incs) ∧
      List.Forall₂ (fun i p => plot i = .ok p) shown pics := by
  rintro ⟨shown', s1, s2, s3⟩
  obtain ⟨shown, g1, g2, g3, g4, g5⟩ := pMovie_ok h
  have hall : shown = shown' := by
    have key : ∀ {as bs : List Int} {ps : List P}, (∀ a ∈ as, a ∈ incs) → (∀ b ∈ bs, b ∈ incs) →
        List.Forall₂ (fun i p => plot i = .ok p) as ps → List.Forall₂ (fun i p => plot i = .ok p) bs ps → as = bs := by
      intro as
      induction as with
      | nil => intro bs ps _ _ h1 h2; cases h1; cases h2; rfl
      | cons a as ih =>
        intro bs ps m1 m2 h1 h2
        cases h1 with
        | cons q1 q2 =>
          cases h2 with
          | cons r1 r2 =>
            rw [hinj _ (m1 _ (by simp)) _ (m2 _ (by simp)) _ q1 r1,
              ih (fun a ha => m1 a (by simp [ha])) (fun a ha => m2 a (by simp [ha])) q2 r2]
    exact key g1 (fun b hb => (s2 b).1 hb) g5 s3
  subst hall
  rw [List.pairwise_map] at g4
  have m1 := (s2 999).2 h1
  have m2 := (s2 1000).2 h2
  obtain ⟨a, ha⟩ := List.getElem?_of_mem m1
  obtain ⟨b, hb⟩ := List.getElem?_of_mem m2
  obtain ⟨ha1, ha2⟩ := List.getElem?_eq_some_iff.1 ha
  obtain ⟨hb1, hb2⟩ := List.getElem?_eq_some_iff.1 hb
  rcases Nat.lt_trichotomy a b with hab | hab | hab
  · have := List.pairwise_iff_getElem.1 g4 a b ha1 hb1 hab
    rw [ha2, hb2] at this
    exact absurd this (by decide)
  · subst hab
    rw [ha] at hb
    cases hb
  · have := List.pairwise_iff_getElem.1 s1 b a hb1 ha1 hab
    rw [ha2, hb2] at this
    omega

/-- The order of the frames for increments 999 and 1000, and for 3, 20, 100 requested in another order with an old
frame on disk. -/
theorem C51_order_counterexample : pMovie (fun i => .ok i) .absent [999, 1000] = .ok [1000, 999] := by decide +kernel

example : pMovie (fun i => .ok i) (.dir [(frameName 7, 7)]) [100, 3, 20, 3] = .ok [3, 20, 100] := by decide +kernel

end TrussPy
