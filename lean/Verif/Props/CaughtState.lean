import Verif.Props.Caught
/-!
# Properties C96 and C97: what exactly a call that raised leaves behind
-/

set_option linter.unusedSectionVars false

namespace TrussPy

variable {F : Type}

/-- **C96** (what an add call leaves) An add call on a table that is not empty raises exactly if a row has the wrong width.  Then the
label has been appended and its row has not.  For elements the columns are filled from left to right and only up to the first one
with the wrong width; the types belong to the connectivity. -/
theorem C96_left_by_add :
    (∀ (t : NodeTab F) (n : Node F), (addNodeC (some t) n).2 ≠ .ok () ↔ n.coord.length ≠ t.coords.cols) ∧
    (∀ (t : NodeTab F) (n : Node F), n.coord.length ≠ t.coords.cols →
      (addNodeC (some t) n).1 = some ⟨t.labels ++ [n.label], t.coords⟩) ∧
    (∀ (t : ForceTab F) (f : ExtForce F), (addForceC (some t) f).2 ≠ .ok () ↔ f.force.length ≠ t.forces.cols) ∧
    (∀ (t : ForceTab F) (f : ExtForce F), f.force.length ≠ t.forces.cols →
      (addForceC (some t) f).1 = some ⟨t.nodes ++ [f.node], t.forces⟩) ∧
    (∀ (t : BoundTab) (b : BoundU), (addBoundUC (some t) b).2 ≠ .ok () →
      (addBoundUC (some t) b).1 = some ⟨t.nodes ++ [b.node], t.values⟩) ∧
    ∀ (t : ElemTab F) (e : Elem F),
      ((addElemC (some t) e).2 ≠ .ok () ↔
        e.conn.length ≠ t.conns.cols ∨ e.mprop.vals.length ≠ t.mprop.cols ∨ e.gprop.vals.length ≠ t.gprop.cols) ∧
      ∃ t', (addElemC (some t) e).1 = some t' ∧ t'.labels = t.labels ++ [e.label] ∧
        (e.conn.length ≠ t.conns.cols → t'.conns = t.conns ∧ t'.etype = t.etype ∧ t'.mtype = t.mtype ∧ t'.mprop = t.mprop ∧
          t'.gprop = t.gprop) ∧
        (e.conn.length = t.conns.cols → t'.conns = ⟨t.conns.cols, t.conns.rows ++ [e.conn]⟩ ∧ t'.etype = t.etype ++ [e.etype] ∧
          t'.mtype = t.mtype ++ [e.mtype] ∧
          (e.mprop.vals.length ≠ t.mprop.cols → t'.mprop = t.mprop ∧ t'.gprop = t.gprop) ∧
          (e.mprop.vals.length = t.mprop.cols →
            t'.mprop = ⟨t.mprop.isInt && e.mprop.isInt, t.mprop.cols, t.mprop.rows ++ [e.mprop.vals]⟩ ∧
            (e.gprop.vals.length ≠ t.gprop.cols → t'.gprop = t.gprop))) := by
  refine ⟨?_, ?_, ?_, ?_, ?_, ?_⟩
  · intro t n
    by_cases h : n.coord.length = t.coords.cols <;> simp [addNodeC, Tab.vstack, h]
  · intro t n h
    simp [addNodeC, Tab.vstack, h]
  · intro t n
    by_cases h : n.force.length = t.forces.cols <;> simp [addForceC, Tab.vstack, h]
  · intro t n h
    simp [addForceC, Tab.vstack, h]
  · intro t b h
    simp only [addBoundUC] at h ⊢
    split at h
    · exact absurd rfl h
    · next e he => rfl
  · intro t e
    by_cases h1 : e.conn.length = t.conns.cols <;> by_cases h2 : e.mprop.vals.length = t.mprop.cols <;>
      by_cases h3 : e.gprop.vals.length = t.gprop.cols <;> simp [addElemC, Tab.vstack, PTab.vstack, h1, h2, h3]

open Classical in
theorem npDelete_hasRows {α : Type} (labels : List Int) (l : Int) (rows : List α) : npDelete rows (whereEq labels l) =
    if HasRows labels l rows.length then .ok (rowsWithout labels l rows) else .error .indexError := by
  have hmem : ∀ i, i ∈ whereEq labels l ↔ labels[i]? = some l := by
    intro i
    simp only [whereEq, List.mem_filter, List.mem_range, beq_iff_eq, and_iff_right_iff_imp]
    intro h
    exact (List.getElem?_eq_some_iff.1 h).1
  unfold npDelete
  by_cases h : HasRows labels l rows.length
  · rw [if_pos h, if_neg]
    · congr 2
      refine List.filter_congr fun p _ => ?_
      rw [Bool.eq_iff_iff]
      simp [hmem]
    · simp only [List.any_eq_true, decide_eq_true_eq, not_exists, not_and]
      intro i hi
      have := h i ((hmem i).1 hi)
      omega
  · rw [if_neg h, if_pos]
    unfold HasRows at h
    push Not at h
    obtain ⟨i, h1, h2⟩ := h
    exact List.any_eq_true.2 ⟨i, (hmem i).2 h1, by simpa using h2⟩

open Classical in
theorem tabDelete_eq {α : Type} (t : Tab α) (labels : List Int) (l : Int) : t.delete (whereEq labels l) =
    if HasRows labels l t.rows.length then .ok { t with rows := rowsWithout labels l t.rows } else .error .indexError := by
  unfold Tab.delete
  rw [npDelete_hasRows]
  split_ifs <;> rfl

open Classical in
theorem ptabDelete_eq (t : PTab F) (labels : List Int) (l : Int) : t.delete (whereEq labels l) =
    if HasRows labels l t.rows.length then .ok { t with rows := rowsWithout labels l t.rows } else .error .indexError := by
  unfold PTab.delete
  rw [npDelete_hasRows]
  split_ifs <;> rfl

/-- **C96** (what a delete call leaves) A delete call that raises has removed the label; the rows are as before.  Of an element that
could not be deleted, the first column without enough rows and those after it are as before, and the types always are. -/
theorem C96_left_by_delete :
    (∀ (t : NodeTab F) l, (delNodeC (some t) l).2 ≠ .ok () →
      (delNodeC (some t) l).1 = some ⟨t.labels.filter (· ≠ l), t.coords⟩) ∧
    (∀ (t : BoundTab) l, (delBoundUC (some t) l).2 ≠ .ok () →
      (delBoundUC (some t) l).1 = some ⟨t.nodes.filter (· ≠ l), t.values⟩) ∧
    (∀ (t : ForceTab F) l, (delForceC (some t) l).2 ≠ .ok () →
      (delForceC (some t) l).1 = some ⟨t.nodes.filter (· ≠ l), t.forces⟩) ∧
    ∀ (t : ElemTab F) l, (delElemC (some t) l).2 ≠ .ok () → ∃ t', (delElemC (some t) l).1 = some t' ∧
      t'.labels = t.labels.filter (· ≠ l) ∧ t'.etype = t.etype ∧ t'.mtype = t.mtype ∧ t'.gprop = t.gprop ∧
      (¬ HasRows t.labels l t.conns.rows.length → t'.conns = t.conns ∧ t'.mprop = t.mprop) ∧
      (HasRows t.labels l t.conns.rows.length → t'.conns = { t.conns with rows := rowsWithout t.labels l t.conns.rows } ∧
        (¬ HasRows t.labels l t.mprop.rows.length → t'.mprop = t.mprop) ∧
        (HasRows t.labels l t.mprop.rows.length →
          t'.mprop = { t.mprop with rows := rowsWithout t.labels l t.mprop.rows })) := by
  refine ⟨?_, ?_, ?_, ?_⟩
  · intro t l h
    simp only [delNodeC, npDelete_labels] at h ⊢
    split at h
    · exact absurd rfl h
    · rfl
  · intro t l h
    simp only [delBoundUC, npDelete_labels] at h ⊢
    split at h
    · exact absurd rfl h
    · rfl
  · intro t l h
    simp only [delForceC, npDelete_labels] at h ⊢
    split at h
    · exact absurd rfl h
    · rfl
  · intro t l h
    simp only [delElemC, npDelete_labels] at h ⊢
    rw [tabDelete_eq] at h ⊢
    by_cases h1 : HasRows t.labels l t.conns.rows.length
    · simp only [if_pos h1] at h ⊢
      rw [ptabDelete_eq] at h ⊢
      by_cases h2 : HasRows t.labels l t.mprop.rows.length
      · simp only [if_pos h2] at h ⊢
        rw [ptabDelete_eq] at h ⊢
        by_cases h3 : HasRows t.labels l t.gprop.rows.length
        · simp only [if_pos h3] at h
          exact absurd rfl h
        · simp only [if_neg h3]
          exact ⟨_, rfl, rfl, rfl, rfl, rfl, fun hc => absurd h1 hc, fun _ => ⟨rfl, fun hc => absurd h2 hc, fun _ => rfl⟩⟩
      · simp only [if_neg h2]
        exact ⟨_, rfl, rfl, rfl, rfl, rfl, fun hc => absurd h1 hc, fun _ => ⟨rfl, fun _ => rfl, fun hc => absurd hc h2⟩⟩
    · simp only [if_neg h1]
      exact ⟨_, rfl, rfl, rfl, rfl, rfl, fun _ => ⟨rfl, rfl⟩, fun hc => absurd hc h1⟩

/-- **C97** (supports of the wrong width) If the supports were entered with another number of values than three and a node has
none, `build` raises; the nodes are sorted by then, and the first node without a support has a label but no row in the
support table, which otherwise is as entered; loads, elements and settings are as before. -/
theorem C97_left_by_wrong_width [Zero F] {as : List Int → List Nat} {m : Model F} {nt0 nt : NodeTab F} {et : ElemTab F} {bt : BoundTab}
    {n : Int} {rest : List Int} (hn : m.nodes = some nt0) (he : m.elems = some et) (hdim : m.settings.ndim = 3)
    (hf : fixNodesC as nt0 = (nt, .ok ())) (hb : m.bounds = some bt)
    (hw : match bt.values with | .d1 v => v.length ≠ 3 | .d2 t => t.cols ≠ 3)
    (hmiss : (nt.labels.filter fun l => decide (l ∉ bt.nodes)) = n :: rest) :
    ∃ m1, m.buildC as = (m1, .error .valueError) ∧ m1.nodes = some nt ∧ m1.bounds = some ⟨bt.nodes ++ [n], bt.values⟩ ∧
      m1.forces = m.forces ∧ m1.elems = m.elems ∧ m1.settings = m.settings := by
  have hm : missing nt.labels (some bt.nodes) = n :: rest := by
    rw [← hmiss]
    unfold missing
    congr 1
    funext l
    simp
  have hvs : bt.values.vstack [1, 1, 1] = .error .valueError := by
    cases hv : bt.values with
    | d1 v =>
      rw [hv] at hw
      simp only [BArr.vstack, List.length_cons, List.length_nil]
      rw [if_neg (fun h => hw h.symm)]
    | d2 t =>
      rw [hv] at hw
      simp only [BArr.vstack, Tab.vstack, List.length_cons, List.length_nil]
      rw [if_neg (fun h => hw h.symm)]
  refine ⟨{ m with results := some ⟨[], []⟩, analysis := none, dims := none, nodes := some nt,
                   bounds := some ⟨bt.nodes ++ [n], bt.values⟩ }, ?_, rfl, rfl, rfl, rfl, rfl⟩
  · unfold Model.buildC
    simp only [hn, he, hdim, hf, hb, ne_eq, not_true_eq_false, if_false]
    simp only [fixBoundsUC, Option.map_some, hm, List.map_cons, addBoundsUC, addBoundUC, hvs]

/-! ## The hypotheses are met -/

/-- A node with two coordinates, an element with a material property too many, a support with two values. -/
example : (addNodeC (some (⟨[1], ⟨3, [[0, 0, 0]]⟩⟩ : NodeTab ℚ)) ⟨2, [1, 2]⟩).1 = some ⟨[1, 2], ⟨3, [[0, 0, 0]]⟩⟩ :=
  C96_left_by_add.2.1 _ _ (by decide)

example : (addElemC (some (⟨[1], ⟨2, [[1, 2]]⟩, [1], [1], ⟨false, 1, [[1]]⟩, ⟨false, 1, [[1]]⟩⟩ : ElemTab ℚ))
    ⟨2, [2, 3], 1, 1, ⟨false, [1, 2]⟩, ⟨false, [1]⟩⟩).2 ≠ .ok () :=
  (C96_left_by_add.2.2.2.2.2 _ _).1.2 (.inr (.inl (by decide)))

example : (delBoundUC (some ⟨[1, 2, 2], .d2 ⟨3, [[0, 0, 0], [1, 0, 0]]⟩⟩) 2).1 =
    some ⟨[1], .d2 ⟨3, [[0, 0, 0], [1, 0, 0]]⟩⟩ :=
  (C96_left_by_delete (F := ℚ)).2.1 _ _ (by decide)

/-- Two supports with two values each, a third node without: `build` raises. -/
example : ∃ m1, ({ exForgottenModel with
      nodes := some ⟨[7, 2, 1], ⟨3, [[1, 0, 0], [4, 0, 3], [0, 0, 0]]⟩⟩, bounds := some ⟨[1, 2], .d2 ⟨2, [[0, 1], [0, 0]]⟩⟩ }).buildC
      refArgsort = (m1, .error .valueError) ∧ m1.bounds = some ⟨[1, 2, 7], .d2 ⟨2, [[0, 1], [0, 0]]⟩⟩ := by
  obtain ⟨m1, h1, -, h2, -⟩ := C97_left_by_wrong_width (F := ℚ) (as := refArgsort)
    (m := { exForgottenModel with
      nodes := some ⟨[7, 2, 1], ⟨3, [[1, 0, 0], [4, 0, 3], [0, 0, 0]]⟩⟩, bounds := some ⟨[1, 2], .d2 ⟨2, [[0, 1], [0, 0]]⟩⟩ })
    (nt := ⟨[1, 2, 7], ⟨3, [[0, 0, 0], [4, 0, 3], [1, 0, 0]]⟩⟩) (n := 7) (rest := []) rfl rfl rfl (by decide +kernel) rfl (by decide)
    (by decide +kernel)
  exact ⟨m1, h1, h2⟩

end TrussPy
