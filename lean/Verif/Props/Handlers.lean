import Verif.Lemmas.Tables
import Verif.Examples
/-!
# C09-C12, C55: editing tables, looking up elements

`F` is arbitrary; no arithmetic law is used.
-/

namespace TrussPy

variable {F : Type}

/-! ## C09 -/

/-- A sequence of `add_node`/`del_node` calls on a handler. -/
def nodeOps (h : Option (NodeTab F)) (ops : List (TabOp (Node F))) : Py (Option (NodeTab F)) :=
  ops.foldlM (fun h op => match op with
    | .add n => addNode h n
    | .del l => delNode h l) h

/-- A sequence of `add_force`/`del_force` calls on a handler. -/
def forceOps (h : Option (ForceTab F)) (ops : List (TabOp (ExtForce F))) : Py (Option (ForceTab F)) :=
  ops.foldlM (fun h op => match op with
    | .add n => addForce h n
    | .del l => delForce h l) h

/-- A sequence of `add_bound_U`/`del_bound_U` calls on a handler. -/
def boundOps (h : Option BoundTab) (ops : List (TabOp BoundU)) : Py (Option BoundTab) :=
  ops.foldlM (fun h op => match op with
    | .add n => addBoundU h n
    | .del l => delBoundU h l) h

private theorem nodeOps_go : ∀ (ops : List (TabOp (Node F))) (t : NodeTab F) (s : List (Node F))
    (r : Option (NodeTab F)), t.labels = s.map (·.label) → t.coords.rows = s.map (·.coord) →
    nodeOps (some t) ops = .ok r →
    ∃ t', r = some t' ∧ t'.labels = (stored (·.label) s ops).map (·.label) ∧
      t'.coords.rows = (stored (·.label) s ops).map (·.coord)
  | [], t, s, r, hl, hr, h => by
    cases h
    exact ⟨t, rfl, hl, hr⟩
  | .add n :: ops, t, s, r, hl, hr, h => by
    obtain ⟨h1, ha, hrest⟩ := py_bind_eq_ok.1 (show (addNode (some t) n >>= fun h => nodeOps h ops) = .ok r from h)
    obtain ⟨c, hc, ha⟩ := py_bind_eq_ok.1 ha
    unfold Tab.vstack at hc
    split at hc
    · cases hc
      cases ha
      exact nodeOps_go ops _ (s ++ [n]) r (by simp [hl]) (by simp [hr]) hrest
    · cases hc
  | .del l :: ops, t, s, r, hl, hr, h => by
    obtain ⟨h1, ha, hrest⟩ := py_bind_eq_ok.1 (show (delNode (some t) l >>= fun h => nodeOps h ops) = .ok r from h)
    have e1 := npDelete_whereEq (fun n : Node F => n.label) (·.label) s l
    have e2 := npDelete_whereEq (fun n : Node F => n.label) (·.coord) s l
    simp only [delNode, hl, Tab.delete, hr, e1, e2, py_bind_ok, py_pure] at ha
    cases ha
    exact nodeOps_go ops _ _ r rfl rfl hrest

/-- **C09** (nodes) After any sequence of `add_node`/`del_node` calls that starts with an empty handler
and raises nothing, the table holds exactly the nodes that were added and not deleted afterwards, in
order, each with its own coordinates. -/
theorem C09_node_edits (n : Node F) (ops : List (TabOp (Node F))) (r : Option (NodeTab F))
    (h : nodeOps none (.add n :: ops) = .ok r) :
    ∃ t, r = some t ∧ t.labels = (stored (·.label) [n] ops).map (·.label) ∧
      t.coords.rows = (stored (·.label) [n] ops).map (·.coord) :=
  nodeOps_go ops _ [n] r rfl rfl h

/-- Deleting never fails on a table that was populated once. -/
theorem C09_node_delete_ok (n : Node F) (ops : List (TabOp (Node F))) (t : NodeTab F) (l : Int)
    (h : nodeOps none (.add n :: ops) = .ok (some t)) : ∃ t', delNode (some t) l = .ok (some t') := by
  obtain ⟨t2, h2, hl, hr⟩ := C09_node_edits n ops _ h
  cases h2
  have e1 := npDelete_whereEq (fun n : Node F => n.label) (·.label) (stored (·.label) [n] ops) l
  have e2 := npDelete_whereEq (fun n : Node F => n.label) (·.coord) (stored (·.label) [n] ops) l
  exact ⟨_, by simp only [delNode, hl, Tab.delete, hr, e1, e2, py_bind_ok, py_pure]; rfl⟩

example : nodeOps (F := ℚ) none [.add ⟨7, [1, 2, 3]⟩, .add ⟨5, [4, 5, 6]⟩, .add ⟨7, [0, 0, 0]⟩,
    .add ⟨6, [7, 8, 9]⟩, .del 7] = .ok (some ⟨[5, 6], ⟨3, [[4, 5, 6], [7, 8, 9]]⟩⟩) := by decide +kernel

/-- Deleting from a handler to which nothing was added raises `ValueError` and ends every sequence of calls. -/
theorem C09_delete_from_empty (l : Int) (ops : List (TabOp (Node F))) (fops : List (TabOp (ExtForce F)))
    (bops : List (TabOp BoundU)) : nodeOps (F := F) none (.del l :: ops) = .error .valueError ∧
      forceOps (F := F) none (.del l :: fops) = .error .valueError ∧
      boundOps none (.del l :: bops) = .error .valueError ∧ delElem (F := F) none l = .error .valueError :=
  ⟨rfl, rfl, rfl, rfl⟩

private theorem forceOps_go : ∀ (ops : List (TabOp (ExtForce F))) (t : ForceTab F) (s : List (ExtForce F))
    (r : Option (ForceTab F)), t.nodes = s.map (·.node) → t.forces.rows = s.map (·.force) →
    forceOps (some t) ops = .ok r →
    ∃ t', r = some t' ∧ t'.nodes = (stored (·.node) s ops).map (·.node) ∧
      t'.forces.rows = (stored (·.node) s ops).map (·.force)
  | [], t, s, r, hl, hr, h => by
    cases h
    exact ⟨t, rfl, hl, hr⟩
  | .add n :: ops, t, s, r, hl, hr, h => by
    obtain ⟨h1, ha, hrest⟩ := py_bind_eq_ok.1 (show (addForce (some t) n >>= fun h => forceOps h ops) = .ok r from h)
    obtain ⟨c, hc, ha⟩ := py_bind_eq_ok.1 ha
    unfold Tab.vstack at hc
    split at hc
    · cases hc
      cases ha
      exact forceOps_go ops _ (s ++ [n]) r (by simp [hl]) (by simp [hr]) hrest
    · cases hc
  | .del l :: ops, t, s, r, hl, hr, h => by
    obtain ⟨h1, ha, hrest⟩ := py_bind_eq_ok.1 (show (delForce (some t) l >>= fun h => forceOps h ops) = .ok r from h)
    have e1 := npDelete_whereEq (fun n : ExtForce F => n.node) (·.node) s l
    have e2 := npDelete_whereEq (fun n : ExtForce F => n.node) (·.force) s l
    simp only [delForce, hl, Tab.delete, hr, e1, e2, py_bind_ok, py_pure] at ha
    cases ha
    exact forceOps_go ops _ _ r rfl rfl hrest

/-- **C09** (loads) The same for `add_force`/`del_force`. -/
theorem C09_force_edits (f : ExtForce F) (ops : List (TabOp (ExtForce F))) (r : Option (ForceTab F))
    (h : forceOps none (.add f :: ops) = .ok r) :
    ∃ t, r = some t ∧ t.nodes = (stored (·.node) [f] ops).map (·.node) ∧
      t.forces.rows = (stored (·.node) [f] ops).map (·.force) :=
  forceOps_go ops _ [f] r rfl rfl h

example : forceOps (F := ℚ) none [.add ⟨7, [1, 2, 3]⟩, .add ⟨5, [4, 5, 6]⟩, .del 7, .add ⟨6, [7, 8, 9]⟩] =
    .ok (some ⟨[5, 6], ⟨3, [[4, 5, 6], [7, 8, 9]]⟩⟩) := by decide +kernel

private theorem boundOps_go : ∀ (ops : List (TabOp BoundU)) (t : BoundTab) (tab : Tab Int) (s : List BoundU)
    (r : Option BoundTab), t.nodes = s.map (·.node) → t.values = .d2 tab → tab.rows = s.map (·.values) →
    boundOps (some t) ops = .ok r →
    ∃ t' tab', r = some t' ∧ t'.nodes = (stored (·.node) s ops).map (·.node) ∧ t'.values = .d2 tab' ∧
      tab'.rows = (stored (·.node) s ops).map (·.values)
  | [], t, tab, s, r, hl, hv, hr, h => by
    cases h
    exact ⟨t, tab, rfl, hl, hv, hr⟩
  | .add n :: ops, t, tab, s, r, hl, hv, hr, h => by
    obtain ⟨h1, ha, hrest⟩ := py_bind_eq_ok.1 (show (addBoundU (some t) n >>= fun h => boundOps h ops) = .ok r from h)
    obtain ⟨c, hc, ha⟩ := py_bind_eq_ok.1 ha
    rw [hv] at hc
    simp only [BArr.vstack, Tab.vstack] at hc
    split at hc
    · next hq =>
      split at hq
      · cases hc
        cases hq
        cases ha
        exact boundOps_go ops _ _ (s ++ [n]) r (by simp [hl]) rfl (by simp [hr]) hrest
      · cases hq
    · cases hc
  | .del l :: ops, t, tab, s, r, hl, hv, hr, h => by
    obtain ⟨h1, ha, hrest⟩ := py_bind_eq_ok.1 (show (delBoundU (some t) l >>= fun h => boundOps h ops) = .ok r from h)
    have e1 := npDelete_whereEq (fun n : BoundU => n.node) (·.node) s l
    have e2 := npDelete_whereEq (fun n : BoundU => n.node) (·.values) s l
    simp only [delBoundU, hl, hv, BArr.delete, Tab.delete, hr, e1, e2, py_bind_ok, py_pure] at ha
    cases ha
    exact boundOps_go ops _ _ _ r rfl rfl rfl hrest

/-- **C09** (supports) The same for `add_bound_U`/`del_bound_U`, provided at least two supports are
added before the first deletion.  Missing from the full statement: deleting while only one support was
ever added, see `C09_single_bound_counterexample`. -/
theorem C09_bound_edits_partial (a b : BoundU) (ops : List (TabOp BoundU)) (r : Option BoundTab)
    (h : boundOps none (.add a :: .add b :: ops) = .ok r) :
    ∃ t tab, r = some t ∧ t.nodes = (stored (·.node) [a, b] ops).map (·.node) ∧ t.values = .d2 tab ∧
      tab.rows = (stored (·.node) [a, b] ops).map (·.values) := by
  obtain ⟨h1, ha, hrest⟩ := py_bind_eq_ok.1 (show (addBoundU (some ⟨[a.node], .d1 a.values⟩) b >>=
    fun h => boundOps h ops) = .ok r from h)
  obtain ⟨c, hc, ha⟩ := py_bind_eq_ok.1 ha
  simp only [BArr.vstack] at hc
  split at hc
  · cases hc
    cases ha
    exact boundOps_go ops _ _ [a, b] r rfl rfl rfl hrest
  · cases hc

example : boundOps none [.add ⟨7, [0, 0, 0]⟩, .add ⟨5, [0, 1, 0]⟩, .del 7] =
    .ok (some ⟨[5], .d2 ⟨3, [[0, 1, 0]]⟩⟩) := by decide

/-- Deleting the only support keeps two of its three numbers, and the next `add_bound_U` raises. -/
theorem C09_single_bound_counterexample :
    boundOps none [.add ⟨7, [0, 0, 0]⟩, .del 7] = .ok (some ⟨[], .d1 [0, 0]⟩) ∧
    boundOps none [.add ⟨7, [0, 0, 0]⟩, .del 7, .add ⟨5, [0, 1, 0]⟩] = .error .valueError := by decide

/-! ## C10 -/

/-- Row tables of an element handler belong together. -/
structure ElemTab.Rows (t : ElemTab F) : Prop where
  conns : t.labels.length = t.conns.rows.length
  mprop : t.labels.length = t.mprop.rows.length
  gprop : t.labels.length = t.gprop.rows.length

/-- **C10** After `del_element(l)` every other element keeps its connectivity, material properties and
geometric properties, and `l` is gone.
Missing from the full statement: material type and element type, see `C10_types_counterexample`. -/
theorem C10_delete_element_partial (t : ElemTab F) (ht : t.Rows) (l : Int) :
    ∃ t', delElem (some t) l = .ok (some t') ∧ t'.Rows ∧ t'.labels = t.labels.filter (· ≠ l) ∧
      getNodes t' l = .error .indexError ∧
      ∀ l', l' ≠ l → getNodes t' l' = getNodes t l' ∧
        getMaterialProperties t' l' = getMaterialProperties t l' ∧
        getGeometricProperties t' l' = getGeometricProperties t l' := by
  have hlen : ∀ {α : Type} {rows : List α}, t.labels.length = rows.length →
      (t.labels.filter fun x => decide (x ≠ l)).length =
        (((t.labels.zip rows).filter fun p => decide (p.1 ≠ l)).map (·.2)).length := by
    intro α rows h
    conv_lhs => rw [← zip_fst h, List.filter_map]
    simp only [List.length_map]
    rfl
  refine ⟨⟨t.labels.filter (· ≠ l), ⟨t.conns.cols, ((t.labels.zip t.conns.rows).filter fun p => p.1 ≠ l).map (·.2)⟩,
    t.etype, t.mtype,
    ⟨t.mprop.isInt, t.mprop.cols, ((t.labels.zip t.mprop.rows).filter fun p => p.1 ≠ l).map (·.2)⟩,
    ⟨t.gprop.isInt, t.gprop.cols, ((t.labels.zip t.gprop.rows).filter fun p => p.1 ≠ l).map (·.2)⟩⟩,
    ?_, ⟨?_, ?_, ?_⟩, rfl, ?_, ?_⟩
  · simp only [delElem, npDelete_labels, Tab.delete, PTab.delete, npDelete_rows ht.conns,
      npDelete_rows ht.mprop, npDelete_rows ht.gprop, py_bind_ok, py_pure]
  · exact hlen ht.conns
  · exact hlen ht.mprop
  · exact hlen ht.gprop
  · unfold getNodes
    rw [whereEq_eq_nil (by simp)]
    rfl
  · intro l' hne
    exact ⟨npFirst_after_delete ht.conns hne, npFirst_after_delete ht.mprop hne,
      npFirst_after_delete ht.gprop hne⟩

example : exElems.Rows ∧ 2 ∈ exElems.labels := ⟨⟨rfl, rfl, rfl⟩, by decide⟩

/-- An elastic element 1 and a plastic element 2: after `del_element(1)` element 2 is elastic. -/
theorem C10_types_counterexample :
    let t : ElemTab ℚ := { exElems with mtype := [1, 2] }
    getMaterialType t 2 = .ok 2 ∧
    ((delElem (some t) 1).toOption.join.map fun t' => getMaterialType t' 2) = some (.ok 1) := by
  decide +kernel

/-! ## C11 -/

/-- Every element keeps label, connectivity, element type. -/
structure SameIdentity (t t' : ElemTab F) : Prop where
  labels : t'.labels = t.labels
  conns : t'.conns = t.conns
  etype : t'.etype = t.etype

private theorem assignFold [Flt F] (w : Nat) (v : List F) (hv : v.length = w) (mtype : Option Int) :
    ∀ (ls : List Int) (t : ElemTab F), t.mprop.isInt = false → t.mprop.cols = w →
      t.labels.length = t.mprop.rows.length →
      ∃ t', ls.foldlM (fun (t : ElemTab F) label => do
        let m ← t.mprop.assign (whereEq t.labels label) v
        return { t with
          mprop := m
          mtype := match mtype with
            | none => t.mtype
            | some ty => setAll t.mtype (whereEq t.labels label) ty }) t = (.ok t' : Py (ElemTab F)) ∧
      SameIdentity t t' ∧ t'.gprop = t.gprop ∧ t'.mprop.cols = w ∧ t'.mprop.isInt = false ∧
      t'.labels.length = t'.mprop.rows.length ∧
      (∀ l, getMaterialProperties t' l = if l ∈ ls ∧ l ∈ t.labels then .ok v else getMaterialProperties t l) ∧
      (∀ l, t.labels.length = t.mtype.length → getMaterialType t' l = match mtype with
        | none => getMaterialType t l
        | some ty => if l ∈ ls ∧ l ∈ t.labels then .ok ty else getMaterialType t l)
  | [], t, hi, hc, hl => by
    refine ⟨t, rfl, ⟨rfl, rfl, rfl⟩, rfl, hc, hi, hl, by simp, ?_⟩
    intro l _
    cases mtype <;> simp
  | a :: ls, t, hi, hc, hl => by
    have hasg : t.mprop.assign (whereEq t.labels a) v =
        .ok { t.mprop with rows := setAll t.mprop.rows (whereEq t.labels a) v } := by
      unfold PTab.assign
      simp only [hi, Bool.false_eq_true, if_false]
      rw [if_pos (by omega)]
      simp
    obtain ⟨t', h1, h2, h3, h4, h5, h6, h7, h8⟩ := assignFold w v hv mtype ls
      { t with
        mprop := { t.mprop with rows := setAll t.mprop.rows (whereEq t.labels a) v }
        mtype := match mtype with
          | none => t.mtype
          | some ty => setAll t.mtype (whereEq t.labels a) ty } hi hc (by simpa using hl)
    refine ⟨t', ?_, ⟨h2.1, h2.2, h2.3⟩, h3, h4, h5, h6, ?_, ?_⟩
    · rw [List.foldlM_cons, hasg]
      exact h1
    · intro l
      rw [h7]
      have := npFirst_setAll hl a l v
      simp only [getMaterialProperties]
      rw [this]
      by_cases hla : l = a
      · subst hla
        by_cases hin : l ∈ t.labels
        · simp [hin]
        · simp only [hin, and_false, if_false, if_true]
          rw [whereEq_eq_nil hin]
          rfl
      · simp [hla]
    · intro l hm
      cases mtype with
      | none => exact h8 l hm
      | some ty =>
        have := h8 l (by simpa using hm)
        simp only at this ⊢
        rw [this]
        have := npFirst_setAll hm a l ty
        simp only [getMaterialType]
        rw [this]
        by_cases hla : l = a
        · subst hla
          by_cases hin : l ∈ t.labels
          · simp [hin]
          · simp only [hin, and_false, if_false, if_true]
            rw [whereEq_eq_nil hin]
            rfl
        · simp [hla]

/-- Element labels a user means by the `labels` argument. -/
def LabelSel.names (s : LabelSel) (l : Int) : Prop :=
  match s with
  | .all => True
  | .list ls => l ∈ ls

/-- **C11** (materials) After `assign_material(labels, mprop, mtype)` every named existing element
reports `mprop`, every other one its old values, all filled with zeros to the common width; nothing
else changes (material types only if given and only of named elements).
Missing from the full statement: tables created from integers and not widened, see
`C11_integer_table_counterexample`. -/
theorem C11_assign_material_partial [Zero F] [Flt F] (t : ElemTab F) (ht : t.Rows)
    (hwid : ∀ r ∈ t.mprop.rows, r.length = t.mprop.cols) (sel : LabelSel) (mprop : List F)
    (mtype : Option Int) (hfloat : t.mprop.isInt = false ∨ t.mprop.cols < mprop.length) :
    ∃ t', assignMaterial t sel mprop mtype = .ok t' ∧ SameIdentity t t' ∧ t'.gprop = t.gprop ∧
      (∀ l ∈ t.labels, sel.names l →
        getMaterialProperties t' l = .ok (padTo (max t.mprop.cols mprop.length) mprop)) ∧
      (∀ l ∈ t.labels, ¬ sel.names l → ∀ old, getMaterialProperties t l = .ok old →
        getMaterialProperties t' l = .ok (padTo (max t.mprop.cols mprop.length) old)) ∧
      (t.labels.length = t.mtype.length → ∀ l ∈ t.labels,
        (∀ ty, mtype = some ty → sel.names l → getMaterialType t' l = .ok ty) ∧
        (mtype = none ∨ ¬ sel.names l → getMaterialType t' l = getMaterialType t l)) := by
  have hnames : ∀ l ∈ t.labels, (sel.names l ↔ l ∈ sel.resolve t.labels) := by
    intro l hl
    cases sel <;> simp [LabelSel.names, LabelSel.resolve, hl]
  have hold : ∀ l old, getMaterialProperties t l = .ok old → old.length = t.mprop.cols := by
    intro l old ho
    obtain ⟨i, _, hi⟩ := npFirst_ok ho
    exact hwid old (List.mem_of_getElem? hi)
  rcases Nat.lt_trichotomy t.mprop.cols mprop.length with hlt | heq | hgt
  · -- the table is widened
    obtain ⟨t', h1, h2, h3, h4, h5, h6, h7, h8⟩ := assignFold mprop.length mprop rfl mtype (sel.resolve t.labels)
      { t with mprop := ⟨false, mprop.length,
          t.mprop.rows.map (· ++ List.replicate (mprop.length - t.mprop.cols) 0)⟩ } rfl rfl
      (by simpa using ht.mprop)
    refine ⟨t', ?_, ⟨h2.1, h2.2, h2.3⟩, h3, ?_, ?_, ?_⟩
    · unfold assignMaterial
      simp only [hlt, if_true]
      exact h1
    · intro l hl hn
      rw [h7, if_pos ⟨(hnames l hl).1 hn, hl⟩, padTo]
      simp; omega
    · intro l hl hn old ho
      rw [h7, if_neg (fun hc => hn ((hnames l hl).2 hc.1))]
      have hlen := hold l old ho
      simp only [getMaterialProperties] at ho ⊢
      rw [npFirst_rows ht.mprop] at ho
      rw [npFirst_rows (by simpa using ht.mprop), List.zip_map_right, List.find?_map]
      have : ((fun p : Int × List F => p.1 == l) ∘ Prod.map id
          (fun x => x ++ List.replicate (mprop.length - t.mprop.cols) 0)) = fun p => p.1 == l := by
        funext p; rfl
      rw [this]
      cases hf : (t.labels.zip t.mprop.rows).find? fun p => p.1 == l with
      | none => rw [hf] at ho; cases ho
      | some p =>
        rw [hf] at ho
        cases ho
        simp only [Option.map_some, Prod.map, orIndexError, padTo]
        rw [hlen, Nat.max_eq_right (le_of_lt hlt)]
    · intro hm l hl
      rw [h8 l hm]
      refine ⟨fun ty hty hn => ?_, fun hno => ?_⟩
      · subst hty
        simp [hl, (hnames l hl).1 hn]
      · cases mtype with
        | none => rfl
        | some ty =>
          have hn : ¬ sel.names l := hno.resolve_left (by simp)
          rw [hnames l hl] at hn
          simp only [hn, false_and, if_false]
          rfl
  · have hi : t.mprop.isInt = false := hfloat.resolve_right (by omega)
    obtain ⟨t', h1, h2, h3, h4, h5, h6, h7, h8⟩ := assignFold mprop.length mprop rfl mtype (sel.resolve t.labels)
      t hi heq ht.mprop
    refine ⟨t', ?_, h2, h3, ?_, ?_, ?_⟩
    · unfold assignMaterial
      rw [if_neg (by omega), if_neg (by omega)]
      exact h1
    · intro l hl hn
      rw [h7, if_pos ⟨(hnames l hl).1 hn, hl⟩, padTo]
      simp; omega
    · intro l hl hn old ho
      rw [h7, if_neg (fun hc => hn ((hnames l hl).2 hc.1)), ho, padTo, hold l old ho]
      simp; omega
    · intro hm l hl
      rw [h8 l hm]
      refine ⟨fun ty hty hn => ?_, fun hno => ?_⟩
      · subst hty
        simp [hl, (hnames l hl).1 hn]
      · cases mtype with
        | none => rfl
        | some ty =>
          have hn : ¬ sel.names l := hno.resolve_left (by simp)
          rw [hnames l hl] at hn
          simp only [hn, false_and, if_false]
  · have hi : t.mprop.isInt = false := hfloat.resolve_right (by omega)
    obtain ⟨t', h1, h2, h3, h4, h5, h6, h7, h8⟩ := assignFold t.mprop.cols
      (mprop ++ List.replicate (t.mprop.cols - mprop.length) 0) (by simp; omega) mtype (sel.resolve t.labels)
      t hi rfl ht.mprop
    refine ⟨t', ?_, h2, h3, ?_, ?_, ?_⟩
    · unfold assignMaterial
      rw [if_neg (by omega), if_pos hgt]
      exact h1
    · intro l hl hn
      rw [h7, if_pos ⟨(hnames l hl).1 hn, hl⟩, padTo, Nat.max_eq_left (le_of_lt hgt)]
    · intro l hl hn old ho
      rw [h7, if_neg (fun hc => hn ((hnames l hl).2 hc.1)), ho, padTo, hold l old ho]
      simp; omega
    · intro hm l hl
      rw [h8 l hm]
      refine ⟨fun ty hty hn => ?_, fun hno => ?_⟩
      · subst hty
        simp [hl, (hnames l hl).1 hn]
      · cases mtype with
        | none => rfl
        | some ty =>
          have hn : ¬ sel.names l := hno.resolve_left (by simp)
          rw [hnames l hl] at hn
          simp only [hn, false_and, if_false]

example : (assignMaterial exElems (.list [2]) [5, 6, 7] (some 2)).toOption.map
    (fun t => (t.mprop.rows, t.mtype)) = some ([[1, 0, 0], [5, 6, 7]], [1, 2]) := by decide +kernel

/-- A table created from integers truncates: `assign_material([1], [2.5])` stores 2. -/
theorem C11_integer_table_counterexample :
    let t : ElemTab ℚ := { exElems with mprop := ⟨true, 1, [[1], [1]]⟩ }
    ((assignMaterial t (.list [1]) [5/2] none).toOption.map fun t' => getMaterialProperties t' 1) =
      some (.ok [2]) := by decide +kernel

private theorem assignGeoFold [Flt F] (v : List F) : ∀ (ls : List Int) (t : ElemTab F),
    t.gprop.isInt = false → v.length = t.gprop.cols → t.labels.length = t.gprop.rows.length →
      ∃ t', ls.foldlM (fun (t : ElemTab F) label => do
        let g ← t.gprop.assign (whereEq t.labels label) v
        return { t with gprop := g }) t = (.ok t' : Py (ElemTab F)) ∧
      SameIdentity t t' ∧ t'.mprop = t.mprop ∧ t'.mtype = t.mtype ∧
      (∀ l, getGeometricProperties t' l = if l ∈ ls ∧ l ∈ t.labels then .ok v else getGeometricProperties t l)
  | [], t, hi, hc, hl => by
    exact ⟨t, rfl, ⟨rfl, rfl, rfl⟩, rfl, rfl, by simp⟩
  | a :: ls, t, hi, hc, hl => by
    have hasg : t.gprop.assign (whereEq t.labels a) v =
        .ok { t.gprop with rows := setAll t.gprop.rows (whereEq t.labels a) v } := by
      unfold PTab.assign
      simp only [hi, Bool.false_eq_true, if_false]
      rw [if_pos (by omega)]
      simp
    obtain ⟨t', h1, h2, h3, h4, h7⟩ := assignGeoFold v ls
      { t with gprop := { t.gprop with rows := setAll t.gprop.rows (whereEq t.labels a) v } } hi hc
        (by simpa using hl)
    refine ⟨t', ?_, ⟨h2.1, h2.2, h2.3⟩, h3, h4, ?_⟩
    · rw [List.foldlM_cons, hasg]
      exact h1
    · intro l
      rw [h7]
      have := npFirst_setAll hl a l v
      simp only [getGeometricProperties]
      rw [this]
      by_cases hla : l = a
      · subst hla
        by_cases hin : l ∈ t.labels
        · simp [hin]
        · simp only [hin, and_false, if_false, if_true]
          rw [whereEq_eq_nil hin]
          rfl
      · simp [hla]

/-- **C11** (geometry) After `assign_geometry(labels, gprop)` with the width of the table, every named
existing element reports `gprop`, every other one its old values, and nothing else changes.
Missing from the full statement: integer tables (as for materials). -/
theorem C11_assign_geometry_partial [Flt F] (t : ElemTab F) (ht : t.Rows) (sel : LabelSel) (gprop : List F)
    (hw : gprop.length = t.gprop.cols) (hfloat : t.gprop.isInt = false) :
    ∃ t', assignGeometry t sel gprop = .ok t' ∧ SameIdentity t t' ∧ t'.mprop = t.mprop ∧
      t'.mtype = t.mtype ∧
      (∀ l ∈ t.labels, sel.names l → getGeometricProperties t' l = .ok gprop) ∧
      (∀ l ∈ t.labels, ¬ sel.names l → getGeometricProperties t' l = getGeometricProperties t l) := by
  have hnames : ∀ l ∈ t.labels, (sel.names l ↔ l ∈ sel.resolve t.labels) := by
    intro l hl
    cases sel <;> simp [LabelSel.names, LabelSel.resolve, hl]
  obtain ⟨t', h1, h2, h3, h4, h7⟩ := assignGeoFold gprop (sel.resolve t.labels) t hfloat hw ht.gprop
  refine ⟨t', h1, h2, h3, h4, ?_, ?_⟩
  · intro l hl hn
    rw [h7, if_pos ⟨(hnames l hl).1 hn, hl⟩]
  · intro l hl hn
    rw [h7, if_neg fun hc => hn ((hnames l hl).2 hc.1)]

/-- A value of the wrong width raises as soon as one label is given (unless it has length one, which
broadcasts). -/
theorem C11_assign_geometry_width [Flt F] (t : ElemTab F) (l : Int) (ls : List Int) (gprop : List F)
    (hw : gprop.length ≠ t.gprop.cols) (h1 : gprop.length ≠ 1) :
    assignGeometry t (.list (l :: ls)) gprop = .error .valueError := by
  have : t.gprop.assign (whereEq t.labels l) gprop = .error .valueError := by
    unfold PTab.assign
    simp only [if_neg hw]
    match gprop, h1 with
    | [], _ => rfl
    | [a], h1 => exact absurd rfl h1
    | a :: b :: c, _ => rfl
  simp only [assignGeometry, LabelSel.resolve, List.foldlM_cons, this, py_bind_error]

example : exElems.gprop.isInt = false ∧ ([3] : List ℚ).length = exElems.gprop.cols := by decide

/-! ## C12 -/

private theorem addElems_go : ∀ (es : List (Elem F)) (t : ElemTab F) (s : List (Elem F)) (r : Option (ElemTab F)),
    t.labels = s.map (·.label) → t.conns.rows = s.map (·.conn) → t.etype = s.map (·.etype) →
    t.mtype = s.map (·.mtype) → t.mprop.rows = s.map (·.mprop.vals) → t.gprop.rows = s.map (·.gprop.vals) →
    addElems (some t) es = .ok r → ∃ t', r = some t' ∧
    t'.labels = (s ++ es).map (·.label) ∧ t'.conns.rows = (s ++ es).map (·.conn) ∧
    t'.etype = (s ++ es).map (·.etype) ∧ t'.mtype = (s ++ es).map (·.mtype) ∧
    t'.mprop.rows = (s ++ es).map (·.mprop.vals) ∧ t'.gprop.rows = (s ++ es).map (·.gprop.vals)
  | [], t, s, r, h1, h2, h3, h4, h5, h6, h => by
    cases h
    exact ⟨t, rfl, by simp [h1], by simp [h2], by simp [h3], by simp [h4], by simp [h5], by simp [h6]⟩
  | e :: es, t, s, r, h1, h2, h3, h4, h5, h6, h => by
    obtain ⟨r1, ha, hrest⟩ := py_bind_eq_ok.1 (show (addElem (some t) e >>= fun h => addElems h es) = .ok r from h)
    obtain ⟨c, hc, ha⟩ := py_bind_eq_ok.1 ha
    obtain ⟨m, hm, ha⟩ := py_bind_eq_ok.1 ha
    obtain ⟨g, hg, ha⟩ := py_bind_eq_ok.1 ha
    unfold Tab.vstack at hc
    unfold PTab.vstack at hm hg
    split at hc <;> [skip; cases hc]
    split at hm <;> [skip; cases hm]
    split at hg <;> [skip; cases hg]
    cases hc; cases hm; cases hg; cases ha
    have := addElems_go es _ (s ++ [e]) r (by simp [h1]) (by simp [h2]) (by simp [h3]) (by simp [h4])
      (by simp [h5]) (by simp [h6]) hrest
    simpa using this

/-- Tables after a successful `add_elements`. -/
theorem addElems_tab {es : List (Elem F)} {t : ElemTab F} (h : addElems none es = .ok (some t)) :
    t.labels = es.map (·.label) ∧ t.conns.rows = es.map (·.conn) ∧ t.etype = es.map (·.etype) ∧
    t.mtype = es.map (·.mtype) ∧ t.mprop.rows = es.map (·.mprop.vals) ∧
    t.gprop.rows = es.map (·.gprop.vals) := by
  cases es with
  | nil => cases h
  | cons e es =>
    obtain ⟨t', ht, h'⟩ := addElems_go es _ [e] _ rfl rfl rfl rfl rfl rfl
      (show addElems (some ⟨[e.label], Tab.ofRow e.conn, [e.etype], [e.mtype], PTab.ofRow e.mprop,
        PTab.ofRow e.gprop⟩) es = .ok (some t) from h)
    cases ht
    simpa using h'

/-- **C12** For distinct labels, looking up an added element returns exactly the data it was added
with (begin and end node for two-node connectivities), and an unknown label raises `IndexError`. -/
theorem C12_lookup (es : List (Elem F)) (t : ElemTab F) (h : addElems none es = .ok (some t))
    (hnd : (es.map (·.label)).Nodup) :
    (∀ e ∈ es, getNodes t e.label = .ok e.conn ∧
      getMaterialProperties t e.label = .ok e.mprop.vals ∧
      getGeometricProperties t e.label = .ok e.gprop.vals ∧
      getMaterialType t e.label = .ok e.mtype ∧ getElementType t e.label = .ok e.etype ∧
      ∀ a b, e.conn = [a, b] → elemNA t e.label = .ok a ∧ elemNE t e.label = .ok b) ∧
    (∀ l, (∀ e ∈ es, e.label ≠ l) → getNodes t l = .error .indexError ∧
      getMaterialProperties t l = .error .indexError ∧ getGeometricProperties t l = .error .indexError ∧
      getMaterialType t l = .error .indexError ∧ getElementType t l = .error .indexError ∧
      elemNA t l = .error .indexError ∧ elemNE t l = .error .indexError) := by
  obtain ⟨h1, h2, h3, h4, h5, h6⟩ := addElems_tab h
  constructor
  · intro e he
    have hf : es.find? (fun b => b.label == e.label) = some e := by
      obtain ⟨as, bs, rfl⟩ := List.append_of_mem he
      rw [List.find?_eq_some_iff_append]
      refine ⟨by simp, as, bs, rfl, ?_⟩
      intro a ha
      rw [List.map_append, List.nodup_append] at hnd
      have := hnd.2.2 a.label (List.mem_map.2 ⟨a, ha, rfl⟩) e.label (by simp)
      simpa using this
    have key : ∀ {α : Type} (val : Elem F → α), npFirst (es.map val) (whereEq t.labels e.label) = .ok (val e) := by
      intro α val
      rw [h1, npFirst_whereEq, hf]
      rfl
    have hcn := key (·.conn)
    refine ⟨?_, ?_, ?_, ?_, ?_, ?_⟩
    · unfold getNodes; rw [h2]; exact hcn
    · unfold getMaterialProperties; rw [h5]; exact key (·.mprop.vals)
    · unfold getGeometricProperties; rw [h6]; exact key (·.gprop.vals)
    · unfold getMaterialType; rw [h4]; exact key (·.mtype)
    · unfold getElementType; rw [h3]; exact key (·.etype)
    · intro a b hab
      unfold elemNA elemNE
      rw [h2, hcn, hab]
      exact ⟨rfl, rfl⟩
  · intro l hl
    have hw : whereEq t.labels l = [] := by
      apply whereEq_eq_nil
      rw [h1]
      intro hc
      obtain ⟨e, he, rfl⟩ := List.mem_map.1 hc
      exact hl e he rfl
    simp [getNodes, getMaterialProperties, getGeometricProperties, getMaterialType, getElementType,
      elemNA, elemNE, hw, npFirst_nil]

example : addElems (F := ℚ) none [⟨1, [1, 2], 1, 1, ⟨false, [1]⟩, ⟨false, [1]⟩⟩,
    ⟨2, [2, 3], 1, 1, ⟨false, [1]⟩, ⟨false, [1]⟩⟩] = .ok (some exElems) := by decide +kernel

/-! ## C55 -/

/-- **C55** `Element(...)` raises `TypeError` iff a property is given by both of its keywords;
otherwise the object carries the given one, or `[nan]` if none was given. -/
theorem C55_property_keywords [Flt F] (label : Int) (conn : List Int) (ety mty : Int)
    (mp gp mprop gprop : Option (PRow F)) :
    (mkElem label conn ety mty mp gp mprop gprop = .error .typeError ↔
      (mp.isSome ∧ mprop.isSome) ∨ (gp.isSome ∧ gprop.isSome)) ∧
    (¬ (mp.isSome ∧ mprop.isSome) → ¬ (gp.isSome ∧ gprop.isSome) →
      mkElem label conn ety mty mp gp mprop gprop = .ok ⟨label, conn, ety, mty,
        (mprop.or mp).getD ⟨false, [Flt.nan]⟩, (gprop.or gp).getD ⟨false, [Flt.nan]⟩⟩) := by
  cases mp <;> cases mprop <;> cases gp <;> cases gprop <;>
    simp [mkElem, resolveProp, defaultProp]

example : mkElem (F := ℚ) 1 [1, 2] 1 1 (some ⟨false, [1]⟩) none (some ⟨false, [2]⟩) none = .error .typeError ∧
    (mkElem (F := ℚ) 1 [1, 2] 1 1 none none (some ⟨false, [2]⟩) none).toBool := by decide +kernel

end TrussPy
