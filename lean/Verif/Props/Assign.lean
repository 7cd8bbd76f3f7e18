import Verif.Props.Handlers
/-!
# C11: assigning types and individual geometries

`F` is arbitrary; no arithmetic law is used.
-/

namespace TrussPy

variable {F : Type}

private theorem typeFold (get : ElemTab F → List Int) (put : ElemTab F → List Int → ElemTab F)
    (hlab : ∀ t l, (put t l).labels = t.labels) (hget : ∀ t l, get (put t l) = l) (hput : ∀ t l l', put (put t l) l' = put t l')
    (hself : ∀ t, put t (get t) = t) (ty : Int) : ∀ (ls : List Int) (t : ElemTab F), t.labels.length = (get t).length →
      ∃ l', l'.length = (get t).length ∧
        ls.foldl (fun t label => put t (setAll (get t) (whereEq t.labels label) ty)) t = put t l' ∧
        ∀ l ∈ t.labels, npFirst l' (whereEq t.labels l) =
          if l ∈ ls then .ok ty else npFirst (get t) (whereEq t.labels l)
  | [], t, _ => ⟨get t, rfl, (hself t).symm, fun l _ => by simp⟩
  | a :: ls, t, hl => by
    have hlen : (put t (setAll (get t) (whereEq t.labels a) ty)).labels.length =
        (get (put t (setAll (get t) (whereEq t.labels a) ty))).length := by
      rw [hlab, hget]
      simpa using hl
    obtain ⟨l', h0, h1, h2⟩ := typeFold get put hlab hget hput hself ty ls _ hlen
    refine ⟨l', ?_, ?_, ?_⟩
    · rw [h0, hget]
      simp
    · rw [List.foldl_cons, h1, hput]
    · intro l hm
      rw [hlab, hget] at h2
      rw [h2 l hm, npFirst_setAll hl a l ty]
      by_cases hla : l = a
      · subst hla
        simp [hm]
      · simp [hla]

/-- **C11** (material types) After `assign_mtype(labels, type)` every named existing element has this type, every other one
its old one; connectivities, properties and element types stay. -/
theorem C11_assign_mtype (t : ElemTab F) (ht : t.labels.length = t.mtype.length) (sel : LabelSel) (ty : Int) :
    SameIdentity t (assignMtype t sel ty) ∧ (assignMtype t sel ty).mprop = t.mprop ∧
      (assignMtype t sel ty).gprop = t.gprop ∧ (assignMtype t sel ty).mtype.length = t.mtype.length ∧
      (∀ l ∈ t.labels, sel.names l → getMaterialType (assignMtype t sel ty) l = .ok ty) ∧
      (∀ l ∈ t.labels, ¬ sel.names l → getMaterialType (assignMtype t sel ty) l = getMaterialType t l) := by
  obtain ⟨l', h0, h1, h2⟩ := typeFold (F := F) (·.mtype) (fun t l => { t with mtype := l }) (fun _ _ => rfl) (fun _ _ => rfl)
    (fun _ _ _ => rfl) (fun _ => rfl) ty (sel.resolve t.labels) t ht
  have h1' : assignMtype t sel ty = { t with mtype := l' } := h1
  rw [h1']
  refine ⟨⟨rfl, rfl, rfl⟩, rfl, rfl, h0, ?_, ?_⟩
  · intro l hl hn
    show npFirst l' (whereEq t.labels l) = _
    rw [h2 l hl, if_pos]
    cases sel with
    | all => exact hl
    | list ls => exact hn
  · intro l hl hn
    show npFirst l' (whereEq t.labels l) = _
    rw [h2 l hl, if_neg]
    · rfl
    · cases sel with
      | all => exact absurd trivial hn
      | list ls => exact hn

/-- **C11** (element types) After `assign_etype(labels, type)` every named existing element has this type, every other one its
old one; connectivities, properties and material types stay. -/
theorem C11_assign_etype (t : ElemTab F) (ht : t.labels.length = t.etype.length) (sel : LabelSel) (ty : Int) :
    (assignEtype t sel ty).labels = t.labels ∧ (assignEtype t sel ty).conns = t.conns ∧
      (assignEtype t sel ty).mprop = t.mprop ∧ (assignEtype t sel ty).gprop = t.gprop ∧
      (assignEtype t sel ty).mtype = t.mtype ∧ (assignEtype t sel ty).etype.length = t.etype.length ∧
      (∀ l ∈ t.labels, sel.names l → getElementType (assignEtype t sel ty) l = .ok ty) ∧
      (∀ l ∈ t.labels, ¬ sel.names l → getElementType (assignEtype t sel ty) l = getElementType t l) := by
  obtain ⟨l', h0, h1, h2⟩ := typeFold (F := F) (·.etype) (fun t l => { t with etype := l }) (fun _ _ => rfl) (fun _ _ => rfl)
    (fun _ _ _ => rfl) (fun _ => rfl) ty (sel.resolve t.labels) t ht
  have h1' : assignEtype t sel ty = { t with etype := l' } := h1
  rw [h1']
  refine ⟨rfl, rfl, rfl, rfl, rfl, h0, ?_, ?_⟩
  · intro l hl hn
    show npFirst l' (whereEq t.labels l) = _
    rw [h2 l hl, if_pos]
    cases sel with
    | all => exact hl
    | list ls => exact hn
  · intro l hl hn
    show npFirst l' (whereEq t.labels l) = _
    rw [h2 l hl, if_neg]
    · rfl
    · cases sel with
      | all => exact absurd trivial hn
      | list ls => exact hn

/-- The hypotheses hold for a table of two elements. -/
example : exElems.labels.length = exElems.mtype.length ∧ exElems.labels.length = exElems.etype.length ∧
    (assignMtype exElems (.list [2, 7]) 2).mtype = [1, 2] ∧ (assignEtype exElems .all 3).etype = [3, 3] := by
  decide +kernel

private theorem assignGeosFold [Flt F] : ∀ (ps : List (Int × List F)) (t : ElemTab F), t.gprop.isInt = false →
    (∀ p ∈ ps, p.2.length = t.gprop.cols) → t.labels.length = t.gprop.rows.length → (ps.map (·.1)).Nodup →
      ∃ t', ps.foldlM (fun (t : ElemTab F) p => do
        let g ← t.gprop.assign (whereEq t.labels p.1) p.2
        return { t with gprop := g }) t = (.ok t' : Py (ElemTab F)) ∧
      SameIdentity t t' ∧ t'.mprop = t.mprop ∧ t'.mtype = t.mtype ∧
      (∀ p ∈ ps, p.1 ∈ t.labels → getGeometricProperties t' p.1 = .ok p.2) ∧
      ∀ l, l ∉ ps.map (·.1) → getGeometricProperties t' l = getGeometricProperties t l
  | [], t, _, _, _, _ => ⟨t, rfl, ⟨rfl, rfl, rfl⟩, rfl, rfl, by simp, fun _ _ => rfl⟩
  | (a, v) :: ps, t, hi, hc, hl, hnd => by
    have hv : v.length = t.gprop.cols := hc (a, v) (by simp)
    have hasg : t.gprop.assign (whereEq t.labels a) v =
        .ok { t.gprop with rows := setAll t.gprop.rows (whereEq t.labels a) v } := by
      unfold PTab.assign
      simp only [hi, Bool.false_eq_true, if_false]
      rw [if_pos hv]
      simp
    rw [List.map_cons, List.nodup_cons] at hnd
    obtain ⟨t', h1, h2, h3, h4, h5, h6⟩ := assignGeosFold ps
      { t with gprop := { t.gprop with rows := setAll t.gprop.rows (whereEq t.labels a) v } } hi
      (fun p hp => hc p (by simp [hp])) (by simpa using hl) hnd.2
    have hset := fun l => npFirst_setAll hl a l v
    refine ⟨t', ?_, ⟨h2.1, h2.2, h2.3⟩, h3, h4, ?_, ?_⟩
    · rw [List.foldlM_cons, hasg]
      exact h1
    · intro p hp hin
      rcases List.mem_cons.1 hp with rfl | hp
      · rw [h6 a hnd.1]
        simp only [getGeometricProperties]
        rw [hset, if_pos rfl, if_pos hin]
      · exact h5 p hp hin
    · intro l hn
      rw [List.map_cons, List.mem_cons, not_or] at hn
      rw [h6 l hn.2]
      simp only [getGeometricProperties]
      rw [hset, if_neg hn.1]

/-- **C11** (individual geometries) After `assign_geometries(labels, gprops)` with different labels and as many values per
entry as the table has columns, the k-th named element reports the k-th entry; the others keep their values, and nothing else
changes.
Missing from the full statement: tables created from integers (values are truncated, `C11_integer_table_counterexample`) and
lists of different lengths (`C11_short_list_counterexample`). -/
theorem C11_assign_geometries_partial [Flt F] (t : ElemTab F) (ht : t.Rows) (ls : List Int) (gprops : List (List F))
    (hw : ∀ g ∈ gprops, g.length = t.gprop.cols) (hfloat : t.gprop.isInt = false) (hnd : ls.Nodup)
    (hlen : ls.length = gprops.length) :
    ∃ t', assignGeometries t (.list ls) gprops = .ok t' ∧ SameIdentity t t' ∧ t'.mprop = t.mprop ∧ t'.mtype = t.mtype ∧
      (∀ (k : Nat) (l : Int) (g : List F), ls[k]? = some l → gprops[k]? = some g → l ∈ t.labels →
        getGeometricProperties t' l = .ok g) ∧
      (∀ l ∈ t.labels, l ∉ ls → getGeometricProperties t' l = getGeometricProperties t l) := by
  have hmap : (ls.zip gprops).map (·.1) = ls := by
    rw [List.map_fst_zip]
    omega
  obtain ⟨t', h1, h2, h3, h4, h5, h6⟩ := assignGeosFold (ls.zip gprops) t hfloat
    (fun p hp => hw p.2 (List.of_mem_zip hp).2) ht.gprop (by rw [hmap]; exact hnd)
  refine ⟨t', h1, h2, h3, h4, ?_, ?_⟩
  · intro k l g hk hg hin
    refine h5 (l, g) ?_ hin
    refine List.mem_iff_getElem?.2 ⟨k, ?_⟩
    rw [List.getElem?_zip_eq_some]
    exact ⟨hk, hg⟩
  · intro l hl hn
    exact h6 l (by rw [hmap]; exact hn)

/-- A list of geometries shorter than the list of labels is accepted; the last elements keep their values silently. -/
theorem C11_short_list_counterexample :
    ((assignGeometries exElems .all [[7]]).toOption.map fun t => t.gprop.rows) = some [[7], [1]] := by decide +kernel

/-- The hypotheses hold for a table of two elements, whose areas are exchanged. -/
example : exElems.Rows ∧ exElems.gprop.isInt = false ∧ (∀ g ∈ [[(5 : ℚ)], [6]], g.length = exElems.gprop.cols) ∧
    [(2 : Int), 1].Nodup ∧
    ((assignGeometries exElems (.list [2, 1]) [[5], [6]]).toOption.map fun t => t.gprop.rows) = some [[6], [5]] := by
  refine ⟨⟨rfl, rfl, rfl⟩, rfl, by decide, by decide, by decide +kernel⟩

/-- What a geometry table with `t.cols` columns stores for the given values: a single value is repeated, and a table created
from integers cuts off the fractions. -/
def PTab.storedAs [Flt F] (t : PTab F) (vals w : List F) : Prop :=
  w.length = t.cols ∧ ∀ (k : Nat) (v : F), w[k]? = some v → ∃ u, (vals[k]? = some u ∨ (vals = [u])) ∧
    v = if t.isInt then Flt.trunc u else u

private theorem assign_cases [Flt F] (t : PTab F) (idx : List Nat) (vals : List F) :
    ((vals.length = t.cols ∨ vals.length = 1) → ∃ w, (∀ t2 : PTab F, t2.isInt = t.isInt → t2.cols = t.cols → t2.storedAs vals w) ∧
      ∀ t2 : PTab F, t2.isInt = t.isInt → t2.cols = t.cols → ∀ idx,
        t2.assign idx vals = .ok { t2 with rows := setAll t2.rows idx w }) ∧
    (vals.length ≠ t.cols → vals.length ≠ 1 → t.assign idx vals = .error .valueError) := by
  constructor
  · intro h
    by_cases hc : vals.length = t.cols
    · refine ⟨vals.map fun v => if t.isInt then Flt.trunc v else v, ?_, ?_⟩
      · intro t2 h1 h2
        refine ⟨by simp [hc, h2], ?_⟩
        intro k v hk
        rw [List.getElem?_map] at hk
        cases hv : vals[k]? with
        | none => rw [hv] at hk; cases hk
        | some u =>
          rw [hv] at hk
          cases hk
          exact ⟨u, .inl rfl, by rw [h1]⟩
      · intro t2 h1 h2 idx
        unfold PTab.assign
        rw [if_pos (by rw [h2]; exact hc), h1]
    · obtain ⟨v, rfl⟩ := List.length_eq_one_iff.1 (h.resolve_left hc)
      refine ⟨List.replicate t.cols (if t.isInt then Flt.trunc v else v), ?_, ?_⟩
      · intro t2 h1 h2
        refine ⟨by simp [h2], ?_⟩
        intro k u hk
        refine ⟨v, .inr rfl, ?_⟩
        rw [List.getElem?_replicate] at hk
        split at hk
        · cases hk; rw [h1]
        · cases hk
      · intro t2 h1 h2 idx
        unfold PTab.assign
        rw [if_neg (by rw [h2]; exact hc), h1, h2]
  · intro h1 h2
    unfold PTab.assign
    rw [if_neg h1]
    split
    · exact absurd rfl h2
    · rfl

private theorem assignGeoFold2 [Flt F] (v w : List F) : ∀ (ls : List Int) (t : ElemTab F),
    (∀ t2 : PTab F, t2.isInt = t.gprop.isInt → t2.cols = t.gprop.cols → ∀ idx,
        t2.assign idx v = .ok { t2 with rows := setAll t2.rows idx w }) → t.labels.length = t.gprop.rows.length →
      ∃ t', ls.foldlM (fun (t : ElemTab F) label => do
        let g ← t.gprop.assign (whereEq t.labels label) v
        return { t with gprop := g }) t = (.ok t' : Py (ElemTab F)) ∧
      SameIdentity t t' ∧ t'.mprop = t.mprop ∧ t'.mtype = t.mtype ∧
      (∀ l, getGeometricProperties t' l = if l ∈ ls ∧ l ∈ t.labels then .ok w else getGeometricProperties t l)
  | [], t, _, _ => ⟨t, rfl, ⟨rfl, rfl, rfl⟩, rfl, rfl, by simp⟩
  | a :: ls, t, hc, hl => by
    have hasg := hc t.gprop rfl rfl (whereEq t.labels a)
    obtain ⟨t', h1, h2, h3, h4, h7⟩ := assignGeoFold2 v w ls
      { t with gprop := { t.gprop with rows := setAll t.gprop.rows (whereEq t.labels a) w } } hc (by simpa using hl)
    refine ⟨t', ?_, ⟨h2.1, h2.2, h2.3⟩, h3, h4, ?_⟩
    · rw [List.foldlM_cons, hasg]
      exact h1
    · intro l
      rw [h7]
      have := npFirst_setAll hl a l w
      simp only [getGeometricProperties]
      rw [this]
      by_cases hla : l = a
      · subst hla
        by_cases hin : l ∈ t.labels
        · simp [hin]
        · simp only [hin, and_false, if_false, if_true]
          rw [whereEq_eq_nil hin]
          rfl
      · simp [hla]

/-- **C11** (geometry, any table) `assign_geometry(labels, gprop)` succeeds exactly if `gprop` has one value or as many as
the table has columns, or if no label is given; otherwise it raises `ValueError`.  A single value is repeated in all columns.
Every named existing element reports these values (without fractions in a table created from integers), every other one its
old values, and nothing else changes. -/
theorem C11_geometry_widths [Flt F] (t : ElemTab F) (ht : t.Rows) (sel : LabelSel) (gprop : List F) :
    ((gprop.length = t.gprop.cols ∨ gprop.length = 1) → ∃ t' w, assignGeometry t sel gprop = .ok t' ∧
      t.gprop.storedAs gprop w ∧ SameIdentity t t' ∧ t'.mprop = t.mprop ∧ t'.mtype = t.mtype ∧
      (∀ l ∈ t.labels, sel.names l → getGeometricProperties t' l = .ok w) ∧
      (∀ l ∈ t.labels, ¬ sel.names l → getGeometricProperties t' l = getGeometricProperties t l)) ∧
    (gprop.length ≠ t.gprop.cols → gprop.length ≠ 1 →
      ((sel = .list [] ∨ sel = .all ∧ t.labels = []) → assignGeometry t sel gprop = .ok t) ∧
      (¬ (sel = .list [] ∨ sel = .all ∧ t.labels = []) → assignGeometry t sel gprop = .error .valueError)) := by
  have hnames : ∀ l ∈ t.labels, (sel.names l ↔ l ∈ sel.resolve t.labels) := by
    intro l hl
    cases sel <;> simp [LabelSel.names, LabelSel.resolve, hl]
  constructor
  · intro h
    obtain ⟨w, hw, hasg⟩ := (assign_cases t.gprop [] gprop).1 h
    obtain ⟨t', h1, h2, h3, h4, h5⟩ := assignGeoFold2 gprop w (sel.resolve t.labels) t hasg ht.gprop
    refine ⟨t', w, h1, hw _ rfl rfl, h2, h3, h4, ?_, ?_⟩
    · intro l hl hn
      rw [h5, if_pos ⟨(hnames l hl).1 hn, hl⟩]
    · intro l hl hn
      rw [h5, if_neg (fun hc => hn ((hnames l hl).2 hc.1))]
  · intro h1 h2
    have hnone : (sel = .list [] ∨ sel = .all ∧ t.labels = []) ↔ sel.resolve t.labels = [] := by
      cases sel <;> simp [LabelSel.resolve]
    rw [hnone]
    unfold assignGeometry
    cases sel.resolve t.labels with
    | nil => exact ⟨fun _ => rfl, fun h => absurd rfl h⟩
    | cons a ls =>
      rw [List.foldlM_cons, (assign_cases t.gprop (whereEq t.labels a) gprop).2 h1 h2]
      exact ⟨fun h => (by cases h), fun _ => rfl⟩

/-- A table of areas with two columns: one value is repeated, two are stored, three are refused. -/
example :
    let t : ElemTab ℚ := { exElems with gprop := ⟨false, 2, [[1, 1], [1, 1]]⟩ }
    t.Rows ∧ ((assignGeometry t (.list [2]) [7]).toOption.map fun t => t.gprop.rows) = some [[1, 1], [7, 7]] ∧
      ((assignGeometry t (.list [2]) [7, 8]).toOption.map fun t => t.gprop.rows) = some [[1, 1], [7, 8]] ∧
      assignGeometry t (.list [2]) [7, 8, 9] = .error .valueError :=
  ⟨⟨rfl, rfl, rfl⟩, by decide +kernel, by decide +kernel, rfl⟩

end TrussPy
