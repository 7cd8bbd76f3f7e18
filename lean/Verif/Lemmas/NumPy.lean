import Verif.Base
import Mathlib.Data.List.Basic
import Mathlib.Data.List.Nodup
import Mathlib.Data.List.Perm.Basic
import Mathlib.Data.List.Lookmap
import Mathlib.Data.List.Sort
import Mathlib.Tactic.Linarith
/-! Helper lemmas about the NumPy primitives of `Verif/Base.lean`. -/

namespace TrussPy

section except
variable {α β : Type}

@[simp] theorem py_bind_ok (a : α) (f : α → Py β) : (Except.ok a : Py α) >>= f = f a := rfl
@[simp] theorem py_bind_error (e : Err) (f : α → Py β) : (Except.error e : Py α) >>= f = .error e := rfl
@[simp] theorem py_pure (a : α) : (pure a : Py α) = .ok a := rfl

theorem py_bind_eq_ok {x : Py α} {f : α → Py β} {b : β} :
    x >>= f = .ok b ↔ ∃ a, x = .ok a ∧ f a = .ok b := by
  cases x with
  | error e => simp
  | ok a => simp

theorem py_ok_or_error (x : Py α) : (∃ a, x = .ok a) ∨ ∃ e, x = .error e := by
  cases x with
  | ok a => exact Or.inl ⟨a, rfl⟩
  | error e => exact Or.inr ⟨e, rfl⟩
end except

variable {α : Type}

/-! ### `npTake` -/

theorem npTake_ok_of_lt (l : List α) : ∀ idx : List Nat, (∀ i ∈ idx, i < l.length) →
    ∃ r, npTake l idx = .ok r ∧ r.length = idx.length ∧ ∀ k : Nat, r[k]? = (idx[k]?).bind (fun i => l[i]?)
  | [], _ => ⟨[], rfl, rfl, by simp⟩
  | i :: is, h => by
    obtain ⟨r, hr, hl, hk⟩ := npTake_ok_of_lt l is fun j hj => h j (List.mem_cons_of_mem _ hj)
    have hi : i < l.length := h i List.mem_cons_self
    refine ⟨l[i] :: r, ?_, by simp [hl], ?_⟩
    · simp [npTake, hi, hr]
    · intro k
      cases k with
      | zero => simp [hi]
      | succ k => simp [hk]

theorem npTake_eq_ok_iff (l : List α) : ∀ (idx : List Nat) (r : List α),
    npTake l idx = .ok r ↔ r.length = idx.length ∧ ∀ k : Nat, k < idx.length → r[k]? = (idx[k]?).bind (fun i => l[i]?) ∧
      r[k]? ≠ none
  | [], r => by
    constructor
    · intro h; cases h; simp
    · rintro ⟨h, -⟩
      have : r = [] := by simpa using h
      simp [npTake, this]
  | i :: is, r => by
    simp only [npTake]
    cases hi : l[i]? with
    | none =>
      simp only [reduceCtorEq, false_iff]
      rintro ⟨hl, h⟩
      have := h 0 (by simp)
      simp [hi] at this
    | some a =>
      simp only
      cases hr : npTake l is with
      | error e =>
        simp only [reduceCtorEq, false_iff]
        rintro ⟨hl, h⟩
        cases r with
        | nil => simp at hl
        | cons b r =>
          have := (npTake_eq_ok_iff l is r).2 ⟨by simpa using hl, fun k hk => by
            simpa using h (k+1) (by simpa using hk)⟩
          rw [hr] at this; cases this
      | ok as =>
        have ih := (npTake_eq_ok_iff l is as).1 hr
        constructor
        · intro h
          cases h
          refine ⟨by simp [ih.1], ?_⟩
          intro k hk
          cases k with
          | zero => simp [hi]
          | succ k => simpa using ih.2 k (by simpa using hk)
        · rintro ⟨hl, h⟩
          cases r with
          | nil => simp at hl
          | cons b r =>
            have h0 := h 0 (by simp)
            simp [hi] at h0
            have := (npTake_eq_ok_iff l is r).2 ⟨by simpa using hl, fun k hk => by
              simpa using h (k+1) (by simpa using hk)⟩
            rw [hr] at this
            cases this
            rw [h0]

theorem npTake_ok_lt {l : List α} {idx : List Nat} {r : List α} (h : npTake l idx = .ok r) :
    ∀ i ∈ idx, i < l.length := by
  rw [npTake_eq_ok_iff] at h
  intro i hi
  obtain ⟨k, hk, rfl⟩ := List.getElem_of_mem hi
  have := h.2 k hk
  by_contra hc
  rw [this.1] at this
  simp [hk, List.getElem?_eq_none (not_lt.1 hc)] at this

theorem npTake_eq_map {l : List α} (d : α) {idx : List Nat} (h : ∀ i ∈ idx, i < l.length) :
    npTake l idx = .ok (idx.map fun i => l.getD i d) := by
  rw [npTake_eq_ok_iff]
  refine ⟨by simp, fun k hk => ?_⟩
  have := h _ (List.getElem_mem hk)
  simp [hk, this]

theorem npTake_error_of_ge {l : List α} {idx : List Nat} {i : Nat} (hi : i ∈ idx) (h : l.length ≤ i) :
    ∃ e, npTake l idx = .error e := by
  rcases py_ok_or_error (npTake l idx) with ⟨r, hr⟩ | he
  · exact absurd (npTake_ok_lt hr i hi) (not_lt.2 h)
  · exact he

theorem npTake_error_kind {l : List α} : ∀ {idx : List Nat} {e : Err}, npTake l idx = .error e →
    e = .indexError
  | [], e, h => by simp [npTake] at h
  | i :: is, e, h => by
    simp only [npTake] at h
    cases hi : l[i]? with
    | none => rw [hi] at h; simpa using h.symm
    | some a =>
      rw [hi] at h
      cases hr : npTake l is with
      | error e' => rw [hr] at h; simp at h; subst h; exact npTake_error_kind hr
      | ok as => rw [hr] at h; simp at h

/-! ### `whereEq` -/

theorem mem_whereEq {labels : List Int} {l : Int} {i : Nat} :
    i ∈ whereEq labels l ↔ labels[i]? = some l := by
  simp only [whereEq, List.mem_filter, List.mem_range, beq_iff_eq]
  constructor
  · exact fun h => h.2
  · intro h
    exact ⟨(List.getElem?_eq_some_iff.1 h).1, h⟩

theorem whereEq_sorted (labels : List Int) (l : Int) : (whereEq labels l).Pairwise (· < ·) :=
  List.Pairwise.filter _ List.pairwise_lt_range

theorem whereEq_lt {labels : List Int} {l : Int} {i : Nat} (h : i ∈ whereEq labels l) :
    i < labels.length := (List.getElem?_eq_some_iff.1 (mem_whereEq.1 h)).1

theorem whereEq_eq_nil {labels : List Int} {l : Int} (h : l ∉ labels) : whereEq labels l = [] := by
  rw [List.eq_nil_iff_forall_not_mem]
  intro i hi
  exact h (List.mem_of_getElem? (mem_whereEq.1 hi))

/-- For distinct labels `np.where` selects exactly one position. -/
theorem whereEq_nodup {labels : List Int} (hnd : labels.Nodup) {i : Nat} (hi : i < labels.length) :
    whereEq labels labels[i] = [i] := by
  have h1 : ∀ j, j ∈ whereEq labels labels[i] ↔ j = i := by
    intro j
    rw [mem_whereEq, List.getElem?_eq_some_iff]
    constructor
    · rintro ⟨hj, h⟩
      exact (hnd.getElem_inj_iff).1 h
    · rintro rfl
      exact ⟨hi, rfl⟩
  apply List.Perm.eq_of_pairwise (le := (· < ·)) (fun a b _ _ h1 h2 => by omega) (whereEq_sorted _ _)
    (List.pairwise_singleton _ _)
  apply (List.perm_ext_iff_of_nodup ?_ (by simp)).2
  · intro j; rw [h1]; simp
  · exact (whereEq_sorted _ _).imp (fun h => Nat.ne_of_lt h)

theorem whereEq_of_idx {labels : List Int} (hnd : labels.Nodup) {i : Nat} {l : Int}
    (hi : labels[i]? = some l) : whereEq labels l = [i] := by
  obtain ⟨h, rfl⟩ := List.getElem?_eq_some_iff.1 hi
  exact whereEq_nodup hnd h

/-! ### `npFirst` -/

theorem npFirst_single {l : List α} {i : Nat} {a : α} (h : l[i]? = some a) : npFirst l [i] = .ok a := by
  simp [npFirst, npTake, h]

theorem npFirst_nil (l : List α) : npFirst l [] = .error .indexError := rfl

theorem npFirst_ok {l : List α} {idx : List Nat} {a : α} (h : npFirst l idx = .ok a) :
    ∃ i, idx.head? = some i ∧ l[i]? = some a := by
  cases idx with
  | nil => simp [npFirst, npTake] at h
  | cons i is =>
    refine ⟨i, rfl, ?_⟩
    simp only [npFirst, npTake] at h
    cases hi : l[i]? with
    | none => simp [hi] at h
    | some b =>
      cases hr : npTake l is with
      | error e => simp [hi, hr] at h
      | ok as => simp [hi, hr] at h; rw [h]

/-! ### `setAll` -/

@[simp] theorem setAll_length (l : List α) (idx : List Nat) (v : α) : (setAll l idx v).length = l.length := by
  unfold setAll
  induction idx generalizing l with
  | nil => rfl
  | cons i is ih => simp [ih]

theorem setAll_single (l : List α) (i : Nat) (v : α) : setAll l [i] v = l.set i v := rfl

theorem setAll_nil (l : List α) (v : α) : setAll l [] v = l := rfl

theorem getElem?_setAll (l : List α) (idx : List Nat) (v : α) (k : Nat) :
    (setAll l idx v)[k]? = if k ∈ idx ∧ k < l.length then some v else l[k]? := by
  unfold setAll
  induction idx generalizing l with
  | nil => simp
  | cons i is ih =>
    simp only [List.foldl_cons, ih, List.length_set, List.mem_cons]
    by_cases h1 : k ∈ is ∧ k < l.length
    · simp [h1]
    · rw [if_neg h1, List.getElem?_set]
      by_cases h2 : k < l.length
      · have : k ∉ is := fun h => h1 ⟨h, h2⟩
        by_cases h3 : i = k
        · subst h3; simp [h2]
        · have : ¬ (k = i) := fun h => h3 h.symm
          simp [*]
      · by_cases h3 : i = k
        · subst h3; simp [h2]
        · simp [h2, h3]

/-! ### `npDelete` -/

theorem npDelete_eq {l : List α} {idx : List Nat} (h : ∀ i ∈ idx, i < l.length) :
    npDelete l idx = .ok ((l.zipIdx.filter fun p => !idx.contains p.2).map Prod.fst) := by
  unfold npDelete
  rw [if_neg]
  simp only [List.any_eq_true, decide_eq_true_eq, not_exists, not_and, not_le]
  exact h

/-! ### `pyGet` -/

/-- In-range position of a Python index. -/
def pyIdx (n : Nat) (i : Int) : Nat := (if 0 ≤ i then i else i + n).toNat

theorem pyGet_eq_ok {l : List α} {i : Int} {a : α} :
    pyGet l i = .ok a ↔ (0 ≤ i ∨ 0 ≤ i + l.length) ∧ l[pyIdx l.length i]? = some a := by
  unfold pyGet pyIdx
  by_cases h : 0 ≤ i
  · have h' : ¬ i < 0 := by omega
    simp only [h, if_true, h', if_false, true_or, true_and]
    cases l[i.toNat]? <;> simp
  · by_cases h2 : 0 ≤ i + l.length
    · have h' : ¬ i + (l.length : Int) < 0 := by omega
      simp only [h, h2, h', if_false, or_true, true_and]
      cases l[(i + (l.length : Int)).toNat]? <;> simp
    · have h' : i + (l.length : Int) < 0 := by omega
      simp only [h, h2, h', if_true, if_false, or_false, false_and]
      simp

theorem pyGet_ok_nat {l : List α} {i : Nat} {a : α} : pyGet l (i : Int) = .ok a ↔ l[i]? = some a := by
  rw [pyGet_eq_ok, pyIdx]
  simp

theorem pyGet_mem {l : List α} {i : Int} {a : α} (h : pyGet l i = .ok a) : a ∈ l :=
  List.mem_of_getElem? (pyGet_eq_ok.1 h).2

theorem pyGet_neg {l : List α} {i : Int} (h0 : i < 0) (h1 : 0 ≤ i + l.length) {a : α} :
    pyGet l i = .ok a ↔ l[(i + l.length).toNat]? = some a := by
  rw [pyGet_eq_ok, pyIdx, if_neg (by omega)]
  simp [h1]

/-! ### Sorting with `argsort` -/

theorem argsort_lt {argsort : List Int → List Nat} (h : IsArgsort argsort) (l : List Int) :
    ∀ i ∈ argsort l, i < l.length := fun _ hi => List.mem_range.1 ((h l).1.mem_iff.1 hi)

theorem map_getD_range (l : List α) (d : α) : ((List.range l.length).map fun i => l.getD i d) = l := by
  apply List.ext_getElem
  · simp
  · intro i h1 h2
    simp at h1
    simp [h1]

theorem argsort_take {argsort : List Int → List Nat} (h : IsArgsort argsort) (l : List Int) :
    ∃ r, npTake l (argsort l) = .ok r ∧ r.Perm l ∧ r.Pairwise (· ≤ ·) := by
  refine ⟨_, npTake_eq_map 0 (argsort_lt h l), ?_, (h l).2⟩
  have := ((h l).1.map fun i => l.getD i 0)
  rwa [map_getD_range] at this

theorem argsort_take_rows {argsort : List Int → List Nat} (h : IsArgsort argsort) (l : List Int)
    (rows : List α) (hlen : rows.length = l.length) :
    ∃ ls rs, npTake l (argsort l) = .ok ls ∧ npTake rows (argsort l) = .ok rs ∧
      ls.length = rs.length ∧ (ls.zip rs).Perm (l.zip rows) ∧ ls.Perm l ∧ ls.Pairwise (· ≤ ·) := by
  have hlt := argsort_lt h l
  cases rows with
  | nil =>
    have : l = [] := by simpa using hlen.symm
    subst this
    have h2 : argsort [] = [] := by
      have := (h []).1
      simpa using this
    exact ⟨[], [], by simp [h2, npTake], by simp [h2, npTake], rfl, by simp, by simp, by simp⟩
  | cons d rows' =>
    set rows := d :: rows' with hrows
    have hlt' : ∀ i ∈ argsort l, i < rows.length := fun _ hi => by rw [hlen]; exact hlt _ hi
    refine ⟨_, _, npTake_eq_map 0 hlt, npTake_eq_map d hlt', by simp, ?_, ?_, (h l).2⟩
    · rw [List.zip_map']
      have := ((h l).1.map fun i => (l.getD i 0, rows.getD i d))
      refine this.trans ?_
      rw [← List.zip_map' (f := fun i => l.getD i 0) (g := fun i => rows.getD i d), map_getD_range, ← hlen,
        map_getD_range]
    · have := ((h l).1.map fun i => l.getD i 0)
      rwa [map_getD_range] at this

/-- Two ascending lists with the same members are equal. -/
theorem sorted_perm_eq {a b : List Int} (hp : a.Perm b) (ha : a.Pairwise (· ≤ ·))
    (hb : b.Pairwise (· ≤ ·)) : a = b :=
  List.Perm.eq_of_pairwise (le := (· ≤ ·)) (fun _ _ _ _ h1 h2 => le_antisymm h1 h2) ha hb hp

end TrussPy
