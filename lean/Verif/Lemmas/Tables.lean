import Verif.Lemmas.Handlers
import Verif.Spec.Tables
/-!
# Lemmas about the handlers' deletion, assignment and look-up
-/

namespace TrussPy

variable {α F : Type}

/-- Deleting the rows of a label by position is filtering by label. -/
theorem npDelete_whereEq {β : Type} (key : β → Int) (val : β → α) (s : List β) (l : Int) :
    npDelete (s.map val) (whereEq (s.map key) l) = .ok ((s.filter fun b => key b ≠ l).map val) := by
  rw [npDelete_eq (by
    intro i hi
    have := whereEq_lt hi
    simpa using this)]
  congr 1
  have hz : (s.map val).zipIdx = s.zipIdx.map fun p => (val p.1, p.2) := by
    rw [List.zipIdx_map]; rfl
  rw [hz, List.filter_map, List.map_map]
  have hs : s = s.zipIdx.map Prod.fst := by rw [List.zipIdx_map_fst]
  conv_rhs => rw [hs]
  rw [List.filter_map, List.map_map]
  have : s.zipIdx.filter ((fun p : α × Nat => !(whereEq (s.map key) l).contains p.2) ∘
      fun p : β × Nat => (val p.1, p.2)) =
      s.zipIdx.filter ((fun b => decide (key b ≠ l)) ∘ Prod.fst) := by
    apply List.filter_congr
    rintro ⟨b, i⟩ hp
    have hi := List.mem_zipIdx_iff_getElem?.1 hp
    simp only [Function.comp]
    have : i ∈ whereEq (s.map key) l ↔ key b = l := by
      rw [mem_whereEq, List.getElem?_map, hi]
      simp
    by_cases hk : key b = l <;> simp [this, hk]
  rw [this]
  rfl

/-- First hit or `IndexError`. -/
def orIndexError : Option α → Py α
  | some a => .ok a
  | none => .error .indexError

/-- Look-up by position of a label is look-up by label. -/
theorem npFirst_whereEq {β : Type} (key : β → Int) (val : β → α) (s : List β) (l : Int) :
    npFirst (s.map val) (whereEq (s.map key) l) =
      orIndexError ((s.find? (fun b => key b == l)).map val) := by
  cases hf : s.find? (fun b => key b == l) with
  | none =>
    rw [whereEq_eq_nil, npFirst_nil]
    · rfl
    intro h
    obtain ⟨b, hb, rfl⟩ := List.mem_map.1 h
    simpa using List.find?_eq_none.1 hf b hb
  | some b =>
    obtain ⟨hk, as, bs, hs, hno⟩ := List.find?_eq_some_iff_append.1 hf
    have hb : key b = l := by simpa using hk
    have hmem : as.length ∈ whereEq (s.map key) l := by
      rw [mem_whereEq, hs]
      simp [hb]
    have hmin : ∀ i ∈ whereEq (s.map key) l, as.length ≤ i := by
      intro i hi
      rw [mem_whereEq] at hi
      by_contra hlt
      push Not at hlt
      rw [hs, List.getElem?_map, List.getElem?_append_left hlt, List.getElem?_eq_getElem hlt] at hi
      have := hno as[i] (List.getElem_mem hlt)
      simp at hi this
      exact this hi
    obtain ⟨i, is, hw⟩ : ∃ i is, whereEq (s.map key) l = i :: is := by
      cases h : whereEq (s.map key) l with
      | nil => rw [h] at hmem; cases hmem
      | cons i is => exact ⟨i, is, rfl⟩
    have hsorted := whereEq_sorted (s.map key) l
    rw [hw] at hmem hmin hsorted
    have hi : i = as.length := by
      rcases List.mem_cons.1 hmem with h | h
      · exact h.symm
      · have h1 := hmin i (by simp)
        have h2 := List.rel_of_pairwise_cons hsorted h
        omega
    have hok : ∀ j ∈ whereEq (s.map key) l, j < (s.map val).length := by
      intro j hj
      have := whereEq_lt hj
      simpa using this
    obtain ⟨r, hr, -, -⟩ := npTake_ok_of_lt _ _ hok
    rw [hw] at hr ⊢
    unfold npFirst
    rw [hr]
    cases r with
    | nil =>
      exfalso
      have := npTake_eq_map (l := s.map val) (val b) (idx := i :: is) (by rw [← hw]; exact hok)
      rw [hr] at this
      simp at this
    | cons x xs =>
      have := npTake_eq_map (l := s.map val) (val b) (idx := i :: is) (by rw [← hw]; exact hok)
      rw [hr] at this
      simp only [List.map_cons, Except.ok.injEq, List.cons.injEq] at this
      simp only [this.1, hi, hs]
      simp [orIndexError]

theorem zip_fst {β : Type} {labels : List Int} {rows : List β} (h : labels.length = rows.length) :
    (labels.zip rows).map Prod.fst = labels := List.map_fst_zip (by omega)

theorem zip_snd {β : Type} {labels : List Int} {rows : List β} (h : labels.length = rows.length) :
    (labels.zip rows).map Prod.snd = rows := List.map_snd_zip (by omega)

theorem npDelete_rows {labels : List Int} {rows : List α} (h : labels.length = rows.length) (l : Int) :
    npDelete rows (whereEq labels l) = .ok (((labels.zip rows).filter fun p => p.1 ≠ l).map (·.2)) := by
  have := npDelete_whereEq Prod.fst Prod.snd (labels.zip rows) l
  rwa [zip_fst h, zip_snd h] at this

theorem npDelete_labels (labels : List Int) (l : Int) :
    npDelete labels (whereEq labels l) = .ok (labels.filter fun x => x ≠ l) := by
  have := npDelete_whereEq (fun x : Int => x) (fun x => x) labels l
  simpa using this

theorem npFirst_rows {labels : List Int} {rows : List α} (h : labels.length = rows.length) (l : Int) :
    npFirst rows (whereEq labels l) =
      orIndexError (((labels.zip rows).find? (fun p => p.1 == l)).map (·.2)) := by
  have := npFirst_whereEq Prod.fst Prod.snd (labels.zip rows) l
  rwa [zip_fst h, zip_snd h] at this

/-- Deleting other labels does not change a look-up. -/
theorem npFirst_after_delete {labels : List Int} {rows : List α} (h : labels.length = rows.length)
    {l l' : Int} (hne : l' ≠ l) :
    npFirst (((labels.zip rows).filter fun p => p.1 ≠ l).map (·.2))
      (whereEq (labels.filter fun x => x ≠ l) l') = npFirst rows (whereEq labels l') := by
  have h1 : labels.filter (fun x => x ≠ l) = ((labels.zip rows).filter fun p => p.1 ≠ l).map (·.1) := by
    conv_lhs => rw [← zip_fst h]
    rw [List.filter_map]
    rfl
  rw [h1, npFirst_whereEq, npFirst_rows h, List.find?_filter]
  have : (fun a : Int × α => decide (decide (a.1 ≠ l) = true ∧ (a.1 == l') = true)) = fun a => a.1 == l' := by
    funext a
    by_cases ha : a.1 = l'
    · simp [ha, hne]
    · simp [ha]
  rw [this]

/-- Look-up after overwriting the rows of a label. -/
theorem npFirst_setAll {labels : List Int} {rows : List α} (h : labels.length = rows.length)
    (l l' : Int) (v : α) :
    npFirst (setAll rows (whereEq labels l) v) (whereEq labels l') =
      if l' = l then (if l ∈ labels then .ok v else .error .indexError)
      else npFirst rows (whereEq labels l') := by
  cases hw : whereEq labels l' with
  | nil =>
    have hnot : l' ∉ labels := by
      intro hm
      obtain ⟨i, hi, rfl⟩ := List.getElem_of_mem hm
      have : i ∈ whereEq labels labels[i] := mem_whereEq.2 (by simp)
      rw [hw] at this; cases this
    split
    · next he => subst he; rw [if_neg hnot]; rfl
    · rfl
  | cons i is =>
    have hmem : ∀ j ∈ i :: is, labels[j]? = some l' := by
      intro j hj; rw [← hw] at hj; exact mem_whereEq.1 hj
    have hi := hmem i (by simp)
    obtain ⟨hil, hie⟩ := List.getElem?_eq_some_iff.1 hi
    have hok : ∀ j ∈ i :: is, j < rows.length := by
      intro j hj
      have := hmem j hj
      obtain ⟨hh, _⟩ := List.getElem?_eq_some_iff.1 this
      omega
    have hfirst : ∀ (rs : List α), rs.length = rows.length → npFirst rs (i :: is) =
        match rs[i]? with | some a => .ok a | none => .error .indexError := by
      intro rs hl
      obtain ⟨r, hr, hrl, hk⟩ := npTake_ok_of_lt rs (i :: is) (by rw [hl]; exact hok)
      unfold npFirst
      rw [hr]
      cases r with
      | nil => simp at hrl
      | cons x xs =>
        have := hk 0
        simp at this
        rw [← this]
    rw [hfirst _ (by simp), hfirst _ rfl, getElem?_setAll]
    by_cases he : l' = l
    · subst he
      have hin : l' ∈ labels := by rw [← hie]; exact List.getElem_mem hil
      rw [if_pos rfl, if_pos hin, if_pos ⟨by rw [mem_whereEq]; exact hi, by omega⟩]
    · rw [if_neg he, if_neg]
      rintro ⟨hm, -⟩
      rw [mem_whereEq, hi] at hm
      exact he (Option.some.inj hm)

end TrussPy
