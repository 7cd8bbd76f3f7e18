import Verif.Lemmas.Build
/-!
# Building a built model again, for tables of any content
-/

set_option linter.unusedSectionVars false

namespace TrussPy

variable {F : Type}

theorem npTake_length {α : Type} {l : List α} : ∀ {idx : List Nat} {r : List α}, npTake l idx = .ok r → r.length = idx.length
  | [], r, h => by cases h; rfl
  | i :: is, r, h => by
    simp only [npTake] at h
    split at h
    · cases h
    · split at h
      · cases h
      next as has => cases h; simp [npTake_length has]

theorem npTake_range' {α : Type} {l : List α} {n : Nat} (h : l.length = n) : npTake l (List.range n) = .ok l := by
  subst h
  exact npTake_range l

theorem addBoundsU_keeps (bs : List BoundU) : ∀ {h : Option BoundTab} {t : BoundTab}, addBoundsU h bs = .ok (some t) →
    (∀ t0, h = some t0 → t0.nodes ⊆ t.nodes) ∧ ∀ b ∈ bs, b.node ∈ t.nodes := by
  induction bs with
  | nil =>
    intro h t hh
    have : h = some t := Except.ok.inj hh
    subst this
    exact ⟨fun t0 h0 => by cases h0; exact fun _ => id, by simp⟩
  | cons b bs ih =>
    intro h t hh
    rw [addBoundsU, List.foldlM_cons] at hh
    obtain ⟨h1, e1, e2⟩ := py_bind_eq_ok.1 hh
    obtain ⟨q1, q2⟩ := ih e2
    cases h with
    | none =>
      cases e1
      have := q1 _ rfl
      refine ⟨fun _ h0 => (by cases h0), ?_⟩
      intro x hx
      rcases List.mem_cons.1 hx with rfl | hx
      · exact this (by simp)
      · exact q2 x hx
    | some t0 =>
      obtain ⟨vals, -, e1⟩ := py_bind_eq_ok.1 e1
      cases e1
      have := q1 _ rfl
      refine ⟨fun _ h0 => by cases h0; exact fun x hx => this (by simp [hx]), ?_⟩
      intro x hx
      rcases List.mem_cons.1 hx with rfl | hx
      · exact this (by simp)
      · exact q2 x hx

theorem addForces_keeps (bs : List (ExtForce F)) : ∀ {h : Option (ForceTab F)} {t : ForceTab F}, addForces h bs = .ok (some t) →
    (∀ t0, h = some t0 → t0.nodes ⊆ t.nodes) ∧ ∀ b ∈ bs, b.node ∈ t.nodes := by
  induction bs with
  | nil =>
    intro h t hh
    have : h = some t := Except.ok.inj hh
    subst this
    exact ⟨fun t0 h0 => by cases h0; exact fun _ => id, by simp⟩
  | cons b bs ih =>
    intro h t hh
    rw [addForces, List.foldlM_cons] at hh
    obtain ⟨h1, e1, e2⟩ := py_bind_eq_ok.1 hh
    obtain ⟨q1, q2⟩ := ih e2
    cases h with
    | none =>
      cases e1
      have := q1 _ rfl
      refine ⟨fun _ h0 => (by cases h0), ?_⟩
      intro x hx
      rcases List.mem_cons.1 hx with rfl | hx
      · exact this (by simp)
      · exact q2 x hx
    | some t0 =>
      obtain ⟨vals, -, e1⟩ := py_bind_eq_ok.1 e1
      cases e1
      have := q1 _ rfl
      refine ⟨fun _ h0 => by cases h0; exact fun x hx => this (by simp [hx]), ?_⟩
      intro x hx
      rcases List.mem_cons.1 hx with rfl | hx
      · exact this (by simp)
      · exact q2 x hx

/-- Labels after sorting: ascending, and the same set. -/
theorem sorted_labels {argsort : List Int → List Nat} (has : IsArgsort argsort) {l r : List Int}
    (h : npTake l (argsort l) = .ok r) : r.Pairwise (· ≤ ·) ∧ r.Perm l := by
  have hlt := argsort_lt has l
  rw [npTake_eq_map 0 hlt] at h
  cases h
  refine ⟨(has l).2, ?_⟩
  have := (has l).1.map fun i => l.getD i 0
  rwa [map_getD_range] at this

theorem missing_nil {nl l : List Int} (h : nl ⊆ l) : missing nl (some l) = [] := by
  unfold missing
  rw [List.filter_eq_nil_iff]
  intro a ha
  simpa using h ha

theorem missing_or {nl : List Int} {h : Option (List Int)} {x : Int} (hx : x ∈ nl) :
    x ∈ missing nl h ∨ ∃ l, h = some l ∧ x ∈ l := by
  unfold missing
  cases h with
  | none => left; simp [hx]
  | some l =>
    by_cases hl : x ∈ l
    · exact .inr ⟨l, rfl, hl⟩
    · left; simp [hx, hl]

/-- `fix_nodes` again changes nothing. -/
theorem fixNodes_again {argsort : List Int → List Nat} {t t' : NodeTab F} (h : fixNodes argsort t = .ok t') (hst : argsort t'.labels = List.range t'.labels.length) :
    fixNodes argsort t' = .ok t' := by
  unfold fixNodes at h
  obtain ⟨ls, e1, h⟩ := py_bind_eq_ok.1 h
  obtain ⟨cs, e2, h⟩ := py_bind_eq_ok.1 h
  cases h
  unfold Tab.take at e2
  split at e2
  · rename_i rows e3
    cases e2
    simp only at hst
    have hl : rows.length = ls.length := by rw [npTake_length e3, npTake_length e1]
    simp only [fixNodes, hst, npTake_range, Tab.take, npTake_range' hl, py_bind_ok, py_pure]
  · cases e2

theorem fixBoundsU_again {argsort : List Int → List Nat} (has : IsArgsort argsort) {nl : List Int}
    {h : Option BoundTab} {t' : BoundTab} (hh : fixBoundsU argsort nl h = .ok t')
    (hst : argsort t'.nodes = List.range t'.nodes.length) : fixBoundsU argsort nl (some t') = .ok t' := by
  unfold fixBoundsU at hh
  obtain ⟨h1, e0, hh⟩ := py_bind_eq_ok.1 hh
  cases h1 with
  | none => cases hh
  | some t =>
    simp only at hh
    obtain ⟨ls, e1, hh⟩ := py_bind_eq_ok.1 hh
    obtain ⟨vs, e2, hh⟩ := py_bind_eq_ok.1 hh
    cases hh
    simp only at hst
    have hsub : nl ⊆ ls := by
      intro x hx
      rw [(sorted_labels has e1).2.mem_iff]
      obtain ⟨q1, q2⟩ := addBoundsU_keeps _ e0
      rcases missing_or (h := h.map (·.nodes)) hx with hx | ⟨l, hl, hx⟩
      · exact q2 ⟨x, [1, 1, 1]⟩ (List.mem_map.2 ⟨x, hx, rfl⟩)
      · cases h with
        | none => cases hl
        | some t0 => cases hl; exact q1 _ rfl hx
    unfold BArr.take at e2
    unfold fixBoundsU
    simp only [Option.map_some, missing_nil hsub, List.map_nil, addBoundsU, List.foldlM_nil, py_pure, py_bind_ok, hst,
      npTake_range]
    split at e2
    · split at e2
      · rename_i e3
        cases e2
        have hl := npTake_length e3
        rw [← npTake_length e1] at hl
        simp only [BArr.take, npTake_range' hl, py_bind_ok]
      · cases e2
    · split at e2
      · rename_i e3
        cases e2
        unfold Tab.take at e3
        split at e3
        · rename_i e4
          cases e3
          have hl := npTake_length e4
          rw [← npTake_length e1] at hl
          simp only [BArr.take, Tab.take, npTake_range' hl, py_bind_ok]
        · cases e3
      · cases e2

theorem fixForces_again [Zero F] {argsort : List Int → List Nat} (has : IsArgsort argsort) {nl : List Int}
    {h : Option (ForceTab F)} {t' : ForceTab F} (hh : fixForces argsort nl h = .ok t')
    (hst : argsort t'.nodes = List.range t'.nodes.length) : fixForces argsort nl (some t') = .ok t' := by
  unfold fixForces at hh
  cases h with
  | none => cases hh
  | some t0 =>
    simp only at hh
    obtain ⟨h1, e0, hh⟩ := py_bind_eq_ok.1 hh
    cases h1 with
    | none => cases hh
    | some t =>
      simp only at hh
      obtain ⟨ls, e1, hh⟩ := py_bind_eq_ok.1 hh
      obtain ⟨vs, e2, hh⟩ := py_bind_eq_ok.1 hh
      cases hh
      simp only at hst
      have hsub : nl ⊆ ls := by
        intro x hx
        rw [(sorted_labels has e1).2.mem_iff]
        obtain ⟨q1, q2⟩ := addForces_keeps _ e0
        rcases missing_or (h := some t0.nodes) hx with hx | ⟨l, hl, hx⟩
        · exact q2 ⟨x, _⟩ (List.mem_map.2 ⟨x, hx, rfl⟩)
        · cases hl; exact q1 _ rfl hx
      unfold Tab.take at e2
      unfold fixForces
      simp only [missing_nil hsub, List.map_nil, addForces, List.foldlM_nil, py_pure, py_bind_ok, hst, npTake_range]
      split at e2
      · rename_i e3
        cases e2
        have hl := npTake_length e3
        rw [← npTake_length e1] at hl
        simp only [Tab.take, npTake_range' hl, py_bind_ok]
      · cases e2

/-- If the sort leaves the built label lists alone, building again changes nothing. -/
theorem build_again [Zero F] {argsort : List Int → List Nat} (has : IsArgsort argsort) {m m' : Model F} (s : BuildSteps argsort m m') (h1 : argsort s.nt.labels = List.range s.nt.labels.length)
    (h2 : argsort s.bt.nodes = List.range s.bt.nodes.length) (h3 : argsort s.ft.nodes = List.range s.ft.nodes.length) :
    m'.build argsort = .ok m' := by
  have q1 := fixNodes_again s.hfn h1
  have q2 := fixBoundsU_again has s.hfb h2
  have q3 := fixForces_again has s.hff h3
  have hlen : s.nt.labels.length = s.nt0.labels.length := by
    obtain ⟨ls, e1, h⟩ := py_bind_eq_ok.1 s.hfn
    obtain ⟨cs, e2, h⟩ := py_bind_eq_ok.1 h
    rw [← Except.ok.inj h]
    exact (sorted_labels has e1).2.length_eq
  have hst : (if s.et.mtype.contains 2 then 2 else if s.et.mtype.contains 2 then 2 else m.settings.nstatev)
      = if s.et.mtype.contains 2 then 2 else m.settings.nstatev := by
    split <;> rfl
  apply build_of_steps
  refine ⟨s.nt, s.et, s.nt, s.bt, s.ft, s.dof0, s.dof1, ?_, ?_, ?_, q1, ?_, ?_, s.hcb, s.hcf, ?_, ?_, ?_⟩
  · exact congrArg Model.nodes s.hm'
  · exact (congrArg Model.elems s.hm').trans s.he
  · exact (congrArg (fun m => m.settings.ndim) s.hm').trans s.hdim
  · rw [congrArg Model.bounds s.hm']; exact q2
  · rw [congrArg Model.forces s.hm']; exact q3
  · rw [hlen]; exact s.hd0
  · rw [hlen]; exact s.hd1
  · rw [hlen]
    obtain ⟨nt0, et, nt, bt, ft, dof0, dof1, _, _, _, _, _, _, _, _, _, _, hm'⟩ := s
    subst hm'
    simp only [hst]

end TrussPy
