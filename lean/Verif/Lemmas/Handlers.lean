import Verif.Lemmas.NumPy
import Verif.Spec.Input
/-! Helper lemmas: the handler tables in closed form. -/

namespace TrussPy

variable {F : Type}

/-! ### Nodes -/

theorem addNodes_some (ns : List (Node F)) : ∀ (t : NodeTab F) (h : Option (NodeTab F)),
    addNodes (some t) ns = .ok h ↔ (∀ n ∈ ns, n.coord.length = t.coords.cols) ∧
      h = some ⟨t.labels ++ ns.map (·.label), ⟨t.coords.cols, t.coords.rows ++ ns.map (·.coord)⟩⟩ := by
  induction ns with
  | nil =>
    intro t h
    simp [addNodes, eq_comm]
  | cons n ns ih =>
    intro t h
    simp only [addNodes, List.foldlM_cons, addNode, Tab.vstack] at ih ⊢
    by_cases hw : n.coord.length = t.coords.cols
    · simp only [hw, if_true, py_bind_ok, py_pure, ih]
      simp [hw]
    · simp [hw]

theorem addNodes_none (n : Node F) (ns : List (Node F)) (h : Option (NodeTab F)) :
    addNodes none (n :: ns) = .ok h ↔ (∀ k ∈ ns, k.coord.length = n.coord.length) ∧
      h = some ⟨(n :: ns).map (·.label), ⟨n.coord.length, (n :: ns).map (·.coord)⟩⟩ := by
  have := addNodes_some ns ⟨[n.label], Tab.ofRow n.coord⟩ h
  simpa [addNodes, addNode, Tab.ofRow] using this

theorem addNodes_tab {ns : List (Node F)} {t : NodeTab F} (h : addNodes none ns = .ok (some t)) :
    t.labels = ns.map (·.label) ∧ t.coords.rows = ns.map (·.coord) ∧
      ∀ n ∈ ns, n.coord.length = t.coords.cols := by
  cases ns with
  | nil => simp [addNodes] at h
  | cons n ns =>
    rw [addNodes_none] at h
    obtain ⟨h1, h2⟩ := h
    cases h2
    simpa using h1

/-! ### Loads -/

theorem addForces_some (fs : List (ExtForce F)) : ∀ (t : ForceTab F) (h : Option (ForceTab F)),
    addForces (some t) fs = .ok h ↔ (∀ n ∈ fs, n.force.length = t.forces.cols) ∧
      h = some ⟨t.nodes ++ fs.map (·.node), ⟨t.forces.cols, t.forces.rows ++ fs.map (·.force)⟩⟩ := by
  induction fs with
  | nil =>
    intro t h
    simp [addForces, eq_comm]
  | cons n ns ih =>
    intro t h
    simp only [addForces, List.foldlM_cons, addForce, Tab.vstack] at ih ⊢
    by_cases hw : n.force.length = t.forces.cols
    · simp only [hw, if_true, py_bind_ok, py_pure, ih]
      simp [hw]
    · simp [hw]

theorem addForces_none (n : ExtForce F) (ns : List (ExtForce F)) (h : Option (ForceTab F)) :
    addForces none (n :: ns) = .ok h ↔ (∀ k ∈ ns, k.force.length = n.force.length) ∧
      h = some ⟨(n :: ns).map (·.node), ⟨n.force.length, (n :: ns).map (·.force)⟩⟩ := by
  have := addForces_some ns ⟨[n.node], Tab.ofRow n.force⟩ h
  simpa [addForces, addForce, Tab.ofRow] using this

theorem addForces_tab {fs : List (ExtForce F)} {t : ForceTab F} (h : addForces none fs = .ok (some t)) :
    t.nodes = fs.map (·.node) ∧ t.forces.rows = fs.map (·.force) ∧ t.forces.cols = loadWidth fs ∧
      ∀ n ∈ fs, n.force.length = t.forces.cols := by
  cases fs with
  | nil => simp [addForces] at h
  | cons n ns =>
    rw [addForces_none] at h
    obtain ⟨h1, h2⟩ := h
    cases h2
    simpa [loadWidth] using h1

/-! ### Supports -/

theorem addBoundsU_d2 (bs : List BoundU) : ∀ (nodes : List Int) (t : Tab Int) (h : Option BoundTab),
    addBoundsU (some ⟨nodes, .d2 t⟩) bs = .ok h ↔ (∀ b ∈ bs, b.values.length = t.cols) ∧
      h = some ⟨nodes ++ bs.map (·.node), .d2 ⟨t.cols, t.rows ++ bs.map (·.values)⟩⟩ := by
  induction bs with
  | nil =>
    intro n t h
    simp [addBoundsU, eq_comm]
  | cons b bs ih =>
    intro n t h
    simp only [addBoundsU, List.foldlM_cons, addBoundU, BArr.vstack, Tab.vstack] at ih ⊢
    by_cases hw : b.values.length = t.cols
    · simp only [hw, if_true, py_bind_ok, py_pure, ih]
      simp [hw]
    · simp [hw]

theorem addBoundsU_none_two (a b : BoundU) (bs : List BoundU) (h : Option BoundTab) :
    addBoundsU none (a :: b :: bs) = .ok h ↔ (∀ k ∈ b :: bs, k.values.length = a.values.length) ∧
      h = some ⟨(a :: b :: bs).map (·.node), .d2 ⟨a.values.length, (a :: b :: bs).map (·.values)⟩⟩ := by
  by_cases hw : b.values.length = a.values.length
  · have := addBoundsU_d2 bs [a.node, b.node] ⟨a.values.length, [a.values, b.values]⟩ h
    simpa [addBoundsU, addBoundU, BArr.vstack, hw] using this
  · simp [addBoundsU, addBoundU, BArr.vstack, hw]

theorem addBoundsU_none_one (a : BoundU) :
    addBoundsU none [a] = .ok (some ⟨[a.node], .d1 a.values⟩) := rfl

theorem addBoundsU_nodes {bs : List BoundU} {t : BoundTab} (h : addBoundsU none bs = .ok (some t)) :
    t.nodes = bs.map (·.node) := by
  match bs, h with
  | [], h => simp [addBoundsU] at h
  | [a], h => rw [addBoundsU_none_one] at h; cases h; rfl
  | a :: b :: bs, h =>
    rw [addBoundsU_none_two] at h
    obtain ⟨_, h2⟩ := h
    cases h2
    rfl

theorem addBoundsU_none_iff {bs : List BoundU} {h : Option BoundTab} (hb : addBoundsU none bs = .ok h) :
    h.map (·.nodes) = if bs = [] then none else some (bs.map (·.node)) := by
  cases h with
  | none =>
    match bs, hb with
    | [], hb => rfl
    | [a], hb => rw [addBoundsU_none_one] at hb; cases hb
    | a :: b :: bs, hb => rw [addBoundsU_none_two] at hb; simp at hb
  | some t =>
    have := addBoundsU_nodes hb
    rw [if_neg]
    · simp [this]
    · rintro rfl
      simp [addBoundsU] at hb

theorem missing_bounds {bs : List BoundU} {h : Option BoundTab} (hb : addBoundsU none bs = .ok h)
    (nl : List Int) : missing nl (h.map (·.nodes)) = nl.filter fun n => !(bs.map (·.node)).contains n := by
  rw [addBoundsU_none_iff hb]
  split
  · next h => subst h; simp [missing]
  · rfl

theorem addBoundsU_append {bs : List BoundU} {h : Option BoundTab} (hb : addBoundsU none bs = .ok h)
    (bs' : List BoundU) : addBoundsU h bs' = addBoundsU none (bs ++ bs') := by
  unfold addBoundsU at *
  rw [List.foldlM_append, hb]
  rfl

theorem addForces_append {fs : List (ExtForce F)} {h : Option (ForceTab F)}
    (hb : addForces none fs = .ok h) (fs' : List (ExtForce F)) :
    addForces h fs' = addForces none (fs ++ fs') := by
  unfold addForces at *
  rw [List.foldlM_append, hb]
  rfl

/-! ### Filling and sorting -/

/-- Supports completed by free rows for the nodes without support. -/
def fillB (nl : List Int) (bs : List BoundU) : List BoundU :=
  bs ++ (nl.filter fun n => !(bs.map (·.node)).contains n).map fun n => ⟨n, [1, 1, 1]⟩

/-- Loads completed by zero rows. -/
def fillF [Zero F] (nl : List Int) (fs : List (ExtForce F)) : List (ExtForce F) :=
  fs ++ (nl.filter fun n => !(fs.map (·.node)).contains n).map
    fun n => ⟨n, List.replicate (loadWidth fs) 0⟩

theorem subset_fillB (nl : List Int) (bs : List BoundU) : nl ⊆ (fillB nl bs).map (·.node) := by
  intro n hn
  simp only [fillB, List.map_append, List.map_map, List.mem_append]
  by_cases h : n ∈ bs.map (·.node)
  · exact Or.inl h
  · right
    simp only [List.mem_map, List.mem_filter, Function.comp_apply]
    exact ⟨n, ⟨hn, by simpa using h⟩, rfl⟩

theorem subset_fillF [Zero F] (nl : List Int) (fs : List (ExtForce F)) :
    nl ⊆ (fillF nl fs).map (·.node) := by
  intro n hn
  simp only [fillF, List.map_append, List.map_map, List.mem_append]
  by_cases h : n ∈ fs.map (·.node)
  · exact Or.inl h
  · right
    simp only [List.mem_map, List.mem_filter, Function.comp_apply]
    exact ⟨n, ⟨hn, by simpa using h⟩, rfl⟩

theorem fixBoundsU_eq {argsort : List Int → List Nat} {nl : List Int} {bs : List BoundU}
    {h : Option BoundTab} (hb : addBoundsU none bs = .ok h) :
    fixBoundsU argsort nl h = (addBoundsU none (fillB nl bs) >>= fun h => match h with
      | none => .error .valueError
      | some t => do
        let nodes ← npTake t.nodes (argsort t.nodes)
        let values ← t.values.take (argsort t.nodes)
        return ⟨nodes, values⟩) := by
  unfold fixBoundsU
  rw [missing_bounds hb, addBoundsU_append hb]
  rfl

/-- `fix_bounds_U` with at least two nodes. -/
theorem fixBoundsU_ok {argsort : List Int → List Nat} (has : IsArgsort argsort) {nl : List Int}
    (h2 : 2 ≤ nl.length) (hnd : nl.Nodup) {bs : List BoundU} {h : Option BoundTab}
    (hb : addBoundsU none bs = .ok h) {bt : BoundTab}
    (hf : fixBoundsU argsort nl h = .ok bt) :
    ∃ w rs, bt.values = .d2 ⟨w, rs⟩ ∧ bt.nodes.length = rs.length ∧
      (bt.nodes.zip rs).Perm ((fillB nl bs).map fun b => (b.node, b.values)) ∧
      bt.nodes.Perm ((fillB nl bs).map (·.node)) ∧ bt.nodes.Pairwise (· ≤ ·) ∧
      (∀ b ∈ fillB nl bs, b.values.length = w) := by
  rw [fixBoundsU_eq hb] at hf
  obtain ⟨o, h1, h3⟩ := py_bind_eq_ok.1 hf
  have hlen : 2 ≤ ((fillB nl bs).map (·.node)).length :=
    le_trans h2 (List.Subperm.length_le (List.subperm_of_subset hnd (subset_fillB nl bs)))
  rw [List.length_map] at hlen
  match hall : fillB nl bs, hlen with
  | a :: b :: rest, _ =>
    rw [hall, addBoundsU_none_two] at h1
    obtain ⟨hw, rfl⟩ := h1
    simp only [BArr.take, Tab.take] at h3
    obtain ⟨ls, rs, e1, e2, e3, e4, e5, e6⟩ := argsort_take_rows has
      ((a :: b :: rest).map (·.node)) ((a :: b :: rest).map (·.values)) (by simp)
    rw [e1, e2] at h3
    simp only [py_bind_ok, py_pure] at h3
    cases h3
    refine ⟨_, _, rfl, e3, ?_, e5, e6, ?_⟩
    · rwa [List.zip_map'] at e4
    · intro k hk
      rcases List.mem_cons.1 hk with rfl | hk
      · rfl
      · exact hw k hk

theorem fixForces_ok [Zero F] {argsort : List Int → List Nat} (has : IsArgsort argsort) {nl : List Int}
    {fs : List (ExtForce F)} {h : Option (ForceTab F)}
    (hb : addForces none fs = .ok h) {ft : ForceTab F}
    (hf : fixForces argsort nl h = .ok ft) :
    ft.forces.cols = loadWidth fs ∧ ft.nodes.length = ft.forces.rows.length ∧
      (ft.nodes.zip ft.forces.rows).Perm ((fillF nl fs).map fun b => (b.node, b.force)) ∧
      ft.nodes.Perm ((fillF nl fs).map (·.node)) ∧ ft.nodes.Pairwise (· ≤ ·) ∧
      (∀ b ∈ fillF nl fs, b.force.length = loadWidth fs) ∧ fs ≠ [] := by
  cases h with
  | none => simp [fixForces] at hf
  | some t =>
    obtain ⟨t1, t2, t3, t4⟩ := addForces_tab hb
    simp only [fixForces, t3, missing, t1] at hf
    rw [addForces_append hb] at hf
    obtain ⟨o, h1, h3⟩ := py_bind_eq_ok.1 hf
    change addForces none (fillF nl fs) = _ at h1
    cases o with
    | none => cases h3
    | some t' =>
      obtain ⟨u1, u2, u3, u4⟩ := addForces_tab h1
      obtain ⟨ls, rs, e1, e2, e3, e4, e5, e6⟩ := argsort_take_rows has t'.nodes t'.forces.rows
        (by rw [u1, u2]; simp)
      simp only [Tab.take, e1, e2, py_bind_ok, py_pure] at h3
      cases h3
      have hne : fs ≠ [] := by
        rintro rfl
        simp [addForces] at hb
      have hw : loadWidth (fillF nl fs) = loadWidth fs := by
        cases fs with
        | nil => exact absurd rfl hne
        | cons f fs => rfl
      refine ⟨?_, e3, ?_, ?_, e6, ?_, hne⟩
      · simp only [u3, hw]
      · rw [u1, u2, List.zip_map'] at e4
        exact e4
      · rwa [u1] at e5
      · intro b hb'
        rw [u4 b hb', u3, hw]

theorem fixNodes_ok {argsort : List Int → List Nat} (has : IsArgsort argsort) {ns : List (Node F)}
    {t t' : NodeTab F} (h : addNodes none ns = .ok (some t)) (hf : fixNodes argsort t = .ok t') :
    t'.coords.cols = t.coords.cols ∧ t'.labels.length = t'.coords.rows.length ∧
      (t'.labels.zip t'.coords.rows).Perm (ns.map fun n => (n.label, n.coord)) ∧
      t'.labels.Perm (ns.map (·.label)) ∧ t'.labels.Pairwise (· ≤ ·) := by
  obtain ⟨t1, t2, _⟩ := addNodes_tab h
  obtain ⟨ls, rs, e1, e2, e3, e4, e5, e6⟩ := argsort_take_rows has t.labels t.coords.rows
    (by rw [t1, t2]; simp)
  simp only [fixNodes, Tab.take, e1, e2, py_bind_ok, py_pure] at hf
  cases hf
  refine ⟨rfl, e3, ?_, by rwa [t1] at e5, e6⟩
  rw [t1, t2, List.zip_map'] at e4
  exact e4

theorem fixNodes_isOk {argsort : List Int → List Nat} (has : IsArgsort argsort) {ns : List (Node F)}
    {t : NodeTab F} (h : addNodes none ns = .ok (some t)) : ∃ t', fixNodes argsort t = .ok t' := by
  obtain ⟨t1, t2, _⟩ := addNodes_tab h
  obtain ⟨ls, rs, e1, e2, e3, e4, e5, e6⟩ := argsort_take_rows has t.labels t.coords.rows
    (by rw [t1, t2]; simp)
  simp [fixNodes, Tab.take, e1, e2]

/-! ### `np.allclose` on label lists -/

theorem allclose_length {a b : List Int} {r : Bool} (ha : 2 ≤ a.length) (hb : 2 ≤ b.length)
    (h : npAllclose a b = .ok r) : a.length = b.length := by
  unfold npAllclose at h
  split at h
  · assumption
  · split at h
    · simp at ha
    · simp at hb
    · cases h

theorem closeInt_self (a : Int) : closeInt a a = true := by
  simp only [closeInt, closeInt.iabs, sub_self, Int.natAbs_zero]
  apply decide_eq_true
  have : (0 : Int) ≤ a.natAbs := by omega
  omega

theorem allclose_self (a : List Int) : npAllclose a a = .ok true := by
  unfold npAllclose
  rw [if_pos rfl]
  congr 1
  rw [List.all_eq_true]
  rintro ⟨x, y⟩ h
  have : x = y := by
    rw [List.zip_eq_zipWith, List.zipWith_self] at h
    simp at h
    omega
  subst this
  exact closeInt_self x

/-- A completed label list of the same length as the node list is a permutation of it. -/
theorem perm_of_fill {nl all : List Int} (hnd : nl.Nodup) (hsub : nl ⊆ all)
    (hlen : nl.length = all.length) : nl.Perm all :=
  (List.subperm_of_subset hnd hsub).perm_of_length_le hlen.symm.le

/-! ### `Model.build` -/

/-- What a successful `build` did. -/
structure BuildSteps [Zero F] (argsort : List Int → List Nat) (m m' : Model F) where
  nt0 : NodeTab F
  et : ElemTab F
  nt : NodeTab F
  bt : BoundTab
  ft : ForceTab F
  dof0 : List Nat
  dof1 : List Nat
  hn : m.nodes = some nt0
  he : m.elems = some et
  hdim : m.settings.ndim = 3
  hfn : fixNodes argsort nt0 = .ok nt
  hfb : fixBoundsU argsort nt.labels m.bounds = .ok bt
  hff : fixForces argsort nt.labels m.forces = .ok ft
  hcb : npAllclose nt.labels bt.nodes = .ok true
  hcf : npAllclose nt.labels ft.nodes = .ok true
  hd0 : dofWhere (nt0.labels.length * 3) bt.values.flatten 0 = .ok dof0
  hd1 : dofWhere (nt0.labels.length * 3) bt.values.flatten 1 = .ok dof1
  hm' : m' = { m with
    nodes := some nt
    bounds := some bt
    forces := some ft
    settings := { m.settings with nstatev := if et.mtype.contains 2 then 2 else m.settings.nstatev }
    dims := some ⟨nt0.labels.length, et.labels.length, nt0.labels.length * 3, dof0, dof1⟩
    analysis := some (Analysis.fresh nt0.labels.length et.labels.length dof0 dof1
      (if et.mtype.contains 2 then 2 else m.settings.nstatev))
    results := some ⟨addIncrement (Analysis.fresh nt0.labels.length et.labels.length dof0 dof1
      (if et.mtype.contains 2 then 2 else m.settings.nstatev)) ft.forces.rows.flatten [], []⟩ }

theorem build_steps [Zero F] {argsort : List Int → List Nat} {m m' : Model F} (h : m.build argsort = .ok m') :
    Nonempty (BuildSteps argsort m m') := by
  unfold Model.build at h
  split at h
  swap
  · cases h
  next nt0 hn =>
  split at h
  swap
  · cases h
  next et he =>
  split at h
  · cases h
  next hdim =>
  obtain ⟨nt, hfn, h⟩ := py_bind_eq_ok.1 h
  obtain ⟨bt, hfb, h⟩ := py_bind_eq_ok.1 h
  obtain ⟨ft, hff, h⟩ := py_bind_eq_ok.1 h
  obtain ⟨okB, hcb, h⟩ := py_bind_eq_ok.1 h
  cases okB with
  | false => simp at h
  | true =>
  simp only [if_true] at h
  obtain ⟨okF, hcf, h⟩ := py_bind_eq_ok.1 h
  cases okF with
  | false => simp at h
  | true =>
  simp only [Bool.and_self, Bool.not_true, Bool.false_eq_true, if_false] at h
  obtain ⟨dof0, hd0, h⟩ := py_bind_eq_ok.1 h
  obtain ⟨dof1, hd1, h⟩ := py_bind_eq_ok.1 h
  simp only [Analysis.build, py_bind_ok, py_pure] at h
  cases h
  exact ⟨⟨nt0, et, nt, bt, ft, dof0, dof1, hn, he, not_not.1 hdim, hfn, hfb, hff, hcb, hcf, hd0, hd1, rfl⟩⟩

theorem build_of_steps [Zero F] {argsort : List Int → List Nat} {m m' : Model F} (s : BuildSteps argsort m m') :
    m.build argsort = .ok m' := by
  obtain ⟨nt0, et, nt, bt, ft, dof0, dof1, hn, he, hdim, hfn, hfb, hff, hcb, hcf, hd0, hd1, hm'⟩ := s
  subst hm'
  simp [Model.build, hn, he, hdim, hfn, hfb, hff, hcb, hcf, hd0, hd1, Analysis.build]

end TrussPy
