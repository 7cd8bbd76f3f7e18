import Verif.Lemmas.Edit
import Verif.Props.Input
/-!
# C95: changing a model after it was built

`build` writes every default back into the tables, so a built model has a support row and a load row for
every node.  What does it mean to change nodes, supports or loads of such a model and to build again?
The carrier `F` is arbitrary and `as`, `as'` are any sorting permutations.
-/

set_option linter.unusedSectionVars false

namespace TrussPy

variable {F : Type} [Zero F]

/-- The calls `e` on the handlers of `m` raise nothing and lead to `m2`; everything else is left alone. -/
structure Edited (e : Edits F) (m m2 : Model F) : Prop where
  nodes : nodeOps m.nodes e.nodes = .ok m2.nodes
  bounds : boundOps m.bounds e.bounds = .ok m2.bounds
  forces : forceOps m.forces e.forces = .ok m2.forces
  elems : m2.elems = m.elems
  settings : m2.settings = m.settings

private theorem consistent_of {u : UserInput F} (h : NoStray u) : Consistent u := by
  refine ⟨h.bnd, fun x hx => ?_, h.fnd, fun x hx => ?_⟩
  · obtain ⟨b, hb, rfl⟩ := List.mem_map.1 hx
    obtain ⟨n, hn, e⟩ := h.bsub b hb
    exact List.mem_map.2 ⟨n, hn, e⟩
  · obtain ⟨b, hb, rfl⟩ := List.mem_map.1 hx
    obtain ⟨n, hn, e⟩ := h.fsub b hb
    exact List.mem_map.2 ⟨n, hn, e⟩

/-- **C95** (same meaning) Two models filled with inputs that describe the same nodes, supports and loads
(in whatever order, with defaults written out or left to `build`), with the same elements and settings,
build to equal models. -/
theorem C95_same_meaning {as as' : List Int → List Nat} (has : IsArgsort as) (has' : IsArgsort as')
    {u v : UserInput F} {m m' m1 : Model F} (hu : Entered u m) (hv : Entered v m') (hm : SameMeaning u v)
    (hs : NoStray v) (hf : v.forces ≠ []) (hel : m'.elems = m.elems) (hset : m'.settings = m.settings)
    (hnd : (u.nodes.map (·.label)).Nodup) (hlen : 2 ≤ u.nodes.length) (hb : m.build as = .ok m1) :
    m'.build as' = .ok m1 :=
  build_same has has' hu hv hm (consistent_of hs) hf hel.symm (fun et _ => by rw [hset]) hnd hlen hb

/-- **C95** (an edited model is a model entered anew) After a successful `build`, any sequence of
add and delete calls leads to a model that builds - or fails to build - exactly as a fresh model filled
with the completed and edited input. -/
theorem C95_edited_as_entered {as as' : List Int → List Nat} (has : IsArgsort as)
    {u : UserInput F} {m m1 m2 : Model F} (hu : Entered u m) (hnd : (u.nodes.map (·.label)).Nodup)
    (hlen : 2 ≤ u.nodes.length) (hw : ∀ b ∈ u.bounds, b.values.length = 3) (hb : m.build as = .ok m1)
    {e : Edits F} (hE : Edited e m1 m2) (hnd' : ((u.complete.edited e).nodes.map (·.label)).Nodup)
    (hlen' : 2 ≤ (u.complete.edited e).nodes.length) (hf : (u.complete.edited e).forces ≠ [])
    (has' : IsArgsort as') :
    ∃ v m', v.nodes.Perm (u.complete.edited e).nodes ∧ v.bounds.Perm (u.complete.edited e).bounds ∧
      v.forces.Perm (u.complete.edited e).forces ∧ Entered v m' ∧ (∀ b ∈ v.bounds, b.values.length = 3) ∧
      m'.elems = m.elems ∧ m'.settings = m.settings ∧ m2.build as' = m'.build as' := by
  obtain ⟨L, wn, wb, wf, l1, l2, t1, t2, t3, t4, t5, t6, t7, t8, t9⟩ := built_complete has hu hnd hlen hb
  obtain ⟨p1, p2, p3⟩ := sortedInput_perm hnd l1
  have hwb : wb = 3 := by
    obtain ⟨n, hn⟩ := List.exists_mem_of_length_pos (l := u.nodes) (by omega)
    have := t5 ⟨n.label, supportOf u.bounds n.label⟩ (List.mem_map.2
      ⟨n.label, l1.mem_iff.2 (List.mem_map.2 ⟨n, hn, rfl⟩), rfl⟩)
    rw [← this]
    unfold supportOf
    split
    · next b hb => exact hw b (List.mem_of_find?_eq_some hb)
    · rfl
  subst hwb
  have q1 : ((sortedInput L u).edited e).nodes.Perm (u.complete.edited e).nodes := stored_perm _ _ p1
  have q2 : ((sortedInput L u).edited e).bounds.Perm (u.complete.edited e).bounds := stored_perm _ _ p2
  have q3 : ((sortedInput L u).edited e).forces.Perm (u.complete.edited e).forces := stored_perm _ _ p3
  obtain ⟨m', k1, k2, k3, k4, k5⟩ := edited_entered (m := m) has' t1 t2 t3 t4 t5 t6 hE.nodes hE.bounds hE.forces
    (hE.elems.trans t8) (fun et het => by rw [hE.settings, t9 et het, withState_idem])
    ((q1.map (·.label)).nodup_iff.2 hnd') (by rw [q1.length_eq]; exact hlen') (fun h0 => by
      rw [h0] at q3
      exact hf (List.nil_perm.1 q3))
  exact ⟨_, m', q1, q2, q3, k1, k2, k3, k4, k5⟩

private theorem supportOf_perm' {a b : List BoundU} (hp : a.Perm b) (hnd : (a.map (·.node)).Nodup) (l : Int) :
    supportOf a l = supportOf b l := by
  have hnd' : (b.map (·.node)).Nodup := (hp.map _).nodup_iff.1 hnd
  by_cases h : l ∈ a.map (·.node)
  · obtain ⟨n, hn, rfl⟩ := List.mem_map.1 h
    rw [supportOf_mem hnd hn, supportOf_mem hnd' (hp.mem_iff.1 hn)]
  · rw [supportOf_not_mem h, supportOf_not_mem fun hc => h ((hp.map _).mem_iff.2 hc)]

private theorem loadOf_perm' {a b : List (ExtForce F)} (hp : a.Perm b) (hnd : (a.map (·.node)).Nodup)
    (hw : loadWidth a = loadWidth b) (l : Int) : loadOf a l = loadOf b l := by
  have hnd' : (b.map (·.node)).Nodup := (hp.map _).nodup_iff.1 hnd
  by_cases h : l ∈ a.map (·.node)
  · obtain ⟨n, hn, rfl⟩ := List.mem_map.1 h
    rw [loadOf_mem hnd hn, loadOf_mem hnd' (hp.mem_iff.1 hn)]
  · rw [loadOf_not_mem h, loadOf_not_mem fun hc => h ((hp.map _).mem_iff.2 hc), hw]

private theorem width_perm {a b : List (ExtForce F)} (hp : a.Perm b) {t : Option (ForceTab F)}
    (ha : addForces none a = .ok t) : loadWidth a = loadWidth b := by
  cases t with
  | none =>
    cases a with
    | nil => rw [List.nil_perm.1 hp]
    | cons x xs => rw [addForces_none] at ha; simp at ha
  | some t =>
    obtain ⟨_, _, a3, a4⟩ := addForces_tab ha
    cases b with
    | nil => rw [List.perm_nil.1 hp]
    | cons x xs =>
      have := a4 x (hp.mem_iff.2 (by simp))
      rw [← a3, ← this]
      rfl

/-- A model entered with a reordering of `w` builds, and to the same model as any other way of entering `w`. -/
theorem reordered_builds {as' as'' : List Int → List Nat} (has' : IsArgsort as') (has'' : IsArgsort as'')
    {w v : UserInput F} {m mv : Model F} (q1 : v.nodes.Perm w.nodes) (q2 : v.bounds.Perm w.bounds)
    (q3 : v.forces.Perm w.forces) (q4 : Entered v mv) (q5 : ∀ b ∈ v.bounds, b.values.length = 3)
    (q6 : mv.elems = m.elems) (q7 : mv.settings = m.settings) (hel : m.elems ≠ none) (hdim : m.settings.ndim = 3)
    (hnd : (w.nodes.map (·.label)).Nodup) (hlen : 2 ≤ w.nodes.length) (hf : w.forces ≠ []) (hns : NoStray w) :
    ∃ m3, mv.build as' = .ok m3 ∧
      ∀ {v' : UserInput F} {m' : Model F}, Entered v' m' → SameMeaning w v' → NoStray v' →
        v'.forces ≠ [] → m'.elems = m.elems → m'.settings = m.settings → m'.build as'' = .ok m3 := by
  have hndv := (q1.map (·.label)).nodup_iff.2 hnd
  have hlenv : 2 ≤ v.nodes.length := by rw [q1.length_eq]; exact hlen
  have hvf : v.forces ≠ [] := by
    intro h0
    rw [h0] at q3
    exact hf (List.nil_perm.1 q3)
  have hbn := (q2.map (·.node)).nodup_iff.2 hns.bnd
  have hfn := (q3.map (·.node)).nodup_iff.2 hns.fnd
  obtain ⟨m3, hm3⟩ := (C05_build_succeeds_iff has' q4 hndv hlenv q5).2 (by
    refine ⟨by rw [q6]; exact hel, by rw [q7]; exact hdim, hvf, hbn, ?_, hfn, ?_⟩
    · intro b hb
      obtain ⟨n, hn, e⟩ := hns.bsub b (q2.mem_iff.1 hb)
      exact ⟨n, q1.mem_iff.2 hn, e⟩
    · intro b hb
      obtain ⟨n, hn, e⟩ := hns.fsub b (q3.mem_iff.1 hb)
      exact ⟨n, q1.mem_iff.2 hn, e⟩)
  refine ⟨m3, hm3, ?_⟩
  intro v' m' hv' hsm hns' hf' hel' hset'
  refine C95_same_meaning has' has'' q4 hv' ⟨q1.trans hsm.nodes, ?_, ?_⟩ hns' hf' (hel'.trans q6.symm)
    (hset'.trans q7.symm) hndv hlenv hm3
  · intro n hn
    rw [supportOf_perm' q2 hbn]
    exact hsm.supports n (q1.mem_iff.1 hn)
  · intro n hn
    rw [loadOf_perm' q3 hfn (width_perm q3 q4.2.2)]
    exact hsm.loads n (q1.mem_iff.1 hn)

/-- **C95** (edit and rebuild) If the edited input has no second and no orphaned support or load row, then
the edited model builds, and to the very model that is obtained by entering the edited structure from
scratch. -/
theorem C95_edit_and_rebuild {as as' as'' : List Int → List Nat} (has : IsArgsort as) (has' : IsArgsort as')
    (has'' : IsArgsort as'')
    {u : UserInput F} {m m1 m2 : Model F} (hu : Entered u m) (hnd : (u.nodes.map (·.label)).Nodup)
    (hlen : 2 ≤ u.nodes.length) (hw : ∀ b ∈ u.bounds, b.values.length = 3) (hb : m.build as = .ok m1)
    {e : Edits F} (hE : Edited e m1 m2) (hnd' : ((u.complete.edited e).nodes.map (·.label)).Nodup)
    (hlen' : 2 ≤ (u.complete.edited e).nodes.length) (hf : (u.complete.edited e).forces ≠ [])
    (hns : NoStray (u.complete.edited e)) :
    ∃ m3, m2.build as' = .ok m3 ∧
      ∀ {v : UserInput F} {m' : Model F}, Entered v m' → SameMeaning (u.complete.edited e) v → NoStray v →
        v.forces ≠ [] → m'.elems = m.elems → m'.settings = m.settings → m'.build as'' = .ok m3 := by
  obtain ⟨v, mv, q1, q2, q3, q4, q5, q6, q7, q8⟩ := C95_edited_as_entered has hu hnd hlen hw hb hE hnd' hlen' hf has'
  have hbe := (C05_build_succeeds_iff has hu hnd hlen hw).1 ⟨m1, hb⟩
  rw [q8]
  exact reordered_builds has' has'' q1 q2 q3 q4 q5 q6 q7 hbe.1 hbe.2.1 hnd' hlen' hf hns

/-- **C95** (stray rows are refused) If the edited input has a second support or load row for a node, or one
for a node that is gone, the next `build` raises - whatever the edits were. -/
theorem C95_stray_rejected {as as' : List Int → List Nat} (has : IsArgsort as) (has' : IsArgsort as')
    {u : UserInput F} {m m1 m2 : Model F} (hu : Entered u m) (hnd : (u.nodes.map (·.label)).Nodup)
    (hlen : 2 ≤ u.nodes.length) (hw : ∀ b ∈ u.bounds, b.values.length = 3) (hb : m.build as = .ok m1)
    {e : Edits F} (hE : Edited e m1 m2) (hnd' : ((u.complete.edited e).nodes.map (·.label)).Nodup)
    (hlen' : 2 ≤ (u.complete.edited e).nodes.length) (hf : (u.complete.edited e).forces ≠ [])
    (hns : ¬ NoStray (u.complete.edited e)) : ∀ m3, m2.build as' ≠ .ok m3 := by
  intro m3 hm3
  obtain ⟨v, mv, q1, q2, q3, q4, q5, q6, q7, q8⟩ := C95_edited_as_entered has hu hnd hlen hw hb hE hnd' hlen' hf has'
  have hndv := (q1.map (·.label)).nodup_iff.2 hnd'
  have hlenv : 2 ≤ v.nodes.length := by rw [q1.length_eq]; exact hlen'
  rw [q8] at hm3
  obtain ⟨_, _, _, r1, r2, r3, r4⟩ := (C05_build_succeeds_iff has' q4 hndv hlenv q5).1 ⟨m3, hm3⟩
  refine hns ⟨(q2.map (·.node)).nodup_iff.1 r1, ?_, (q3.map (·.node)).nodup_iff.1 r3, ?_⟩
  · intro b hb
    obtain ⟨n, hn, e⟩ := r2 b (q2.mem_iff.2 hb)
    exact ⟨n, q1.mem_iff.1 hn, e⟩
  · intro b hb
    obtain ⟨n, hn, e⟩ := r4 b (q3.mem_iff.2 hb)
    exact ⟨n, q1.mem_iff.1 hn, e⟩

/-! ### The usual edits -/

private theorem complete_b (u : UserInput F) : u.complete.bounds.map (·.node) = u.nodes.map (·.label) := by
  simp [UserInput.complete]

private theorem complete_f (u : UserInput F) : u.complete.forces.map (·.node) = u.nodes.map (·.label) := by
  simp [UserInput.complete]

private theorem complete_support {u : UserInput F} (hnd : (u.nodes.map (·.label)).Nodup) {n : Node F} (hn : n ∈ u.nodes) :
    supportOf u.complete.bounds n.label = supportOf u.bounds n.label := by
  have hm : (⟨n.label, supportOf u.bounds n.label⟩ : BoundU) ∈ u.complete.bounds := List.mem_map.2 ⟨n, hn, rfl⟩
  exact supportOf_mem (by rw [complete_b]; exact hnd) hm

private theorem complete_load {u : UserInput F} (hnd : (u.nodes.map (·.label)).Nodup) {n : Node F} (hn : n ∈ u.nodes) :
    loadOf u.complete.forces n.label = loadOf u.forces n.label := by
  have hm : (⟨n.label, loadOf u.forces n.label⟩ : ExtForce F) ∈ u.complete.forces := List.mem_map.2 ⟨n, hn, rfl⟩
  exact loadOf_mem (by rw [complete_f]; exact hnd) hm

private theorem map_filter_key {α : Type} (key : α → Int) (s : List α) (l : Int) :
    (s.filter fun a => key a ≠ l).map key = (s.map key).filter fun x => x ≠ l := by
  rw [List.filter_map]
  rfl

private theorem replaced_nodup {α : Type} (key : α → Int) {s : List α} {a : α} (h : (s.map key).Nodup) :
    ((s.filter (fun x => key x ≠ key a) ++ [a]).map key).Nodup := by
  rw [List.map_append, map_filter_key]
  refine List.nodup_append.2 ⟨h.filter _, by simp, ?_⟩
  intro x hx y hy
  rw [List.mem_filter] at hx
  simp only [List.map_cons, List.map_nil, List.mem_singleton] at hy
  rw [hy]
  simpa using hx.2

private theorem supportOf_replaced {s : List BoundU} {b : BoundU} (h : (s.map (·.node)).Nodup) (l : Int) :
    supportOf (s.filter (fun x => x.node ≠ b.node) ++ [b]) l = if l = b.node then b.values else supportOf s l := by
  have hnd := replaced_nodup (fun b : BoundU => b.node) (a := b) h
  split
  · next hl =>
    subst hl
    exact supportOf_mem hnd (by simp)
  · next hl =>
    by_cases hm : l ∈ s.map (·.node)
    · obtain ⟨x, hx, rfl⟩ := List.mem_map.1 hm
      rw [supportOf_mem h hx]
      exact supportOf_mem hnd (List.mem_append_left _ (List.mem_filter.2 ⟨hx, by simpa using hl⟩))
    · rw [supportOf_not_mem hm]
      refine supportOf_not_mem ?_
      intro hc
      obtain ⟨x, hx, e⟩ := List.mem_map.1 hc
      rcases List.mem_append.1 hx with hx | hx
      · exact hm (List.mem_map.2 ⟨x, (List.mem_filter.1 hx).1, e⟩)
      · rw [List.mem_singleton.1 hx] at e
        exact hl e.symm

private theorem loadOf_replaced {s : List (ExtForce F)} {b : ExtForce F} (h : (s.map (·.node)).Nodup)
    (hw : ∀ x ∈ s, x.force.length = loadWidth s) (hb : b.force.length = loadWidth s) (l : Int) :
    loadOf (s.filter (fun x => x.node ≠ b.node) ++ [b]) l = if l = b.node then b.force else loadOf s l := by
  have hnd := replaced_nodup (fun b : ExtForce F => b.node) (a := b) h
  split
  · next hl =>
    subst hl
    exact loadOf_mem hnd (by simp)
  · next hl =>
    by_cases hm : l ∈ s.map (·.node)
    · obtain ⟨x, hx, rfl⟩ := List.mem_map.1 hm
      rw [loadOf_mem h hx]
      exact loadOf_mem hnd (List.mem_append_left _ (List.mem_filter.2 ⟨hx, by simpa using hl⟩))
    · rw [loadOf_not_mem hm, loadOf_not_mem]
      · congr 1
        match hh : s.filter (fun x => decide (x.node ≠ b.node)) with
        | [] => rw [hh]; exact hb
        | a :: r =>
          have h0 : loadWidth (s.filter (fun x => decide (x.node ≠ b.node)) ++ [b]) = a.force.length := by rw [hh]; rfl
          rw [h0]
          have : a ∈ s.filter (fun x => decide (x.node ≠ b.node)) := by rw [hh]; simp
          exact hw a (List.mem_filter.1 this).1
      · intro hc
        obtain ⟨x, hx, e⟩ := List.mem_map.1 hc
        rcases List.mem_append.1 hx with hx | hx
        · exact hm (List.mem_map.2 ⟨x, (List.mem_filter.1 hx).1, e⟩)
        · rw [List.mem_singleton.1 hx] at e
          exact hl e.symm

/-- **C95** (changing a load) Delete the load of a node of a built model, add another one, build again: this
always works, and gives what entering the structure with the other load from the start gives. -/
theorem C95_change_load {as as' as'' : List Int → List Nat} (has : IsArgsort as) (has' : IsArgsort as')
    (has'' : IsArgsort as'') {u : UserInput F} {m m1 : Model F} (hu : Entered u m)
    (hnd : (u.nodes.map (·.label)).Nodup) (hlen : 2 ≤ u.nodes.length)
    (hw : ∀ b ∈ u.bounds, b.values.length = 3) (hb : m.build as = .ok m1)
    {f : ExtForce F} (hfn : ∃ n ∈ u.nodes, n.label = f.node) (hfw : f.force.length = loadWidth u.forces) :
    ∃ m2 m3, Edited { forces := [.del f.node, .add f] } m1 m2 ∧ m2.build as' = .ok m3 ∧
      ∀ {m' : Model F}, Entered ⟨u.nodes, u.bounds, u.forces.filter (fun x => x.node ≠ f.node) ++ [f]⟩ m' →
        m'.elems = m.elems → m'.settings = m.settings → m'.build as'' = .ok m3 := by
  obtain ⟨L, wn, wb, wf, l1, l2, t1, t2, t3, t4, t5, t6, t7, t8, t9⟩ := built_complete has hu hnd hlen hb
  obtain ⟨_, _, hne, r1, r2, r3, r4⟩ := (C05_build_succeeds_iff has hu hnd hlen hw).1 ⟨m1, hb⟩
  have hE : Edited { forces := [.del f.node, .add f] } m1
      { m1 with forces := some (tabF wf ((sortedInput L u).forces.filter (fun x => x.node ≠ f.node) ++ [f])) } := by
    refine ⟨rfl, rfl, ?_, rfl, rfl⟩
    rw [t3]
    simp only [forceOps, List.foldlM_cons, List.foldlM_nil, delForce_tab, py_bind_ok, addForce_tab, hfw, t7, if_true, py_pure]
  have hV : (u.complete.edited { forces := [.del f.node, .add f] }) =
    ⟨u.nodes, u.complete.bounds, u.complete.forces.filter (fun x => x.node ≠ f.node) ++ [f]⟩ := rfl
  obtain ⟨n0, hn0, hn0'⟩ := hfn
  have key : ∀ s : List (ExtForce F), (s.map (·.node)).Nodup → (∀ x ∈ s, ∃ n ∈ u.nodes, n.label = x.node) →
      ((s.filter (fun x => x.node ≠ f.node) ++ [f]).map (·.node)).Nodup ∧
      ∀ x ∈ s.filter (fun x => x.node ≠ f.node) ++ [f], ∃ n ∈ u.nodes, n.label = x.node := by
    intro s h1 h2
    refine ⟨replaced_nodup _ h1, fun x hx => ?_⟩
    rcases List.mem_append.1 hx with hx | hx
    · exact h2 x (List.mem_filter.1 hx).1
    · rw [List.mem_singleton.1 hx]; exact ⟨n0, hn0, hn0'⟩
  have kc := key u.complete.forces (by rw [complete_f]; exact hnd) (by
    intro x hx
    obtain ⟨n, hn, rfl⟩ := List.mem_map.1 hx
    exact ⟨n, hn, rfl⟩)
  have ku := key u.forces r3 r4
  have hns : NoStray (u.complete.edited { forces := [.del f.node, .add f] }) := by
    rw [hV]
    refine ⟨by rw [complete_b]; exact hnd, ?_, kc.1, kc.2⟩
    intro b hb
    obtain ⟨n, hn, rfl⟩ := List.mem_map.1 hb
    exact ⟨n, hn, rfl⟩
  obtain ⟨m3, h3, hall⟩ := C95_edit_and_rebuild has has' has'' hu hnd hlen hw hb hE hnd hlen (by rw [hV]; simp) hns
  refine ⟨_, m3, hE, h3, ?_⟩
  intro m' hm' hel hset
  have hwu : ∀ x ∈ u.forces, x.force.length = loadWidth u.forces := by
    cases hm : m.forces with
    | none =>
      have := hu.2.2
      rw [hm] at this
      match huf : u.forces, hne with
      | a :: r, _ => rw [huf, addForces_none] at this; simp at this
    | some t =>
      obtain ⟨_, _, a3, a4⟩ := addForces_tab (hu.2.2.trans (by rw [hm]))
      rw [← a3]; exact a4
  have hwc : ∀ x ∈ u.complete.forces, x.force.length = loadWidth u.forces := by
    intro x hx
    rw [← t7]
    exact t6 x ((sortedInput_perm hnd l1).2.2.mem_iff.2 hx)
  have hwc' : loadWidth u.complete.forces = loadWidth u.forces := by
    match hh : u.complete.forces with
    | [] =>
      have h0 := congrArg List.length hh
      simp only [UserInput.complete, List.length_map, List.length_nil] at h0
      omega
    | a :: r => exact hwc a (by rw [hh]; simp)
  refine hall hm' ⟨by rw [hV], ?_, ?_⟩ ⟨r1, r2, ku.1, ku.2⟩ (by simp) hel hset
  · intro n hn
    exact complete_support hnd hn
  · intro n hn
    rw [hV]
    show loadOf (u.complete.forces.filter (fun x => x.node ≠ f.node) ++ [f]) n.label =
      loadOf (u.forces.filter (fun x => x.node ≠ f.node) ++ [f]) n.label
    rw [loadOf_replaced (by rw [complete_f]; exact hnd) (by rw [hwc']; exact hwc) (by rw [hwc']; exact hfw),
      loadOf_replaced r3 hwu hfw, complete_load hnd hn]

/-- **C95** (changing a support) The same for a support. -/
theorem C95_change_support {as as' as'' : List Int → List Nat} (has : IsArgsort as) (has' : IsArgsort as')
    (has'' : IsArgsort as'') {u : UserInput F} {m m1 : Model F} (hu : Entered u m)
    (hnd : (u.nodes.map (·.label)).Nodup) (hlen : 2 ≤ u.nodes.length)
    (hw : ∀ b ∈ u.bounds, b.values.length = 3) (hb : m.build as = .ok m1)
    {b : BoundU} (hbn : ∃ n ∈ u.nodes, n.label = b.node) (hbw : b.values.length = 3) :
    ∃ m2 m3, Edited { bounds := [.del b.node, .add b] } m1 m2 ∧ m2.build as' = .ok m3 ∧
      ∀ {m' : Model F}, Entered ⟨u.nodes, u.bounds.filter (fun x => x.node ≠ b.node) ++ [b], u.forces⟩ m' →
        m'.elems = m.elems → m'.settings = m.settings → m'.build as'' = .ok m3 := by
  obtain ⟨L, wn, wb, wf, l1, l2, t1, t2, t3, t4, t5, t6, t7, t8, t9⟩ := built_complete has hu hnd hlen hb
  obtain ⟨_, _, hne, r1, r2, r3, r4⟩ := (C05_build_succeeds_iff has hu hnd hlen hw).1 ⟨m1, hb⟩
  obtain ⟨n0, hn0, hn0'⟩ := hbn
  have hwb : wb = 3 := by
    have := t5 ⟨n0.label, supportOf u.bounds n0.label⟩ (List.mem_map.2
      ⟨n0.label, l1.mem_iff.2 (List.mem_map.2 ⟨n0, hn0, rfl⟩), rfl⟩)
    rw [← this]
    unfold supportOf
    split
    · next b hb => exact hw b (List.mem_of_find?_eq_some hb)
    · rfl
  subst hwb
  have hE : Edited { bounds := [.del b.node, .add b] } m1
      { m1 with bounds := some (tabB 3 ((sortedInput L u).bounds.filter (fun x => x.node ≠ b.node) ++ [b])) } := by
    refine ⟨rfl, ?_, rfl, rfl, rfl⟩
    rw [t2]
    simp only [boundOps, List.foldlM_cons, List.foldlM_nil, delBoundU_tab, py_bind_ok, addBoundU_tab, hbw, if_true, py_pure]
  have hV : (u.complete.edited { bounds := [.del b.node, .add b] }) =
    ⟨u.nodes, u.complete.bounds.filter (fun x => x.node ≠ b.node) ++ [b], u.complete.forces⟩ := rfl
  have key : ∀ s : List BoundU, (s.map (·.node)).Nodup → (∀ x ∈ s, ∃ n ∈ u.nodes, n.label = x.node) →
      ((s.filter (fun x => x.node ≠ b.node) ++ [b]).map (·.node)).Nodup ∧
      ∀ x ∈ s.filter (fun x => x.node ≠ b.node) ++ [b], ∃ n ∈ u.nodes, n.label = x.node := by
    intro s h1 h2
    refine ⟨replaced_nodup _ h1, fun x hx => ?_⟩
    rcases List.mem_append.1 hx with hx | hx
    · exact h2 x (List.mem_filter.1 hx).1
    · rw [List.mem_singleton.1 hx]; exact ⟨n0, hn0, hn0'⟩
  have kc := key u.complete.bounds (by rw [complete_b]; exact hnd) (by
    intro x hx
    obtain ⟨n, hn, rfl⟩ := List.mem_map.1 hx
    exact ⟨n, hn, rfl⟩)
  have ku := key u.bounds r1 r2
  have hns : NoStray (u.complete.edited { bounds := [.del b.node, .add b] }) := by
    rw [hV]
    refine ⟨kc.1, kc.2, by rw [complete_f]; exact hnd, ?_⟩
    intro b hb
    obtain ⟨n, hn, rfl⟩ := List.mem_map.1 hb
    exact ⟨n, hn, rfl⟩
  obtain ⟨m3, h3, hall⟩ := C95_edit_and_rebuild has has' has'' hu hnd hlen hw hb hE hnd hlen (by
    rw [hV]
    intro h0
    have h0 := congrArg List.length h0
    simp only [UserInput.complete, List.length_map, List.length_nil] at h0
    omega) hns
  refine ⟨_, m3, hE, h3, ?_⟩
  intro m' hm' hel hset
  refine hall hm' ⟨by rw [hV], ?_, ?_⟩ ⟨ku.1, ku.2, r3, r4⟩ hne hel hset
  · intro n hn
    rw [hV]
    show supportOf (u.complete.bounds.filter (fun x => x.node ≠ b.node) ++ [b]) n.label =
      supportOf (u.bounds.filter (fun x => x.node ≠ b.node) ++ [b]) n.label
    rw [supportOf_replaced (by rw [complete_b]; exact hnd), supportOf_replaced r1, complete_support hnd hn]
  · intro n hn
    exact complete_load hnd hn

/-- **C95** (a second support) Adding a support for a node of a built model without deleting the old row
makes the next `build` raise - even if the user had never entered a support for that node. -/
theorem C95_second_support_rejected {as as' : List Int → List Nat} (has : IsArgsort as) (has' : IsArgsort as')
    {u : UserInput F} {m m1 m2 : Model F} (hu : Entered u m) (hnd : (u.nodes.map (·.label)).Nodup)
    (hlen : 2 ≤ u.nodes.length) (hw : ∀ b ∈ u.bounds, b.values.length = 3) (hb : m.build as = .ok m1)
    {b : BoundU} (hbn : ∃ n ∈ u.nodes, n.label = b.node) (hE : Edited { bounds := [.add b] } m1 m2) :
    ∀ m3, m2.build as' ≠ .ok m3 := by
  refine C95_stray_rejected has has' hu hnd hlen hw hb hE hnd hlen ?_ ?_
  · intro h0
    have h0 := congrArg List.length h0
    simp only [UserInput.edited, stored, UserInput.complete, List.length_map, List.length_nil] at h0
    omega
  · intro h
    have h1 := h.bnd
    obtain ⟨n, hn, e⟩ := hbn
    rw [show (u.complete.edited { bounds := [.add b] }).bounds = u.complete.bounds ++ [b] from rfl, List.map_append,
      complete_b] at h1
    exact (List.nodup_append.1 h1).2.2 n.label (List.mem_map.2 ⟨n, hn, rfl⟩) b.node (by simp) e

/-- **C95** (a second load) The same for a load, although the user may never have loaded that node. -/
theorem C95_second_load_rejected {as as' : List Int → List Nat} (has : IsArgsort as) (has' : IsArgsort as')
    {u : UserInput F} {m m1 m2 : Model F} (hu : Entered u m) (hnd : (u.nodes.map (·.label)).Nodup)
    (hlen : 2 ≤ u.nodes.length) (hw : ∀ b ∈ u.bounds, b.values.length = 3) (hb : m.build as = .ok m1)
    {f : ExtForce F} (hfn : ∃ n ∈ u.nodes, n.label = f.node) (hE : Edited { forces := [.add f] } m1 m2) :
    ∀ m3, m2.build as' ≠ .ok m3 := by
  refine C95_stray_rejected has has' hu hnd hlen hw hb hE hnd hlen ?_ ?_
  · intro h0
    have h0 := congrArg List.length h0
    simp [UserInput.edited, stored, UserInput.complete] at h0
  · intro h
    have h1 := h.fnd
    obtain ⟨n, hn, e⟩ := hfn
    rw [show (u.complete.edited { forces := [.add f] }).forces = u.complete.forces ++ [f] from rfl, List.map_append,
      complete_f] at h1
    exact (List.nodup_append.1 h1).2.2 n.label (List.mem_map.2 ⟨n, hn, rfl⟩) f.node (by simp) e

/-- **C95** (a deleted node) Deleting a node of a built model without deleting its support and load rows makes
the next `build` raise (if two nodes are left) - even if the user had never entered such a row. -/
theorem C95_deleted_node_rejected {as as' : List Int → List Nat} (has : IsArgsort as) (has' : IsArgsort as')
    {u : UserInput F} {m m1 m2 : Model F} (hu : Entered u m) (hnd : (u.nodes.map (·.label)).Nodup)
    (hlen : 3 ≤ u.nodes.length) (hw : ∀ b ∈ u.bounds, b.values.length = 3) (hb : m.build as = .ok m1)
    {n : Node F} (hn : n ∈ u.nodes) (hE : Edited { nodes := [.del n.label] } m1 m2) :
    ∀ m3, m2.build as' ≠ .ok m3 := by
  have hV : (u.complete.edited { nodes := [.del n.label] }).nodes = u.nodes.filter fun a => a.label ≠ n.label := rfl
  have hk : (u.nodes.filter fun a => a.label ≠ n.label).map (·.label) = (u.nodes.map (·.label)).erase n.label := by
    rw [map_filter_key (fun a : Node F => a.label), hnd.erase_eq_filter]
    refine List.filter_congr fun x _ => ?_
    by_cases hx : x = n.label <;> simp [hx]
  refine C95_stray_rejected has has' hu hnd (by omega) hw hb hE (by rw [hV, hk]; exact hnd.erase _) ?_ ?_ ?_
  · have h0 := congrArg List.length hk
    rw [List.length_map, List.length_erase_of_mem (List.mem_map.2 ⟨n, hn, rfl⟩), List.length_map] at h0
    rw [hV, h0]
    omega
  · intro h0
    have h0 := congrArg List.length h0
    simp only [UserInput.edited, stored, UserInput.complete, List.length_map, List.length_nil] at h0
    omega
  · intro h
    have hm : (⟨n.label, supportOf u.bounds n.label⟩ : BoundU) ∈ (u.complete.edited { nodes := [.del n.label] }).bounds :=
      List.mem_map.2 ⟨n, hn, rfl⟩
    obtain ⟨k, hk1, hk2⟩ := h.bsub _ hm
    rw [hV, List.mem_filter] at hk1
    simp only [ne_eq, decide_eq_true_eq] at hk1
    exact hk1.2 hk2

/-! ### Examples -/

/-- The tables of a model. -/
structure Tabs where
  nodes : List Int
  bounds : Option BoundTab
  loaded : List Int
  loads : List (List ℚ)
  deriving DecidableEq

def showTabs (m : Model ℚ) : Tabs :=
  ⟨(m.nodes.map (·.labels)).getD [], m.bounds, (m.forces.map (·.nodes)).getD [], (m.forces.map (·.forces.rows)).getD []⟩

/-- The tables of a model, if nothing was raised. -/
def showTabsR (r : Py (Model ℚ)) : Py Tabs := r.map showTabs

/-- Replace the load of the example, build again. -/
def exReload : Py (Model ℚ) := do
  let m1 ← exModel.build refArgsort
  let f ← forceOps m1.forces [.del 2, .add ⟨2, [1, 0, -2]⟩]
  Model.build refArgsort { m1 with forces := f }

/-- Enter the other load from the start. -/
def exReloaded : Model ℚ := { exModel with forces := some ⟨[2], ⟨3, [[1, 0, -2]]⟩⟩ }

example : showTabsR exReload = showTabsR (exReloaded.build refArgsort) := by decide +kernel

example : showTabsR exReload = .ok ⟨[1, 2, 3],
    some ⟨[1, 2, 3], .d2 ⟨3, [[0, 0, 0], [1, 1, 1], [0, 0, 0]]⟩⟩,
    [1, 2, 3], [[0, 0, 0], [1, 0, -2], [0, 0, 0]]⟩ := by decide +kernel

/-- The hypotheses of `C95_change_load` hold for the example. -/
example : ∃ m2 m3 m1 : Model ℚ, exModel.build refArgsort = .ok m1 ∧ Edited (F := ℚ) { forces := [.del 2, .add ⟨2, [1, 0, -2]⟩] } m1 m2 ∧
    m2.build refArgsort = .ok m3 ∧ exReloaded.build refArgsort = .ok m3 := by
  obtain ⟨m1, h1⟩ := exBuild_ok
  obtain ⟨m2, m3, a, b, c⟩ := C95_change_load refArgsort_isArgsort refArgsort_isArgsort refArgsort_isArgsort exEntered
    (by decide) (by decide) (by decide) h1 (f := ⟨2, [1, 0, -2]⟩) (by decide) (by decide)
  refine ⟨m2, m3, m1, h1, a, b, c ?_ rfl rfl⟩
  unfold Entered
  decide +kernel

/-- The example with a new node that is loaded, and no bar to it yet. -/
example : showTabsR (do
    let m1 ← exModel.build refArgsort
    let n ← nodeOps m1.nodes [.add ⟨0, [0, 0, 5]⟩]
    let f ← forceOps m1.forces [.add ⟨0, [0, 0, 7]⟩]
    Model.build refArgsort { m1 with nodes := n, forces := f }) = .ok ⟨[0, 1, 2, 3],
      some ⟨[0, 1, 2, 3], .d2 ⟨3, [[1, 1, 1], [0, 0, 0], [1, 1, 1], [0, 0, 0]]⟩⟩,
      [0, 1, 2, 3], [[0, 0, 7], [0, 0, 0], [0, 0, -1], [0, 0, 0]]⟩ := by decide +kernel

/-- Node 2 of the example had no support; adding one after `build` is refused, as is a load for node 1, as is
the deletion of node 2. -/
example : showTabsR (do
    let m1 ← exModel.build refArgsort
    let b ← boundOps m1.bounds [.add ⟨2, [1, 0, 1]⟩]
    Model.build refArgsort { m1 with bounds := b }) = .error .valueError ∧
  showTabsR (do
    let m1 ← exModel.build refArgsort
    let f ← forceOps m1.forces [.add ⟨1, [1, 0, 1]⟩]
    Model.build refArgsort { m1 with forces := f }) = .error .valueError ∧
  showTabsR (do
    let m1 ← exModel.build refArgsort
    let n ← nodeOps m1.nodes [.del 2]
    Model.build refArgsort { m1 with nodes := n }) = .error .valueError := by
  refine ⟨?_, ?_, ?_⟩ <;> decide +kernel

/-- All three rows deleted, the node is gone. -/
example : showTabsR (do
    let m1 ← exModel.build refArgsort
    let n ← nodeOps m1.nodes [.del 2]
    let b ← boundOps m1.bounds [.del 2]
    let f ← forceOps m1.forces [.del 2]
    Model.build refArgsort { m1 with nodes := n, bounds := b, forces := f }) = .ok ⟨[1, 3],
      some ⟨[1, 3], .d2 ⟨3, [[0, 0, 0], [0, 0, 0]]⟩⟩, [1, 3], [[0, 0, 0], [0, 0, 0]]⟩ := by decide +kernel

end TrussPy
