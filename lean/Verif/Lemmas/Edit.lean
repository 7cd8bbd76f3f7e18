import Verif.Lemmas.Build
import Verif.Spec.Edit
import Verif.Props.Handlers
/-! Helper lemmas: editing a built model. -/

set_option linter.unusedSectionVars false

namespace TrussPy

variable {F : Type}

theorem stored_perm {α : Type} (key : α → Int) : ∀ (ops : List (TabOp α)) {s t : List α}, s.Perm t →
    (stored key s ops).Perm (stored key t ops)
  | [], _, _, h => h
  | .add a :: ops, _, _, h => stored_perm key ops (h.append_right [a])
  | .del _ :: ops, _, _, h => stored_perm key ops (h.filter _)

/-- Tables of nodes, supports and loads from rows. -/
def tabN (w : Nat) (s : List (Node F)) : NodeTab F := ⟨s.map (·.label), ⟨w, s.map (·.coord)⟩⟩
def tabB (w : Nat) (s : List BoundU) : BoundTab := ⟨s.map (·.node), .d2 ⟨w, s.map (·.values)⟩⟩
def tabF (w : Nat) (s : List (ExtForce F)) : ForceTab F := ⟨s.map (·.node), ⟨w, s.map (·.force)⟩⟩

theorem addNode_tab (w : Nat) (s : List (Node F)) (n : Node F) : addNode (some (tabN w s)) n =
    if n.coord.length = w then .ok (some (tabN w (s ++ [n]))) else .error .valueError := by
  by_cases h : n.coord.length = w <;> simp [addNode, tabN, Tab.vstack, h]

theorem delNode_tab (w : Nat) (s : List (Node F)) (l : Int) : delNode (some (tabN w s)) l =
    .ok (some (tabN w (s.filter fun a => a.label ≠ l))) := by
  have e1 := npDelete_whereEq (fun n : Node F => n.label) (·.label) s l
  have e2 := npDelete_whereEq (fun n : Node F => n.label) (·.coord) s l
  simp only [delNode, tabN, Tab.delete, e1, e2, py_bind_ok, py_pure]

theorem addForce_tab (w : Nat) (s : List (ExtForce F)) (n : ExtForce F) : addForce (some (tabF w s)) n =
    if n.force.length = w then .ok (some (tabF w (s ++ [n]))) else .error .valueError := by
  by_cases h : n.force.length = w <;> simp [addForce, tabF, Tab.vstack, h]

theorem delForce_tab (w : Nat) (s : List (ExtForce F)) (l : Int) : delForce (some (tabF w s)) l =
    .ok (some (tabF w (s.filter fun a => a.node ≠ l))) := by
  have e1 := npDelete_whereEq (fun n : ExtForce F => n.node) (·.node) s l
  have e2 := npDelete_whereEq (fun n : ExtForce F => n.node) (·.force) s l
  simp only [delForce, tabF, Tab.delete, e1, e2, py_bind_ok, py_pure]

theorem addBoundU_tab (w : Nat) (s : List BoundU) (n : BoundU) : addBoundU (some (tabB w s)) n =
    if n.values.length = w then .ok (some (tabB w (s ++ [n]))) else .error .valueError := by
  by_cases h : n.values.length = w <;> simp [addBoundU, tabB, BArr.vstack, Tab.vstack, h]

theorem delBoundU_tab (w : Nat) (s : List BoundU) (l : Int) : delBoundU (some (tabB w s)) l =
    .ok (some (tabB w (s.filter fun a => a.node ≠ l))) := by
  have e1 := npDelete_whereEq (fun n : BoundU => n.node) (·.node) s l
  have e2 := npDelete_whereEq (fun n : BoundU => n.node) (·.values) s l
  simp only [delBoundU, tabB, BArr.delete, Tab.delete, e1, e2, py_bind_ok, py_pure]

theorem nodeOps_tab {w : Nat} : ∀ (ops : List (TabOp (Node F))) {s : List (Node F)} {r : Option (NodeTab F)},
    (∀ n ∈ s, n.coord.length = w) → nodeOps (some (tabN w s)) ops = .ok r →
    r = some (tabN w (stored (·.label) s ops)) ∧ ∀ n ∈ stored (·.label) s ops, n.coord.length = w
  | [], s, r, hw, h => by cases h; exact ⟨rfl, hw⟩
  | .add n :: ops, s, r, hw, h => by
    obtain ⟨h1, ha, hrest⟩ := py_bind_eq_ok.1 (show (addNode (some (tabN w s)) n >>= fun h => nodeOps h ops) = .ok r from h)
    rw [addNode_tab] at ha
    split at ha
    · next hn =>
      cases ha
      refine nodeOps_tab ops ?_ hrest
      intro k hk
      rcases List.mem_append.1 hk with hk | hk
      · exact hw k hk
      · rw [List.mem_singleton.1 hk]; exact hn
    · cases ha
  | .del l :: ops, s, r, hw, h => by
    obtain ⟨h1, ha, hrest⟩ := py_bind_eq_ok.1 (show (delNode (some (tabN w s)) l >>= fun h => nodeOps h ops) = .ok r from h)
    rw [delNode_tab] at ha
    cases ha
    exact nodeOps_tab ops (fun k hk => hw k (List.mem_filter.1 hk).1) hrest

theorem forceOps_tab {w : Nat} : ∀ (ops : List (TabOp (ExtForce F))) {s : List (ExtForce F)} {r : Option (ForceTab F)},
    (∀ n ∈ s, n.force.length = w) → forceOps (some (tabF w s)) ops = .ok r →
    r = some (tabF w (stored (·.node) s ops)) ∧ ∀ n ∈ stored (·.node) s ops, n.force.length = w
  | [], s, r, hw, h => by cases h; exact ⟨rfl, hw⟩
  | .add n :: ops, s, r, hw, h => by
    obtain ⟨h1, ha, hrest⟩ := py_bind_eq_ok.1 (show (addForce (some (tabF w s)) n >>= fun h => forceOps h ops) = .ok r from h)
    rw [addForce_tab] at ha
    split at ha
    · next hn =>
      cases ha
      refine forceOps_tab ops ?_ hrest
      intro k hk
      rcases List.mem_append.1 hk with hk | hk
      · exact hw k hk
      · rw [List.mem_singleton.1 hk]; exact hn
    · cases ha
  | .del l :: ops, s, r, hw, h => by
    obtain ⟨h1, ha, hrest⟩ := py_bind_eq_ok.1 (show (delForce (some (tabF w s)) l >>= fun h => forceOps h ops) = .ok r from h)
    rw [delForce_tab] at ha
    cases ha
    exact forceOps_tab ops (fun k hk => hw k (List.mem_filter.1 hk).1) hrest

theorem boundOps_tab {w : Nat} : ∀ (ops : List (TabOp BoundU)) {s : List BoundU} {r : Option BoundTab},
    (∀ n ∈ s, n.values.length = w) → boundOps (some (tabB w s)) ops = .ok r →
    r = some (tabB w (stored (·.node) s ops)) ∧ ∀ n ∈ stored (·.node) s ops, n.values.length = w
  | [], s, r, hw, h => by cases h; exact ⟨rfl, hw⟩
  | .add n :: ops, s, r, hw, h => by
    obtain ⟨h1, ha, hrest⟩ := py_bind_eq_ok.1 (show (addBoundU (some (tabB w s)) n >>= fun h => boundOps h ops) = .ok r from h)
    rw [addBoundU_tab] at ha
    split at ha
    · next hn =>
      cases ha
      refine boundOps_tab ops ?_ hrest
      intro k hk
      rcases List.mem_append.1 hk with hk | hk
      · exact hw k hk
      · rw [List.mem_singleton.1 hk]; exact hn
    · cases ha
  | .del l :: ops, s, r, hw, h => by
    obtain ⟨h1, ha, hrest⟩ := py_bind_eq_ok.1 (show (delBoundU (some (tabB w s)) l >>= fun h => boundOps h ops) = .ok r from h)
    rw [delBoundU_tab] at ha
    cases ha
    exact boundOps_tab ops (fun k hk => hw k (List.mem_filter.1 hk).1) hrest

/-- A two-dimensional support table, however short, is completed like a freshly entered one. -/
theorem fixBounds_of_d2 {nl : List Int} (h2 : 2 ≤ nl.length) (hnd : nl.Nodup) {s : List BoundU}
    (hw : ∀ b ∈ s, b.values.length = 3) {h : Option BoundTab} (hs : addBoundsU none s = .ok h)
    (as : List Int → List Nat) : fixBoundsU as nl (some (tabB 3 s)) = fixBoundsU as nl h := by
  have hlen : 2 ≤ (fillB nl s).length := by
    have := h2.trans (List.subperm_of_subset hnd (subset_fillB nl s)).length_le
    simpa using this
  have hf : ∀ b ∈ fillB nl s, b.values.length = 3 := by
    intro b hb
    rcases List.mem_append.1 hb with hb | hb
    · exact hw b hb
    · obtain ⟨n, _, rfl⟩ := List.mem_map.1 hb
      rfl
  have key : addBoundsU (some (tabB 3 s)) ((nl.filter fun n => !(s.map (·.node)).contains n).map fun n => ⟨n, [1, 1, 1]⟩)
      = addBoundsU none (fillB nl s) := by
    rw [addBoundsU_ok_of_width hlen hf]
    refine (addBoundsU_d2 _ _ _ _).2 ⟨fun b hb => hf b (List.mem_append_right _ hb), ?_⟩
    simp [fillB]
  rw [fixBoundsU_eq hs, ← key]
  rfl

theorem addBoundsU_total {s : List BoundU} {w : Nat} (hw : ∀ b ∈ s, b.values.length = w) :
    ∃ h, addBoundsU none s = .ok h := by
  match s, hw with
  | [], _ => exact ⟨none, rfl⟩
  | [a], _ => exact ⟨_, addBoundsU_none_one a⟩
  | a :: b :: rest, hw => exact ⟨_, addBoundsU_ok_of_width (by simp) hw⟩

/-- `nstatev` as `build` leaves it. -/
def withState (et : ElemTab F) (s : Settings F) : Settings F :=
  { s with nstatev := if et.mtype.contains 2 then 2 else s.nstatev }

theorem withState_idem (et : ElemTab F) (s : Settings F) : withState et (withState et s) = withState et s := by
  unfold withState
  split <;> rfl

/-- `build` depends on the supports only through `fix_bounds_U`, and not on anything a former `build`
left in the model. -/
theorem build_congr [Zero F] {as : List Int → List Nat} {m m' : Model F} (hn : m.nodes = m'.nodes)
    (he : m.elems = m'.elems) (hf : m.forces = m'.forces)
    (hs : ∀ et, m.elems = some et → withState et m.settings = withState et m'.settings)
    (hb : ∀ nt0 nt, m.nodes = some nt0 → fixNodes as nt0 = .ok nt →
      fixBoundsU as nt.labels m.bounds = fixBoundsU as nt.labels m'.bounds) : m.build as = m'.build as := by
  obtain ⟨n, e, b, f, st, d, a, r⟩ := m
  obtain ⟨n', e', b', f', st', d', a', r'⟩ := m'
  simp only at hn he hf hs hb
  subst hn he hf
  unfold Model.build
  cases n with
  | none => rfl
  | some nt0 =>
    cases e with
    | none => rfl
    | some et =>
      have hst := hs et rfl
      cases st
      cases st'
      simp only [withState, Settings.mk.injEq] at hst
      obtain ⟨rfl, rfl, rfl, rfl, rfl, rfl, rfl, rfl, rfl, rfl, rfl, rfl, rfl, rfl, rfl, rfl, rfl, rfl, rfl, hv, rfl⟩ := hst
      simp only
      split
      · rfl
      · cases hfn : fixNodes as nt0 with
        | error x => rfl
        | ok nt =>
          have := hb nt0 nt rfl hfn
          simp only [bind, Except.bind, this, hv]

/-- Inputs of the same meaning give the same model. -/
theorem build_same [Zero F] {as1 as2 : List Int → List Nat} (h1 : IsArgsort as1) (h2 : IsArgsort as2)
    {u v : UserInput F} {m m' m1 : Model F} (hu : Entered u m) (hv : Entered v m') (hm : SameMeaning u v)
    (hc2 : Consistent v) (hne2 : v.forces ≠ []) (hel : m.elems = m'.elems)
    (hset : ∀ et, m.elems = some et → withState et m.settings = withState et m'.settings)
    (hnd : (u.nodes.map (·.label)).Nodup) (hlen : 2 ≤ u.nodes.length) (hb : m.build as1 = .ok m1) :
    m'.build as2 = .ok m1 := by
  obtain ⟨hn, hsup', hload'⟩ := hm
  obtain ⟨s⟩ := build_steps hb
  obtain ⟨c1, c2, c3, c4, c5, ⟨w, c6, c7⟩, c8, c9, c10, c11, c12⟩ := build_closed h1 hu hnd hlen s
  have hnd2 : (v.nodes.map (·.label)).Nodup := (hn.map _).nodup_iff.1 hnd
  have hlen2 : 2 ≤ v.nodes.length := by rw [← hn.length_eq]; exact hlen
  have hsup : ∀ l ∈ s.nt.labels, supportOf u.bounds l = supportOf v.bounds l := by
    intro l hl
    obtain ⟨n, hn, rfl⟩ := List.mem_map.1 (c1.mem_iff.1 hl)
    exact hsup' n hn
  have hload : ∀ l ∈ s.nt.labels, loadOf u.forces l = loadOf v.forces l := by
    intro l hl
    obtain ⟨n, hn, rfl⟩ := List.mem_map.1 (c1.mem_iff.1 hl)
    exact hload' n hn
  have hcoord : ∀ l ∈ s.nt.labels, coordOf u.nodes l = coordOf v.nodes l := by
    intro l hl
    obtain ⟨n, hm, rfl⟩ := List.mem_map.1 (c1.mem_iff.1 hl)
    rw [coordOf_mem hnd hm, coordOf_mem hnd2 (hn.mem_iff.1 hm)]
  have hsl : ∀ sl : List Int, sl.Perm (v.nodes.map (·.label)) → sl.Pairwise (· ≤ ·) → sl = s.nt.labels :=
    fun sl hp hs => sorted_perm_eq (hp.trans ((hn.map _).symm.trans c1.symm)) hs (c2.imp le_of_lt)
  have hmap : s.nt.labels.map (supportOf v.bounds) = s.nt.labels.map (supportOf u.bounds) :=
    List.map_congr_left fun l hl => (hsup l hl).symm
  have hflat : s.bt.values.flatten = (s.nt.labels.map (supportOf u.bounds)).flatten := by
    rw [c6]; rfl
  have d0 := dofWhere_ok_iff.1 s.hd0
  have d1 := dofWhere_ok_iff.1 s.hd1
  rw [hflat, c3] at d0 d1
  have hset' := hset s.et s.he
  obtain ⟨m2', ⟨s2⟩⟩ := build_make h2 hv hnd2 hlen2 (et := s.et) (by rw [← hel]; exact s.he)
    (by rw [← s.hdim]; exact (congrArg Settings.ndim hset').symm) hc2 hne2 (w := w) (by
      intro l hl
      have hl' := c1.mem_iff.2 ((hn.map _).mem_iff.2 hl)
      rw [← hsup l hl']
      exact c7 l hl') (by
      intro sl hp hs v hv
      rw [hsl sl hp hs, hmap, ← hn.length_eq]
      rcases hv with rfl | rfl
      · exact d0.2
      · exact d1.2)
  obtain ⟨e1, e2, e3, e4, e5, ⟨w2, e6, e7⟩, e8, e9, e10, e11, e12⟩ := build_closed h2 hv hnd2 hlen2 s2
  have hlab : s2.nt.labels = s.nt.labels := hsl _ e1 (e2.imp le_of_lt)
  have hpos : 0 < s.nt.labels.length := by
    rw [c1.length_eq, List.length_map]; omega
  have hm0 := List.getElem_mem hpos
  have hw2 : w = w2 := by
    have q1 := c7 _ hm0
    have q2 := e7 s.nt.labels[0] (by rw [hlab]; exact hm0)
    rw [← hsup _ hm0] at q2
    omega
  have hlw : loadWidth u.forces = loadWidth v.forces := by
    have q1 := c10 _ hm0
    have q2 := e10 s.nt.labels[0] (by rw [hlab]; exact hm0)
    rw [← hload _ hm0] at q2
    omega
  have n1 := hu.1
  have n2 := hv.1
  rw [s.hn] at n1
  rw [s2.hn] at n2
  obtain ⟨p1, _, p3, p4, p5⟩ := fixNodes_ok h1 n1 s.hfn
  obtain ⟨q1, _, q3, q4, q5⟩ := fixNodes_ok h2 n2 s2.hfn
  have hcols : s.nt.coords.cols = s2.nt.coords.cols := by
    obtain ⟨a1, a2, a3⟩ := addNodes_tab n1
    obtain ⟨b1, b2, b3⟩ := addNodes_tab n2
    obtain ⟨x, hx⟩ := List.exists_mem_of_length_pos (l := u.nodes) (by omega)
    rw [p1, q1, ← a3 x hx, ← b3 x (hn.mem_iff.1 hx)]
  have hnt : s.nt = s2.nt := by
    have hr : s.nt.coords.rows = s2.nt.coords.rows := by
      rw [c4, e4, hlab]
      exact List.map_congr_left hcoord
    have hc : s.nt.coords = s2.nt.coords := by
      cases hx : s.nt.coords; cases hy : s2.nt.coords
      simp_all
    cases hx : s.nt; cases hy : s2.nt
    simp_all
  have hbt : s.bt = s2.bt := by
    have hv : s.bt.values = s2.bt.values := by rw [c6, e6, hlab, hmap, hw2]
    cases hx : s.bt; cases hy : s2.bt
    simp_all
  have hft : s.ft = s2.ft := by
    have hv : s.ft.forces = s2.ft.forces := by
      rw [c9, e9, hlab, hlw]
      congr 1
      exact List.map_congr_left hload
    cases hx : s.ft; cases hy : s2.ft
    simp_all
  have hl : s.nt0.labels.length = s2.nt0.labels.length := by rw [c3, e3, hn.length_eq]
  have het : s.et = s2.et := by
    have := s.he
    rw [hel, s2.he] at this
    exact (Option.some.inj this).symm
  have g0 : s.dof0 = s2.dof0 := by
    have a := s.hd0; have b := s2.hd0
    rw [hl, hbt, b] at a
    exact (Except.ok.inj a).symm
  have g1 : s.dof1 = s2.dof1 := by
    have a := s.hd1; have b := s2.hd1
    rw [hl, hbt, b] at a
    exact (Except.ok.inj a).symm
  have hfin : m1 = m2' := by
    rw [s.hm', s2.hm']
    have hv := congrArg Settings.nstatev hset'
    simp only [withState] at hv
    simp only [← hnt, ← hbt, ← hft, ← hl, ← het, ← g0, ← g1]
    rw [Model.mk.injEq]
    exact ⟨rfl, hel, rfl, rfl, hset', rfl, by rw [hv], by rw [hv]⟩
  rw [hfin]
  exact build_of_steps s2

/-- The completed input, sorted by label. -/
def sortedInput [Zero F] (L : List Int) (u : UserInput F) : UserInput F where
  nodes := L.map fun l => ⟨l, coordOf u.nodes l⟩
  bounds := L.map fun l => ⟨l, supportOf u.bounds l⟩
  forces := L.map fun l => ⟨l, loadOf u.forces l⟩

theorem sortedInput_perm [Zero F] {L : List Int} {u : UserInput F} (hnd : (u.nodes.map (·.label)).Nodup)
    (hp : L.Perm (u.nodes.map (·.label))) : (sortedInput L u).nodes.Perm u.complete.nodes ∧
    (sortedInput L u).bounds.Perm u.complete.bounds ∧ (sortedInput L u).forces.Perm u.complete.forces := by
  refine ⟨?_, ?_, ?_⟩
  · refine (hp.map _).trans ?_
    rw [List.map_map]
    have : u.nodes.map ((fun l => (⟨l, coordOf u.nodes l⟩ : Node F)) ∘ fun n => n.label) = u.nodes := by
      conv_rhs => rw [← List.map_id u.nodes]
      refine List.map_congr_left fun n hn => ?_
      simp only [Function.comp_apply, coordOf_mem hnd hn, id]
    rw [this]
    exact .refl _
  · refine (hp.map _).trans ?_
    rw [List.map_map]
    exact .refl _
  · refine (hp.map _).trans ?_
    rw [List.map_map]
    exact .refl _

/-- The tables of a built model are those of the completed, sorted input. -/
theorem built_complete [Zero F] {as : List Int → List Nat} (has : IsArgsort as) {u : UserInput F} {m m1 : Model F}
    (hu : Entered u m) (hnd : (u.nodes.map (·.label)).Nodup) (h2 : 2 ≤ u.nodes.length)
    (hb : m.build as = .ok m1) :
    ∃ (L : List Int) (wn wb wf : Nat), L.Perm (u.nodes.map (·.label)) ∧ L.Pairwise (· < ·) ∧
      m1.nodes = some (tabN wn (sortedInput L u).nodes) ∧ m1.bounds = some (tabB wb (sortedInput L u).bounds) ∧
      m1.forces = some (tabF wf (sortedInput L u).forces) ∧
      (∀ n ∈ (sortedInput L u).nodes, n.coord.length = wn) ∧ (∀ n ∈ (sortedInput L u).bounds, n.values.length = wb) ∧
      (∀ n ∈ (sortedInput L u).forces, n.force.length = wf) ∧ wf = loadWidth u.forces ∧
      m1.elems = m.elems ∧ (∀ et, m.elems = some et → m1.settings = withState et m.settings) := by
  obtain ⟨s⟩ := build_steps hb
  obtain ⟨c1, c2, c3, c4, c5, ⟨w, c6, c7⟩, c8, c9, c10, c11, c12⟩ := build_closed has hu hnd h2 s
  have n1 := hu.1
  rw [s.hn] at n1
  obtain ⟨p1, _, p3, p4, p5⟩ := fixNodes_ok has n1 s.hfn
  obtain ⟨a1, a2, a3⟩ := addNodes_tab n1
  refine ⟨s.nt.labels, s.nt.coords.cols, w, loadWidth u.forces, c1, c2, ?_, ?_, ?_, ?_, ?_, ?_, rfl, ?_, ?_⟩
  · rw [congrArg Model.nodes s.hm']
    congr 1
    simp only [tabN, sortedInput, List.map_map, Function.comp_def, List.map_id']
    rw [show (s.nt.labels.map fun l => coordOf u.nodes l) = s.nt.coords.rows from c4.symm]
  · rw [congrArg Model.bounds s.hm']
    congr 1
    simp only [tabB, sortedInput, List.map_map, Function.comp_def, List.map_id']
    rw [show (s.nt.labels.map fun l => supportOf u.bounds l) = s.nt.labels.map (supportOf u.bounds) from rfl, ← c6, ← c5]
  · rw [congrArg Model.forces s.hm']
    congr 1
    simp only [tabF, sortedInput, List.map_map, Function.comp_def, List.map_id']
    rw [show (s.nt.labels.map fun l => loadOf u.forces l) = s.nt.labels.map (loadOf u.forces) from rfl, ← c9, ← c8]
  · intro n hn
    have := (sortedInput_perm hnd c1).1.mem_iff.1 hn
    rw [p1]
    exact a3 n this
  · intro n hn
    obtain ⟨l, hl, rfl⟩ := List.mem_map.1 hn
    exact c7 l hl
  · intro n hn
    obtain ⟨l, hl, rfl⟩ := List.mem_map.1 hn
    exact c10 l hl
  · rw [congrArg Model.elems s.hm']
  · intro et het
    have : et = s.et := by rw [s.he] at het; exact (Option.some.inj het).symm
    subst this
    rw [congrArg Model.settings s.hm']
    rfl

/-- Editing a model with two-dimensional tables leads to a model that builds as one entered anew. -/
theorem edited_entered [Zero F] {as' : List Int → List Nat} (has' : IsArgsort as') {m m1 m2 : Model F} {e : Edits F}
    {w : UserInput F} {wn wf : Nat} (t1 : m1.nodes = some (tabN wn w.nodes)) (t2 : m1.bounds = some (tabB 3 w.bounds))
    (t3 : m1.forces = some (tabF wf w.forces)) (t4 : ∀ n ∈ w.nodes, n.coord.length = wn)
    (t5 : ∀ n ∈ w.bounds, n.values.length = 3) (t6 : ∀ n ∈ w.forces, n.force.length = wf)
    (e1 : nodeOps m1.nodes e.nodes = .ok m2.nodes) (e2 : boundOps m1.bounds e.bounds = .ok m2.bounds)
    (e3 : forceOps m1.forces e.forces = .ok m2.forces) (hel : m2.elems = m.elems)
    (hset : ∀ et, m.elems = some et → withState et m2.settings = withState et m.settings)
    (hnd : ((w.edited e).nodes.map (·.label)).Nodup) (hlen : 2 ≤ (w.edited e).nodes.length)
    (hf : (w.edited e).forces ≠ []) :
    ∃ m', Entered (w.edited e) m' ∧ (∀ b ∈ (w.edited e).bounds, b.values.length = 3) ∧ m'.elems = m.elems ∧
      m'.settings = m.settings ∧ m2.build as' = m'.build as' := by
  rw [t1] at e1
  rw [t2] at e2
  rw [t3] at e3
  obtain ⟨a1, a2⟩ := nodeOps_tab _ t4 e1
  obtain ⟨b1, b2⟩ := boundOps_tab _ t5 e2
  obtain ⟨c1, c2⟩ := forceOps_tab _ t6 e3
  let v := w.edited e
  obtain ⟨h, hh⟩ := addBoundsU_total (s := v.bounds) b2
  have hwf : loadWidth v.forces = wf := by
    match hv : v.forces, (show v.forces ≠ [] from hf) with
    | f :: fs, _ =>
      have := c2 f (by show f ∈ v.forces; rw [hv]; simp)
      exact this
  have hN : addNodes none v.nodes = .ok m2.nodes := by
    rw [a1]
    match hv : v.nodes, (show 2 ≤ v.nodes.length from hlen) with
    | n :: ns, _ =>
      have hn : ∀ k ∈ n :: ns, k.coord.length = wn := fun k hk => a2 k (by show k ∈ v.nodes; rw [hv]; exact hk)
      rw [addNodes_none]
      have hn0 := hn n (by simp)
      refine ⟨fun k hk => by rw [hn0]; exact hn k (by simp [hk]), ?_⟩
      show some (tabN wn v.nodes) = _
      rw [hv, hn0]
      rfl
  have hF : addForces none v.forces = .ok m2.forces := by
    rw [c1, addForces_ok_of_width hf (fun b hb => by rw [hwf]; exact c2 b hb), hwf]
    rfl
  refine ⟨{ m2 with bounds := h, settings := m.settings }, ⟨hN, hh, hF⟩, b2, hel, rfl, ?_⟩
  refine build_congr rfl rfl rfl ?_ ?_
  · intro et het
    exact hset et (by rw [← hel]; exact het)
  · intro nt0 nt hnt hfn
    rw [hnt] at hN
    obtain ⟨_, _, _, n4, _⟩ := fixNodes_ok has' hN hfn
    have hl : nt.labels.length = v.nodes.length := by simpa using n4.length_eq
    rw [b1]
    exact fixBounds_of_d2 (by rw [hl]; exact hlen) (n4.nodup_iff.2 hnd) b2 hh as'

end TrussPy
