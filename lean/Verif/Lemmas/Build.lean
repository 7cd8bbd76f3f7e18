import Verif.Lemmas.Handlers
import Mathlib.Data.List.Sort
/-! Helper lemmas: the result of `Model.build` in closed form. -/

namespace TrussPy

variable {F : Type}

theorem rows_eq_map {β : Type} {ls : List Int} {rs : List β} {ps : List (Int × β)} (f : Int → β)
    (hf : ∀ p ∈ ps, f p.1 = p.2) (hp : (ls.zip rs).Perm ps) (hl : ls.length = rs.length) :
    rs = ls.map f := by
  apply List.ext_getElem
  · simp [hl]
  · intro k h1 h2
    have hk : k < ls.length := by simpa using h2
    have hm : (ls[k], rs[k]) ∈ ls.zip rs := by
      have : k < (ls.zip rs).length := by simp [hk, h1]
      have h3 : (ls.zip rs)[k] = (ls[k], rs[k]) := by simp
      rw [← h3]
      exact List.getElem_mem this
    have := hf _ (hp.mem_iff.1 hm)
    simpa using this.symm

theorem find_key {β : Type} (key : β → Int) {bs : List β} (hnd : (bs.map key).Nodup) {b : β} (hb : b ∈ bs) :
    bs.find? (fun b' => key b' == key b) = some b := by
  induction bs with
  | nil => cases hb
  | cons a bs ih =>
    rw [List.map_cons, List.nodup_cons] at hnd
    rw [List.find?_cons]
    rcases List.mem_cons.1 hb with rfl | hb'
    · simp
    · have : key a ≠ key b := fun h => hnd.1 (h ▸ List.mem_map_of_mem hb')
      rw [beq_false_of_ne this]
      exact ih hnd.2 hb'

theorem find_key_none {β : Type} (key : β → Int) {bs : List β} {l : Int} (h : l ∉ bs.map key) :
    bs.find? (fun b' => key b' == l) = none := by
  rw [List.find?_eq_none]
  intro b hb hc
  exact h (List.mem_map.2 ⟨b, hb, by simpa using hc⟩)

/-- Coordinates entered for node `l`. -/
def coordOf (ns : List (Node F)) (l : Int) : List F :=
  match ns.find? (fun b => b.label == l) with
  | some n => n.coord
  | none => []

theorem coordOf_mem {ns : List (Node F)} (hnd : (ns.map (·.label)).Nodup) {n : Node F} (h : n ∈ ns) :
    coordOf ns n.label = n.coord := by
  unfold coordOf
  rw [find_key (·.label) hnd h]

theorem supportOf_mem {bs : List BoundU} (hnd : (bs.map (·.node)).Nodup) {b : BoundU} (h : b ∈ bs) :
    supportOf bs b.node = b.values := by
  unfold supportOf
  rw [find_key (·.node) hnd h]

theorem supportOf_not_mem {bs : List BoundU} {l : Int} (h : l ∉ bs.map (·.node)) :
    supportOf bs l = [1, 1, 1] := by
  unfold supportOf
  have := find_key_none (fun b : BoundU => b.node) h
  rw [this]

theorem loadOf_mem [Zero F] {fs : List (ExtForce F)} (hnd : (fs.map (·.node)).Nodup) {b : ExtForce F}
    (h : b ∈ fs) : loadOf fs b.node = b.force := by
  unfold loadOf
  rw [find_key (·.node) hnd h]

theorem loadOf_not_mem [Zero F] {fs : List (ExtForce F)} {l : Int} (h : l ∉ fs.map (·.node)) :
    loadOf fs l = List.replicate (loadWidth fs) 0 := by
  unfold loadOf
  have := find_key_none (fun b : ExtForce F => b.node) h
  rw [this]

theorem fillB_nodup_iff {nl : List Int} {bs : List BoundU} (hnl : nl.Nodup) :
    nl.Perm ((fillB nl bs).map (·.node)) ↔ (bs.map (·.node)).Nodup ∧ bs.map (·.node) ⊆ nl := by
  have key : (fillB nl bs).map (·.node) = bs.map (·.node) ++
      nl.filter fun n => !(bs.map (·.node)).contains n := by
    simp [fillB, Function.comp_def]
  rw [key]
  constructor
  · intro hp
    have h1 : (bs.map (·.node) ++ nl.filter fun n => !(bs.map (·.node)).contains n).Nodup :=
      hp.nodup_iff.1 hnl
    refine ⟨(List.nodup_append.1 h1).1, fun x hx => hp.mem_iff.2 (List.mem_append_left _ hx)⟩
  · rintro ⟨h1, h2⟩
    rw [List.perm_ext_iff_of_nodup hnl]
    · intro a
      simp only [List.mem_append, List.mem_filter]
      constructor
      · intro ha
        by_cases h : a ∈ bs.map (·.node)
        · exact Or.inl h
        · exact Or.inr ⟨ha, by simpa using h⟩
      · rintro (h | h)
        · exact h2 h
        · exact h.1
    · rw [List.nodup_append]
      refine ⟨h1, hnl.filter _, ?_⟩
      rintro a ha b hb rfl
      simp only [List.mem_filter] at hb
      simp at ha
      grind

theorem fillF_nodup_iff [Zero F] {nl : List Int} {bs : List (ExtForce F)} (hnl : nl.Nodup) :
    nl.Perm ((fillF nl bs).map (·.node)) ↔ (bs.map (·.node)).Nodup ∧ bs.map (·.node) ⊆ nl := by
  have key : (fillF nl bs).map (·.node) = bs.map (·.node) ++
      nl.filter fun n => !(bs.map (·.node)).contains n := by
    simp [fillF, Function.comp_def]
  rw [key]
  constructor
  · intro hp
    have h1 : (bs.map (·.node) ++ nl.filter fun n => !(bs.map (·.node)).contains n).Nodup :=
      hp.nodup_iff.1 hnl
    refine ⟨(List.nodup_append.1 h1).1, fun x hx => hp.mem_iff.2 (List.mem_append_left _ hx)⟩
  · rintro ⟨h1, h2⟩
    rw [List.perm_ext_iff_of_nodup hnl]
    · intro a
      simp only [List.mem_append, List.mem_filter]
      constructor
      · intro ha
        by_cases h : a ∈ bs.map (·.node)
        · exact Or.inl h
        · exact Or.inr ⟨ha, by simpa using h⟩
      · rintro (h | h)
        · exact h2 h
        · exact h.1
    · rw [List.nodup_append]
      refine ⟨h1, hnl.filter _, ?_⟩
      rintro a ha b hb rfl
      simp only [List.mem_filter] at hb
      simp at ha
      grind

theorem supportOf_fill {nl : List Int} {bs : List BoundU} (hnd : (bs.map (·.node)).Nodup) :
    ∀ p ∈ (fillB nl bs).map fun b => (b.node, b.values), supportOf bs p.1 = p.2 := by
  intro p hp
  simp only [fillB, List.map_append, List.mem_append, List.mem_map] at hp
  rcases hp with ⟨b, hb, rfl⟩ | ⟨b, ⟨n, hn, rfl⟩, rfl⟩
  · exact supportOf_mem hnd hb
  · simp only [List.mem_filter] at hn
    exact supportOf_not_mem (by simpa using hn.2)

theorem loadOf_fill [Zero F] {nl : List Int} {bs : List (ExtForce F)} (hnd : (bs.map (·.node)).Nodup) :
    ∀ p ∈ (fillF nl bs).map fun b => (b.node, b.force), loadOf bs p.1 = p.2 := by
  intro p hp
  simp only [fillF, List.map_append, List.mem_append, List.mem_map] at hp
  rcases hp with ⟨b, hb, rfl⟩ | ⟨b, ⟨n, hn, rfl⟩, rfl⟩
  · exact loadOf_mem hnd hb
  · simp only [List.mem_filter] at hn
    exact loadOf_not_mem (by simpa using hn.2)

/-- Input that the build must accept or reject as a whole: every constraint and load names an existing
node, at most once. -/
structure Consistent (u : UserInput F) : Prop where
  bnd : (u.bounds.map (·.node)).Nodup
  bsub : u.bounds.map (·.node) ⊆ u.nodes.map (·.label)
  fnd : (u.forces.map (·.node)).Nodup
  fsub : u.forces.map (·.node) ⊆ u.nodes.map (·.label)

/-- Closed form of a successful build. -/
theorem build_closed [Zero F] {argsort : List Int → List Nat} (has : IsArgsort argsort)
    {u : UserInput F} {m m' : Model F} (hu : Entered u m) (hnd : (u.nodes.map (·.label)).Nodup)
    (h2 : 2 ≤ u.nodes.length) (s : BuildSteps argsort m m') :
    s.nt.labels.Perm (u.nodes.map (·.label)) ∧ s.nt.labels.Pairwise (· < ·) ∧
    s.nt0.labels.length = u.nodes.length ∧
    s.nt.coords.rows = s.nt.labels.map (coordOf u.nodes) ∧
    s.bt.nodes = s.nt.labels ∧
    (∃ w, s.bt.values = .d2 ⟨w, s.nt.labels.map (supportOf u.bounds)⟩ ∧
      ∀ l ∈ s.nt.labels, (supportOf u.bounds l).length = w) ∧
    s.ft.nodes = s.nt.labels ∧
    s.ft.forces = ⟨loadWidth u.forces, s.nt.labels.map (loadOf u.forces)⟩ ∧
    (∀ l ∈ s.nt.labels, (loadOf u.forces l).length = loadWidth u.forces) ∧
    Consistent u ∧ u.forces ≠ [] := by
  obtain ⟨nt0, et, nt, bt, ft, dof0, dof1, hn, he, hdim, hfn, hfb, hff, hcb, hcf, hd0, hd1, hm'⟩ := s
  obtain ⟨u1, u2, u3⟩ := hu
  rw [hn] at u1
  obtain ⟨n1, n2, n3, n4, n5⟩ := fixNodes_ok has u1 hfn
  have hnd' : nt.labels.Nodup := n4.nodup_iff.2 hnd
  have hlen : nt.labels.length = u.nodes.length := by simpa using n4.length_eq
  have h2' : 2 ≤ nt.labels.length := by omega
  obtain ⟨w, rs, b1, b2, b3, b4, b5, b6⟩ := fixBoundsU_ok has h2' hnd' u2 hfb
  obtain ⟨f1, f2, f3, f4, f5, f6, f7⟩ := fixForces_ok has u3 hff
  have hbl : 2 ≤ bt.nodes.length := by
    rw [b4.length_eq]
    exact h2'.trans (List.subperm_of_subset hnd' (subset_fillB _ _)).length_le
  have hfl : 2 ≤ ft.nodes.length := by
    rw [f4.length_eq]
    exact h2'.trans (List.subperm_of_subset hnd' (subset_fillF _ _)).length_le
  have pb := perm_of_fill hnd' (subset_fillB nt.labels u.bounds)
    ((allclose_length h2' hbl hcb).trans b4.length_eq)
  have pf := perm_of_fill hnd' (subset_fillF nt.labels u.forces)
    ((allclose_length h2' hfl hcf).trans f4.length_eq)
  have cb := (fillB_nodup_iff hnd').1 pb
  have cf := (fillF_nodup_iff hnd').1 pf
  have eb : bt.nodes = nt.labels := sorted_perm_eq (b4.trans pb.symm) b5 n5
  have ef : ft.nodes = nt.labels := sorted_perm_eq (f4.trans pf.symm) f5 n5
  have rb := rows_eq_map (supportOf u.bounds) (supportOf_fill cb.1) b3 b2
  have rf := rows_eq_map (loadOf u.forces) (loadOf_fill cf.1) f3 f2
  have rn := rows_eq_map (coordOf u.nodes) (ps := u.nodes.map fun n => (n.label, n.coord)) (by
    intro p hp
    obtain ⟨n, hn, rfl⟩ := List.mem_map.1 hp
    exact coordOf_mem hnd hn) n3 n2
  refine ⟨n4, ?_, ?_, rn, eb, ⟨w, ?_, ?_⟩, ef, ?_, ?_, ⟨cb.1, ?_, cf.1, ?_⟩, f7⟩
  · exact (n5.and hnd').imp (fun ⟨h1, h2⟩ => lt_of_le_of_ne h1 h2)
  · obtain ⟨t1, _, _⟩ := addNodes_tab u1
    simp [t1]
  · rw [b1, rb, eb]
  · intro l hl
    obtain ⟨b, hb, rfl⟩ := List.mem_map.1 (pb.mem_iff.1 hl)
    rw [supportOf_fill cb.1 (b.node, b.values) (List.mem_map.2 ⟨b, hb, rfl⟩)]
    exact b6 b hb
  · show ft.forces = _
    rw [← f1, ← ef, ← rf]
  · intro l hl
    obtain ⟨b, hb, rfl⟩ := List.mem_map.1 (pf.mem_iff.1 hl)
    rw [loadOf_fill cf.1 (b.node, b.force) (List.mem_map.2 ⟨b, hb, rfl⟩)]
    exact f6 b hb
  · exact fun x hx => n4.mem_iff.1 (cb.2 hx)
  · exact fun x hx => n4.mem_iff.1 (cf.2 hx)

end TrussPy

namespace TrussPy

variable {F : Type}

theorem addBoundsU_ok_of_width {bs : List BoundU} (h2 : 2 ≤ bs.length) {w : Nat}
    (hw : ∀ b ∈ bs, b.values.length = w) :
    addBoundsU none bs = .ok (some ⟨bs.map (·.node), .d2 ⟨w, bs.map (·.values)⟩⟩) := by
  match bs, h2 with
  | a :: b :: rest, _ =>
    rw [addBoundsU_none_two]
    have ha := hw a (by simp)
    refine ⟨fun k hk => ?_, by rw [ha]⟩
    rw [ha]
    exact hw k (List.mem_cons_of_mem _ hk)

theorem addForces_ok_of_width {fs : List (ExtForce F)} (h : fs ≠ [])
    (hw : ∀ b ∈ fs, b.force.length = loadWidth fs) :
    addForces none fs = .ok (some ⟨fs.map (·.node), ⟨loadWidth fs, fs.map (·.force)⟩⟩) := by
  cases fs with
  | nil => exact absurd rfl h
  | cons a rest =>
    rw [addForces_none]
    exact ⟨fun k hk => hw k (List.mem_cons_of_mem _ hk), rfl⟩

theorem fixBoundsU_exists {argsort : List Int → List Nat} (has : IsArgsort argsort) {nl : List Int}
    {bs : List BoundU} {h : Option BoundTab} (hb : addBoundsU none bs = .ok h)
    (h2 : 2 ≤ nl.length) (hnd : nl.Nodup) {w : Nat} (hw : ∀ b ∈ fillB nl bs, b.values.length = w) :
    ∃ bt, fixBoundsU argsort nl h = .ok bt := by
  have hlen : 2 ≤ (fillB nl bs).length := by
    have := h2.trans (List.subperm_of_subset hnd (subset_fillB nl bs)).length_le
    simpa using this
  rw [fixBoundsU_eq hb, addBoundsU_ok_of_width hlen hw]
  obtain ⟨ls, rs, e1, e2, e3, e4, e5, e6⟩ := argsort_take_rows has
    ((fillB nl bs).map (·.node)) ((fillB nl bs).map (·.values)) (by simp)
  simp [BArr.take, Tab.take, e1, e2]

theorem fixForces_exists [Zero F] {argsort : List Int → List Nat} (has : IsArgsort argsort) {nl : List Int}
    {fs : List (ExtForce F)} {h : Option (ForceTab F)} (hb : addForces none fs = .ok h) (hne : fs ≠ []) :
    ∃ ft, fixForces argsort nl h = .ok ft := by
  cases h with
  | none =>
    cases fs with
    | nil => exact absurd rfl hne
    | cons a rest => rw [addForces_none] at hb; simp at hb
  | some t =>
    obtain ⟨t1, t2, t3, t4⟩ := addForces_tab hb
    have hw : loadWidth (fillF nl fs) = loadWidth fs := by
      cases fs with
      | nil => exact absurd rfl hne
      | cons f fs => rfl
    simp only [fixForces, t3, missing, t1]
    rw [addForces_append hb]
    have hall := addForces_ok_of_width (fs := fillF nl fs) (by
      intro h
      simp [fillF] at h
      exact hne h.1) (by
      intro b hb'
      rw [hw]
      simp only [fillF, List.mem_append, List.mem_map] at hb'
      rcases hb' with h1 | ⟨n, hn, rfl⟩
      · rw [t4 b h1, t3]
      · simp)
    rw [show (fs ++ _) = fillF nl fs from rfl, hall]
    obtain ⟨ls, rs, e1, e2, e3, e4, e5, e6⟩ := argsort_take_rows has
      ((fillF nl fs).map (·.node)) ((fillF nl fs).map (·.force)) (by simp)
    simp [Tab.take, e1, e2]

theorem dofWhere_ok_iff {ndof : Nat} {bc : List Int} {v : Int} {d : List Nat} :
    dofWhere ndof bc v = .ok d ↔ d = whereEq bc v ∧ ∀ i ∈ whereEq bc v, i < ndof := by
  unfold dofWhere
  constructor
  · intro h
    have hlt := npTake_ok_lt h
    rw [List.length_range] at hlt
    rw [npTake_eq_map 0 (by simpa using hlt)] at h
    refine ⟨?_, hlt⟩
    cases h
    conv_rhs => rw [← List.map_id (whereEq bc v)]
    apply List.map_congr_left
    intro i hi
    have := hlt i hi
    simp [this]
  · rintro ⟨rfl, h⟩
    rw [npTake_eq_map 0 (by simpa using h)]
    congr 1
    conv_rhs => rw [← List.map_id (whereEq bc v)]
    apply List.map_congr_left
    intro i hi
    have := h i hi
    simp [this]

theorem whereEq_lt_length {bc : List Int} {v : Int} {n : Nat} (h : bc.length ≤ n) :
    ∀ i ∈ whereEq bc v, i < n := fun _ hi => lt_of_lt_of_le (whereEq_lt hi) h

/-- Conditions under which `build` goes through. -/
theorem build_make [Zero F] {argsort : List Int → List Nat} (has : IsArgsort argsort)
    {u : UserInput F} {m : Model F} (hu : Entered u m) (hnd : (u.nodes.map (·.label)).Nodup)
    (h2 : 2 ≤ u.nodes.length) {et : ElemTab F} (he : m.elems = some et) (hdim : m.settings.ndim = 3)
    (hc : Consistent u) (hne : u.forces ≠ []) {w : Nat}
    (hw : ∀ l ∈ u.nodes.map (·.label), (supportOf u.bounds l).length = w)
    (hdof : ∀ sl : List Int, sl.Perm (u.nodes.map (·.label)) → sl.Pairwise (· ≤ ·) → ∀ v, v = 0 ∨ v = 1 →
      ∀ i ∈ whereEq (sl.map (supportOf u.bounds)).flatten v, i < u.nodes.length * 3) :
    ∃ m', Nonempty (BuildSteps argsort m m') := by
  obtain ⟨u1, u2, u3⟩ := hu
  cases hn : m.nodes with
  | none =>
    rw [hn] at u1
    match hun : u.nodes, h2 with
    | a :: b :: rest, _ =>
      rw [hun, addNodes_none] at u1
      simp at u1
  | some nt0 =>
    rw [hn] at u1
    obtain ⟨nt, hfn⟩ := fixNodes_isOk has u1
    obtain ⟨n1, n2, n3, n4, n5⟩ := fixNodes_ok has u1 hfn
    have hnd' : nt.labels.Nodup := n4.nodup_iff.2 hnd
    have hlen : nt.labels.length = u.nodes.length := by simpa using n4.length_eq
    have h2' : 2 ≤ nt.labels.length := by omega
    have cb : (u.bounds.map (·.node)).Nodup ∧ u.bounds.map (·.node) ⊆ nt.labels :=
      ⟨hc.bnd, fun x hx => n4.mem_iff.2 (hc.bsub hx)⟩
    have cf : (u.forces.map (·.node)).Nodup ∧ u.forces.map (·.node) ⊆ nt.labels :=
      ⟨hc.fnd, fun x hx => n4.mem_iff.2 (hc.fsub hx)⟩
    have pb := (fillB_nodup_iff hnd').2 cb
    have pf := (fillF_nodup_iff hnd').2 cf
    obtain ⟨bt, hfb⟩ := fixBoundsU_exists has u2 h2' hnd' (w := w) (by
      intro b hb
      have h1 := supportOf_fill (nl := nt.labels) cb.1 (b.node, b.values) (List.mem_map.2 ⟨b, hb, rfl⟩)
      simp only at h1
      rw [← h1]
      exact hw _ (n4.mem_iff.1 (pb.mem_iff.2 (List.mem_map.2 ⟨b, hb, rfl⟩))))
    obtain ⟨ft, hff⟩ := fixForces_exists has (nl := nt.labels) u3 hne
    obtain ⟨w', rs, b1, b2, b3, b4, b5, b6⟩ := fixBoundsU_ok has h2' hnd' u2 hfb
    obtain ⟨f1, f2, f3, f4, f5, f6, f7⟩ := fixForces_ok has u3 hff
    have eb : bt.nodes = nt.labels := sorted_perm_eq (b4.trans pb.symm) b5 n5
    have ef : ft.nodes = nt.labels := sorted_perm_eq (f4.trans pf.symm) f5 n5
    have rb := rows_eq_map (supportOf u.bounds) (supportOf_fill cb.1) b3 b2
    have hflat : bt.values.flatten = (nt.labels.map (supportOf u.bounds)).flatten := by
      rw [b1, rb, eb]; rfl
    have hl0 : nt0.labels.length = u.nodes.length := by
      obtain ⟨t1, _, _⟩ := addNodes_tab u1
      simp [t1]
    exact ⟨_, ⟨⟨nt0, et, nt, bt, ft, _, _, hn, he, hdim, hfn, hfb, hff,
      by rw [eb]; exact allclose_self _, by rw [ef]; exact allclose_self _,
      dofWhere_ok_iff.2 ⟨rfl, by rw [hflat, hl0]; exact hdof _ n4 n5 0 (Or.inl rfl)⟩,
      dofWhere_ok_iff.2 ⟨rfl, by rw [hflat, hl0]; exact hdof _ n4 n5 1 (Or.inr rfl)⟩, rfl⟩⟩⟩

theorem flatten_length_of {β : Type} {rows : List (List β)} {w : Nat} (h : ∀ r ∈ rows, r.length = w) :
    rows.flatten.length = rows.length * w := by
  induction rows with
  | nil => simp
  | cons r rs ih =>
    simp only [List.flatten_cons, List.length_append, List.length_cons]
    rw [ih (fun r hr => h r (List.mem_cons_of_mem _ hr)), h r (by simp)]
    rw [Nat.add_one_mul]; omega

theorem flatten_get {β : Type} {w : Nat} : ∀ {rows : List (List β)}, (∀ r ∈ rows, r.length = w) →
    ∀ (i c : Nat), c < w → rows.flatten[w * i + c]? = (rows[i]?).bind (fun r => r[c]?)
  | [], _, i, c, _ => by simp
  | r :: rs, h, i, c, hc => by
    have hr : r.length = w := h r (by simp)
    cases i with
    | zero =>
      simp only [List.flatten_cons, Nat.mul_zero, Nat.zero_add, List.getElem?_cons_zero,
        Option.bind_some]
      rw [List.getElem?_append_left (by omega)]
    | succ i =>
      simp only [List.flatten_cons, List.getElem?_cons_succ]
      rw [List.getElem?_append_right (by rw [hr, Nat.mul_succ]; omega)]
      rw [← flatten_get (fun r hr => h r (List.mem_cons_of_mem _ hr)) i c hc, hr]
      congr 1
      rw [Nat.mul_succ]
      omega

/-- `argsort` of a strictly ascending list is the identity. -/
theorem argsort_sorted {argsort : List Int → List Nat} (has : IsArgsort argsort) {l : List Int}
    (h : l.Pairwise (· < ·)) : argsort l = List.range l.length := by
  obtain ⟨hp, hs⟩ := has l
  have hlt := argsort_lt has l
  apply List.Perm.eq_of_pairwise (le := (· < ·)) (fun a b _ _ h1 h2 => by omega) _ List.pairwise_lt_range hp
  have hn : (argsort l).Nodup := hp.nodup_iff.2 List.nodup_range
  rw [List.pairwise_map] at hs
  have := (hs.and hn)
  refine List.Pairwise.imp_of_mem ?_ this
  rintro a b ha hb ⟨h1, h2⟩
  have ha' := hlt a ha
  have hb' := hlt b hb
  by_contra hc
  have hba : b < a := by omega
  have h3 := List.pairwise_iff_getElem.1 h b a hb' ha' hba
  simp [ha', hb'] at h1
  omega

theorem npTake_range {β : Type} (l : List β) : npTake l (List.range l.length) = .ok l := by
  cases l with
  | nil => rfl
  | cons a l =>
    rw [npTake_eq_map a (by simp)]
    rw [map_getD_range]

end TrussPy
