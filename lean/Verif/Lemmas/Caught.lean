import Verif.Caught
import Verif.Lemmas.Edit
import Verif.Spec.Caught
/-! Helper lemmas: calls whose exceptions are caught. -/

set_option linter.unusedSectionVars false

namespace TrussPy

variable {F : Type}

/-- What a call would have returned or raised. -/
def asPy {σ : Type} (r : σ × Py Unit) : Py σ := r.2.map fun _ => r.1

theorem addNodeC_agrees (h : Option (NodeTab F)) (n : Node F) : asPy (addNodeC h n) = addNode h n := by
  cases h with
  | none => rfl
  | some t =>
    simp only [addNodeC, addNode]
    cases t.coords.vstack n.coord <;> rfl

theorem addBoundUC_agrees (h : Option BoundTab) (n : BoundU) : asPy (addBoundUC h n) = addBoundU h n := by
  cases h with
  | none => rfl
  | some t =>
    simp only [addBoundUC, addBoundU]
    cases t.values.vstack n.values <;> rfl

theorem addForceC_agrees (h : Option (ForceTab F)) (n : ExtForce F) : asPy (addForceC h n) = addForce h n := by
  cases h with
  | none => rfl
  | some t =>
    simp only [addForceC, addForce]
    cases t.forces.vstack n.force <;> rfl

theorem addElemC_agrees (h : Option (ElemTab F)) (n : Elem F) : asPy (addElemC h n) = addElem h n := by
  cases h with
  | none => rfl
  | some t =>
    simp only [addElemC, addElem]
    cases t.conns.vstack n.conn with
    | error e => rfl
    | ok c =>
      cases h1 : t.mprop.vstack n.mprop with
      | error e => rfl
      | ok p => cases h2 : t.gprop.vstack n.gprop <;> rfl

theorem delNodeC_agrees (h : Option (NodeTab F)) (l : Int) : asPy (delNodeC h l) = delNode h l := by
  cases h with
  | none => rfl
  | some t =>
    simp only [delNodeC, delNode]
    cases npDelete t.labels (whereEq t.labels l) with
    | error e => rfl
    | ok c => cases h2 : t.coords.delete (whereEq t.labels l) <;> rfl

theorem delBoundUC_agrees (h : Option BoundTab) (l : Int) : asPy (delBoundUC h l) = delBoundU h l := by
  cases h with
  | none => rfl
  | some t =>
    simp only [delBoundUC, delBoundU]
    cases npDelete t.nodes (whereEq t.nodes l) with
    | error e => rfl
    | ok c => cases h2 : t.values.delete (whereEq t.nodes l) <;> rfl

theorem delForceC_agrees (h : Option (ForceTab F)) (l : Int) : asPy (delForceC h l) = delForce h l := by
  cases h with
  | none => rfl
  | some t =>
    simp only [delForceC, delForce]
    cases npDelete t.nodes (whereEq t.nodes l) with
    | error e => rfl
    | ok c => cases h2 : t.forces.delete (whereEq t.nodes l) <;> rfl

theorem delElemC_agrees (h : Option (ElemTab F)) (l : Int) : asPy (delElemC h l) = delElem h l := by
  cases h with
  | none => rfl
  | some t =>
    simp only [delElemC, delElem]
    cases npDelete t.labels (whereEq t.labels l) with
    | error e => rfl
    | ok c =>
      cases h1 : t.conns.delete (whereEq t.labels l) with
      | error e => rfl
      | ok p =>
        cases h2 : t.mprop.delete (whereEq t.labels l) with
        | error e => rfl
        | ok q => cases h3 : t.gprop.delete (whereEq t.labels l) <;> rfl

theorem addBoundsUC_agrees : ∀ (bs : List BoundU) (h : Option BoundTab), asPy (addBoundsUC h bs) = addBoundsU h bs
  | [], h => rfl
  | b :: bs, h => by
    have := addBoundUC_agrees h b
    rw [addBoundsUC, addBoundsU, List.foldlM_cons, ← this]
    generalize addBoundUC h b = res at *
    obtain ⟨h', r⟩ := res
    cases r with
    | error e => rfl
    | ok _ => exact addBoundsUC_agrees bs h'

theorem addForcesC_agrees : ∀ (bs : List (ExtForce F)) (h : Option (ForceTab F)), asPy (addForcesC h bs) = addForces h bs
  | [], h => rfl
  | b :: bs, h => by
    have := addForceC_agrees h b
    rw [addForcesC, addForces, List.foldlM_cons, ← this]
    generalize addForceC h b = res at *
    obtain ⟨h', r⟩ := res
    cases r with
    | error e => rfl
    | ok _ => exact addForcesC_agrees bs h'

theorem fixNodesC_agrees (as : List Int → List Nat) (t : NodeTab F) : asPy (fixNodesC as t) = fixNodes as t := by
  simp only [fixNodesC, fixNodes]
  cases npTake t.labels (as t.labels) with
  | error e => rfl
  | ok c => cases h2 : t.coords.take (as t.labels) <;> rfl

theorem fixBoundsUC_agrees (as : List Int → List Nat) (nl : List Int) (h : Option BoundTab) :
    (fixBoundsUC as nl h).2 = fixBoundsU as nl h ∧ ∀ t, (fixBoundsUC as nl h).2 = .ok t → (fixBoundsUC as nl h).1 = some t := by
  simp only [fixBoundsUC, fixBoundsU]
  rw [← addBoundsUC_agrees]
  generalize addBoundsUC h ((missing nl (h.map (·.nodes))).map fun n => ⟨n, [1, 1, 1]⟩) = res at *
  obtain ⟨h', r⟩ := res
  cases r with
  | error e => exact ⟨rfl, fun _ h => by cases h⟩
  | ok _ =>
    cases h' with
    | none => exact ⟨rfl, fun _ h => by cases h⟩
    | some t =>
      simp only [asPy, Except.map, py_bind_ok]
      cases npTake t.nodes (as t.nodes) with
      | error e => exact ⟨rfl, fun _ h => by cases h⟩
      | ok c =>
        cases h2 : t.values.take (as t.nodes) with
        | error e => exact ⟨rfl, fun _ h => by cases h⟩
        | ok v => exact ⟨rfl, fun _ h => by cases h; rfl⟩

theorem fixForcesC_agrees [Zero F] (as : List Int → List Nat) (nl : List Int) (h : Option (ForceTab F)) :
    (fixForcesC as nl h).2 = fixForces as nl h ∧ ∀ t, (fixForcesC as nl h).2 = .ok t → (fixForcesC as nl h).1 = some t := by
  cases h with
  | none => exact ⟨rfl, fun _ h => by cases h⟩
  | some t0 =>
    simp only [fixForcesC, fixForces]
    rw [← addForcesC_agrees]
    generalize addForcesC (some t0) ((missing nl (some t0.nodes)).map fun n => ⟨n, List.replicate t0.forces.cols 0⟩) = res at *
    obtain ⟨h', r⟩ := res
    cases r with
    | error e => exact ⟨rfl, fun _ h => by cases h⟩
    | ok _ =>
      cases h' with
      | none => exact ⟨rfl, fun _ h => by cases h⟩
      | some t =>
        simp only [asPy, Except.map, py_bind_ok]
        cases npTake t.nodes (as t.nodes) with
        | error e => exact ⟨rfl, fun _ h => by cases h⟩
        | ok c =>
          cases h2 : t.forces.take (as t.nodes) with
          | error e => exact ⟨rfl, fun _ h => by cases h⟩
          | ok v => exact ⟨rfl, fun _ h => by cases h; rfl⟩

theorem buildC_agrees [Zero F] (as : List Int → List Nat) (m : Model F) : asPy (m.buildC as) = m.build as := by
  obtain ⟨n, e, b, f, st, d, a, r⟩ := m
  unfold Model.buildC Model.build
  cases n with
  | none => rfl
  | some nt0 =>
    cases e with
    | none => rfl
    | some et =>
      simp only
      by_cases hd : st.ndim = 3
      swap
      · simp only [hd, ne_eq, not_false_eq_true, if_true]; rfl
      simp only [hd, ne_eq, not_true_eq_false, if_false]
      rw [← fixNodesC_agrees]
      generalize fixNodesC as nt0 = res at *
      obtain ⟨nt, r1⟩ := res
      cases r1 with
      | error e => rfl
      | ok _ =>
        simp only [asPy, Except.map, py_bind_ok]
        obtain ⟨b1, b2⟩ := fixBoundsUC_agrees as nt.labels b
        rw [← b1]
        generalize fixBoundsUC as nt.labels b = res at *
        obtain ⟨b', r2⟩ := res
        cases r2 with
        | error e => rfl
        | ok bt =>
          obtain rfl := b2 bt rfl
          simp only [py_bind_ok]
          obtain ⟨f1, f2⟩ := fixForcesC_agrees as nt.labels f
          rw [← f1]
          generalize fixForcesC as nt.labels f = res at *
          obtain ⟨f', r3⟩ := res
          cases r3 with
          | error e => rfl
          | ok ft =>
            obtain rfl := f2 ft rfl
            simp only [py_bind_ok, sameLabels]
            cases npAllclose nt.labels bt.nodes with
            | error e => rfl
            | ok okB =>
              cases okB with
              | false => rfl
              | true =>
                simp only [if_true, py_bind_ok]
                cases npAllclose nt.labels ft.nodes with
                | error e => rfl
                | ok okF =>
                  cases okF with
                  | false => rfl
                  | true =>
                    simp only [py_bind_ok, py_pure, Bool.and_self, Bool.not_true, Bool.false_eq_true, if_false]
                    cases dofWhere (nt0.labels.length * 3) bt.values.flatten 0 with
                    | error e => rfl
                    | ok d0 =>
                      simp only [py_bind_ok]
                      cases dofWhere (nt0.labels.length * 3) bt.values.flatten 1 with
                      | error e => rfl
                      | ok d1 => rfl


theorem take_length_le {α : Type} {as : List Int → List Nat} (has : IsArgsort as) {l : List Int} {rows r : List α}
    (h : npTake rows (as l) = .ok r) : l.length ≤ rows.length := by
  by_contra hlt
  push Not at hlt
  have hm : rows.length ∈ as l := (has l).1.mem_iff.2 (List.mem_range.2 hlt)
  exact absurd (npTake_ok_lt h _ hm) (lt_irrefl _)

theorem tab_vstack_ok {α : Type} {t t' : Tab α} {r : List α} (h : t.vstack r = .ok t') :
    t'.rows.length = t.rows.length + 1 := by
  unfold Tab.vstack at h
  split at h
  · cases h; simp
  · cases h

theorem nodesC_some : ∀ (ns : List (Node F)) (t : NodeTab F), ∃ t', ns.foldl (fun h n => (addNodeC h n).1) (some t) = some t' ∧
    t'.labels = t.labels ++ ns.map (·.label) ∧ t'.coords.rows.length ≤ t.coords.rows.length + ns.length ∧
    (t'.coords.rows.length = t.coords.rows.length + ns.length → addNodes (some t) ns = .ok (some t'))
  | [], t => ⟨t, rfl, by simp, by simp, fun _ => rfl⟩
  | n :: ns, t => by
    simp only [List.foldl_cons, addNodeC, addNodes, List.foldlM_cons, addNode]
    cases hv : t.coords.vstack n.coord with
    | error e =>
      obtain ⟨t', h1, h2, h3, _⟩ := nodesC_some ns ⟨t.labels ++ [n.label], t.coords⟩
      simp only at h2 h3
      refine ⟨t', h1, by simp [h2], by simp only [List.length_cons]; omega, fun h => ?_⟩
      simp only [List.length_cons] at h
      omega
    | ok c =>
      obtain ⟨t', h1, h2, h3, h4⟩ := nodesC_some ns ⟨t.labels ++ [n.label], c⟩
      have := tab_vstack_ok hv
      simp only at h2 h3 h4
      refine ⟨t', h1, by simp [h2], by simp only [List.length_cons]; omega, fun h => ?_⟩
      simp only [List.length_cons] at h
      exact h4 (by omega)

theorem forcesC_some : ∀ (ns : List (ExtForce F)) (t : ForceTab F), ∃ t', ns.foldl (fun h n => (addForceC h n).1) (some t) = some t' ∧
    t'.nodes = t.nodes ++ ns.map (·.node) ∧ t'.forces.rows.length ≤ t.forces.rows.length + ns.length ∧
    (t'.forces.rows.length = t.forces.rows.length + ns.length → addForces (some t) ns = .ok (some t'))
  | [], t => ⟨t, rfl, by simp, by simp, fun _ => rfl⟩
  | n :: ns, t => by
    simp only [List.foldl_cons, addForceC, addForces, List.foldlM_cons, addForce]
    cases hv : t.forces.vstack n.force with
    | error e =>
      obtain ⟨t', h1, h2, h3, _⟩ := forcesC_some ns ⟨t.nodes ++ [n.node], t.forces⟩
      simp only at h2 h3
      refine ⟨t', h1, by simp [h2], by simp only [List.length_cons]; omega, fun h => ?_⟩
      simp only [List.length_cons] at h
      omega
    | ok c =>
      obtain ⟨t', h1, h2, h3, h4⟩ := forcesC_some ns ⟨t.nodes ++ [n.node], c⟩
      have := tab_vstack_ok hv
      simp only at h2 h3 h4
      refine ⟨t', h1, by simp [h2], by simp only [List.length_cons]; omega, fun h => ?_⟩
      simp only [List.length_cons] at h
      exact h4 (by omega)

theorem addForces_count : ∀ (ns : List (ExtForce F)) {t : ForceTab F} {h : Option (ForceTab F)}, addForces (some t) ns = .ok h →
    ∃ t', h = some t' ∧ t'.nodes.length = t.nodes.length + ns.length ∧
      t'.forces.rows.length = t.forces.rows.length + ns.length
  | [], t, h, hh => by cases hh; exact ⟨t, rfl, rfl, rfl⟩
  | n :: ns, t, h, hh => by
    rw [addForces, List.foldlM_cons] at hh
    simp only [addForce] at hh
    cases hv : t.forces.vstack n.force with
    | error e => rw [hv] at hh; cases hh
    | ok c =>
      rw [hv] at hh
      obtain ⟨t', a1, a2, a3⟩ := addForces_count ns (t := ⟨t.nodes ++ [n.node], c⟩) hh
      have := tab_vstack_ok hv
      simp only [List.length_append, List.length_cons, List.length_nil] at a2 a3
      exact ⟨t', a1, by simp only [List.length_cons]; omega, by simp only [List.length_cons]; omega⟩

/-- Number of support rows. -/
def BArr.count : BArr → Nat
  | .d1 _ => 1
  | .d2 t => t.rows.length

/-- The table has become two-dimensional. -/
def BArr.is2 : BArr → Prop
  | .d1 _ => False
  | .d2 _ => True

theorem barr_vstack_ok {a b : BArr} {r : List Int} (h : a.vstack r = .ok b) : b.count = a.count + 1 ∧ b.is2 := by
  cases a with
  | d1 v =>
    simp only [BArr.vstack] at h
    split at h
    · cases h; exact ⟨rfl, trivial⟩
    · cases h
  | d2 t =>
    simp only [BArr.vstack] at h
    cases hv : t.vstack r with
    | error e => rw [hv] at h; cases h
    | ok t' => rw [hv] at h; cases h; exact ⟨tab_vstack_ok hv, trivial⟩

theorem boundsC_some : ∀ (ns : List BoundU) (t : BoundTab), ∃ t', ns.foldl (fun h n => (addBoundUC h n).1) (some t) = some t' ∧
    t'.nodes = t.nodes ++ ns.map (·.node) ∧ t'.values.count ≤ t.values.count + ns.length ∧
    (t'.values.count = t.values.count + ns.length → addBoundsU (some t) ns = .ok (some t')) ∧
    (t.values.is2 → t'.values.is2) ∧
    (∀ v, t.values = .d1 v → (∃ b ∈ ns, b.values.length = v.length) → t'.values.is2)
  | [], t => ⟨t, rfl, by simp, by simp, fun _ => rfl, id, fun v _ ⟨_, hb, _⟩ => by simp at hb⟩
  | n :: ns, t => by
    simp only [List.foldl_cons, addBoundUC, addBoundsU, List.foldlM_cons, addBoundU]
    cases hv : t.values.vstack n.values with
    | error e =>
      obtain ⟨t', h1, h2, h3, _, h5, h6⟩ := boundsC_some ns ⟨t.nodes ++ [n.node], t.values⟩
      simp only at h2 h3
      refine ⟨t', h1, by simp [h2], by simp only [List.length_cons]; omega, fun h => ?_, h5, fun v hd hb => ?_⟩
      · simp only [List.length_cons] at h
        omega
      · refine h6 v hd ?_
        obtain ⟨b, hb, hl⟩ := hb
        rcases List.mem_cons.1 hb with rfl | hb
        · rw [hd, BArr.vstack, if_pos hl] at hv; cases hv
        · exact ⟨b, hb, hl⟩
    | ok c =>
      obtain ⟨t', h1, h2, h3, h4, h5, _⟩ := boundsC_some ns ⟨t.nodes ++ [n.node], c⟩
      obtain ⟨hc, hd⟩ := barr_vstack_ok hv
      simp only at h2 h3 h4
      refine ⟨t', h1, by simp [h2], by simp only [List.length_cons]; omega, fun h => ?_, fun _ => h5 hd, fun _ _ _ => h5 hd⟩
      simp only [List.length_cons] at h
      exact h4 (by omega)

theorem addBoundsU_count : ∀ (ns : List BoundU) {t : BoundTab} {h : Option BoundTab}, addBoundsU (some t) ns = .ok h →
    ∃ t', h = some t' ∧ t'.nodes.length = t.nodes.length + ns.length ∧
      t'.values.count = t.values.count + ns.length ∧ (t.values.is2 ∨ ns ≠ [] → t'.values.is2)
  | [], t, h, hh => by cases hh; exact ⟨t, rfl, rfl, rfl, fun h => h.elim id fun h => absurd rfl h⟩
  | n :: ns, t, h, hh => by
    rw [addBoundsU, List.foldlM_cons] at hh
    simp only [addBoundU] at hh
    cases hv : t.values.vstack n.values with
    | error e => rw [hv] at hh; cases hh
    | ok c =>
      rw [hv] at hh
      obtain ⟨t', a1, a2, a3, a4⟩ := addBoundsU_count ns (t := ⟨t.nodes ++ [n.node], c⟩) hh
      obtain ⟨hc, hd⟩ := barr_vstack_ok hv
      simp only [List.length_append, List.length_cons, List.length_nil] at a2 a3
      exact ⟨t', a1, by simp only [List.length_cons]; omega, by simp only [List.length_cons]; omega, fun _ => a4 (.inl hd)⟩

theorem barr_take_le {as : List Int → List Nat} (has : IsArgsort as) {l : List Int} {a b : BArr} (h2 : a.is2)
    (h : a.take (as l) = .ok b) : l.length ≤ a.count := by
  cases a with
  | d1 v => exact h2.elim
  | d2 t =>
    simp only [BArr.take, Tab.take] at h
    cases hv : npTake t.rows (as l) with
    | error e => rw [hv] at h; cases h
    | ok r => exact take_length_le has hv

theorem fixNodes_full {as : List Int → List Nat} (has : IsArgsort as) {t nt : NodeTab F} (h : fixNodes as t = .ok nt) :
    t.labels.length ≤ t.coords.rows.length := by
  simp only [fixNodes] at h
  obtain ⟨_, _, h⟩ := py_bind_eq_ok.1 h
  obtain ⟨_, h, _⟩ := py_bind_eq_ok.1 h
  simp only [Tab.take] at h
  cases hv : npTake t.coords.rows (as t.labels) with
  | error e => rw [hv] at h; cases h
  | ok r => exact take_length_le has hv

theorem fixForces_full [Zero F] {as : List Int → List Nat} (has : IsArgsort as) {nl : List Int} {t nt : ForceTab F}
    (h : fixForces as nl (some t) = .ok nt) : t.nodes.length ≤ t.forces.rows.length := by
  simp only [fixForces] at h
  obtain ⟨_, h1, h⟩ := py_bind_eq_ok.1 h
  obtain ⟨t', rfl, a2, a3⟩ := addForces_count _ h1
  obtain ⟨_, _, h⟩ := py_bind_eq_ok.1 h
  obtain ⟨_, h, _⟩ := py_bind_eq_ok.1 h
  simp only [Tab.take] at h
  cases hv : npTake t'.forces.rows (as t'.nodes) with
  | error e => rw [hv] at h; cases h
  | ok r =>
    have := take_length_le has hv
    omega

theorem fixBounds_full {as : List Int → List Nat} (has : IsArgsort as) {nl : List Int} {t nt : BoundTab}
    (h2 : t.values.is2 ∨ missing nl (some t.nodes) ≠ [])
    (h : fixBoundsU as nl (some t) = .ok nt) : t.nodes.length ≤ t.values.count := by
  simp only [fixBoundsU] at h
  obtain ⟨_, h1, h⟩ := py_bind_eq_ok.1 h
  obtain ⟨t', rfl, a2, a3, a4⟩ := addBoundsU_count _ h1
  obtain ⟨_, _, h⟩ := py_bind_eq_ok.1 h
  obtain ⟨_, h, _⟩ := py_bind_eq_ok.1 h
  have := barr_take_le has (a4 (h2.imp id fun h hc => h (by simpa using hc))) h
  omega

/-! ### Elements -/

theorem ptab_vstack_ok {t t' : PTab F} {r : PRow F} (h : t.vstack r = .ok t') : t'.rows.length = t.rows.length + 1 := by
  unfold PTab.vstack at h
  split at h
  · cases h; simp
  · cases h

theorem addElemC_some (t : ElemTab F) (e : Elem F) : ∃ t', (addElemC (some t) e).1 = some t' ∧
    t'.labels = t.labels ++ [e.label] ∧ t'.gprop.rows.length ≤ t.gprop.rows.length + 1 ∧
    (t'.gprop.rows.length = t.gprop.rows.length + 1 → addElem (some t) e = .ok (some t')) := by
  rw [← addElemC_agrees]
  simp only [addElemC]
  cases t.conns.vstack e.conn with
  | error x => exact ⟨_, rfl, rfl, by simp, fun h => by simp at h⟩
  | ok c =>
    cases h1 : t.mprop.vstack e.mprop with
    | error x => exact ⟨_, rfl, rfl, by simp, fun h => by simp at h⟩
    | ok p =>
      cases h2 : t.gprop.vstack e.gprop with
      | error x => exact ⟨_, rfl, rfl, by simp, fun h => by simp at h⟩
      | ok q => exact ⟨_, rfl, rfl, (ptab_vstack_ok h2).le, fun _ => rfl⟩

theorem elemsC_some : ∀ (es : List (Elem F)) (t : ElemTab F), ∃ t', es.foldl (fun h n => (addElemC h n).1) (some t) = some t' ∧
    t'.labels = t.labels ++ es.map (·.label) ∧ t'.gprop.rows.length ≤ t.gprop.rows.length + es.length ∧
    (t'.gprop.rows.length = t.gprop.rows.length + es.length → addElems (some t) es = .ok (some t'))
  | [], t => ⟨t, rfl, by simp, by simp, fun _ => rfl⟩
  | n :: ns, t => by
    obtain ⟨t1, a1, a2, a3, a4⟩ := addElemC_some t n
    obtain ⟨t', h1, h2, h3, h4⟩ := elemsC_some ns t1
    refine ⟨t', by rw [List.foldl_cons, a1]; exact h1, by simp [h2, a2], by simp only [List.length_cons]; omega, fun h => ?_⟩
    simp only [List.length_cons] at h
    rw [addElems, List.foldlM_cons, a4 (by omega)]
    exact h4 (by omega)

/-! ### The state after a build -/

theorem fillB_perm [Zero F] {nl : List Int} {u : UserInput F} (h : nl.Perm (u.nodes.map (·.label))) :
    (fillB nl u.bounds).Perm u.filled.bounds := by
  refine List.Perm.append_left _ ?_
  refine ((h.filter _).map _).trans ?_
  rw [List.filter_map, List.map_map]
  exact .refl _

theorem fillF_perm [Zero F] {nl : List Int} {u : UserInput F} (h : nl.Perm (u.nodes.map (·.label))) :
    (fillF nl u.forces).Perm u.filled.forces := by
  refine List.Perm.append_left _ ?_
  refine ((h.filter _).map _).trans ?_
  rw [List.filter_map, List.map_map]
  exact .refl _

theorem asPy_ok {σ : Type} {r : σ × Py Unit} {s : σ} (h : asPy r = .ok s) : r = (s, .ok ()) := by
  obtain ⟨a, b⟩ := r
  cases b with
  | error e => cases h
  | ok _ => cases h; rfl

/-- What `build` leaves in the tables, whether it succeeds or refuses the labels. -/
theorem left_tables [Zero F] {as : List Int → List Nat} (has : IsArgsort as) {u : UserInput F} {m : Model F}
    (hu : Entered u m) (hnd : (u.nodes.map (·.label)).Nodup) (hlen : 2 ≤ u.nodes.length)
    (hw : ∀ b ∈ u.bounds, b.values.length = 3) (hf : u.forces ≠ []) {et : ElemTab F} (hel : m.elems = some et)
    (hdim : m.settings.ndim = 3) :
    ∃ (w : UserInput F) (wn wf : Nat), w.nodes.Perm u.filled.nodes ∧ w.bounds.Perm u.filled.bounds ∧
      w.forces.Perm u.filled.forces ∧ (m.buildC as).1.nodes = some (tabN wn w.nodes) ∧
      (m.buildC as).1.bounds = some (tabB 3 w.bounds) ∧ (m.buildC as).1.forces = some (tabF wf w.forces) ∧
      (∀ n ∈ w.nodes, n.coord.length = wn) ∧ (∀ n ∈ w.bounds, n.values.length = 3) ∧
      (∀ n ∈ w.forces, n.force.length = wf) ∧ (m.buildC as).1.elems = m.elems ∧
      withState et (m.buildC as).1.settings = withState et m.settings := by
  obtain ⟨hN, hB, hF⟩ := hu
  obtain ⟨n0, e0, b0, f0, st, d, an, re⟩ := m
  simp only at hN hB hF hel hdim
  subst hel
  cases n0 with
  | none =>
    match hn : u.nodes, hlen with
    | a :: r, _ => rw [hn, addNodes_none] at hN; simp at hN
  | some nt0 =>
    obtain ⟨nt, hnt⟩ := fixNodes_isOk has hN
    obtain ⟨p1, p2, p3, p4, p5⟩ := fixNodes_ok has hN hnt
    obtain ⟨a1, a2, a3⟩ := addNodes_tab hN
    have hnl : nt.labels.Nodup := p4.nodup_iff.2 hnd
    have hll : 2 ≤ nt.labels.length := by rw [p4.length_eq, List.length_map]; exact hlen
    have hwf : ∀ b ∈ fillB nt.labels u.bounds, b.values.length = 3 := by
      intro b hb
      rcases List.mem_append.1 hb with hb | hb
      · exact hw b hb
      · obtain ⟨n, _, rfl⟩ := List.mem_map.1 hb
        rfl
    obtain ⟨bt, hbt⟩ := fixBoundsU_exists has hB hll hnl hwf
    obtain ⟨wb, rs, q1, q2, q3, q4, q5, q6⟩ := fixBoundsU_ok has hll hnl hB hbt
    have hwb : wb = 3 := by
      match hfl : fillB nt.labels u.bounds with
      | [] =>
        have := subset_fillB nt.labels u.bounds
        rw [hfl] at this
        have := List.eq_nil_of_subset_nil this
        rw [this] at hll
        simp at hll
      | b :: _ =>
        have hb : b ∈ fillB nt.labels u.bounds := by rw [hfl]; simp
        rw [← q6 b hb, hwf b hb]
    subst hwb
    obtain ⟨ft, hft⟩ := fixForces_exists has hF hf (nl := nt.labels)
    obtain ⟨r1, r2, r3, r4, r5, r6, r7⟩ := fixForces_ok has hF hft
    have cN : fixNodesC as nt0 = (nt, .ok ()) := asPy_ok (by rw [fixNodesC_agrees, hnt])
    have cB : fixBoundsUC as nt.labels b0 = (some bt, .ok bt) := by
      obtain ⟨x1, x2⟩ := fixBoundsUC_agrees as nt.labels b0
      rw [hbt] at x1
      exact Prod.ext (x2 bt x1) x1
    have cF : fixForcesC as nt.labels f0 = (some ft, .ok ft) := by
      obtain ⟨x1, x2⟩ := fixForcesC_agrees as nt.labels f0
      rw [hft] at x1
      exact Prod.ext (x2 ft x1) x1
    let w : UserInput F := ⟨(nt.labels.zip nt.coords.rows).map fun p => ⟨p.1, p.2⟩, (bt.nodes.zip rs).map fun p => ⟨p.1, p.2⟩,
      (ft.nodes.zip ft.forces.rows).map fun p => ⟨p.1, p.2⟩⟩
    have w1 : w.nodes.Perm u.filled.nodes := by
      refine (p3.map _).trans ?_
      rw [List.map_map]
      exact .of_eq (List.map_id u.nodes)
    have w2' : w.bounds.Perm (fillB nt.labels u.bounds) := by
      refine (q3.map _).trans ?_
      rw [List.map_map]
      exact .of_eq (List.map_id (fillB nt.labels u.bounds))
    have w3' : w.forces.Perm (fillF nt.labels u.forces) := by
      refine (r3.map _).trans ?_
      rw [List.map_map]
      exact .of_eq (List.map_id (fillF nt.labels u.forces))
    have v1 : tabN nt.coords.cols w.nodes = nt := by
      simp only [tabN, w, List.map_map]
      rw [show ((fun n : Node F => n.label) ∘ fun p : Int × List F => (⟨p.1, p.2⟩ : Node F)) = Prod.fst from rfl,
        show ((fun n : Node F => n.coord) ∘ fun p : Int × List F => (⟨p.1, p.2⟩ : Node F)) = Prod.snd from rfl,
        zip_fst p2, zip_snd p2]
    have v2 : tabB 3 w.bounds = bt := by
      simp only [tabB, w, List.map_map]
      rw [show ((fun n : BoundU => n.node) ∘ fun p : Int × List Int => (⟨p.1, p.2⟩ : BoundU)) = Prod.fst from rfl,
        show ((fun n : BoundU => n.values) ∘ fun p : Int × List Int => (⟨p.1, p.2⟩ : BoundU)) = Prod.snd from rfl,
        zip_fst q2, zip_snd q2, ← q1]
    have v3 : tabF ft.forces.cols w.forces = ft := by
      simp only [tabF, w, List.map_map]
      rw [show ((fun n : ExtForce F => n.node) ∘ fun p : Int × List F => (⟨p.1, p.2⟩ : ExtForce F)) = Prod.fst from rfl,
        show ((fun n : ExtForce F => n.force) ∘ fun p : Int × List F => (⟨p.1, p.2⟩ : ExtForce F)) = Prod.snd from rfl,
        zip_fst r2, zip_snd r2]
    have key : ∀ M : Model F, M.nodes = some nt → M.bounds = some bt → M.forces = some ft → M.elems = some et →
        withState et M.settings = withState et st →
        ∃ (w : UserInput F) (wn wf : Nat), w.nodes.Perm u.filled.nodes ∧ w.bounds.Perm u.filled.bounds ∧
          w.forces.Perm u.filled.forces ∧ M.nodes = some (tabN wn w.nodes) ∧
          M.bounds = some (tabB 3 w.bounds) ∧ M.forces = some (tabF wf w.forces) ∧
          (∀ n ∈ w.nodes, n.coord.length = wn) ∧ (∀ n ∈ w.bounds, n.values.length = 3) ∧
          (∀ n ∈ w.forces, n.force.length = wf) ∧ M.elems = some et ∧ withState et M.settings = withState et st := by
      intro M h1 h2 h3 h4 h5
      refine ⟨w, nt.coords.cols, ft.forces.cols, w1, w2'.trans (fillB_perm p4), w3'.trans (fillF_perm p4), ?_, ?_, ?_, ?_, ?_, ?_, h4, h5⟩
      · rw [h1, v1]
      · rw [h2, v2]
      · rw [h3, v3]
      · intro n hn
        rw [p1]
        exact a3 n (w1.mem_iff.1 hn)
      · intro n hn
        exact hwf n (w2'.mem_iff.1 hn)
      · intro n hn
        rw [r1]
        exact r6 n (w3'.mem_iff.1 hn)
    unfold Model.buildC
    have hd : (st.ndim ≠ 3) = False := by simp [hdim]
    simp only [hd, if_false, cN, cB, cF]
    cases sameLabels nt bt ft with
    | error x => exact key _ rfl rfl rfl rfl rfl
    | ok s =>
      cases s with
      | false => exact key _ rfl rfl rfl rfl rfl
      | true =>
        simp only
        cases dofWhere (nt0.labels.length * 3) bt.values.flatten 0 with
        | error x => exact key _ rfl rfl rfl rfl (withState_idem et st)
        | ok d0 =>
          simp only
          cases dofWhere (nt0.labels.length * 3) bt.values.flatten 1 with
          | error x => exact key _ rfl rfl rfl rfl (withState_idem et st)
          | ok d1 => exact key _ rfl rfl rfl rfl (withState_idem et st)

end TrussPy
