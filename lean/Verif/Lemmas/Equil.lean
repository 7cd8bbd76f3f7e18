import Verif.Lemmas.NumPy
import Verif.Spec.Structure
/-!
# Closed form of `equilibrium` and `stiffness`, for every arithmetic
-/

set_option linter.unusedSectionVars false

namespace TrussPy

variable {F : Type} [Zero F] [One F] [Add F] [Sub F] [Mul F] [Div F] [Neg F] [Flt F]

/-- Evaluation of one bar. -/
def Bar.eval (b : Bar F) (U U0 : List F) (sv : Option (List F)) : Py (TrussOut F) :=
  trussCore b.law b.XA b.XE (row3 U b.iA) (row3 U b.iE) (row3 U0 b.iA) (row3 U0 b.iE) b.mat b.geo sv

/-- Add the forces of a bar. -/
def addBar (r : List (V3 F)) (p : Bar F × TrussOut F) : List (V3 F) :=
  (r.set p.1.iA (fun i => (r.getD p.1.iA (fun _ => 0)) i + p.2.N * -(p.2.n i))).set p.1.iE
    (fun i => (r.getD p.1.iE (fun _ => 0)) i + p.2.N * p.2.n i)

/-- Add the tangent blocks of a bar. -/
def addBarK (K : List (List (M3 F))) (p : Bar F × TrussOut F) : List (List (M3 F)) :=
  addBlock (addBlock (addBlock (addBlock K p.1.iA p.1.iA (trussK p.2))
    p.1.iA p.1.iE (fun i k => -(trussK p.2 i k))) p.1.iE p.1.iA (fun i k => -(trussK p.2 i k)))
    p.1.iE p.1.iE (trussK p.2)

/-- Overwrite the entries of `l` from position `k` on. -/
def writeFrom {α : Type} (l : List α) (k : Nat) (vs : List α) : List α := l.take k ++ vs ++ l.drop (k + vs.length)

theorem writeFrom_cons {α : Type} (l : List α) (k : Nat) (v : α) (vs : List α) (hk : k < l.length) :
    writeFrom (l.set k v) (k + 1) vs = writeFrom l k (v :: vs) := by
  unfold writeFrom
  apply List.ext_getElem?
  intro i
  simp only [List.length_cons]
  have e : k + 1 + vs.length = k + (vs.length + 1) := by omega
  rw [e]
  rw [List.take_add_one]
  simp only [List.getElem?_set_self hk, Option.toList_some, List.append_assoc, List.singleton_append]
  rw [List.take_set_of_le (Nat.le_refl _), List.drop_set_of_lt (by omega)]

theorem writeFrom_nil {α : Type} (l : List α) (k : Nat) : writeFrom l k [] = l := by
  simp [writeFrom]

theorem writeFrom_all {α : Type} (l vs : List α) (h : vs.length = l.length) : writeFrom l 0 vs = vs := by
  simp [writeFrom, h]

/-- The analysis object after the element at position `k` of a residual evaluation. -/
def applyG (c : Ctx F) (write : Bool) (lpf : F) (u : List F) (k : Nat) (b : Bar F) (o : TrussOut F)
    (a : Analysis F) : Analysis F :=
  let a1 : Analysis F := { a with
    stretch := a.stretch.set k o.lam
    elementStress := a.elementStress.set k o.stress
    elementForce := a.elementForce.set k o.N
    r := addBar a.r (b, o) }
  if write && decide (0 < c.nstatev) then
    { a1 with
      statev := a.statev.map fun sv => sv.set k (o.statev.getD [])
      lpf := some lpf
      Vred := u ++ [lpf] }
  else a1

theorem umat_statev {law : Umat} {e de : F} {mp : List F} {sv : Option (List F)} {o : UmatOut F}
    (h : law.call e de mp sv = .ok o) : o.statev.isSome = sv.isSome := by
  cases law with
  | el =>
    unfold Umat.call umatEl at h
    obtain ⟨E, -, h⟩ := py_bind_eq_ok.1 h
    cases h
    rfl
  | elplast =>
    unfold Umat.call umatElplastIso at h
    obtain ⟨E, -, h⟩ := py_bind_eq_ok.1 h
    obtain ⟨K, -, h⟩ := py_bind_eq_ok.1 h
    obtain ⟨Sy, -, h⟩ := py_bind_eq_ok.1 h
    cases sv with
    | none => cases h
    | some sv =>
      obtain ⟨x, -, h⟩ := py_bind_eq_ok.1 h
      obtain ⟨y, -, h⟩ := py_bind_eq_ok.1 h
      cases h
      rfl

theorem eval_statev {b : Bar F} {U U0 : List F} {sv : Option (List F)} {o : TrussOut F}
    (h : b.eval U U0 sv = .ok o) : o.statev.isSome = sv.isSome := by
  unfold Bar.eval trussCore at h
  obtain ⟨out, h1, h⟩ := py_bind_eq_ok.1 h
  obtain ⟨A, -, h⟩ := py_bind_eq_ok.1 h
  cases h
  exact umat_statev h1

theorem gather_rows {α : Type} (f : List Nat → Py α) (labels : List Int) (hnd : labels.Nodup) {iA iE : Nat}
    {NA NE : Int} (hA : labels[iA]? = some NA) (hE : labels[iE]? = some NE) {x y : α} (hx : f [iA] = .ok x)
    (hy : f [iE] = .ok y) : gatherRows f labels [NA, NE] = .ok [x, y] := by
  unfold gatherRows
  rw [whereEq_of_idx hnd hA, hx]
  unfold gatherRows
  rw [whereEq_of_idx hnd hE, hy]
  rfl

theorem row3_getElem? (U : List F) (n i : Nat) (h : i < n) :
    ((List.range n).map (row3 U))[i]? = some (row3 U i) := by
  simp [h]

theorem select_law {c : Ctx F} {k : Nat} {b : Bar F} (hb : c.IsBar k b) (prev : Option Umat) :
    ∃ ty, c.elems.mtype[k]? = some ty ∧ selectUmat prev ty = some b.law := by
  rcases hb.law with ⟨h1, h2⟩ | ⟨h1, h2⟩
  · exact ⟨1, h1, by rw [h2]; rfl⟩
  · exact ⟨2, h1, by rw [h2]; rfl⟩

/-- The common part of both stages: what an element reads. -/
theorem elemStep_reads {c : Ctx F} {bars : List (Bar F)} (hB : c.Bars bars) {k : Nat} {b : Bar F}
    (hk : bars[k]? = some b) {a : Analysis F} (hf : a.Fits c) {e : Int} (he : c.elems.labels[k]? = some e)
    (stage : Stage) (write : Bool) (lpf : F) (u : List F) (prev : Option Umat) :
    ∃ NA NE, c.nodes.labels[b.iA]? = some NA ∧ c.nodes.labels[b.iE]? = some NE ∧
    elemStep c stage write lpf u (a, prev) e = (do
      let (a, statev) ← truss e [NA, NE] [b.XA, b.XE] [row3 a.U b.iA, row3 a.U b.iE]
        [row3 a.U0 b.iA, row3 a.U0 b.iE] [a.r.getD b.iA (fun _ => 0), a.r.getD b.iE (fun _ => 0)]
        c.nodes.labels c.elems.labels stage (if 0 < c.nstatev then a.statev else none) b.mat b.geo b.law a
      let a := if write && decide (0 < c.nstatev) then
          { a with statev := statev, lpf := some lpf, Vred := u ++ [lpf] }
        else a
      return (a, some b.law)) := by
  have hb := hB.bar k b hk
  obtain ⟨NA, NE, h1, h2, h3⟩ := hb.conn
  obtain ⟨ty, h4, h5⟩ := select_law hb prev
  have hiA : b.iA < c.nnodes := by rw [hB.nnodes]; exact (List.getElem?_eq_some_iff.1 h2).1
  have hiE : b.iE < c.nnodes := by rw [hB.nnodes]; exact (List.getElem?_eq_some_iff.1 h3).1
  refine ⟨NA, NE, h2, h3, ?_⟩
  unfold elemStep
  have hw := whereEq_of_idx hB.elems he
  have g1 : getNodes c.elems e = .ok [NA, NE] := by unfold getNodes; rw [hw]; exact npFirst_single h1
  have g2 : getMaterialProperties c.elems e = .ok b.mat := by
    unfold getMaterialProperties; rw [hw]; exact npFirst_single hb.mat
  have g3 : getGeometricProperties c.elems e = .ok b.geo := by
    unfold getGeometricProperties; rw [hw]; exact npFirst_single hb.geo
  have g4 : getMaterialType c.elems e = .ok ty := by unfold getMaterialType; rw [hw]; exact npFirst_single h4
  have v3 : ∀ X : V3 F, toV3 [X 0, X 1, X 2] = .ok X := by
    intro X
    show Except.ok _ = Except.ok X
    congr 1
    funext i
    match i with
    | 0 => rfl
    | 1 => rfl
    | 2 => rfl
  have gX := gather_rows (fun idx => do let row ← npFirst c.nodes.coords.rows idx; toV3 row) _ hB.nodes h2 h3
    (x := b.XA) (y := b.XE) (by rw [npFirst_single hb.coordA]; exact v3 _) (by rw [npFirst_single hb.coordE]; exact v3 _)
  have gU := gather_rows (fun idx => npFirst ((List.range c.nnodes).map (row3 a.U)) idx) _ hB.nodes h2 h3
    (npFirst_single (row3_getElem? a.U _ _ hiA)) (npFirst_single (row3_getElem? a.U _ _ hiE))
  have gU0 := gather_rows (fun idx => npFirst ((List.range c.nnodes).map (row3 a.U0)) idx) _ hB.nodes h2 h3
    (npFirst_single (row3_getElem? a.U0 _ _ hiA)) (npFirst_single (row3_getElem? a.U0 _ _ hiE))
  have rr : ∀ i, i < c.nnodes → a.r[i]? = some (a.r.getD i (fun _ => 0)) := by
    intro i hi
    rw [← hf.r] at hi
    simp [List.getD, List.getElem?_eq_getElem hi]
  have gr := gather_rows (fun idx => npFirst a.r idx) _ hB.nodes h2 h3
    (npFirst_single (rr _ hiA)) (npFirst_single (rr _ hiE))
  simp only [g1, g2, g3, g4, py_bind_ok]
  rw [gX]
  simp only [py_bind_ok]
  rw [gU]
  simp only [py_bind_ok]
  rw [gU0]
  simp only [py_bind_ok]
  rw [gr]
  simp only [py_bind_ok, h5]

/-- One element of a residual evaluation. -/
theorem elemStep_G {c : Ctx F} {bars : List (Bar F)} (hB : c.Bars bars) {k : Nat} {b : Bar F}
    (hk : bars[k]? = some b) {a : Analysis F} (hf : a.Fits c) {e : Int} (he : c.elems.labels[k]? = some e)
    (write : Bool) (lpf : F) (u : List F) (prev : Option Umat) :
    elemStep c .G write lpf u (a, prev) e =
      (b.eval a.U a.U0 (stateRow c a.statev k)).map fun o => (applyG c write lpf u k b o a, some b.law) := by
  obtain ⟨NA, NE, h2, h3, hstep⟩ := elemStep_reads hB hk hf he .G write lpf u prev
  rw [hstep]
  have hke : k < c.elems.labels.length := (List.getElem?_eq_some_iff.1 he).1
  unfold truss
  simp only [whereEq_of_idx hB.elems he, whereEq_of_idx hB.nodes h2, whereEq_of_idx hB.nodes h3, setAll_single]
  by_cases hn : 0 < c.nstatev
  · obtain ⟨sv, hsv, hlen⟩ := hf.statev hn
    have hrow : sv[k]? = some (sv[k]'(by omega)) := List.getElem?_eq_getElem _
    simp only [elemState, hn, if_true, hsv, npFirst_single hrow, py_bind_ok, py_pure]
    have hst : stateRow c (some sv) k = some (sv[k]'(by omega)) := by
      unfold stateRow
      rw [if_pos hn]
      exact hrow
    rw [hst]
    unfold Bar.eval
    cases ho : trussCore b.law b.XA b.XE (row3 a.U b.iA) (row3 a.U b.iE) (row3 a.U0 b.iA) (row3 a.U0 b.iE)
        b.mat b.geo (some (sv[k]'(by omega))) with
    | error err => rfl
    | ok o =>
      have hs := eval_statev (b := b) ho
      obtain ⟨row, hrow'⟩ := Option.isSome_iff_exists.1 (hs.trans rfl)
      simp only [py_bind_ok, Except.map, applyG, addBar, hrow', hsv, hn, decide_true, Bool.and_true,
        Option.map_some, Option.getD_some]
  · simp only [elemState, hn, if_false, py_bind_ok, py_pure, decide_false, Bool.and_false, Bool.false_eq_true]
    have hst : stateRow c a.statev k = none := by unfold stateRow; rw [if_neg hn]
    rw [hst]
    unfold Bar.eval
    cases ho : trussCore b.law b.XA b.XE (row3 a.U b.iA) (row3 a.U b.iE) (row3 a.U0 b.iA) (row3 a.U0 b.iE)
        b.mat b.geo none with
    | error err => rfl
    | ok o =>
      simp only [py_bind_ok, Except.map, applyG, addBar, hn, decide_false, Bool.and_false, Bool.false_eq_true, if_false]

/-- One element of a stiffness evaluation. -/
theorem elemStep_K {c : Ctx F} {bars : List (Bar F)} (hB : c.Bars bars) {k : Nat} {b : Bar F}
    (hk : bars[k]? = some b) {a : Analysis F} (hf : a.Fits c) {e : Int} (he : c.elems.labels[k]? = some e)
    (lpf : F) (u : List F) (prev : Option Umat) :
    elemStep c .K false lpf u (a, prev) e =
      (b.eval a.U a.U0 (stateRow c a.statev k)).map fun o => ({ a with K := addBarK a.K (b, o) }, some b.law) := by
  obtain ⟨NA, NE, h2, h3, hstep⟩ := elemStep_reads hB hk hf he .K false lpf u prev
  rw [hstep]
  have hke : k < c.elems.labels.length := (List.getElem?_eq_some_iff.1 he).1
  unfold truss
  have f1 : firstIdx c.nodes.labels NA = .ok b.iA := by unfold firstIdx; rw [whereEq_of_idx hB.nodes h2]
  have f2 : firstIdx c.nodes.labels NE = .ok b.iE := by unfold firstIdx; rw [whereEq_of_idx hB.nodes h3]
  simp only [whereEq_of_idx hB.elems he, f1, f2]
  by_cases hn : 0 < c.nstatev
  · obtain ⟨sv, hsv, hlen⟩ := hf.statev hn
    have hrow : sv[k]? = some (sv[k]'(by omega)) := List.getElem?_eq_getElem _
    simp only [elemState, hn, if_true, hsv, npFirst_single hrow, py_bind_ok, py_pure, Bool.false_and, Bool.false_eq_true]
    have hst : stateRow c (some sv) k = some (sv[k]'(by omega)) := by
      unfold stateRow
      rw [if_pos hn]
      exact hrow
    rw [hst]
    unfold Bar.eval
    cases ho : trussCore b.law b.XA b.XE (row3 a.U b.iA) (row3 a.U b.iE) (row3 a.U0 b.iA) (row3 a.U0 b.iE)
        b.mat b.geo (some (sv[k]'(by omega))) with
    | error err => rfl
    | ok o => simp only [py_bind_ok, Except.map, addBarK, if_false]
  · simp only [elemState, hn, if_false, py_bind_ok, py_pure, Bool.false_and, Bool.false_eq_true]
    have hst : stateRow c a.statev k = none := by unfold stateRow; rw [if_neg hn]
    rw [hst]
    unfold Bar.eval
    cases ho : trussCore b.law b.XA b.XE (row3 a.U b.iA) (row3 a.U b.iE) (row3 a.U0 b.iA) (row3 a.U0 b.iE)
        b.mat b.geo none with
    | error err => rfl
    | ok o => simp only [py_bind_ok, Except.map, addBarK]

/-! ## The element loop -/

/-- Evaluation of all bars from position `k` on, in table order. -/
def evalAll (c : Ctx F) (U U0 : List F) (sv : Option (List (List F))) : List (Bar F) → Nat → Py (List (TrussOut F))
  | [], _ => .ok []
  | b :: bs, k => do
    let o ← b.eval U U0 (stateRow c sv k)
    let os ← evalAll c U U0 sv bs (k + 1)
    return o :: os

/-- The analysis object after a residual evaluation of the bars from position `k` on. -/
def finalG (c : Ctx F) (write : Bool) (lpf : F) (u : List F) (bs : List (Bar F)) (k : Nat)
    (outs : List (TrussOut F)) (a : Analysis F) : Analysis F :=
  let a1 : Analysis F := { a with
    stretch := writeFrom a.stretch k (outs.map (·.lam))
    elementStress := writeFrom a.elementStress k (outs.map (·.stress))
    elementForce := writeFrom a.elementForce k (outs.map (·.N))
    r := (bs.zip outs).foldl addBar a.r }
  if write && decide (0 < c.nstatev) && !bs.isEmpty then
    { a1 with
      statev := a.statev.map fun sv => writeFrom sv k (outs.map fun o => o.statev.getD [])
      lpf := some lpf
      Vred := u ++ [lpf] }
  else a1

theorem addBar_length (r : List (V3 F)) (p : Bar F × TrussOut F) : (addBar r p).length = r.length := by
  simp [addBar]

theorem applyG_U (c : Ctx F) (write : Bool) (lpf : F) (u : List F) (k : Nat) (b : Bar F) (o : TrussOut F)
    (a : Analysis F) : (applyG c write lpf u k b o a).U = a.U ∧ (applyG c write lpf u k b o a).U0 = a.U0 := by
  unfold applyG
  split <;> exact ⟨rfl, rfl⟩

theorem applyG_fits {c : Ctx F} {a : Analysis F} (hf : a.Fits c) (write : Bool) (lpf : F) (u : List F) (k : Nat)
    (b : Bar F) (o : TrussOut F) : (applyG c write lpf u k b o a).Fits c := by
  unfold applyG
  split
  · refine ⟨hf.U, hf.U0, ?_, hf.K, hf.Krow, ?_, ?_, ?_, ?_, hf.dof, hf.dofNodup⟩
    · simp only [addBar_length]; exact hf.r
    · simp only [List.length_set]; exact hf.stretch
    · simp only [List.length_set]; exact hf.force
    · simp only [List.length_set]; exact hf.stress
    · intro hn
      obtain ⟨sv, h1, h2⟩ := hf.statev hn
      exact ⟨_, by simp only [h1, Option.map_some]; rfl, by simp only [List.length_set]; exact h2⟩
  · refine ⟨hf.U, hf.U0, ?_, hf.K, hf.Krow, ?_, ?_, ?_, hf.statev, hf.dof, hf.dofNodup⟩
    · simp only [addBar_length]; exact hf.r
    · simp only [List.length_set]; exact hf.stretch
    · simp only [List.length_set]; exact hf.force
    · simp only [List.length_set]; exact hf.stress

theorem applyG_stateRow (c : Ctx F) (write : Bool) (lpf : F) (u : List F) (k : Nat) (b : Bar F) (o : TrussOut F)
    (a : Analysis F) {i : Nat} (hi : k < i) :
    stateRow c (applyG c write lpf u k b o a).statev i = stateRow c a.statev i := by
  unfold applyG stateRow
  split
  · split
    · cases a.statev with
      | none => rfl
      | some sv =>
        show (sv.set k _)[i]? = sv[i]?
        rw [List.getElem?_set]
        rw [if_neg (by omega)]
    · rfl
  · rfl

theorem evalAll_congr (c : Ctx F) (U U0 : List F) (sv sv' : Option (List (List F))) (bs : List (Bar F)) :
    ∀ k, (∀ i, k ≤ i → stateRow c sv i = stateRow c sv' i) → evalAll c U U0 sv bs k = evalAll c U U0 sv' bs k := by
  induction bs with
  | nil => intro k _; rfl
  | cons b bs ih =>
    intro k h
    unfold evalAll
    rw [h k (Nat.le_refl _), ih (k + 1) (fun i hi => h i (by omega))]

theorem evalAll_length {c : Ctx F} {U U0 : List F} {sv : Option (List (List F))} {bs : List (Bar F)} :
    ∀ {k outs}, evalAll c U U0 sv bs k = .ok outs → outs.length = bs.length := by
  induction bs with
  | nil => intro k outs h; cases h; rfl
  | cons b bs ih =>
    intro k outs h
    unfold evalAll at h
    obtain ⟨o, -, h⟩ := py_bind_eq_ok.1 h
    obtain ⟨os, h2, h⟩ := py_bind_eq_ok.1 h
    cases h
    simp [ih h2]

theorem evalAll_get {c : Ctx F} {U U0 : List F} {sv : Option (List (List F))} {bs : List (Bar F)} :
    ∀ {k outs}, evalAll c U U0 sv bs k = .ok outs → ∀ {i : Nat} {b : Bar F}, bs[i]? = some b →
      ∃ o, outs[i]? = some o ∧ b.eval U U0 (stateRow c sv (k + i)) = .ok o := by
  induction bs with
  | nil => intro k outs h i b hb; simp at hb
  | cons b0 bs ih =>
    intro k outs h i b hb
    unfold evalAll at h
    obtain ⟨o, h1, h⟩ := py_bind_eq_ok.1 h
    obtain ⟨os, h2, h⟩ := py_bind_eq_ok.1 h
    cases h
    cases i with
    | zero =>
      simp only [List.getElem?_cons_zero, Option.some.injEq] at hb
      subst hb
      exact ⟨o, rfl, h1⟩
    | succ i =>
      simp only [List.getElem?_cons_succ] at hb
      obtain ⟨o', h3, h4⟩ := ih h2 hb
      exact ⟨o', h3, by rw [show k + (i + 1) = k + 1 + i by omega]; exact h4⟩

theorem finalG_cons (c : Ctx F) (write : Bool) (lpf : F) (u : List F) (b : Bar F) (bs : List (Bar F)) (k : Nat)
    (o : TrussOut F) (os : List (TrussOut F)) (a : Analysis F) (hf : a.Fits c) (hk : k < c.elems.labels.length)
    (hos : os.length = bs.length) :
    finalG c write lpf u bs (k + 1) os (applyG c write lpf u k b o a) = finalG c write lpf u (b :: bs) k (o :: os) a := by
  have e1 := writeFrom_cons a.stretch k o.lam (os.map (·.lam)) (by rw [hf.stretch]; exact hk)
  have e2 := writeFrom_cons a.elementStress k o.stress (os.map (·.stress)) (by rw [hf.stress]; exact hk)
  have e3 := writeFrom_cons a.elementForce k o.N (os.map (·.N)) (by rw [hf.force]; exact hk)
  by_cases hw : (write && decide (0 < c.nstatev)) = true
  · have hn : 0 < c.nstatev := by
      simp only [Bool.and_eq_true, decide_eq_true_eq] at hw
      exact hw.2
    obtain ⟨sv, hsv, hlen⟩ := hf.statev hn
    have e4 := writeFrom_cons sv k (o.statev.getD []) (os.map fun o => o.statev.getD []) (by omega)
    unfold applyG finalG
    simp only [hw, if_true, Bool.true_and, List.isEmpty_cons, Bool.not_false, hsv, Option.map_some, List.map_cons,
      List.zip_cons_cons, List.foldl_cons, e1, e2, e3, e4]
    cases bs with
    | nil =>
      cases os with
      | nil =>
        simp only [List.map_nil, writeFrom_nil] at e4
        simp only [List.isEmpty_nil, Bool.not_true, Bool.false_eq_true, if_false, List.map_nil, ← e4]
      | cons o' os => simp at hos
    | cons b' bs => simp only [List.isEmpty_cons, Bool.not_false, if_true]
  · unfold applyG finalG
    simp only [hw, Bool.false_eq_true, if_false, Bool.false_and, List.map_cons,
      List.zip_cons_cons, List.foldl_cons, e1, e2, e3]

theorem foldG {c : Ctx F} {bars : List (Bar F)} (hB : c.Bars bars) (write : Bool) (lpf : F) (u : List F)
    (bs : List (Bar F)) : ∀ (ls : List Int) (k : Nat) (a : Analysis F) (prev : Option Umat), a.Fits c →
      ls.length = bs.length → (∀ i, bs[i]? = bars[k + i]?) → (∀ i, ls[i]? = c.elems.labels[k + i]?) →
      (ls.foldlM (elemStep c .G write lpf u) (a, prev)).map Prod.fst =
        (evalAll c a.U a.U0 a.statev bs k).map fun outs => finalG c write lpf u bs k outs a := by
  induction bs with
  | nil =>
    intro ls k a prev hf hlen hb hl
    have : ls = [] := List.length_eq_zero_iff.1 hlen
    subst this
    simp [evalAll, finalG, writeFrom_nil, Except.map, List.foldlM, pure, Except.pure]
  | cons b bs ih =>
    intro ls k a prev hf hlen hb hl
    cases ls with
    | nil => simp at hlen
    | cons e ls =>
      have hk : bars[k]? = some b := by rw [← Nat.add_zero k, ← hb 0]; rfl
      have he : c.elems.labels[k]? = some e := by rw [← Nat.add_zero k, ← hl 0]; rfl
      have hke : k < c.elems.labels.length := (List.getElem?_eq_some_iff.1 he).1
      rw [List.foldlM_cons, elemStep_G hB hk hf he]
      unfold evalAll
      cases ho : b.eval a.U a.U0 (stateRow c a.statev k) with
      | error err => rfl
      | ok o =>
        have h1 := ih ls (k + 1) (applyG c write lpf u k b o a) (some b.law) (applyG_fits hf ..)
          (by simpa using hlen) (fun i => by rw [show k + 1 + i = k + (i + 1) by omega, ← hb (i + 1)]; rfl)
          (fun i => by rw [show k + 1 + i = k + (i + 1) by omega, ← hl (i + 1)]; rfl)
        obtain ⟨hU, hU0⟩ := applyG_U c write lpf u k b o a
        rw [hU, hU0, evalAll_congr c a.U a.U0 _ a.statev bs (k + 1)
          (fun i hi => applyG_stateRow c write lpf u k b o a (by omega))] at h1
        show Except.map Prod.fst (List.foldlM (elemStep c .G write lpf u) (applyG c write lpf u k b o a, some b.law) ls) = _
        rw [h1]
        simp only [py_bind_ok]
        cases hos : evalAll c a.U a.U0 a.statev bs (k + 1) with
        | error err => rfl
        | ok os =>
          exact congrArg Except.ok (finalG_cons c write lpf u b bs k o os a hf hke (evalAll_length hos))

/-- The analysis object after a stiffness evaluation. -/
def finalK (bs : List (Bar F)) (outs : List (TrussOut F)) (a : Analysis F) : Analysis F :=
  { a with K := (bs.zip outs).foldl addBarK a.K }

/-- A square array of blocks. -/
def SquareK (K : List (List (M3 F))) (n : Nat) : Prop := K.length = n ∧ ∀ row ∈ K, row.length = n

theorem addBlock_square {K : List (List (M3 F))} {n : Nat} (h : SquareK K n) (p q : Nat) (m : M3 F) :
    SquareK (addBlock K p q m) n := by
  unfold addBlock
  refine ⟨by simp only [List.length_modify]; exact h.1, ?_⟩
  intro row hrow
  obtain ⟨i, hi⟩ := List.getElem?_of_mem hrow
  rw [List.getElem?_modify] at hi
  cases hK : K[i]? with
  | none => rw [hK] at hi; simp at hi
  | some row' =>
    have := h.2 row' (List.mem_of_getElem? hK)
    rw [hK] at hi
    by_cases hpi : p = i
    · simp only [hpi, if_true] at hi
      have := Option.some.inj hi
      rw [← this]
      simpa using h.2 row' (List.mem_of_getElem? hK)
    · simp only [hpi, if_false] at hi
      have := Option.some.inj hi
      rw [← this]
      exact h.2 row' (List.mem_of_getElem? hK)

theorem addBarK_square {K : List (List (M3 F))} {n : Nat} (h : SquareK K n) (p : Bar F × TrussOut F) :
    SquareK (addBarK K p) n :=
  addBlock_square (addBlock_square (addBlock_square (addBlock_square h _ _ _) _ _ _) _ _ _) _ _ _

theorem foldK {c : Ctx F} {bars : List (Bar F)} (hB : c.Bars bars) (lpf : F) (u : List F)
    (bs : List (Bar F)) : ∀ (ls : List Int) (k : Nat) (a : Analysis F) (prev : Option Umat), a.Fits c →
      ls.length = bs.length → (∀ i, bs[i]? = bars[k + i]?) → (∀ i, ls[i]? = c.elems.labels[k + i]?) →
      (ls.foldlM (elemStep c .K false lpf u) (a, prev)).map Prod.fst =
        (evalAll c a.U a.U0 a.statev bs k).map fun outs => finalK bs outs a := by
  induction bs with
  | nil =>
    intro ls k a prev hf hlen hb hl
    have : ls = [] := List.length_eq_zero_iff.1 hlen
    subst this
    rfl
  | cons b bs ih =>
    intro ls k a prev hf hlen hb hl
    cases ls with
    | nil => simp at hlen
    | cons e ls =>
      have hk : bars[k]? = some b := by rw [← Nat.add_zero k, ← hb 0]; rfl
      have he : c.elems.labels[k]? = some e := by rw [← Nat.add_zero k, ← hl 0]; rfl
      rw [List.foldlM_cons, elemStep_K hB hk hf he]
      unfold evalAll
      cases ho : b.eval a.U a.U0 (stateRow c a.statev k) with
      | error err => rfl
      | ok o =>
        have hsq := addBarK_square ⟨hf.K, hf.Krow⟩ (b, o)
        have h1 := ih ls (k + 1) { a with K := addBarK a.K (b, o) } (some b.law)
          ⟨hf.U, hf.U0, hf.r, hsq.1, hsq.2, hf.stretch, hf.force, hf.stress, hf.statev, hf.dof, hf.dofNodup⟩
          (by simpa using hlen) (fun i => by rw [show k + 1 + i = k + (i + 1) by omega, ← hb (i + 1)]; rfl)
          (fun i => by rw [show k + 1 + i = k + (i + 1) by omega, ← hl (i + 1)]; rfl)
        show Except.map Prod.fst (List.foldlM (elemStep c .K false lpf u)
          ({ a with K := addBarK a.K (b, o) }, some b.law) ls) = _
        rw [h1]
        simp only [py_bind_ok]
        cases hos : evalAll c a.U a.U0 a.statev bs (k + 1) with
        | error err => rfl
        | ok os => rfl

/-! ## `scatter` -/

theorem foldl_set_length {α : Type} (ps : List (Nat × α)) : ∀ u : List α,
    (ps.foldl (fun acc p => acc.set p.1 p.2) u).length = u.length := by
  induction ps with
  | nil => intro u; rfl
  | cons p ps ih => intro u; rw [List.foldl_cons, ih]; simp

theorem foldl_set_other {α : Type} (ps : List (Nat × α)) : ∀ (u : List α) {i : Nat}, (∀ p ∈ ps, p.1 ≠ i) →
    (ps.foldl (fun acc p => acc.set p.1 p.2) u)[i]? = u[i]? := by
  induction ps with
  | nil => intro u i _; rfl
  | cons p ps ih =>
    intro u i h
    rw [List.foldl_cons, ih _ (fun q hq => h q (by simp [hq])), List.getElem?_set_ne (h p (by simp))]

theorem foldl_set_mem {α : Type} (ps : List (Nat × α)) : ∀ (u : List α) {i : Nat} {x : α},
    (ps.map Prod.fst).Nodup → i < u.length → (i, x) ∈ ps →
    (ps.foldl (fun acc p => acc.set p.1 p.2) u)[i]? = some x := by
  induction ps with
  | nil => intro u i x _ _ h; cases h
  | cons p ps ih =>
    intro u i x hnd hi h
    rw [List.foldl_cons]
    rw [List.map_cons, List.nodup_cons] at hnd
    rcases List.mem_cons.1 h with h | h
    · subst h
      rw [foldl_set_other]
      · simp [List.getElem?_set_self hi]
      · intro q hq hqi
        exact hnd.1 (List.mem_map.2 ⟨q, hq, hqi⟩)
    · exact ih _ hnd.2 (by simpa using hi) h

theorem scatter_length {u v w : List F} {idx : List Nat} (h : scatter u idx v = .ok w) : w.length = u.length := by
  unfold scatter at h
  split at h
  · cases h; exact foldl_set_length _ _
  · split at h
    · cases h; exact setAll_length _ _ _
    · cases h

theorem scatter_other {u v w : List F} {idx : List Nat} (h : scatter u idx v = .ok w) {i : Nat} (hi : i ∉ idx) :
    w[i]? = u[i]? := by
  unfold scatter at h
  split at h
  · cases h
    refine foldl_set_other _ _ ?_
    intro p hp hpi
    exact hi (hpi ▸ (List.of_mem_zip hp).1)
  · split at h
    · cases h
      rw [getElem?_setAll]
      simp [hi]
    · cases h

theorem scatter_mem {u v w : List F} {idx : List Nat} (h : scatter u idx v = .ok w) (hlen : v.length = idx.length)
    (hnd : idx.Nodup) (hlt : ∀ i ∈ idx, i < u.length) {m i : Nat} (hm : idx[m]? = some i) : w[i]? = v[m]? := by
  unfold scatter at h
  rw [if_pos hlen] at h
  cases h
  obtain ⟨hm', hmi⟩ := List.getElem?_eq_some_iff.1 hm
  have hv : v[m]? = some (v[m]'(by omega)) := List.getElem?_eq_getElem _
  rw [hv]
  refine foldl_set_mem _ _ ?_ (hlt i (List.mem_of_getElem? hm)) ?_
  · rw [List.map_fst_zip (by omega)]
    exact hnd
  · refine List.mem_iff_getElem?.2 ⟨m, ?_⟩
    rw [List.getElem?_zip_eq_some]
    exact ⟨hm, hv⟩

theorem scatter_ok {u v : List F} {idx : List Nat} (hlen : v.length = idx.length) : ∃ w, scatter u idx v = .ok w := by
  unfold scatter
  rw [if_pos hlen]
  exact ⟨_, rfl⟩

/-- After scattering, the active entries are the given vector. -/
theorem npTake_scatter {u v w : List F} {idx : List Nat} (h : scatter u idx v = .ok w) (hlen : v.length = idx.length)
    (hnd : idx.Nodup) (hlt : ∀ i ∈ idx, i < u.length) : npTake w idx = .ok v := by
  rw [npTake_eq_map (0 : F) (fun i hi => by rw [scatter_length h]; exact hlt i hi)]
  congr 1
  apply List.ext_getElem?
  intro m
  rw [List.getElem?_map]
  cases hm : idx[m]? with
  | none =>
    have := List.getElem?_eq_none_iff.1 hm
    simp only [Option.map_none]
    rw [List.getElem?_eq_none_iff.2 (by omega)]
  | some i =>
    have h1 := scatter_mem h hlen hnd hlt hm
    have h2 : m < v.length := by rw [hlen]; exact (List.getElem?_eq_some_iff.1 hm).1
    simp only [Option.map_some]
    rw [List.getD_eq_getElem?_getD, h1, List.getElem?_eq_getElem h2]
    rfl

/-! ## Closed forms -/

theorem prepare_fits {c : Ctx F} {a a1 : Analysis F} (hf : a.Fits c) {u u0 : List F} {st : Stage}
    (h : prepare a u u0 st = .ok a1) : a1.Fits c := by
  unfold prepare at h
  cases st with
  | G =>
    obtain ⟨U, h1, h⟩ := py_bind_eq_ok.1 h
    obtain ⟨U0, h2, h⟩ := py_bind_eq_ok.1 h
    cases h
    exact ⟨(scatter_length h1).trans hf.U, (scatter_length h2).trans hf.U0, by simp only [List.length_map]; exact hf.r,
      hf.K, hf.Krow, hf.stretch, hf.force, hf.stress, hf.statev, hf.dof, hf.dofNodup⟩
  | K =>
    obtain ⟨U, h1, h⟩ := py_bind_eq_ok.1 h
    obtain ⟨U0, h2, h⟩ := py_bind_eq_ok.1 h
    cases h
    refine ⟨(scatter_length h1).trans hf.U, (scatter_length h2).trans hf.U0, hf.r,
      by simp only [List.length_map]; exact hf.K, ?_, hf.stretch, hf.force, hf.stress, hf.statev, hf.dof, hf.dofNodup⟩
    intro row hrow
    simp only [List.mem_map] at hrow
    obtain ⟨row', hr, rfl⟩ := hrow
    simpa using hf.Krow row' hr

/-- Zero nodal forces. -/
def zeroR (n : Nat) : List (V3 F) := List.replicate n fun _ => 0

/-- Zero blocks. -/
def zeroK (n : Nat) : List (List (M3 F)) := List.replicate n (List.replicate n fun _ _ => 0)

theorem map_zeroR {r : List (V3 F)} {n : Nat} (h : r.length = n) : (r.map fun _ => fun _ => (0 : F)) = zeroR n := by
  unfold zeroR
  rw [List.map_const', h]

theorem map_zeroK {K : List (List (M3 F))} {n : Nat} (h1 : K.length = n) (h2 : ∀ row ∈ K, row.length = n) :
    (K.map fun row => row.map fun _ => fun _ _ => (0 : F)) = zeroK n := by
  unfold zeroK
  rw [List.eq_replicate_iff]
  refine ⟨by simpa using h1, ?_⟩
  intro row hrow
  simp only [List.mem_map] at hrow
  obtain ⟨row', hr, rfl⟩ := hrow
  rw [List.map_const', h2 row' hr]

/-- The analysis object after a complete residual evaluation. -/
def afterG (c : Ctx F) (write : Bool) (lpf : F) (u : List F) (U U0 : List F) (bars : List (Bar F))
    (outs : List (TrussOut F)) (g : List F) (a : Analysis F) : Analysis F :=
  let a1 : Analysis F := { a with
    U := U
    U0 := U0
    stretch := outs.map (·.lam)
    elementStress := outs.map (·.stress)
    elementForce := outs.map (·.N)
    r := (bars.zip outs).foldl addBar (zeroR c.nnodes)
    g := g }
  if write && decide (0 < c.nstatev) && !bars.isEmpty then
    { a1 with
      statev := some (outs.map fun o => o.statev.getD [])
      lpf := some lpf
      Vred := u ++ [lpf] }
  else a1

theorem finalG_same (c : Ctx F) (write : Bool) (lpf : F) (u : List F) (bs : List (Bar F)) (k : Nat)
    (outs : List (TrussOut F)) (a : Analysis F) : (finalG c write lpf u bs k outs a).extForces = a.extForces ∧
      (finalG c write lpf u bs k outs a).DOF1 = a.DOF1 ∧
      (finalG c write lpf u bs k outs a).r = (bs.zip outs).foldl addBar a.r := by
  unfold finalG
  by_cases hw : (write && decide (0 < c.nstatev) && !bs.isEmpty) = true
  · simp only [hw, if_true, and_self]
  · simp only [hw, Bool.false_eq_true, if_false, and_self]

/-- Inversion of a residual evaluation: everything it read and everything it wrote. -/
theorem equilibrium_G {c : Ctx F} {bars : List (Bar F)} (hB : c.Bars bars) {a : Analysis F} (hf : a.Fits c)
    {V V0 : List F} {write : Bool} {a' : Analysis F} {gred : List F}
    (h : equilibrium c a V V0 .G write = .ok (a', gred)) :
    ∃ lpf u u0 U U0 outs ef g, splitV c a V V0 = .ok (lpf, u, u0) ∧ scatter a.U a.DOF1 u = .ok U ∧
      scatter a.U0 a.DOF1 u0 = .ok U0 ∧ evalAll c U U0 a.statev bars 0 = .ok outs ∧ a.extForces = some ef ∧
      residual ((bars.zip outs).foldl addBar (zeroR c.nnodes)) ef.forcesConst ef.forces lpf = .ok g ∧
      npTake g a.DOF1 = .ok gred ∧ a' = afterG c write lpf u U U0 bars outs g a := by
  unfold equilibrium at h
  obtain ⟨⟨lpf, u, u0⟩, h1, hA⟩ := py_bind_eq_ok.1 h
  obtain ⟨a1, h2, hC⟩ := py_bind_eq_ok.1 hA
  obtain ⟨⟨a2, pv⟩, h3, hD⟩ := py_bind_eq_ok.1 hC
  clear h hA hC
  have hf1 := prepare_fits hf h2
  unfold prepare at h2
  obtain ⟨U, h4, h2⟩ := py_bind_eq_ok.1 h2
  obtain ⟨U0, h5, h2⟩ := py_bind_eq_ok.1 h2
  have h2 := Except.ok.inj h2
  have hfold := foldG hB write lpf u bars c.elems.labels 0 a1 none hf1 hB.length.symm
    (fun i => by rw [Nat.zero_add]) (fun i => by rw [Nat.zero_add])
  rw [h3] at hfold
  cases hev : evalAll c a1.U a1.U0 a1.statev bars 0 with
  | error e => rw [hev] at hfold; cases hfold
  | ok outs =>
    rw [hev] at hfold
    have ha2 : a2 = finalG c write lpf u bars 0 outs a1 := Except.ok.inj hfold
    have hlen : outs.length = c.elems.labels.length := (evalAll_length hev).trans hB.length
    subst h2
    have s1 := writeFrom_all a.stretch (outs.map (·.lam)) (by rw [List.length_map, hlen]; exact hf.stretch.symm)
    have s2 := writeFrom_all a.elementStress (outs.map (·.stress)) (by rw [List.length_map, hlen]; exact hf.stress.symm)
    have s3 := writeFrom_all a.elementForce (outs.map (·.N)) (by rw [List.length_map, hlen]; exact hf.force.symm)
    have hr := map_zeroR (F := F) hf.r
    have key : ∀ g, ({ a2 with g := g } : Analysis F) = afterG c write lpf u U U0 bars outs g a := by
      intro g
      rw [ha2]
      by_cases hw : (write && decide (0 < c.nstatev) && !bars.isEmpty) = true
      · have hn : 0 < c.nstatev := by
          simp only [Bool.and_eq_true, decide_eq_true_eq] at hw
          exact hw.1.2
        obtain ⟨sv, hsv, hl⟩ := hf.statev hn
        have s4 := writeFrom_all sv (outs.map fun o => o.statev.getD []) (by rw [List.length_map, hlen, hl])
        unfold finalG afterG
        simp only [hw, if_true, s1, s2, s3, hr, hsv, Option.map_some, s4]
      · unfold finalG afterG
        simp only [hw, Bool.false_eq_true, if_false, s1, s2, s3, hr]
    have hsame := finalG_same c write lpf u bars 0 outs
      { a with r := a.r.map fun _ => fun _ => 0, U := U, U0 := U0 }
    have hr2 : a2.r = (bars.zip outs).foldl addBar (zeroR c.nnodes) := by
      rw [ha2, ← hr]
      exact hsame.2.2
    have he2 : a2.extForces = a.extForces ∧ a2.DOF1 = a.DOF1 := by
      rw [ha2]
      exact ⟨hsame.1, hsame.2.1⟩
    simp only at hD
    rw [he2.1] at hD
    cases hef : a.extForces with
    | none => rw [hef] at hD; cases hD
    | some ef =>
      rw [hef] at hD
      obtain ⟨g, h6, hE⟩ := py_bind_eq_ok.1 hD
      obtain ⟨gr, h7, hG⟩ := py_bind_eq_ok.1 hE
      rw [he2.2] at h7
      rw [hr2] at h6
      have h := Except.ok.inj hG
      have hg := congrArg Prod.snd h
      simp only at hg
      subst hg
      exact ⟨lpf, u, u0, U, U0, outs, ef, g, h1, h4, h5, hev, rfl, h6, h7, by rw [← key g, he2.1, hef]; exact (congrArg Prod.fst h).symm⟩

/-- Conversely: these facts make the evaluation succeed. -/
theorem equilibrium_G_ok {c : Ctx F} {bars : List (Bar F)} (hB : c.Bars bars) {a : Analysis F} (hf : a.Fits c)
    {V V0 : List F} {write : Bool} {lpf : F} {u u0 U U0 : List F} {outs : List (TrussOut F)} {ef : StepForces F}
    {g gred : List F} (h1 : splitV c a V V0 = .ok (lpf, u, u0)) (h4 : scatter a.U a.DOF1 u = .ok U)
    (h5 : scatter a.U0 a.DOF1 u0 = .ok U0) (hev : evalAll c U U0 a.statev bars 0 = .ok outs)
    (hef : a.extForces = some ef)
    (h6 : residual ((bars.zip outs).foldl addBar (zeroR c.nnodes)) ef.forcesConst ef.forces lpf = .ok g)
    (h7 : npTake g a.DOF1 = .ok gred) :
    equilibrium c a V V0 .G write = .ok (afterG c write lpf u U U0 bars outs g a, gred) := by
  have hp : prepare a u u0 .G = .ok { a with r := zeroR c.nnodes, U := U, U0 := U0 } := by
    unfold prepare
    simp only [map_zeroR hf.r]
    rw [h4, py_bind_ok, h5, py_bind_ok]
    rfl
  have hf1 := prepare_fits hf hp
  have hfold := foldG hB write lpf u bars c.elems.labels 0 _ none hf1 hB.length.symm
    (fun i => by rw [Nat.zero_add]) (fun i => by rw [Nat.zero_add])
  simp only [hev] at hfold
  cases hl : c.elems.labels.foldlM (elemStep c .G write lpf u)
      (({ a with r := zeroR c.nnodes, U := U, U0 := U0 } : Analysis F), none) with
  | error e => rw [hl] at hfold; cases hfold
  | ok p =>
    rw [hl] at hfold
    have hp2 : p.1 = finalG c write lpf u bars 0 outs _ := Except.ok.inj hfold
    have hex : p.1.extForces = some ef ∧ p.1.DOF1 = a.DOF1 ∧ p.1.r = (bars.zip outs).foldl addBar (zeroR c.nnodes) := by
      rw [hp2]
      have hsame := finalG_same c write lpf u bars 0 outs { a with r := zeroR c.nnodes, U := U, U0 := U0 }
      exact ⟨hsame.1.trans hef, hsame.2.1, hsame.2.2⟩
    have hsome : ∃ r, equilibrium c a V V0 .G write = .ok (r, gred) := by
      unfold equilibrium
      rw [h1]
      simp only [py_bind_ok]
      rw [hp]
      simp only [py_bind_ok]
      rw [hl]
      simp only [py_bind_ok, hex.1, hex.2.2, h6, hex.2.1, h7]
      exact ⟨_, rfl⟩
    obtain ⟨r, hr⟩ := hsome
    obtain ⟨lpf', u', u0', U', U0', outs', ef', g', e1, e2, e3, e4, e5, e6, e7, e8⟩ := equilibrium_G hB hf hr
    rw [h1] at e1
    cases e1
    rw [h4] at e2
    cases e2
    rw [h5] at e3
    cases e3
    rw [hev] at e4
    cases e4
    rw [hef] at e5
    cases e5
    rw [h6] at e6
    cases e6
    rw [hr, e8]

/-- Inversion of a stiffness evaluation. -/
theorem equilibrium_K {c : Ctx F} {bars : List (Bar F)} (hB : c.Bars bars) {a : Analysis F} (hf : a.Fits c)
    {V V0 : List F} {a' : Analysis F} {gred : List F}
    (h : equilibrium c a V V0 .K false = .ok (a', gred)) :
    ∃ lpf u u0 U U0 outs, splitV c a V V0 = .ok (lpf, u, u0) ∧ scatter a.U a.DOF1 u = .ok U ∧
      scatter a.U0 a.DOF1 u0 = .ok U0 ∧ evalAll c U U0 a.statev bars 0 = .ok outs ∧
      a' = { a with U := U, U0 := U0, K := (bars.zip outs).foldl addBarK (zeroK c.nnodes) } := by
  unfold equilibrium at h
  obtain ⟨⟨lpf, u, u0⟩, h1, hA⟩ := py_bind_eq_ok.1 h
  obtain ⟨a1, h2, hC⟩ := py_bind_eq_ok.1 hA
  obtain ⟨⟨a2, pv⟩, h3, hD⟩ := py_bind_eq_ok.1 hC
  clear h hA hC
  have hf1 := prepare_fits hf h2
  unfold prepare at h2
  obtain ⟨U, h4, h2⟩ := py_bind_eq_ok.1 h2
  obtain ⟨U0, h5, h2⟩ := py_bind_eq_ok.1 h2
  have h2 := Except.ok.inj h2
  have hfold := foldK hB lpf u bars c.elems.labels 0 a1 none hf1 hB.length.symm
    (fun i => by rw [Nat.zero_add]) (fun i => by rw [Nat.zero_add])
  rw [h3] at hfold
  cases hev : evalAll c a1.U a1.U0 a1.statev bars 0 with
  | error e => rw [hev] at hfold; cases hfold
  | ok outs =>
    rw [hev] at hfold
    have ha2 : a2 = finalK bars outs a1 := Except.ok.inj hfold
    subst h2
    have h := congrArg Prod.fst (Except.ok.inj hD)
    simp only at h
    refine ⟨lpf, u, u0, U, U0, outs, h1, h4, h5, hev, ?_⟩
    rw [← h, ha2]
    unfold finalK
    simp only [map_zeroK hf.K hf.Krow]

theorem equilibrium_K_ok {c : Ctx F} {bars : List (Bar F)} (hB : c.Bars bars) {a : Analysis F} (hf : a.Fits c)
    {V V0 : List F} {lpf : F} {u u0 U U0 : List F} {outs : List (TrussOut F)}
    (h1 : splitV c a V V0 = .ok (lpf, u, u0)) (h4 : scatter a.U a.DOF1 u = .ok U)
    (h5 : scatter a.U0 a.DOF1 u0 = .ok U0) (hev : evalAll c U U0 a.statev bars 0 = .ok outs) :
    equilibrium c a V V0 .K false =
      .ok ({ a with U := U, U0 := U0, K := (bars.zip outs).foldl addBarK (zeroK c.nnodes) }, []) := by
  have hp : prepare a u u0 .K = .ok { a with K := zeroK c.nnodes, U := U, U0 := U0 } := by
    unfold prepare
    simp only [map_zeroK hf.K hf.Krow]
    rw [h4, py_bind_ok, h5, py_bind_ok]
    rfl
  have hf1 := prepare_fits hf hp
  have hfold := foldK hB lpf u bars c.elems.labels 0 _ none hf1 hB.length.symm
    (fun i => by rw [Nat.zero_add]) (fun i => by rw [Nat.zero_add])
  simp only [hev] at hfold
  cases hl : c.elems.labels.foldlM (elemStep c .K false lpf u)
      (({ a with K := zeroK c.nnodes, U := U, U0 := U0 } : Analysis F), none) with
  | error e => rw [hl] at hfold; cases hfold
  | ok p =>
    rw [hl] at hfold
    have hp2 : p.1 = finalK bars outs _ := Except.ok.inj hfold
    unfold equilibrium
    rw [h1]
    simp only [py_bind_ok]
    rw [hp]
    simp only [py_bind_ok]
    rw [hl]
    simp only [py_bind_ok, py_pure]
    rw [hp2]
    rfl

/-- Inversion of `stiffness`. -/
theorem stiffness_inv {c : Ctx F} {bars : List (Bar F)} (hB : c.Bars bars) {a : Analysis F} (hf : a.Fits c)
    {V : List F} {a' : Analysis F} {Kred : List (List F)} (h : stiffness c a V = .ok (a', Kred)) :
    ∃ lpf u u0 U U0 outs, splitV c a V V = .ok (lpf, u, u0) ∧ scatter a.U a.DOF1 u = .ok U ∧
      scatter a.U0 a.DOF1 u0 = .ok U0 ∧ evalAll c U U0 a.statev bars 0 = .ok outs ∧
      Kred = (a.DOF1.map fun p => a.DOF1.map fun q => kOut ((bars.zip outs).foldl addBarK (zeroK c.nnodes)) p q) ∧
      a' = { a with U := U, U0 := U0, K := (bars.zip outs).foldl addBarK (zeroK c.nnodes), Kred := Kred } := by
  unfold stiffness at h
  obtain ⟨⟨a1, x⟩, h1, h⟩ := py_bind_eq_ok.1 h
  obtain ⟨lpf, u, u0, U, U0, outs, e1, e2, e3, e4, e5⟩ := equilibrium_K hB hf h1
  subst e5
  cases h
  exact ⟨lpf, u, u0, U, U0, outs, e1, e2, e3, e4, rfl, rfl⟩

end TrussPy
