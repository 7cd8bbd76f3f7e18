import Verif.Spec.Influence
import Verif.Lemmas.Sim
import Verif.Lemmas.Relabel
import Verif.Lemmas.Frame
import Verif.Lemmas.Build
import Verif.Props.Handlers
/-!
# Lemmas: input without influence on a run
-/

set_option linter.unusedSectionVars false

namespace TrussPy

variable {F : Type} [Zero F] [One F] [Add F] [Sub F] [Mul F] [Div F] [Neg F] [Flt F]

/-! ## Elements -/

theorem pyGet_congr {l l' : List F} {k : Nat} (h : l'[k]? = l[k]?) : pyGet l' (k : Int) = pyGet l (k : Int) := by
  unfold pyGet
  simp [h]

theorem npTake_forall₂ {α β : Type} {S : α → β → Prop} {l : List α} {l' : List β} (h : List.Forall₂ S l l') :
    ∀ idx : List Nat, Alike (List.Forall₂ S) (npTake l idx) (npTake l' idx)
  | [] => .ok .nil
  | i :: is => by
    have ih := npTake_forall₂ h is
    simp only [npTake]
    have hl := h.length_eq
    by_cases hi : i < l.length
    · have hi' : i < l'.length := by omega
      rw [List.getElem?_eq_getElem hi, List.getElem?_eq_getElem hi']
      have hx := h.get hi hi'
      simp only [List.get_eq_getElem] at hx
      simp only
      generalize npTake l is = x at ih
      generalize npTake l' is = y at ih
      cases ih with
      | ok h1 => exact .ok (.cons hx h1)
      | error e => exact .error e
    · rw [List.getElem?_eq_none (by omega), List.getElem?_eq_none (by omega)]
      exact .error _

theorem npFirst_forall₂ {α β : Type} {S : α → β → Prop} {l : List α} {l' : List β} (h : List.Forall₂ S l l') (idx : List Nat) :
    Alike S (npFirst l idx) (npFirst l' idx) := by
  have := npTake_forall₂ h idx
  unfold npFirst
  generalize npTake l idx = x at this
  generalize npTake l' idx = y at this
  cases this with
  | error e => exact .error e
  | ok h1 => cases h1 with
    | nil => exact .error _
    | cons h2 _ => exact .ok h2

theorem trussCore_use (umat : Umat) (XA XE UA UE U0A U0E : V3 F) {mat mat' geo geo' : List F} (st : Option (List F))
    (h0 : mat'[0]? = mat[0]?) (h1 : umat = .elplast → mat'[1]? = mat[1]? ∧ mat'[2]? = mat[2]?) (hg : geo'[0]? = geo[0]?) :
    trussCore umat XA XE UA UE U0A U0E mat' geo' st = trussCore umat XA XE UA UE U0A U0E mat geo st := by
  have e0 : pyGet mat' 0 = pyGet mat 0 := pyGet_congr (k := 0) h0
  have eg : pyGet geo' 0 = pyGet geo 0 := pyGet_congr (k := 0) hg
  have eu : ∀ e de, umat.call e de mat' st = umat.call e de mat st := by
    intro e de
    cases umat with
    | el => simp only [Umat.call, umatEl, e0]
    | elplast =>
      have e1 : pyGet mat' 1 = pyGet mat 1 := pyGet_congr (k := 1) (h1 rfl).1
      have e2 : pyGet mat' 2 = pyGet mat 2 := pyGet_congr (k := 2) (h1 rfl).2
      simp only [Umat.call, umatElplastIso, e0, e1, e2]
  unfold trussCore
  simp only [eu, eg]

/-- An analysis object with other residual forces and loads. -/
def Analysis.reload (γ : List F) (ε : Option (StepForces F)) (a : Analysis F) : Analysis F := { a with g := γ, extForces := ε }

theorem truss_reload (γ : List F) (ε : Option (StepForces F)) (e : Int) (nodes : List Int) (Xn Un U0n rn : List (V3 F))
    (nodelist elementlist : List Int) (stage : Stage) (sv : Option (List (List F))) {mat mat' geo geo' : List F} (umat : Umat)
    (a : Analysis F) (h0 : mat'[0]? = mat[0]?) (h1 : umat = .elplast → mat'[1]? = mat[1]? ∧ mat'[2]? = mat[2]?)
    (hg : geo'[0]? = geo[0]?) :
    Alike (fun p p' => p' = (p.1.reload γ ε, p.2)) (truss e nodes Xn Un U0n rn nodelist elementlist stage sv mat geo umat a)
      (truss e nodes Xn Un U0n rn nodelist elementlist stage sv mat' geo' umat (a.reload γ ε)) := by
  unfold truss
  split
  swap
  · exact .error _
  split
  swap
  · exact .error _
  split
  swap
  · exact .error _
  split
  swap
  · exact .error _
  split
  swap
  · exact .error _
  simp only [trussCore_use umat _ _ _ _ _ _ _ h0 h1 hg]
  refine (Alike.refl _).bind ?_
  rintro _ st rfl
  refine (Alike.refl _).bind ?_
  rintro _ o rfl
  cases stage with
  | G => exact .ok rfl
  | K =>
    refine (Alike.refl _).bind ?_
    rintro _ ia rfl
    refine (Alike.refl _).bind ?_
    rintro _ ie rfl
    exact .ok rfl

/-- Two structures that agree in everything the analysis uses. -/
structure Ctx.SameUse (c c' : Ctx F) : Prop where
  nodes : c'.nodes = c.nodes
  nnodes : c'.nnodes = c.nnodes
  ndof1 : c'.ndof1 = c.ndof1
  nstatev : c'.nstatev = c.nstatev
  elems : ∃ es es' : List (Elem F), addElems none es = .ok (some c.elems) ∧ addElems none es' = .ok (some c'.elems) ∧
    List.Forall₂ Elem.SameUse es es'

theorem Ctx.SameUse.labels {c c' : Ctx F} (h : c.SameUse c') : c'.elems.labels = c.elems.labels := by
  obtain ⟨es, es', h1, h2, h3⟩ := h.elems
  rw [(addElems_tab h1).1, (addElems_tab h2).1]
  clear h1 h2
  induction h3 with
  | nil => rfl
  | cons a _ ih => simp only [List.map_cons, a.label, ih]

theorem elemStep_reload {c c' : Ctx F} (h : c.SameUse c') (γ : List F) (ε : Option (StepForces F)) (stage : Stage) (write : Bool)
    (lpf : F) (u : List F) (a : Analysis F) (prev : Option Umat) (e : Int) :
    Alike (fun p p' => p' = (p.1.reload γ ε, p.2)) (elemStep c stage write lpf u (a, prev) e)
      (elemStep c' stage write lpf u (a.reload γ ε, prev) e) := by
  have hl := h.labels
  obtain ⟨es, es', h1, h2, h3⟩ := h.elems
  obtain ⟨s1, s2, -, s4, s5, s6⟩ := addElems_tab h1
  obtain ⟨t1, t2, -, t4, t5, t6⟩ := addElems_tab h2
  unfold elemStep getNodes getMaterialProperties getGeometricProperties getMaterialType
  simp only
  rw [hl, s2, s4, s5, s6, t2, t4, t5, t6, h.nodes, h.nnodes, h.nstatev]
  simp only [npFirst_map]
  have hx := npFirst_forall₂ h3 (whereEq c.elems.labels e)
  generalize npFirst es (whereEq c.elems.labels e) = x at hx
  generalize npFirst es' (whereEq c.elems.labels e) = y at hx
  cases hx with
  | error e => exact .error e
  | @ok x y hxy =>
  simp only [Except.map, py_bind_ok, hxy.conn, hxy.mtype]
  refine (Alike.refl _).bind ?_
  rintro _ Xn rfl
  refine (Alike.refl _).bind ?_
  rintro _ Un rfl
  refine (Alike.refl _).bind ?_
  rintro _ U0n rfl
  refine (Alike.refl _).bind ?_
  rintro _ rn rfl
  cases hu : selectUmat prev x.mtype with
  | none => exact .error _
  | some umat =>
    simp only
    have hlaw : umat = .elplast → y.mprop.vals[1]? = x.mprop.vals[1]? ∧ y.mprop.vals[2]? = x.mprop.vals[2]? := by
      intro hp
      apply hxy.mat
      intro h1
      unfold selectUmat at hu
      rw [if_pos h1] at hu
      rw [hp] at hu
      cases hu
    refine (truss_reload γ ε e x.conn _ _ _ _ _ _ stage _ umat a hxy.young hlaw hxy.area).bind ?_
    rintro ⟨a1, sv1⟩ _ rfl
    dsimp only
    split <;> exact .ok rfl

/-! ## Loads -/

/-- Vectors of the same length that agree at the given positions. -/
def AgreeAt (dofs : List Nat) (x y : List F) : Prop := y.length = x.length ∧ ∀ p ∈ dofs, y[p]? = x[p]?

theorem AgreeAt.take {dofs : List Nat} {x y : List F} (h : AgreeAt dofs x y) : npTake y dofs = npTake x dofs := by
  obtain ⟨-, h⟩ := h
  induction dofs with
  | nil => rfl
  | cons p ps ih =>
    simp only [npTake]
    rw [h p (by simp), ih fun q hq => h q (by simp [hq])]

theorem residual_agree {dofs : List Nat} (r : List (V3 F)) {fc fc' f f' : List F} (hc : AgreeAt dofs fc fc') (hf : AgreeAt dofs f f')
    (lpf : F) : Alike (AgreeAt dofs) (residual r fc f lpf) (residual r fc' f' lpf) := by
  unfold residual
  simp only
  rw [hc.1, hf.1]
  split
  · refine .ok ⟨?_, ?_⟩
    · simp only [List.length_zipWith, List.length_map, hc.1, hf.1]
    · intro p hp
      simp only [List.getElem?_zipWith, List.getElem?_map, hc.2 p hp, hf.2 p hp]
  · exact .error _

/-- Loads of a step that agree on the active degrees of freedom. -/
def LoadsAgree (dofs : List Nat) (e e' : Option (StepForces F)) : Prop :=
  (e = none ∧ e' = none) ∨ ∃ x x', e = some x ∧ e' = some x' ∧ AgreeAt dofs x.forces x'.forces ∧
    AgreeAt dofs x.forcesConst x'.forcesConst

/-- Analysis objects during a run. -/
structure Reloaded (dofs : List Nat) (a b : Analysis F) : Prop where
  same : b = a.reload b.g b.extForces
  dof : a.DOF1 = dofs
  g : ∀ p ∈ dofs, b.g[p]? = a.g[p]?
  loads : LoadsAgree dofs a.extForces b.extForces

theorem prepare_reload (γ : List F) (ε : Option (StepForces F)) (a : Analysis F) (u u0 : List F) (stage : Stage) :
    Alike (fun x y => y = x.reload γ ε) (prepare a u u0 stage) (prepare (a.reload γ ε) u u0 stage) := by
  unfold prepare
  cases stage <;>
  · refine (Alike.refl _).bind ?_
    rintro _ U rfl
    refine (Alike.refl _).bind ?_
    rintro _ U0 rfl
    exact .ok rfl

theorem elems_reload {c c' : Ctx F} (h : c.SameUse c') (γ : List F) (ε : Option (StepForces F)) (stage : Stage) (write : Bool)
    (lpf : F) (u : List F) (a : Analysis F) (prev : Option Umat) :
    Alike (fun p p' => p' = (p.1.reload γ ε, p.2)) (c.elems.labels.foldlM (elemStep c stage write lpf u) (a, prev))
      (c'.elems.labels.foldlM (elemStep c' stage write lpf u) (a.reload γ ε, prev)) := by
  rw [h.labels]
  refine Alike.foldlM _ ?_ rfl
  rintro e - ⟨a, prev⟩ _ rfl
  exact elemStep_reload h γ ε stage write lpf u a prev e

theorem Ctx.SameUse.left {c c' : Ctx F} (h : c.SameUse c') : c.SameUse c := by
  obtain ⟨es, es', h1, -, -⟩ := h.elems
  refine ⟨rfl, rfl, rfl, rfl, es, es, h1, h1, ?_⟩
  exact List.forall₂_same.2 fun e _ => ⟨rfl, rfl, rfl, rfl, fun _ => ⟨rfl, rfl⟩, rfl⟩

theorem Analysis.reload_self (a : Analysis F) : a.reload a.g a.extForces = a := rfl

theorem prepare_keeps {a a1 : Analysis F} {u u0 : List F} {stage : Stage} (h : prepare a u u0 stage = .ok a1) :
    a1.g = a.g := by
  have := prepare_reload a.g a.extForces a u u0 stage
  rw [Analysis.reload_self, h] at this
  cases this with
  | ok e => rw [e]; rfl

theorem elems_keep {c c' : Ctx F} (h : c.SameUse c') {stage : Stage} {write : Bool} {lpf : F} {u : List F} {a : Analysis F}
    {prev : Option Umat} {p : Analysis F × Option Umat}
    (hp : c.elems.labels.foldlM (elemStep c stage write lpf u) (a, prev) = .ok p) : p.1.g = a.g := by
  have := elems_reload h.left a.g a.extForces stage write lpf u a prev
  rw [Analysis.reload_self, hp] at this
  cases this with
  | ok e => rw [e]; rfl

theorem splitV_reload {c c' : Ctx F} (h : c.SameUse c') (γ : List F) (ε : Option (StepForces F)) (a : Analysis F) (V V0 : List F) :
    splitV c' (a.reload γ ε) V V0 = splitV c a V V0 := by
  unfold splitV
  rw [h.ndof1]
  rfl

section
variable {c c' : Ctx F} {dofs : List Nat}

theorem Reloaded.of {a a1 : Analysis F} {γ : List F} {ε : Option (StepForces F)}
    (hr : Reloaded dofs a (a.reload γ ε)) (hd : a1.DOF1 = a.DOF1) (hx : a1.extForces = a.extForces) (hg : a1.g = a.g) :
    Reloaded dofs a1 (a1.reload γ ε) :=
  ⟨rfl, hd.trans hr.dof, fun p hp => (hr.g p hp).trans (by rw [hg]), by rw [hx]; exact hr.loads⟩

theorem equilibrium_reload (h : c.SameUse c') {a b : Analysis F} (hr : Reloaded dofs a b) (V V0 : List F) (stage : Stage) (w : Bool) :
    Alike (fun p p' => Reloaded dofs p.1 p'.1 ∧ p'.2 = p.2) (equilibrium c a V V0 stage w) (equilibrium c' b V V0 stage w) := by
  obtain ⟨γ, ε, rfl⟩ : ∃ γ ε, b = a.reload γ ε := ⟨_, _, hr.same⟩
  unfold equilibrium
  rw [splitV_reload h]
  cases hs : splitV c a V V0 with
  | error e => exact .error e
  | ok x =>
  obtain ⟨lpf, u, u0⟩ := x
  simp only [py_bind_ok]
  have hp := prepare_reload γ ε a u u0 stage
  cases hp1 : prepare a u u0 stage with
  | error e =>
    rw [hp1] at hp
    generalize prepare (a.reload γ ε) u u0 stage = y at hp
    cases hp
    exact .error e
  | ok a1 =>
  rw [hp1] at hp
  generalize prepare (a.reload γ ε) u u0 stage = y at hp
  cases hp with
  | ok e1 =>
  subst e1
  simp only [py_bind_ok]
  have hf := elems_reload h γ ε stage w lpf u a1 none
  cases hf1 : c.elems.labels.foldlM (elemStep c stage w lpf u) (a1, none) with
  | error e =>
    rw [hf1] at hf
    generalize c'.elems.labels.foldlM (elemStep c' stage w lpf u) (a1.reload γ ε, none) = y at hf
    cases hf
    exact .error e
  | ok p =>
  rw [hf1] at hf
  generalize c'.elems.labels.foldlM (elemStep c' stage w lpf u) (a1.reload γ ε, none) = y at hf
  cases hf with
  | ok e2 =>
  subst e2
  obtain ⟨a2, um⟩ := p
  simp only [py_bind_ok]
  obtain ⟨f1, -, -⟩ := prepare_frame hp1
  obtain ⟨f2, -, -⟩ := foldElem_frame _ hf1
  have g2 : a2.g = a.g := (elems_keep h hf1).trans (prepare_keeps hp1)
  have d2 : a2.DOF1 = a.DOF1 := f2.dof1.trans f1.dof1
  have x2 : a2.extForces = a.extForces := f2.ext.trans f1.ext
  have hr2 := hr.of d2 x2 g2
  cases stage with
  | K => exact .ok ⟨hr2, rfl⟩
  | G =>
    have hl := hr2.loads
    show Alike _ (match a2.extForces with | none => _ | some ef => _) (match ε with | none => _ | some ef => _)
    rcases hl with ⟨l1, l2⟩ | ⟨x, x', l1, l2, l3, l4⟩
    · have l2' : ε = none := l2
      rw [l1, l2']
      exact .error _
    · have l2' : ε = some x' := l2
      rw [l1, l2']
      simp only
      refine (residual_agree a2.r l4 l3 lpf).bind ?_
      intro g g' hg
      have hd : a2.DOF1 = dofs := hr2.dof
      have ht : npTake g' a2.DOF1 = npTake g a2.DOF1 := by rw [hd]; exact hg.take
      show Alike _ (npTake g a2.DOF1 >>= _) (npTake g' a2.DOF1 >>= _)
      rw [ht]
      refine (Alike.refl _).bind ?_
      rintro _ gr rfl
      refine .ok ⟨⟨rfl, hd, hg.2, ?_⟩, rfl⟩
      exact .inr ⟨x, x', rfl, rfl, l3, l4⟩

theorem modelProblem_sim (h : c.SameUse c') : (modelProblem c).Sim (modelProblem c') (Reloaded dofs) where
  g a a' V V0 w hr := equilibrium_reload h hr V V0 .G w
  dgdx a a' U hr := by
    show Alike _ (stiffness c a U) (stiffness c' a' U)
    unfold stiffness
    refine (equilibrium_reload h hr U U .K false).bind ?_
    rintro ⟨a1, x⟩ ⟨b1, x'⟩ ⟨hr1, -⟩
    dsimp only at hr1 ⊢
    obtain ⟨γ, ε, rfl⟩ : ∃ γ ε, b1 = a1.reload γ ε := ⟨_, _, hr1.same⟩
    exact .ok ⟨⟨rfl, hr1.dof, hr1.g, hr1.loads⟩, rfl⟩
  f0 a b hr := by rw [hr.same]; rfl
  book a b j K dV hr := by
    obtain ⟨γ, ε, rfl⟩ : ∃ γ ε, b = a.reload γ ε := ⟨_, _, hr.same⟩
    exact ⟨rfl, hr.dof, hr.g, hr.loads⟩
  fields a b hr := by rw [hr.same]; exact ⟨rfl, rfl, rfl⟩
  save a b V u l hr := by
    obtain ⟨γ, ε, rfl⟩ : ∃ γ ε, b = a.reload γ ε := ⟨_, _, hr.same⟩
    exact ⟨rfl, hr.dof, hr.g, hr.loads⟩

/-! ## Steps -/

/-- Load tables that agree on the active degrees of freedom in every step. -/
def RowsAgree (dofs : List Nat) (nsteps : Nat) (rows rows' : List (List F)) : Prop :=
  ∀ k, k < nsteps → AgreeAt dofs (stepSlice rows k).flatten (stepSlice rows' k).flatten

theorem constLoad_agree {rows rows' : List (List F)} {n : Nat} (hr : RowsAgree dofs n rows rows') (ends : List F) {k : Nat} (hk : k < n) :
    Alike (AgreeAt dofs) (constLoad rows ends k) (constLoad rows' ends k) := by
  unfold constLoad
  refine Alike.foldlM _ ?_ ?_
  · intro s hs acc acc' ha
    rw [List.mem_range] at hs
    refine (Alike.refl _).bind ?_
    rintro _ l rfl
    have h1 := hr s (by omega)
    unfold addScaled
    rw [ha.1, h1.1]
    split
    · refine .ok ⟨by simp only [List.length_zipWith, ha.1, h1.1], ?_⟩
      intro p hp
      simp only [List.getElem?_zipWith, ha.2 p hp, h1.2 p hp]
    · exact .error _
  · have h1 := hr k hk
    refine ⟨by simp only [List.length_map, h1.1], ?_⟩
    intro p hp
    simp only [List.getElem?_map, h1.2 p hp]

/-- The states of the two runs between two steps. -/
structure StepReloaded (dofs : List Nat) (st st' : Analysis F × Results F) : Prop where
  pair : ∃ γ ε, st'.1 = st.1.reload γ ε
  dof : st.1.DOF1 = dofs
  g : ∀ p ∈ dofs, st'.1.g[p]? = st.1.g[p]?
  ends : st'.2.stepLpfEnd = st.2.stepLpfEnd
  recs : List.Forall₂ Analysis.SameButSupports st.2.R st'.2.R

theorem setStep_agree {rows rows' : List (List F)} {n : Nat} (hr : RowsAgree dofs n rows rows') {k : Nat} (hk : k < n)
    {st st' : Analysis F × Results F} (h : StepReloaded dofs st st') :
    Alike (Reloaded dofs) (setStep rows st.2.stepLpfEnd k st.1) (setStep rows' st'.2.stepLpfEnd k st'.1) := by
  obtain ⟨γ, ε, e⟩ := h.pair
  have hg := h.g
  rw [e] at hg ⊢
  rw [h.ends]
  unfold setStep
  refine (constLoad_agree hr _ hk).bind ?_
  intro fc fc' hfc
  have h1 := hr k hk
  have ht : npTake (stepSlice rows' k).flatten st.1.DOF1 = npTake (stepSlice rows k).flatten st.1.DOF1 := by
    rw [h.dof]; exact h1.take
  show Alike _ (npTake _ st.1.DOF1 >>= _) (npTake _ st.1.DOF1 >>= _)
  rw [ht]
  refine (Alike.refl _).bind ?_
  rintro _ f0 rfl
  exact .ok ⟨rfl, h.dof, hg, .inr ⟨_, _, rfl, rfl, h1, hfc⟩⟩

theorem Reloaded.record {a b : Analysis F} (h : Reloaded dofs a b) : a.SameButSupports b :=
  ⟨h.same, by rw [h.dof]; exact h.g⟩

theorem syncU0_same {R R' : List (Analysis F)} (h : List.Forall₂ Analysis.SameButSupports R R') :
    Alike (List.Forall₂ Analysis.SameButSupports) (syncU0 R) (syncU0 R') := by
  rcases List.eq_nil_or_concat R with rfl | ⟨l0, b, rfl⟩
  · cases h; exact .error _
  · rw [List.concat_eq_append] at h ⊢
    obtain ⟨l1, b', rfl, h1, h2, h3⟩ := forall₂_snoc h
    unfold syncU0
    rw [List.getLast?_concat, List.getLast?_concat]
    simp only [List.dropLast_concat]
    refine .ok (forall₂_append h1 (.cons ⟨?_, h3⟩ .nil))
    rw [h2]

theorem lastLpf_same {R R' : List (Analysis F)} (h : List.Forall₂ Analysis.SameButSupports R R') :
    Alike (fun x y => y = x) (lastLpf R) (lastLpf R') := by
  rcases List.eq_nil_or_concat R with rfl | ⟨l0, b, rfl⟩
  · cases h; exact .error _
  · rw [List.concat_eq_append] at h ⊢
    obtain ⟨l1, b', rfl, h1, h2, h3⟩ := forall₂_snoc h
    unfold lastLpf
    rw [List.getLast?_concat, List.getLast?_concat]
    have : b'.lpf = b.lpf := by rw [h2]
    simp only [this]
    exact Alike.refl _

theorem recordOne_same {l l' : List (Analysis F)} (h : List.Forall₂ Analysis.SameButSupports l l') :
    ∀ {X X' : List (Analysis F)}, List.Forall₂ Analysis.SameButSupports X X' →
      List.Forall₂ Analysis.SameButSupports (l.foldl recordOne X) (l'.foldl recordOne X') := by
  induction h with
  | nil => exact fun hX => hX
  | cons h _ ih =>
    intro X X' hX
    refine ih ?_
    unfold recordOne
    exact forall₂_append (forall₂_append (forall₂_dropLast hX) (.cons h .nil)) (.cons h .nil)

theorem runStep_agree (h : c.SameUse c') (env : Env F) (fuel : Nat) (s : Settings F) {rows rows' : List (List F)} {n : Nat}
    (hr : RowsAgree dofs n rows rows') {k : Nat} (hk : k < n) {st st' : Analysis F × Results F} (hst : StepReloaded dofs st st') :
    Alike (StepReloaded dofs) (runStep env fuel c s rows st k) (runStep env fuel c' s rows' st' k) := by
  have hset := setStep_agree hr hk hst
  obtain ⟨a, res⟩ := st
  obtain ⟨a', res'⟩ := st'
  unfold runStep
  simp only
  refine (Alike.refl _).bind ?_
  rintro _ incs rfl
  refine (Alike.refl _).bind ?_
  rintro _ xl rfl
  refine hset.bind ?_
  intro a1 a1' h1
  have hU : a1'.Ured = a1.Ured := by rw [h1.same]; rfl
  rw [hU]
  refine (pathfollow_sim (modelProblem_sim h) env (stepCfg s incs xl) fuel a1.Ured h1).bind ?_
  rintro o o' ⟨hrec, hfin⟩
  have hrec' : List.Forall₂ Analysis.SameButSupports (o.recs.map (·.a)) (o'.recs.map (·.a)) := by
    generalize o.recs = l at hrec
    generalize o'.recs = l' at hrec
    induction hrec with
    | nil => exact .nil
    | cons h _ ih => exact .cons h.2.record ih
  refine (syncU0_same (recordOne_same hrec' hst.recs)).bind ?_
  intro R R' hR
  refine (lastLpf_same hR).bind ?_
  rintro _ l rfl
  have hends : res'.stepLpfEnd = res.stepLpfEnd := hst.ends
  split
  · refine .ok ⟨⟨o'.final.g, o'.final.extForces, ?_⟩, hfin.dof, hfin.g, by simp only [hends], hR⟩
    show resetLpf o'.final = (resetLpf o.final).reload _ _
    have e := hfin.same
    unfold resetLpf Analysis.reload
    have e1 : o'.final.Vred = o.final.Vred := by rw [e]; rfl
    rw [e1]
    conv_lhs => rw [e]
    rfl
  · exact .ok ⟨⟨_, _, hfin.same⟩, hfin.dof, hfin.g, by simp only [hends], forall₂_dropLast hR⟩

theorem steps_agree (h : c.SameUse c') (env : Env F) (fuel : Nat) (s : Settings F) {rows rows' : List (List F)} {n : Nat}
    (hr : RowsAgree dofs n rows rows') {st st' : Analysis F × Results F} (hst : StepReloaded dofs st st') :
    Alike (StepReloaded dofs) ((List.range n).foldlM (runStep env fuel c s rows) st)
      ((List.range n).foldlM (runStep env fuel c' s rows') st') := by
  refine Alike.foldlM _ ?_ hst
  intro k hk s1 s2 h12
  exact runStep_agree h env fuel s hr (List.mem_range.1 hk) h12

end

/-! ## Loads -/

theorem supportOf_length {bs : List BoundU} (h : ∀ b ∈ bs, b.values.length = 3) (l : Int) : (supportOf bs l).length = 3 := by
  unfold supportOf
  split
  · next b hb => exact h b (List.mem_of_find?_eq_some hb)
  · rfl

theorem UserInput.SameFreeLoads.rows {nsteps : Nat} {u u' : UserInput F} (h : u.SameFreeLoads nsteps u') {labels : List Int}
    (hl : labels ⊆ u.nodes.map (·.label)) (hsup : ∀ b ∈ u.bounds, b.values.length = 3)
    (hw : ∀ l ∈ labels, 3 * nsteps ≤ (loadOf u.forces l).length) (hw' : ∀ l ∈ labels, 3 * nsteps ≤ (loadOf u'.forces l).length) :
    RowsAgree (whereEq (labels.map (supportOf u.bounds)).flatten 1) nsteps (labels.map (loadOf u.forces))
      (labels.map (loadOf u'.forces)) := by
  intro k hk
  have len : ∀ fs : List (ExtForce F), (∀ l ∈ labels, 3 * nsteps ≤ (loadOf fs l).length) →
      ∀ r ∈ stepSlice (labels.map (loadOf fs)) k, r.length = 3 := by
    intro fs hf r hr
    unfold stepSlice at hr
    rw [List.map_map, List.mem_map] at hr
    obtain ⟨l, h1, rfl⟩ := hr
    have := hf l h1
    simp only [Function.comp, List.length_take, List.length_drop]
    omega
  have s1 := len _ hw
  have s2 := len _ hw'
  constructor
  · rw [flatten_length_of s1, flatten_length_of s2]
    simp [stepSlice]
  · intro p hp
    rw [mem_whereEq] at hp
    have hp3 : p = 3 * (p / 3) + p % 3 := (Nat.div_add_mod p 3).symm
    have hlt : p % 3 < 3 := Nat.mod_lt _ (by omega)
    rw [hp3] at hp ⊢
    rw [flatten_get (w := 3) (by
      intro r hr
      obtain ⟨l, -, rfl⟩ := List.mem_map.1 hr
      exact supportOf_length hsup l) _ _ hlt] at hp
    rw [flatten_get s1 _ _ hlt, flatten_get s2 _ _ hlt]
    rw [List.getElem?_map] at hp
    simp only [stepSlice, List.getElem?_map]
    cases hlab : labels[p / 3]? with
    | none => rfl
    | some l =>
      rw [hlab] at hp
      simp only [Option.map_some, Option.bind_some] at hp ⊢
      obtain ⟨n, hn, rfl⟩ := List.mem_map.1 (hl (List.mem_of_getElem? hlab))
      rw [List.getElem?_take, List.getElem?_take, if_pos hlt, if_pos hlt, List.getElem?_drop, List.getElem?_drop]
      refine h.loads n hn _ (by omega) ?_
      rw [Nat.mul_add_mod, Nat.mod_mod]
      exact hp

end TrussPy
