import Verif.Lemmas.Equil
import Verif.Spec.Evaluation
/-!
# What an evaluation reads and writes, for every arithmetic and every table

No well-formedness of the tables is assumed here.
-/

set_option linter.unusedSectionVars false

namespace TrussPy

variable {F : Type} [Zero F] [One F] [Add F] [Sub F] [Mul F] [Div F] [Neg F] [Flt F]

/-- `a'` arises from `a` by evaluations: only result fields change, locked displacements stay, and
state variables, `lpf` and `Vred` stay unless `w`. -/
structure Frame (w : Bool) (a a' : Analysis F) : Prop where
  step : a'.step = a.step
  stress0 : a'.elementStress0 = a.elementStress0
  dof0 : a'.DOF0 = a.DOF0
  dof1 : a'.DOF1 = a.DOF1
  Ured : a'.Ured = a.Ured
  rred : a'.rred = a.rred
  dVmax : a'.dVmax = a.dVmax
  ext : a'.extForces = a.extForces
  f0red : a'.f0red = a.f0red
  Kmod : a'.Kmod = a.Kmod
  j : a'.j = a.j
  Uout : ∀ i, i ∉ a.DOF1 → a'.U[i]? = a.U[i]?
  U0out : ∀ i, i ∉ a.DOF1 → a'.U0[i]? = a.U0[i]?
  Ulen : a'.U.length = a.U.length
  U0len : a'.U0.length = a.U0.length
  rlen : a'.r.length = a.r.length
  Kshape : a'.K.map List.length = a.K.map List.length
  slen : a'.stretch.length = a.stretch.length
  flen : a'.elementForce.length = a.elementForce.length
  tlen : a'.elementStress.length = a.elementStress.length
  svlen : a'.statev.map List.length = a.statev.map List.length
  statev : w = false → a'.statev = a.statev
  lpf : w = false → a'.lpf = a.lpf
  Vred : w = false → a'.Vred = a.Vred

theorem Frame.refl (w : Bool) (a : Analysis F) : Frame w a a := by
  constructor <;> first | rfl | (intros; rfl)

theorem Frame.trans {w : Bool} {a b c : Analysis F} (h1 : Frame w a b) (h2 : Frame w b c) : Frame w a c where
  step := h2.step.trans h1.step
  stress0 := h2.stress0.trans h1.stress0
  dof0 := h2.dof0.trans h1.dof0
  dof1 := h2.dof1.trans h1.dof1
  Ured := h2.Ured.trans h1.Ured
  rred := h2.rred.trans h1.rred
  dVmax := h2.dVmax.trans h1.dVmax
  ext := h2.ext.trans h1.ext
  f0red := h2.f0red.trans h1.f0red
  Kmod := h2.Kmod.trans h1.Kmod
  j := h2.j.trans h1.j
  Uout := fun i hi => (h2.Uout i (by rw [h1.dof1]; exact hi)).trans (h1.Uout i hi)
  U0out := fun i hi => (h2.U0out i (by rw [h1.dof1]; exact hi)).trans (h1.U0out i hi)
  Ulen := h2.Ulen.trans h1.Ulen
  U0len := h2.U0len.trans h1.U0len
  rlen := h2.rlen.trans h1.rlen
  Kshape := h2.Kshape.trans h1.Kshape
  slen := h2.slen.trans h1.slen
  flen := h2.flen.trans h1.flen
  tlen := h2.tlen.trans h1.tlen
  svlen := h2.svlen.trans h1.svlen
  statev := fun h => (h2.statev h).trans (h1.statev h)
  lpf := fun h => (h2.lpf h).trans (h1.lpf h)
  Vred := fun h => (h2.Vred h).trans (h1.Vred h)

theorem addBlock_shape (K : List (List (M3 F))) (p q : Nat) (m : M3 F) :
    (addBlock K p q m).map List.length = K.map List.length := by
  unfold addBlock
  apply List.ext_getElem?
  intro i
  rw [List.getElem?_map, List.getElem?_map, List.getElem?_modify]
  cases K[i]? with
  | none => rfl
  | some row =>
    simp only [Option.map_some]
    split <;> simp

/-- `truss` only writes its own result fields; the state table it returns has the same length. -/
theorem truss_frame {e : Int} {nodes : List Int} {Xn Un U0n rn : List (V3 F)} {nl el : List Int} {st : Stage}
    {sv : Option (List (List F))} {mp gp : List F} {um : Umat} {a a' : Analysis F} {sv' : Option (List (List F))}
    (h : truss e nodes Xn Un U0n rn nl el st sv mp gp um a = .ok (a', sv')) :
    Frame false a a' ∧ a'.U = a.U ∧ a'.U0 = a.U0 ∧ sv'.map List.length = sv.map List.length := by
  unfold truss at h
  split at h
  · split at h
    · split at h
      · split at h
        · split at h
          · obtain ⟨se, h1, h⟩ := py_bind_eq_ok.1 h
            obtain ⟨o, h2, h⟩ := py_bind_eq_ok.1 h
            cases st with
            | G =>
              simp only [py_pure, Except.ok.injEq, Prod.mk.injEq] at h
              obtain ⟨ha, hs⟩ := h
              subst ha
              refine ⟨?_, rfl, rfl, ?_⟩
              · constructor <;> first | rfl | (intros; rfl) | simp
              · rw [← hs]
                cases sv with
                | none => rfl
                | some sv => cases o.statev with
                  | none => rfl
                  | some row => simp
            | K =>
              simp only at h
              obtain ⟨ia, h3, h⟩ := py_bind_eq_ok.1 h
              obtain ⟨ie, h4, h⟩ := py_bind_eq_ok.1 h
              simp only [py_pure, Except.ok.injEq, Prod.mk.injEq] at h
              obtain ⟨ha, hs⟩ := h
              subst ha
              refine ⟨?_, rfl, rfl, by rw [hs]⟩
              constructor <;> first | rfl | (intros; rfl) | simp only [addBlock_shape]
          · cases h
        · cases h
      · cases h
    · cases h
  · cases h

theorem elemStep_frame {c : Ctx F} {st : Stage} {w : Bool} {lpf : F} {u : List F} {p p' : Analysis F × Option Umat}
    {e : Int} (h : elemStep c st w lpf u p e = .ok p') :
    Frame w p.1 p'.1 ∧ p'.1.U = p.1.U ∧ p'.1.U0 = p.1.U0 := by
  obtain ⟨a, prev⟩ := p
  unfold elemStep at h
  simp only at h
  obtain ⟨nodes, h1, h⟩ := py_bind_eq_ok.1 h
  obtain ⟨mp, h2, h⟩ := py_bind_eq_ok.1 h
  obtain ⟨gp, h3, h⟩ := py_bind_eq_ok.1 h
  obtain ⟨Xn, h4, h⟩ := py_bind_eq_ok.1 h
  obtain ⟨Un, h5, h⟩ := py_bind_eq_ok.1 h
  obtain ⟨U0n, h6, h⟩ := py_bind_eq_ok.1 h
  obtain ⟨rn, h7, h⟩ := py_bind_eq_ok.1 h
  obtain ⟨mt, h8, h⟩ := py_bind_eq_ok.1 h
  split at h
  · obtain ⟨⟨a', sv'⟩, h9, h⟩ := py_bind_eq_ok.1 h
    obtain ⟨f, fU, fU0, fsv⟩ := truss_frame h9
    simp only [py_pure, Except.ok.injEq] at h
    subst h
    by_cases hw : (w && decide (0 < c.nstatev)) = true
    · simp only [hw, if_true]
      simp only [Bool.and_eq_true, decide_eq_true_eq] at hw
      rw [if_pos hw.2] at fsv
      have hw1 : ¬ w = false := by rw [hw.1]; decide
      exact ⟨⟨f.step, f.stress0, f.dof0, f.dof1, f.Ured, f.rred, f.dVmax, f.ext, f.f0red, f.Kmod, f.j, f.Uout, f.U0out,
        f.Ulen, f.U0len, f.rlen, f.Kshape, f.slen, f.flen, f.tlen, fsv, fun h => absurd h hw1, fun h => absurd h hw1,
        fun h => absurd h hw1⟩, fU, fU0⟩
    · simp only [hw, Bool.false_eq_true, if_false]
      exact ⟨⟨f.step, f.stress0, f.dof0, f.dof1, f.Ured, f.rred, f.dVmax, f.ext, f.f0red, f.Kmod, f.j, f.Uout, f.U0out,
        f.Ulen, f.U0len, f.rlen, f.Kshape, f.slen, f.flen, f.tlen, f.svlen, fun _ => f.statev rfl, fun _ => f.lpf rfl,
        fun _ => f.Vred rfl⟩, fU, fU0⟩
  · cases h

theorem foldElem_frame {c : Ctx F} {st : Stage} {w : Bool} {lpf : F} {u : List F} (ls : List Int) :
    ∀ {p p' : Analysis F × Option Umat}, ls.foldlM (elemStep c st w lpf u) p = .ok p' →
    Frame w p.1 p'.1 ∧ p'.1.U = p.1.U ∧ p'.1.U0 = p.1.U0 := by
  induction ls with
  | nil => intro p p' h; cases h; exact ⟨Frame.refl _ _, rfl, rfl⟩
  | cons e ls ih =>
    intro p p' h
    rw [List.foldlM_cons] at h
    obtain ⟨q, h1, h⟩ := py_bind_eq_ok.1 h
    obtain ⟨f1, f2, f3⟩ := elemStep_frame h1
    obtain ⟨g1, g2, g3⟩ := ih h
    exact ⟨f1.trans g1, g2.trans f2, g3.trans f3⟩

theorem prepare_frame {a a1 : Analysis F} {u u0 : List F} {st : Stage} (h : prepare a u u0 st = .ok a1) :
    Frame false a a1 ∧ scatter a.U a.DOF1 u = .ok a1.U ∧ scatter a.U0 a.DOF1 u0 = .ok a1.U0 := by
  unfold prepare at h
  cases st with
  | G =>
    obtain ⟨U, h1, h⟩ := py_bind_eq_ok.1 h
    obtain ⟨U0, h2, h⟩ := py_bind_eq_ok.1 h
    cases h
    refine ⟨?_, h1, h2⟩
    constructor <;> first
      | rfl
      | (intro i hi; first | exact scatter_other h1 hi | exact scatter_other h2 hi)
      | exact scatter_length h1
      | exact scatter_length h2
      | (intros; rfl)
      | simp
  | K =>
    obtain ⟨U, h1, h⟩ := py_bind_eq_ok.1 h
    obtain ⟨U0, h2, h⟩ := py_bind_eq_ok.1 h
    cases h
    refine ⟨?_, h1, h2⟩
    constructor <;> first
      | rfl
      | (intro i hi; first | exact scatter_other h1 hi | exact scatter_other h2 hi)
      | exact scatter_length h1
      | exact scatter_length h2
      | (intros; rfl)
      | simp

theorem Frame.weaken {w : Bool} {a b : Analysis F} (f : Frame false a b) : Frame w a b :=
  ⟨f.step, f.stress0, f.dof0, f.dof1, f.Ured, f.rred, f.dVmax, f.ext, f.f0red, f.Kmod, f.j, f.Uout, f.U0out,
    f.Ulen, f.U0len, f.rlen, f.Kshape, f.slen, f.flen, f.tlen, f.svlen, fun _ => f.statev rfl, fun _ => f.lpf rfl,
    fun _ => f.Vred rfl⟩

/-- Frame of `equilibrium`; also: the displacement tables are those given. -/
theorem equilibrium_frame {c : Ctx F} {a a' : Analysis F} {V V0 : List F} {st : Stage} {w : Bool} {g : List F}
    (h : equilibrium c a V V0 st w = .ok (a', g)) : Frame w a a' ∧
    ∃ lpf u u0, splitV c a V V0 = .ok (lpf, u, u0) ∧ scatter a.U a.DOF1 u = .ok a'.U ∧
      scatter a.U0 a.DOF1 u0 = .ok a'.U0 := by
  unfold equilibrium at h
  obtain ⟨⟨lpf, u, u0⟩, h1, h⟩ := py_bind_eq_ok.1 h
  obtain ⟨a1, h2, h⟩ := py_bind_eq_ok.1 h
  obtain ⟨⟨a2, um⟩, h3, h⟩ := py_bind_eq_ok.1 h
  obtain ⟨f1, p1, p2⟩ := prepare_frame h2
  obtain ⟨f2, p3, p4⟩ := foldElem_frame _ h3
  have f := (Frame.weaken f1).trans f2
  simp only at p3 p4 f h
  cases st with
  | K =>
    simp only [py_pure, Except.ok.injEq, Prod.mk.injEq] at h
    obtain ⟨ha, -⟩ := h
    subst ha
    exact ⟨f, lpf, u, u0, h1, by rw [p3]; exact p1, by rw [p4]; exact p2⟩
  | G =>
    simp only at h
    split at h
    · cases h
    · obtain ⟨gv, h4, h⟩ := py_bind_eq_ok.1 h
      obtain ⟨gr, h5, h⟩ := py_bind_eq_ok.1 h
      have h := congrArg Prod.fst (Except.ok.inj h)
      simp only at h
      rw [← h]
      exact ⟨⟨f.step, f.stress0, f.dof0, f.dof1, f.Ured, f.rred, f.dVmax, f.ext, f.f0red, f.Kmod, f.j, f.Uout, f.U0out,
        f.Ulen, f.U0len, f.rlen, f.Kshape, f.slen, f.flen, f.tlen, f.svlen, f.statev, f.lpf, f.Vred⟩,
        lpf, u, u0, h1, by rw [p3]; exact p1, by rw [p4]; exact p2⟩

theorem stiffness_frame {c : Ctx F} {a a' : Analysis F} {V : List F} {K : List (List F)}
    (h : stiffness c a V = .ok (a', K)) : Frame false a a' := by
  unfold stiffness at h
  obtain ⟨⟨a1, x⟩, h1, h⟩ := py_bind_eq_ok.1 h
  obtain ⟨f, -⟩ := equilibrium_frame h1
  cases h
  exact ⟨f.step, f.stress0, f.dof0, f.dof1, f.Ured, f.rred, f.dVmax, f.ext, f.f0red, f.Kmod, f.j, f.Uout, f.U0out,
        f.Ulen, f.U0len, f.rlen, f.Kshape, f.slen, f.flen, f.tlen, f.svlen, f.statev, f.lpf, f.Vred⟩

/-! ## Dependence on the inputs only -/

/-- Two computations end the same way, with related values. -/
def PyRel {α β : Type} (R : α → β → Prop) : Py α → Py β → Prop
  | .ok a, .ok b => R a b
  | .error e, .error e' => e = e'
  | _, _ => False

theorem PyRel.bind {α β γ δ : Type} {R : α → β → Prop} {S : γ → δ → Prop} {x : Py α} {y : Py β}
    {f : α → Py γ} {g : β → Py δ} (h : PyRel R x y) (hf : ∀ a b, R a b → PyRel S (f a) (g b)) :
    PyRel S (x >>= f) (y >>= g) := by
  match x, y, h with
  | .ok a, .ok b, h => exact hf a b h
  | .error e, .error e', h => exact h

theorem PyRel.same {α γ δ : Type} {S : γ → δ → Prop} (x : Py α) {f : α → Py γ} {g : α → Py δ}
    (hf : ∀ a, x = .ok a → PyRel S (f a) (g a)) : PyRel S (x >>= f) (x >>= g) := by
  cases x with
  | ok a => exact hf a rfl
  | error e => exact rfl

/-- Agreement on everything an element of stage `st` reads. -/
structure Sim (st : Stage) (a b : Analysis F) : Prop where
  U : a.U = b.U
  U0 : a.U0 = b.U0
  statev : a.statev = b.statev
  dof1 : a.DOF1 = b.DOF1
  ext : a.extForces = b.extForces
  r : st = .G → a.r = b.r
  K : st = .K → a.K = b.K
  rlen : a.r.length = b.r.length

theorem truss_sim {e : Int} {nodes : List Int} {Xn Un U0n rn : List (V3 F)} {nl el : List Int} {st : Stage}
    {sv : Option (List (List F))} {mp gp : List F} {um : Umat} {a b : Analysis F} (h : Sim st a b) :
    PyRel (fun p q => Sim st p.1 q.1 ∧ p.2 = q.2) (truss e nodes Xn Un U0n rn nl el st sv mp gp um a)
      (truss e nodes Xn Un U0n rn nl el st sv mp gp um b) := by
  unfold truss
  split
  · split
    · split
      · split
        · split
          · refine PyRel.same _ fun se _ => PyRel.same _ fun o _ => ?_
            cases st with
            | G =>
              refine ⟨⟨h.U, h.U0, h.statev, h.dof1, h.ext, fun _ => ?_, fun hK => (by cases hK), ?_⟩, rfl⟩
              · simp only [h.r rfl]
              · simp only [setAll_length]; exact h.rlen
            | K =>
              refine PyRel.same _ fun ia _ => PyRel.same _ fun ie _ => ?_
              refine ⟨⟨h.U, h.U0, h.statev, h.dof1, h.ext, fun hK => (by cases hK), fun _ => ?_, h.rlen⟩, rfl⟩
              simp only [h.K rfl]
          · exact rfl
        · exact rfl
      · exact rfl
    · exact rfl
  · exact rfl

theorem gatherRows_len {α β : Type} {f : List Nat → Py α} {g : List Nat → Py β}
    {R : α → β → Prop} (hfg : ∀ idx, PyRel R (f idx) (g idx)) (labels : List Int) (ns : List Int) :
    PyRel (fun p q => p.length = q.length) (gatherRows f labels ns) (gatherRows g labels ns) := by
  induction ns with
  | nil => exact rfl
  | cons n ns ih =>
    unfold gatherRows
    refine PyRel.bind (hfg _) fun x y _ => PyRel.bind ih fun xs ys hl => ?_
    simpa [PyRel] using hl

theorem npFirst_len {α β : Type} (l : List α) (l' : List β) (h : l.length = l'.length) (idx : List Nat) :
    PyRel (fun _ _ => True) (npFirst l idx) (npFirst l' idx) := by
  have key : PyRel (fun (p : List α) (q : List β) => p.length = q.length) (npTake l idx) (npTake l' idx) := by
    induction idx with
    | nil => exact rfl
    | cons i is ih =>
      unfold npTake
      by_cases hi : i < l.length
      · rw [List.getElem?_eq_getElem hi, List.getElem?_eq_getElem (h ▸ hi)]
        simp only
        revert ih
        cases npTake l is <;> cases npTake l' is <;> simp [PyRel]
      · rw [List.getElem?_eq_none_iff.2 (by omega), List.getElem?_eq_none_iff.2 (by omega)]
        exact rfl
  unfold npFirst
  revert key
  cases npTake l idx with
  | error e => cases npTake l' idx with
    | error e' => intro k; exact k
    | ok q => intro k; exact k.elim
  | ok p => cases npTake l' idx with
    | error e' => intro k; exact k.elim
    | ok q =>
      intro k
      cases p <;> cases q <;> simp_all [PyRel]

/-- In stage K the internal forces are read but not used. -/
theorem truss_rn {e : Int} {nodes : List Int} {Xn Un U0n rn rn' : List (V3 F)} {nl el : List Int}
    {sv : Option (List (List F))} {mp gp : List F} {um : Umat} {a : Analysis F} (h : rn.length = rn'.length) :
    truss e nodes Xn Un U0n rn nl el .K sv mp gp um a = truss e nodes Xn Un U0n rn' nl el .K sv mp gp um a := by
  unfold truss
  match rn, rn', h with
  | [], [], _ => rfl
  | [_], [_], _ => rfl
  | [_, _], [_, _], _ => rfl
  | _ :: _ :: _ :: _, _ :: _ :: _ :: _, _ => rfl

theorem elemStep_sim {c : Ctx F} {st : Stage} {w : Bool} {lpf : F} {u : List F} {p q : Analysis F × Option Umat}
    {e : Int} (h : Sim st p.1 q.1) (hp : p.2 = q.2) :
    PyRel (fun p q => Sim st p.1 q.1 ∧ p.2 = q.2) (elemStep c st w lpf u p e) (elemStep c st w lpf u q e) := by
  obtain ⟨a, prev⟩ := p
  obtain ⟨b, prev'⟩ := q
  simp only at h hp
  subst hp
  unfold elemStep
  simp only [h.U, h.U0, h.statev]
  refine PyRel.same _ fun nodes _ => PyRel.same _ fun mp _ => PyRel.same _ fun gp _ => PyRel.same _ fun Xn _ =>
    PyRel.same _ fun Un _ => PyRel.same _ fun U0n _ => ?_
  refine PyRel.bind (R := fun x y => x.length = y.length ∧ (st = .G → x = y)) ?_ ?_
  · cases st with
    | G =>
      rw [h.r rfl]
      cases gatherRows (fun idx => npFirst b.r idx) c.nodes.labels nodes with
      | ok x => exact ⟨rfl, fun _ => rfl⟩
      | error e => exact rfl
    | K =>
      have := gatherRows_len (f := fun idx => npFirst a.r idx) (g := fun idx => npFirst b.r idx)
        (fun idx => npFirst_len a.r b.r h.rlen idx) c.nodes.labels nodes
      revert this
      cases gatherRows (fun idx => npFirst a.r idx) c.nodes.labels nodes <;>
        cases gatherRows (fun idx => npFirst b.r idx) c.nodes.labels nodes <;> simp [PyRel]
  intro rn rn' ⟨hl, hG⟩
  refine PyRel.same _ fun mt _ => ?_
  split
  · rename_i um _
    have ht : truss e nodes Xn Un U0n rn c.nodes.labels c.elems.labels st (if 0 < c.nstatev then b.statev else none) mp gp
        um a = truss e nodes Xn Un U0n rn' c.nodes.labels c.elems.labels st (if 0 < c.nstatev then b.statev else none) mp gp
        um a := by
      cases st with
      | G => rw [hG rfl]
      | K => exact truss_rn hl
    rw [ht]
    refine PyRel.bind (truss_sim h) ?_
    intro x y ⟨hs, hsv⟩
    obtain ⟨x1, x2⟩ := x
    obtain ⟨y1, y2⟩ := y
    simp only at hs hsv
    subst hsv
    by_cases hw : (w && decide (0 < c.nstatev)) = true
    · simp only [hw, if_true]
      exact ⟨⟨hs.U, hs.U0, rfl, hs.dof1, hs.ext, hs.r, hs.K, hs.rlen⟩, rfl⟩
    · simp only [hw, Bool.false_eq_true, if_false]
      exact ⟨hs, rfl⟩
  · exact rfl

theorem foldElem_sim {c : Ctx F} {st : Stage} {w : Bool} {lpf : F} {u : List F} (ls : List Int) :
    ∀ {p q : Analysis F × Option Umat}, Sim st p.1 q.1 → p.2 = q.2 →
    PyRel (fun p q => Sim st p.1 q.1 ∧ p.2 = q.2) (ls.foldlM (elemStep c st w lpf u) p)
      (ls.foldlM (elemStep c st w lpf u) q) := by
  induction ls with
  | nil => intro p q h1 h2; exact ⟨h1, h2⟩
  | cons e ls ih =>
    intro p q h1 h2
    rw [List.foldlM_cons, List.foldlM_cons]
    exact PyRel.bind (elemStep_sim h1 h2) fun x y hxy => ih hxy.1 hxy.2

theorem foldl_set_congr {α : Type} (ps : List (Nat × α)) : ∀ (u u' : List α), u.length = u'.length →
    (∀ i, i ∉ ps.map Prod.fst → u[i]? = u'[i]?) →
    ps.foldl (fun acc p => acc.set p.1 p.2) u = ps.foldl (fun acc p => acc.set p.1 p.2) u' := by
  induction ps with
  | nil =>
    intro u u' _ h
    exact List.ext_getElem? fun i => h i (by simp)
  | cons p ps ih =>
    intro u u' hl h
    rw [List.foldl_cons, List.foldl_cons]
    refine ih _ _ (by simpa using hl) fun i hi => ?_
    rw [List.getElem?_set, List.getElem?_set, hl]
    by_cases hpi : p.1 = i
    · simp [hpi]
    · rw [if_neg hpi, if_neg hpi]
      exact h i (by simp only [List.map_cons, List.mem_cons, not_or]; exact ⟨fun hc => hpi hc.symm, hi⟩)

theorem scatter_congr {u u' v : List F} {idx : List Nat} (hl : u.length = u'.length)
    (h : ∀ i, i ∉ idx → u[i]? = u'[i]?) : scatter u idx v = scatter u' idx v := by
  unfold scatter
  by_cases hv : v.length = idx.length
  · rw [if_pos hv, if_pos hv]
    congr 1
    refine foldl_set_congr _ _ _ hl ?_
    intro i hi
    rw [List.map_fst_zip (by omega)] at hi
    exact h i hi
  · rw [if_neg hv, if_neg hv]
    split
    · rename_i x
      congr 1
      apply List.ext_getElem?
      intro i
      rw [getElem?_setAll, getElem?_setAll, hl]
      by_cases hi : i ∈ idx
      · by_cases hlt : i < u'.length
        · simp only [hi, hlt, and_self, if_true]
        · rw [List.getElem?_eq_none_iff.2 (by omega), List.getElem?_eq_none_iff.2 (by omega)]
      · simp [hi, h i hi]
    · rfl

theorem map_const_len {α β : Type} (x : β) : ∀ l l' : List α, l.length = l'.length →
    (l.map fun _ => x) = l'.map fun _ => x := by
  intro l l' h
  rw [List.map_const', List.map_const', h]

theorem prepare_sim {a b : Analysis F} (h : SameInputs a b) (u u0 : List F) (st : Stage) :
    PyRel (Sim st) (prepare a u u0 st) (prepare b u u0 st) := by
  unfold prepare
  cases st with
  | G =>
    simp only [← h.dof1]
    rw [scatter_congr h.Ulen h.U, scatter_congr h.U0len h.U0]
    refine PyRel.same _ fun U _ => PyRel.same _ fun U0 _ => ?_
    exact ⟨rfl, rfl, h.statev, rfl, h.ext, fun _ => map_const_len _ _ _ h.rlen, fun hK => (by cases hK),
      by simpa using h.rlen⟩
  | K =>
    simp only [← h.dof1]
    rw [scatter_congr h.Ulen h.U, scatter_congr h.U0len h.U0]
    refine PyRel.same _ fun U _ => PyRel.same _ fun U0 _ => ?_
    refine ⟨rfl, rfl, h.statev, rfl, h.ext, fun hK => (by cases hK), fun _ => ?_, h.rlen⟩
    have : ∀ K : List (List (M3 F)), (K.map fun row => row.map fun _ => ((fun _ _ => (0 : F)) : M3 F)) =
        (K.map List.length).map fun n => List.replicate n ((fun _ _ => (0 : F)) : M3 F) := by
      intro K
      rw [List.map_map]
      refine List.map_congr_left fun row _ => ?_
      simp
    simp only
    rw [this, this, h.Kshape]

theorem equilibrium_sim {c : Ctx F} {a b : Analysis F} (h : SameInputs a b) (V V0 : List F) (st : Stage) (w : Bool) :
    PyRel (fun p q => Sim st p.1 q.1 ∧ p.2 = q.2 ∧ (st = .G → p.1.g = q.1.g)) (equilibrium c a V V0 st w)
      (equilibrium c b V V0 st w) := by
  unfold equilibrium
  have hs : splitV c b V V0 = splitV c a V V0 := by unfold splitV; rw [h.lpf]
  rw [hs]
  refine PyRel.same _ fun p _ => ?_
  obtain ⟨lpf, u, u0⟩ := p
  refine PyRel.bind (prepare_sim h u u0 st) fun a1 b1 h1 => ?_
  refine PyRel.bind (foldElem_sim _ (p := (a1, none)) (q := (b1, none)) h1 rfl) fun p q hpq => ?_
  obtain ⟨a2, um⟩ := p
  obtain ⟨b2, um'⟩ := q
  obtain ⟨h2, -⟩ := hpq
  simp only at h2
  cases st with
  | K => exact ⟨h2, rfl, fun hK => by cases hK⟩
  | G =>
    simp only [h2.ext, h2.r rfl, h2.dof1]
    split
    · exact rfl
    · refine PyRel.same _ fun g _ => PyRel.same _ fun gr _ => ?_
      exact ⟨⟨h2.U, h2.U0, h2.statev, rfl, rfl, fun _ => rfl, fun hK => (by cases hK), rfl⟩, rfl, fun _ => rfl⟩

theorem stiffness_sim {c : Ctx F} {a b : Analysis F} (h : SameInputs a b) (V : List F) :
    PyRel (fun p q => p.1.K = q.1.K ∧ p.2 = q.2) (stiffness c a V) (stiffness c b V) := by
  unfold stiffness
  refine PyRel.bind (equilibrium_sim h V V .K false) fun p q hpq => ?_
  obtain ⟨a2, x⟩ := p
  obtain ⟨b2, y⟩ := q
  obtain ⟨h1, -, -⟩ := hpq
  have hK : a2.K = b2.K := h1.K rfl
  have hd : a2.DOF1 = b2.DOF1 := h1.dof1
  exact ⟨hK, by simp only [hd, hK]⟩

theorem Frame.sameInputs {a b : Analysis F} (f : Frame false a b) : SameInputs a b where
  dof1 := f.dof1.symm
  ext := f.ext.symm
  statev := (f.statev rfl).symm
  lpf := (f.lpf rfl).symm
  U := fun i hi => (f.Uout i hi).symm
  U0 := fun i hi => (f.U0out i hi).symm
  Ulen := f.Ulen.symm
  U0len := f.U0len.symm
  rlen := f.rlen.symm
  Kshape := f.Kshape.symm

end TrussPy
