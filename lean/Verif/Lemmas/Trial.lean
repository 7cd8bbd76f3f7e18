import Verif.Lemmas.Frame
import Verif.Lemmas.Path
import Verif.Run
/-!
# What one increment of the model's own problem does to the analysis object

For every arithmetic, every table and every linear solver.
-/

set_option linter.unusedSectionVars false

namespace TrussPy

variable {F : Type} [Zero F] [One F] [Add F] [Sub F] [Mul F] [Div F] [Neg F] [Flt F]

/-- `a'` arises from `a` by evaluations without commit and by solver bookkeeping (`j`, `Kmod`, `dVmax`). -/
structure Trial (a a' : Analysis F) : Prop where
  step : a'.step = a.step
  stress0 : a'.elementStress0 = a.elementStress0
  dof0 : a'.DOF0 = a.DOF0
  dof1 : a'.DOF1 = a.DOF1
  Ured : a'.Ured = a.Ured
  ext : a'.extForces = a.extForces
  f0red : a'.f0red = a.f0red
  Uout : ∀ i, i ∉ a.DOF1 → a'.U[i]? = a.U[i]?
  U0out : ∀ i, i ∉ a.DOF1 → a'.U0[i]? = a.U0[i]?
  Ulen : a'.U.length = a.U.length
  U0len : a'.U0.length = a.U0.length
  rlen : a'.r.length = a.r.length
  Kshape : a'.K.map List.length = a.K.map List.length
  slen : a'.stretch.length = a.stretch.length
  flen : a'.elementForce.length = a.elementForce.length
  tlen : a'.elementStress.length = a.elementStress.length
  statev : a'.statev = a.statev
  lpf : a'.lpf = a.lpf
  Vred : a'.Vred = a.Vred
  rred : a'.rred = a.rred

theorem Trial.refl (a : Analysis F) : Trial a a := by
  constructor <;> first | rfl | (intros; rfl)

theorem Trial.trans {a b c : Analysis F} (h1 : Trial a b) (h2 : Trial b c) : Trial a c where
  step := h2.step.trans h1.step
  stress0 := h2.stress0.trans h1.stress0
  dof0 := h2.dof0.trans h1.dof0
  dof1 := h2.dof1.trans h1.dof1
  Ured := h2.Ured.trans h1.Ured
  ext := h2.ext.trans h1.ext
  f0red := h2.f0red.trans h1.f0red
  Uout i hi := (h2.Uout i (by rw [h1.dof1]; exact hi)).trans (h1.Uout i hi)
  U0out i hi := (h2.U0out i (by rw [h1.dof1]; exact hi)).trans (h1.U0out i hi)
  Ulen := h2.Ulen.trans h1.Ulen
  U0len := h2.U0len.trans h1.U0len
  rlen := h2.rlen.trans h1.rlen
  Kshape := h2.Kshape.trans h1.Kshape
  slen := h2.slen.trans h1.slen
  flen := h2.flen.trans h1.flen
  tlen := h2.tlen.trans h1.tlen
  statev := h2.statev.trans h1.statev
  lpf := h2.lpf.trans h1.lpf
  Vred := h2.Vred.trans h1.Vred
  rred := h2.rred.trans h1.rred

theorem Frame.trial {a b : Analysis F} (f : Frame false a b) : Trial a b :=
  ⟨f.step, f.stress0, f.dof0, f.dof1, f.Ured, f.ext, f.f0red, f.Uout, f.U0out, f.Ulen, f.U0len, f.rlen,
    f.Kshape, f.slen, f.flen, f.tlen, f.statev rfl, f.lpf rfl, f.Vred rfl, f.rred⟩

theorem Trial.book (a : Analysis F) (j : Int) (K : List (List F)) (dV : Option (List F)) :
    Trial a { a with j := j, Kmod := K, dVmax := dV } := by
  constructor <;> first | rfl | (intros; rfl)

/-- A relation kept by both callables is kept by the whole Newton loop. -/
theorem newton_keeps {S : Type} {f : S → List F → Py (S × List F)}
    {df : S → List F → Py (S × List (List F))} {sp : List (List F) → List F → Py (List F)} {s s' : S}
    {x : List F} {nfev : Int} {ftol xtol : F} {o : NewtonOut F} (R : S → S → Prop) (hr : ∀ s, R s s)
    (ht : ∀ s1 s2 s3, R s1 s2 → R s2 s3 → R s1 s3) (hf : ∀ s x s' y, f s x = .ok (s', y) → R s s')
    (hdf : ∀ s x s' y, df s x = .ok (s', y) → R s s')
    (h : newton f df sp s x nfev ftol xtol = .ok (s', o)) :
    R s s' ∧ ∃ s2 fx, R s s2 ∧ f s2 o.x = .ok (s', fx) := by
  have key : ∀ l y, NewtonRun f df sp s x l s' y → R s s' := by
    clear h
    intro l y hl
    induction hl with
    | nil => exact hr _
    | cons hi _ ih =>
      obtain ⟨s1, J, s2, fx, h1, h2, -, -, -, h3⟩ := hi
      exact ht _ _ _ (ht _ _ _ (ht _ _ _ (hdf _ _ _ _ h1) (hf _ _ _ _ h2)) (hf _ _ _ _ h3)) ih
  obtain ⟨its, last, r1, -⟩ := newtonLoop_spec _ _ _ _ _ _ h
  clear h
  refine ⟨key _ _ r1, ?_⟩
  clear key
  generalize hl : its ++ [last] = l at r1
  generalize o.x = y at r1
  induction r1 generalizing its with
  | nil => simp at hl
  | @cons s x s1 x1 fx dx l' s' x' hi hrest ih =>
    obtain ⟨s1', J, s2, fx0, h1, h2, -, -, -, h3⟩ := hi
    have hR : R s s2 := ht _ _ _ (hdf _ _ _ _ h1) (hf _ _ _ _ h2)
    cases its with
    | nil =>
      simp only [List.nil_append, List.cons.injEq] at hl
      obtain ⟨-, rfl⟩ := hl
      cases hrest
      exact ⟨s2, fx, hR, h3⟩
    | cons it its =>
      simp only [List.cons_append, List.cons.injEq] at hl
      obtain ⟨s4, fx4, h4, h5⟩ := ih its hl.2
      exact ⟨s4, fx4, ht _ _ _ (ht _ _ _ hR (hf _ _ _ _ h3)) h4, h5⟩

theorem extF_trial {c : Ctx F} {V0 : List F} {j : Int} {Vmax : F} {a a' : Analysis F} {V fx : List F}
    (h : extF (modelProblem c) V0 j Vmax false a V = .ok (a', fx)) : Trial a a' := by
  obtain ⟨gv, vj, h1, -⟩ := extF_ok h
  exact (Trial.book a j a.Kmod a.dVmax).trans (equilibrium_frame h1).1.trial

theorem extDf_trial {c : Ctx F} {j : Int} {a a' : Analysis F} {V : List F} {J : List (List F)}
    (h : extDf (modelProblem c) j a V = .ok (a', J)) : Trial a a' := by
  obtain ⟨qc, a1, K, -, h1, -, rfl⟩ := extDf_ok h
  exact ((Trial.book a j a.Kmod a.dVmax).trans (stiffness_frame h1).trial).trans (Trial.book a1 a1.j _ a1.dVmax)

/-- Newton iterations of the model's problem: only trials, and the last action is an evaluation at the
returned vector. -/
theorem newton_trial {c : Ctx F} {x0 : List F} {j : Int} {xmax : F} {sp : List (List F) → List F → Py (List F)}
    {a a' : Analysis F} {x : List F} {nfev : Int} {ftol xtol : F} {o : NewtonOut F}
    (h : newton (extF (modelProblem c) x0 j xmax false) (extDf (modelProblem c) j) sp a x nfev ftol xtol = .ok (a', o)) :
    Trial a a' ∧ ∃ b g, Trial a b ∧ equilibrium c b o.x x0 .G false = .ok (a', g) := by
  obtain ⟨h1, s2, fx, h2, h3⟩ := newton_keeps Trial Trial.refl (fun _ _ _ => Trial.trans)
    (fun _ _ _ _ => extF_trial) (fun _ _ _ _ => extDf_trial) h
  obtain ⟨gv, vj, h4, -⟩ := extF_ok h3
  exact ⟨h1, _, gv, h2.trans (Trial.book s2 j s2.Kmod s2.dVmax), h4⟩

theorem IsPre.trial {c : Ctx F} {env : Env F} {cfg : PFCfg F} {s : PState F} {p : PreOut F}
    (h : IsPre env (modelProblem c) cfg s p) : Trial s.a p.a := by
  cases h with
  | skip => exact Trial.refl _
  | one _ _ _ hn => exact (newton_trial hn).1

theorem IsPass.trial {c : Ctx F} {env : Env F} {cfg : PFCfg F} {rc : RCtx F} {st : RState F} {d : PassData F}
    (h : IsPass env (modelProblem c) cfg rc st d) : Trial st.a (d.aD st) :=
  (newton_trial h.hnewton).1.trans (Trial.book d.a1 d.a1.j d.a1.Kmod _)

theorem Passes.trial {c : Ctx F} {env : Env F} {cfg : PFCfg F} {rc : RCtx F} {n : Nat} {st st' : RState F}
    (h : Passes env (modelProblem c) cfg rc n st st') : Trial st.a st'.a := by
  induction h with
  | zero => exact Trial.refl _
  | succ ha _ ih =>
    obtain ⟨d, hd, he⟩ := attempt_ok ha
    cases he with
    | again => exact hd.trial.trans ih

/-- The last evaluation of an increment from `prev` to `x` that does not end in the predictor, and the
analysis object recorded for it. -/
structure SolvedInc (c : Ctx F) (pa : Analysis F) (prev x : List F) (accepted : Bool) (ra : Analysis F) : Prop where
  eval : ∃ b b' g dV lpf, Trial pa b ∧ equilibrium c b x prev .G accepted = .ok (b', g) ∧ x.getLast? = some lpf ∧
    ra = { b' with dVmax := dV, Vred := x, Ured := x.dropLast, lpf := some lpf }

/-- One increment of the model's problem. -/
theorem IsInc.model {c : Ctx F} {env : Env F} {cfg : PFCfg F} {dxmax0 : List F} {s s' : PState F} {o : Outcome}
    (h : IsInc env (modelProblem c) cfg dxmax0 s s' o) :
    (o = .predictor ∧ s'.x = s.x ∧ ∃ b lpf, Trial s.a b ∧ s.x.getLast? = some lpf ∧
      s'.a = { b with Vred := s.x, Ured := s.x.dropLast, lpf := some lpf }) ∨
    (o ≠ .predictor ∧ SolvedInc c s.a s.x s'.x (o == .accepted) s'.a) := by
  cases h with
  | pre hp _ hl => exact .inl ⟨rfl, rfl, _, _, hp.trial, hl, rfl⟩
  | @solve p lpf n st1 st' o d hp _ hn hd he hl =>
    right
    have h1 : Trial s.a st1.a := hp.trial.trans hn.trial
    have h2 : Trial s.a (d.aD st1) := h1.trans hd.trial
    obtain ⟨-, b, g, hb, hev⟩ := newton_trial hd.hnewton
    cases he with
    | accepted a2 fx _ _ hx =>
      obtain ⟨gv, vj, h4, -⟩ := extF_ok hx
      refine ⟨by simp, ⟨_, a2, gv, a2.dVmax, lpf, h2.trans (Trial.book (d.aD st1) st1.j (d.aD st1).Kmod (d.aD st1).dVmax),
        h4, hl, rfl⟩⟩
    | error1 => exact ⟨by simp, ⟨b, d.a1, g, _, lpf, h1.trans hb, hev, hl, rfl⟩⟩
    | error2 => exact ⟨by simp, ⟨b, d.a1, g, _, lpf, h1.trans hb, hev, hl, rfl⟩⟩

end TrussPy
