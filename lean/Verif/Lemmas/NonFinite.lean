import Verif.Spec.NonFinite
import Verif.Lemmas.Accepted
/-!
# Values that are not finite reach the residual
-/

set_option linter.unusedSectionVars false

namespace TrussPy

variable {F : Type} [Zero F] [One F] [Add F] [Sub F] [Mul F] [Div F] [Neg F] [Flt F] {bad : F → Prop}

theorem fin3_cases (P : Fin 3 → Prop) (h0 : P 0) (h1 : P 1) (h2 : P 2) : ∀ i, P i := by
  intro i
  match i with
  | 0 => exact h0
  | 1 => exact h1
  | 2 => exact h2

theorem NonFinite.dot3 (hb : NonFinite bad) {a : V3 F} {i : Fin 3} (h : bad (a i)) : bad (dot3 a a) := by
  unfold TrussPy.dot3
  match i, h with
  | 0, h => exact hb.add_left _ (hb.add_left _ (hb.mul_left _ h))
  | 1, h => exact hb.add_left _ (hb.add_right _ (hb.mul_left _ h))
  | 2, h => exact hb.add_right _ (hb.mul_left _ h)

/-- A strain that is not finite gives a stress that is not finite. -/
theorem NonFinite.stress (hb : NonFinite bad) {law : Umat} {e de : F} {mp : List F} {sv : Option (List F)} {o : UmatOut F}
    (h : law.call e de mp sv = .ok o) (hbad : bad e ∨ ∃ E, mp.head? = some E ∧ bad E) : bad o.s := by
  have hE : ∀ E, pyGet mp 0 = .ok E → ∀ w, (bad E ∨ bad w) ∨ (¬ bad w ∧ ∃ E, mp.head? = some E ∧ bad E) → bad (E * w) := by
    intro E hE w hw
    rcases hw with (hw | hw) | ⟨-, E', h1, h2⟩
    · exact hb.mul_left _ hw
    · exact hb.mul_right _ hw
    · cases mp with
      | nil => cases h1
      | cons a l =>
        cases h1
        cases hE
        exact hb.mul_left _ h2
  cases law with
  | el =>
    simp only [Umat.call, umatEl] at h
    obtain ⟨E, h1, h⟩ := py_bind_eq_ok.1 h
    cases h
    refine hE E h1 e ?_
    by_cases he : bad e
    · exact .inl (.inr he)
    · exact .inr ⟨he, hbad.resolve_left he⟩
  | elplast =>
    simp only [Umat.call, umatElplastIso] at h
    obtain ⟨E, h1, h⟩ := py_bind_eq_ok.1 h
    obtain ⟨K, h2, h⟩ := py_bind_eq_ok.1 h
    obtain ⟨Sy, h3, h⟩ := py_bind_eq_ok.1 h
    cases sv with
    | none => cases h
    | some sv =>
      obtain ⟨e0, h4, h⟩ := py_bind_eq_ok.1 h
      obtain ⟨y0, h5, h⟩ := py_bind_eq_ok.1 h
      have ht : bad (E * (e - e0)) := by
        refine hE E h1 _ ?_
        by_cases he : bad (e - e0)
        · exact .inl (.inr he)
        · exact .inr ⟨he, hbad.resolve_left fun h => he (hb.sub_left _ h)⟩
      cases h
      generalize (if Flt.eq y0 0 = true then Sy else y0) = Y
      dsimp only
      by_cases hle : Flt.le (Flt.abs (E * (e - e0)) - Y) 0 = true
      · rw [if_pos hle]; exact ht
      · rw [if_neg hle]; exact hb.mul_right _ ht

/-- What makes the force of a bar non-finite. -/
theorem NonFinite.force (hb : NonFinite bad) {b : Bar F} {U U0 : List F} {sv : Option (List F)} {o : TrussOut F}
    (h : b.eval U U0 sv = .ok o) :
    (bad o.lam → bad o.N) ∧ (bad o.stress → bad o.N) ∧ ((∃ E, b.mat.head? = some E ∧ bad E) → bad o.N) ∧
    ((∃ A, b.geo.head? = some A ∧ bad A) → bad o.N) ∧
    (∀ i, bad (b.XA i) ∨ bad (b.XE i) ∨ bad (row3 U b.iA i) ∨ bad (row3 U b.iE i) → bad o.N) ∧
    (b.XA = b.XE → bad o.N) := by
  unfold Bar.eval trussCore at h
  obtain ⟨out, h1, h⟩ := py_bind_eq_ok.1 h
  obtain ⟨A, h2, h⟩ := py_bind_eq_ok.1 h
  cases h
  dsimp only
  have hs : bad out.s → bad (out.s * A) := fun h => hb.mul_left _ h
  have hlam : ∀ {lam : F}, bad lam → bad (lam - 1) := fun h => hb.sub_left _ h
  have key : bad (Flt.sqrt (TrussPy.dot3 (fun i => (b.XE i - b.XA i) + (row3 U b.iE i - row3 U b.iA i))
      (fun i => (b.XE i - b.XA i) + (row3 U b.iE i - row3 U b.iA i))) /
      Flt.sqrt (TrussPy.dot3 (fun i => b.XE i - b.XA i) (fun i => b.XE i - b.XA i))) → bad (out.s * A) :=
    fun hl => hs (hb.stress h1 (.inl (hlam hl)))
  refine ⟨key, hs, fun h => hs (hb.stress h1 (.inr h)), ?_, ?_, ?_⟩
  · rintro ⟨A', h3, h4⟩
    cases hg : b.geo with
    | nil => rw [hg] at h3; cases h3
    | cons a l =>
      rw [hg] at h3 h2
      cases h3
      cases h2
      exact hb.mul_right _ h4
  · intro i hi
    refine key (hb.div _ (hb.sqrt (hb.dot3 (i := i) ?_)))
    rcases hi with h | h | h | h
    · exact hb.add_left _ (hb.sub_right _ h)
    · exact hb.add_left _ (hb.sub_left _ h)
    · exact hb.add_right _ (hb.sub_right _ h)
    · exact hb.add_right _ (hb.sub_left _ h)
  · intro hX
    by_cases hall : ∀ i, b.XE i - b.XA i = 0
    · have hL : Flt.sqrt (TrussPy.dot3 (fun i => b.XE i - b.XA i) (fun i => b.XE i - b.XA i)) = 0 := by
        unfold TrussPy.dot3
        simp only [hall, hb.zero_mul, hb.zero_add, hb.sqrt_zero]
      rw [hL] at key
      exact key (hb.div_zero _)
    · obtain ⟨i, hi⟩ := not_forall.1 hall
      have hbi : bad (b.XE i - b.XA i) := by
        have := hb.sub_self (b.XE i)
        rw [hX] at hi ⊢
        exact this.resolve_right hi
      exact key (hb.div _ (hb.sqrt (hb.dot3 (i := i) (hb.add_left _ hbi))))

theorem addBar_row {r : List (V3 F)} {p : Bar F × TrussOut F} {i : Nat} {v : V3 F} (h : (addBar r p)[i]? = some v) :
    ∃ w, r[i]? = some w ∧ ((i = p.1.iE ∧ v = fun d => w d + p.2.N * p.2.n d) ∨
      (i = p.1.iA ∧ v = fun d => w d + p.2.N * -(p.2.n d)) ∨ (i ≠ p.1.iA ∧ i ≠ p.1.iE ∧ v = w)) := by
  have hi : i < r.length := by
    have := (List.getElem?_eq_some_iff.1 h).1
    rwa [addBar_length] at this
  unfold addBar at h
  refine ⟨r[i], List.getElem?_eq_getElem hi, ?_⟩
  by_cases hE : i = p.1.iE
  · refine .inl ⟨hE, ?_⟩
    subst hE
    rw [List.getElem?_set_self (by rwa [List.length_set])] at h
    rw [← Option.some.inj h]
    funext d
    simp [List.getD, List.getElem?_eq_getElem hi]
  · rw [List.getElem?_set_ne (fun h => hE h.symm)] at h
    by_cases hA : i = p.1.iA
    · refine .inr (.inl ⟨hA, ?_⟩)
      subst hA
      rw [List.getElem?_set_self hi] at h
      rw [← Option.some.inj h]
      funext d
      simp [List.getD, List.getElem?_eq_getElem hi]
    · refine .inr (.inr ⟨hA, hE, ?_⟩)
      rw [List.getElem?_set_ne (fun h => hA h.symm), List.getElem?_eq_getElem hi] at h
      exact (Option.some.inj h).symm

/-- All components of the force at node `i` are bad. -/
def BadRow (bad : F → Prop) (r : List (V3 F)) (i : Nat) : Prop := ∀ v, r[i]? = some v → ∀ d, bad (v d)

theorem NonFinite.keep (hb : NonFinite bad) {r : List (V3 F)} (p : Bar F × TrussOut F) {i : Nat} (h : BadRow bad r i) :
    BadRow bad (addBar r p) i := by
  intro v hv d
  obtain ⟨w, hw, h1⟩ := addBar_row hv
  rcases h1 with ⟨-, rfl⟩ | ⟨-, rfl⟩ | ⟨-, -, rfl⟩
  · exact hb.add_left _ (h w hw d)
  · exact hb.add_left _ (h w hw d)
  · exact h _ hw d

theorem NonFinite.keeps (hb : NonFinite bad) (ps : List (Bar F × TrussOut F)) : ∀ {r : List (V3 F)} {i : Nat},
    BadRow bad r i → BadRow bad (ps.foldl addBar r) i := by
  induction ps with
  | nil => intro r i h; exact h
  | cons p ps ih => intro r i h; exact ih (hb.keep p h)

/-- A bar with a non-finite force makes the internal forces at both ends non-finite in every component. -/
theorem NonFinite.assembled (hb : NonFinite bad) : ∀ (ps : List (Bar F × TrussOut F)) (r : List (V3 F))
    {p : Bar F × TrussOut F}, p ∈ ps → bad p.2.N → ∀ {i : Nat}, i = p.1.iA ∨ i = p.1.iE →
    BadRow bad (ps.foldl addBar r) i := by
  intro ps
  induction ps with
  | nil => intro r p hp; cases hp
  | cons q ps ih =>
    intro r p hp hN i hi
    rcases List.mem_cons.1 hp with rfl | hp
    · refine hb.keeps ps ?_
      intro v hv d
      obtain ⟨w, -, h1⟩ := addBar_row hv
      rcases h1 with ⟨-, rfl⟩ | ⟨-, rfl⟩ | ⟨hA, hE, -⟩
      · exact hb.add_right _ (hb.mul_left _ hN)
      · exact hb.add_right _ (hb.mul_left _ hN)
      · exact absurd hi (by rintro (h | h) <;> contradiction)
    · exact ih _ hp hN hi

/-- A residual that is not finite at a free component is never below the tolerance. -/
theorem NonFinite.refuse (hb : NonFinite bad) {g gf : List F} {idx : List Nat} (h : npTake g idx = .ok gf) {q : Nat}
    (hq : q ∈ idx) {v : F} (hv : g[q]? = some v) (hbad : bad v) {t : F} (ht : ¬ bad t) (w : F) :
    Flt.lt (Flt.vnorm ((gf.map fun v => -v) ++ [w])) t = false := by
  obtain ⟨n, hn⟩ := List.getElem?_of_mem hq
  have := npTake_getElem h hn hv
  exact hb.norm (List.mem_append_left _ (List.mem_map.2 ⟨v, List.mem_of_getElem? this, rfl⟩)) (hb.neg hbad) ht

/-- A bar with a non-finite force and a free component at one of its ends: the evaluation is never below the
tolerance. -/
theorem NonFinite.evaluation (hb : NonFinite bad) {c : Ctx F} {bars : List (Bar F)} (hB : c.Bars bars)
    {outs : List (TrussOut F)} {fc f g gf : List F} {lpf : F} {idx : List Nat}
    (hres : residual ((bars.zip outs).foldl addBar (zeroR c.nnodes)) fc f lpf = .ok g) (h : npTake g idx = .ok gf)
    {k : Nat} {b : Bar F} {o : TrussOut F} (hk : bars[k]? = some b) (ho : outs[k]? = some o) (hN : bad o.N) {i : Nat}
    (hi : i = b.iA ∨ i = b.iE) {d : Fin 3} (hd : 3 * i + d.val ∈ idx) {t : F} (ht : ¬ bad t) (w : F) :
    Flt.lt (Flt.vnorm ((gf.map fun v => -v) ++ [w])) t = false := by
  have hmem : (b, o) ∈ bars.zip outs := by
    refine List.mem_of_getElem? (i := k) ?_
    rw [List.getElem?_zip_eq_some]
    exact ⟨hk, ho⟩
  have hrow := hb.assembled (bars.zip outs) (zeroR c.nnodes) hmem hN hi
  have hlen : ((bars.zip outs).foldl addBar (zeroR c.nnodes)).length = c.nnodes := by
    have : ∀ (ps : List (Bar F × TrussOut F)) (r : List (V3 F)), (ps.foldl addBar r).length = r.length := by
      intro ps
      induction ps with
      | nil => intro r; rfl
      | cons p ps ih => intro r; rw [List.foldl_cons, ih, addBar_length]
    rw [this]
    simp [zeroR]
  have hin : i < c.nnodes := by
    have hbar := hB.bar k b hk
    obtain ⟨NA, NE, -, h1, h2⟩ := hbar.conn
    rw [hB.nnodes]
    rcases hi with rfl | rfl
    · exact (List.getElem?_eq_some_iff.1 h1).1
    · exact (List.getElem?_eq_some_iff.1 h2).1
  obtain ⟨-, hg⟩ := residual_get hres
  obtain ⟨k0, q, -, -, h3⟩ := hg i _ (List.getElem?_eq_getElem (by rw [hlen]; exact hin)) d
  exact hb.refuse h hd h3 (hb.add_left _ (hb.add_left _ (hb.neg (hrow _ (List.getElem?_eq_getElem _) d)))) ht w

/-- The evaluation that met the tolerance in an increment which is accepted or ends in the predictor. -/
theorem IsInc.tested {c : Ctx F} {env : Env F} {cfg : PFCfg F} {dxmax0 : List F} {s s' : PState F} {o : Outcome}
    (h : IsInc env (modelProblem c) cfg dxmax0 s s' o) (ho : o = .accepted ∨ o = .predictor) :
    ∃ b b' V gv w, Trial s.a b ∧ equilibrium c b V s.x .G false = .ok (b', gv) ∧
      Flt.lt (Flt.vnorm ((gv.map fun v => -v) ++ [w])) cfg.ftol = true := by
  have key : ∀ {x0 x : List F} {j : Int} {xmax : F} {a a' : Analysis F} {nfev : Int} {nr : NewtonOut F},
      newton (extF (modelProblem c) x0 j xmax false) (extDf (modelProblem c) j) env.spsolve a x nfev cfg.ftol cfg.xtol =
        .ok (a', nr) → nr.success = true → ∃ b b' gv w, Trial a b ∧ equilibrium c b nr.x x0 .G false = .ok (b', gv) ∧
        Flt.lt (Flt.vnorm ((gv.map fun v => -v) ++ [w])) cfg.ftol = true := by
    intro x0 x j xmax a a' nfev nr hn hs
    obtain ⟨its, last, r1, -, -, -, -, -, r7, -⟩ := newtonLoop_spec _ _ _ _ _ _ hn
    have hlt := (r7.1 hs).1
    clear hn r7
    generalize hl : its ++ [last] = l at r1
    generalize nr.x = y at r1 ⊢
    induction r1 generalizing its with
    | nil => simp at hl
    | @cons s x s1 x1 fx dx l' s' x' hi hrest ih =>
      obtain ⟨s1', J, s2, fx0, h1, h2, -, -, -, h3⟩ := hi
      have hR : Trial s s2 := (extDf_trial h1).trans (extF_trial h2)
      cases its with
      | nil =>
        simp only [List.nil_append, List.cons.injEq] at hl
        obtain ⟨rfl, rfl⟩ := hl
        cases hrest
        obtain ⟨gv, vj, h4, -, rfl⟩ := extF_ok h3
        exact ⟨_, _, gv, _, hR.trans (Trial.book s2 j s2.Kmod s2.dVmax), h4, hlt⟩
      | cons it its =>
        simp only [List.cons_append, List.cons.injEq] at hl
        obtain ⟨b, b', gv, w, h4, h5⟩ := ih its hl.2
        exact ⟨b, b', gv, w, (hR.trans (extF_trial h3)).trans h4, h5⟩
  cases h with
  | pre hp hs hl =>
    cases hp with
    | skip => cases hs
    | one _ _ _ hn =>
      dsimp only at hs
      split at hs
      · cases hs
      · obtain ⟨b, b', gv, w, h1, h2⟩ := key hn hs
        exact ⟨b, b', _, gv, w, h1, h2⟩
  | @solve p lpf n st1 st' o d hp _ hn hd he hl =>
    have h1 : Trial s.a st1.a := hp.trial.trans hn.trial
    cases he with
    | accepted a2 fx _ hsucc hx =>
      obtain ⟨b, b', gv, w, h2, h3⟩ := key hd.hnewton hsucc
      exact ⟨b, b', _, gv, w, h1.trans h2, h3⟩
    | _ => simp at ho

theorem IsInc.ext {c : Ctx F} {env : Env F} {cfg : PFCfg F} {dxmax0 : List F} {s s' : PState F} {o : Outcome}
    (h : IsInc env (modelProblem c) cfg dxmax0 s s' o) : s'.a.extForces = s.a.extForces := by
  rcases h.model with ⟨-, -, b, lpf, hb, -, ha⟩ | ⟨-, ⟨b, b', g, dV, lpf, hb, hev, -, ha⟩⟩
  · rw [ha]; exact hb.ext
  · rw [ha]; exact (equilibrium_frame hev).1.ext.trans hb.ext

/-- The evaluations that met the tolerance in the increments of a run. -/
theorem run_tested {argsort : List Int → List Nat} {env : Env F} {fuel : Nat} {m m1 m2 : Model F}
    (hb : m.build argsort = .ok m1) (hr : m1.run env fuel = .ok m2) (hn : 0 < m1.settings.nsteps) {c : Ctx F}
    (hc : m1.ctx = some c) {d : Dims} (hd : m1.dims = some d) :
    ∃ res r0 outs, m2.results = some res ∧ RunCalls env fuel m1 c outs ∧
      res.R = r0 :: (recorded outs).map (·.a) ∧
      ∀ r ∈ recorded outs, r.out = .accepted ∨ r.out = .predictor → ∃ b b' V x0 gv w, b.Fits c ∧ b.DOF1 = d.dof1 ∧
        b.extForces = r.a.extForces ∧ equilibrium c b V x0 .G false = .ok (b', gv) ∧
        Flt.lt (Flt.vnorm ((gv.map fun v => -v) ++ [w])) (Flt.pow10neg m1.settings.ftol) = true := by
  obtain ⟨c', d', ft, r0, outs, a1, R, le, h1, h2, h3, h4, h5, h6, h7, h8, h9, h10, h11, h12⟩ := build_run hb hr
  rw [hc] at h1; cases h1
  rw [hd] at h2; cases h2
  rcases h12 with ⟨e, -⟩ | ⟨-, e1, e2⟩
  · omega
  have hI := fresh_inv h5 h9
  have hcy : Carry (Analysis.fresh d.nnodes d.nelems d.dof0 d.dof1 c.nstatev : Analysis F)
      { (Analysis.fresh d.nnodes d.nelems d.dof0 d.dof1 c.nstatev : Analysis F) with
          Vred := List.replicate d.dof1.length 0 ++ [0], lpf := some 0 } := by constructor <;> rfl
  refine ⟨_, r0, outs, e1, h11.built hb hc hd h3 h10 h7.lpf, e2, fun r hrm hout => ?_⟩
  obtain ⟨k, hk⟩ := List.getElem?_of_mem hrm
  have hkl := (List.getElem?_eq_some_iff.1 hk).1
  obtain ⟨p, hp⟩ : ∃ p, ({ (Analysis.fresh d.nnodes d.nelems d.dof0 d.dof1 c.nstatev : Analysis F) with
      Vred := List.replicate d.dof1.length 0 ++ [0], lpf := some 0 } :: (recorded outs).map (·.a))[k]? = some p :=
    ⟨_, List.getElem?_eq_getElem (by simp; omega)⟩
  have hinc := h11.pairs (hI.carry hcy) (Carry.refl _) (hI.carry hcy) hp hk
  obtain ⟨cfg, d0, t, t', q1, q2, q3, q4, q5, q6, q7, incs, xl, rfl⟩ := h11.increments hp hk
  obtain ⟨b, b', V, gv, w, y1, y2, y3⟩ := q2.tested hout
  have hI2 := (hinc.prev.carry q1).trial y1
  exact ⟨b, b', V, _, gv, w, hI2.fits, hI2.dof1, by rw [← q4, q2.ext]; exact y1.ext, y2, y3⟩

end TrussPy
