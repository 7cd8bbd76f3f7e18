import Verif.Lemmas.Run
/-!
# The residual recorded by an accepted increment
-/

set_option linter.unusedSectionVars false

namespace TrussPy

variable {F : Type} [Zero F] [One F] [Add F] [Sub F] [Mul F] [Div F] [Neg F] [Flt F]

/-- Committing an evaluation does not change the residual it returns. -/
theorem equilibrium_commit {c : Ctx F} {bars : List (Bar F)} (hB : c.Bars bars) {a a' : Analysis F} (hf : a.Fits c)
    {V V0 g : List F} (h : equilibrium c a V V0 .G true = .ok (a', g)) :
    ∃ a'', equilibrium c a V V0 .G false = .ok (a'', g) := by
  obtain ⟨lpf, u, u0, U, U0, outs, ef, gg, p1, p2, p3, p4, p5, p6, p7, -⟩ := equilibrium_G hB hf h
  exact ⟨_, equilibrium_G_ok hB hf p1 p2 p3 p4 p5 p6 p7⟩

/-- The residual recorded by an accepted increment is the one whose norm was tested by Newton's method. -/
theorem IsInc.accepted {c : Ctx F} {bars : List (Bar F)} (hB : c.Bars bars) {env : Env F} {cfg : PFCfg F}
    {dxmax0 : List F} {s s' : PState F} (h : IsInc env (modelProblem c) cfg dxmax0 s s' .accepted) (hf : s.a.Fits c) :
    ∃ gf vj vmax, npTake s'.a.g s'.a.DOF1 = .ok gf ∧
      Flt.lt (Flt.vnorm ((gf.map fun v => -v) ++ [vj - vmax])) cfg.ftol = true := by
  cases h with
  | @solve p lpf n st1 st' o d hp _ hn hd he hl =>
    have h2 : Trial s.a (d.aD st1) := (hp.trial.trans hn.trial).trans hd.trial
    cases he with
    | accepted a2 fx _ hsucc hx =>
      obtain ⟨gv2, vj2, hg2, -⟩ := extF_ok hx
      obtain ⟨-, -, s2, y, s3, fx', dx, hit, hs3, hconv, -⟩ := newton_last hd.hnewton
      obtain ⟨_, _, _, _, _, _, _, _, _, hlast⟩ := hit
      obtain ⟨gv, vj, hg, -, rfl⟩ := extF_ok hlast
      subst hs3
      have hf2 : ({ d.aD st1 with j := st1.j } : Analysis F).Fits c :=
        (h2.trans (Trial.book (d.aD st1) st1.j (d.aD st1).Kmod (d.aD st1).dVmax)).fits hf
      obtain ⟨a'', hg3⟩ := equilibrium_commit hB hf2 hg2
      have fr := (equilibrium_frame hg).1.sameInputs
      have hs : SameInputs _ ({ d.aD st1 with j := st1.j } : Analysis F) :=
        ⟨fr.dof1, fr.ext, fr.statev, fr.lpf, fr.U, fr.U0, fr.Ulen, fr.U0len, fr.rlen, fr.Kshape⟩
      have hsim := equilibrium_sim (c := c) hs d.nr.x s.x .G false
      have e1 : equilibrium c _ d.nr.x s.x .G false = .ok (d.a1, gv) := hg
      have e2 : equilibrium c { d.aD st1 with j := st1.j } d.nr.x s.x .G false = .ok (a'', gv2) := hg3
      rw [e1, e2] at hsim
      have hgv : gv = gv2 := hsim.2.1
      obtain ⟨-, -, -, ef, -, -, -, ht⟩ := equilibrium_g hg2
      refine ⟨gv, vj, d.xmax, ?_, (hconv hsucc).1⟩
      rw [hgv]
      exact ht

/-- Residuals recorded by the accepted increments of a run. -/
theorem Steps.accepted {env : Env F} {fuel : Nat} {c : Ctx F} {bars : List (Bar F)} (hB : c.Bars bars) {d : Dims}
    {s : Settings F} {rows : List (List F)} {a0 : Analysis F} {r0 : Results F} {outs : List (PFOut F)} {a : Analysis F}
    {res : Results F} (h : Steps env fuel c s rows a0 r0 outs a res) (h0 : Inv d c a0) :
    ∀ r ∈ recorded outs, r.out = .accepted → ∃ gf vj vmax, npTake r.a.g r.a.DOF1 = .ok gf ∧
      Flt.lt (Flt.vnorm ((gf.map fun v => -v) ++ [vj - vmax])) (Flt.pow10neg s.ftol) = true := by
  intro r hr hout
  obtain ⟨k, hk⟩ := List.getElem?_of_mem hr
  have hkl := (List.getElem?_eq_some_iff.1 hk).1
  have hp : (a0 :: (recorded outs).map (·.a))[k]? = some ((a0 :: (recorded outs).map (·.a))[k]'(by simp; omega)) :=
    List.getElem?_eq_getElem _
  have hinc := h.pairs h0 (Carry.refl a0) h0 hp hk
  obtain ⟨cfg, d0, t, t', e1, e2, e3, e4, e5, e6, e7, incs, xl, rfl⟩ := h.increments hp hk
  rw [hout] at e2
  rw [← e4]
  exact e2.accepted hB (hinc.prev.carry e1).fits

omit [Zero F] [One F] [Add F] [Sub F] [Mul F] [Div F] [Neg F] [Flt F] in
theorem ctx_nodes {m : Model F} {c : Ctx F} (h : m.ctx = some c) : m.nodes = some c.nodes := by
  simp only [Model.ctx, Option.bind_eq_bind, Option.bind_eq_some_iff] at h
  obtain ⟨nt, h1, et, h2, d, h3, h4⟩ := h
  cases h4
  exact h1

theorem npTake_getElem {α : Type} {l : List α} {idx : List Nat} {r : List α} (h : npTake l idx = .ok r) {n i : Nat} {x : α}
    (h1 : idx[n]? = some i) (h2 : l[i]? = some x) : r[n]? = some x := by
  have := ((npTake_eq_ok_iff l idx r).1 h).2 n (List.getElem?_eq_some_iff.1 h1).1
  rw [this.1, h1]
  exact h2

/-- Results of a run with the increments they come from and the residuals of the accepted ones. -/
theorem run_accepted {argsort : List Int → List Nat} {env : Env F} {fuel : Nat} {m m1 m2 : Model F}
    (hb : m.build argsort = .ok m1) (hr : m1.run env fuel = .ok m2) (hn : 0 < m1.settings.nsteps) {c : Ctx F}
    {bars : List (Bar F)} (hc : m1.ctx = some c) (hB : c.Bars bars) {d : Dims} (hd : m1.dims = some d) :
    d.dof1.length = c.ndof1 ∧
    ∃ res r0 outs, m2.results = some res ∧ RunCalls env fuel m1 c outs ∧
      res.R = r0 :: (recorded outs).map (·.a) ∧
      ∀ (k : Nat) (p : Analysis F) (r : Rec F), res.R[k]? = some p → (recorded outs)[k]? = some r →
        Increment d c p r ∧ (r.out = .accepted → ∃ gf vj vmax, npTake r.a.g r.a.DOF1 = .ok gf ∧
          Flt.lt (Flt.vnorm ((gf.map fun v => -v) ++ [vj - vmax])) (Flt.pow10neg m1.settings.ftol) = true) := by
  obtain ⟨c', d', ft, r0, outs, a1, R, le, h1, h2, h3, h4, h5, h6, h7, h8, h9, h10, h11, h12⟩ := build_run hb hr
  rw [hc] at h1; cases h1
  rw [hd] at h2; cases h2
  rcases h12 with ⟨e, -⟩ | ⟨-, e1, e2⟩
  · omega
  have hI := fresh_inv h5 h9
  have hcy : Carry (Analysis.fresh d.nnodes d.nelems d.dof0 d.dof1 c.nstatev : Analysis F)
      { (Analysis.fresh d.nnodes d.nelems d.dof0 d.dof1 c.nstatev : Analysis F) with
          Vred := List.replicate d.dof1.length 0 ++ [0], lpf := some 0 } := by constructor <;> rfl
  refine ⟨h5.symm, _, r0, outs, e1, h11.built hb hc hd h3 h10 h7.lpf, e2, fun k p r hp hrk => ⟨?_, ?_⟩⟩
  · exact h11.pairs (hI.carry hcy) (h8.trans hcy) (hI.carry h8.symm) (by rw [← e2]; exact hp) hrk
  · exact h11.accepted hB (hI.carry hcy) r (List.mem_of_getElem? hrk)

end TrussPy
