import Verif.Lemmas.NonFinite
import Verif.Props.EndToEnd
import Verif.Props.Path
/-!
# C114: NaN and infinity never pass as a result
-/

set_option linter.unusedSectionVars false

namespace TrussPy

section
variable {F : Type} [Zero F] [One F] [Add F] [Sub F] [Mul F] [Div F] [Neg F] [Flt F] {bad : F → Prop}

/-- The bar of an entered element and the position of its nodes. -/
theorem Meant.bar_of {u : UserInput F} {es : List (Elem F)} {labels : List Int} {bars : List (Bar F)}
    (h : Meant u es labels bars) (hnd : (u.nodes.map (·.label)).Nodup) {k : Nat} {e : Elem F} (he : es[k]? = some e)
    {nA nE : Node F} (hA : nA ∈ u.nodes) (hE : nE ∈ u.nodes) (hconn : e.conn = [nA.label, nE.label]) :
    ∃ b, bars[k]? = some b ∧ BarOf labels e nA nE b := by
  have hke := (List.getElem?_eq_some_iff.1 he).1
  have hkb : k < bars.length := by rw [← List.Forall₂.length_eq h]; exact hke
  obtain ⟨nA', hA', nE', hE', hb⟩ := List.Forall₂.get h hke hkb
  simp only [List.get_eq_getElem] at hb
  rw [(List.getElem?_eq_some_iff.1 he).2] at hb
  have hc := hb.conn
  rw [hconn] at hc
  simp only [List.cons.injEq, and_true] at hc
  have h1 := List.inj_on_of_nodup_map hnd hA hA' hc.1
  have h2 := List.inj_on_of_nodup_map hnd hE hE' hc.2
  subst h1 h2
  exact ⟨bars[k], List.getElem?_eq_getElem hkb, hb⟩

theorem bad_of_coord (hbad : NonFinite bad) {labels : List Int} {e : Elem F} {nA nE : Node F} {b : Bar F}
    (hb : BarOf labels e nA nE b) (h : Unusable bad e nA nE) {U U0 : List F} {sv : Option (List F)} {o : TrussOut F}
    (ho : b.eval U U0 sv = .ok o) : bad o.N := by
  obtain ⟨-, -, f3, f4, f5, f6⟩ := hbad.force ho
  rcases h with h | h | ⟨X, hX, h⟩ | h
  · exact f3 (by rw [hb.mat]; exact h)
  · exact f4 (by rw [hb.geo]; exact h)
  · rw [hb.coordA, hb.coordE] at hX
    simp only [List.cons_append, List.nil_append, List.mem_cons, List.not_mem_nil, or_false] at hX
    rcases hX with rfl | rfl | rfl | rfl | rfl | rfl
    · exact f5 0 (.inl h)
    · exact f5 1 (.inl h)
    · exact f5 2 (.inl h)
    · exact f5 0 (.inr (.inl h))
    · exact f5 1 (.inr (.inl h))
    · exact f5 2 (.inr (.inl h))
  · refine f6 ?_
    rw [hb.coordA, hb.coordE] at h
    simp only [List.cons.injEq, and_true] at h
    funext i
    exact fin3_cases (fun i => b.XA i = b.XE i) h.1 h.2.1 h.2.2 i

/-- Entered free components are active. -/
theorem free_active {d : Dims} {u : UserInput F} {labels : List Int} {nA nE : Node F} {e : Elem F} {b : Bar F}
    (hb : BarOf labels e nA nE b) (hdof : ∀ i l, labels[i]? = some l → ∀ c, c < 3 →
      (3 * i + c ∈ d.dof1 ↔ (supportOf u.bounds l)[c]? = some 1)) {j : Nat}
    (hfree : FreeComp u nA.label j ∨ FreeComp u nE.label j) : ∃ i, ∃ dd : Fin 3, (i = b.iA ∨ i = b.iE) ∧ 3 * i + dd.val ∈ d.dof1 := by
  rcases hfree with ⟨h1, h2⟩ | ⟨h1, h2⟩
  · exact ⟨b.iA, ⟨j, h1⟩, .inl rfl, (hdof _ _ hb.posA j h1).2 h2⟩
  · exact ⟨b.iE, ⟨j, h1⟩, .inr rfl, (hdof _ _ hb.posE j h1).2 h2⟩

/-- **C114** NaN and infinity do not occur in accepted results: in every accepted increment of every run the load factor
is finite, and for every entered element with a free component at one of its ends the recorded force, stress and stretch
and the recorded displacements of both its nodes are finite.  Every arithmetic that treats non-finite values as IEEE 754
does, every linear solver. -/
theorem C114_accepted_finite (hbad : NonFinite bad) {argsort : List Int → List Nat} (has : IsArgsort argsort)
    {u : UserInput F} {es : List (Elem F)} {env : Env F} {fuel : Nat} {m m1 m2 : Model F} (hu : Entered u m)
    (he : EnteredElems es m) (hw : WellPosed u es) (hbw : ∀ b ∈ u.bounds, b.values.length = 3)
    (hb : m.build argsort = .ok m1) (hr : m1.run env fuel = .ok m2) (hn : 0 < m1.settings.nsteps)
    (htol : ¬ bad (Flt.pow10neg m1.settings.ftol)) :
    ∃ nt c res r0 outs, m1.nodes = some nt ∧ m2.results = some res ∧ RunCalls env fuel m1 c outs ∧
      res.R = r0 :: (recorded outs).map (·.a) ∧ ∀ r ∈ recorded outs, r.out = .accepted →
        ∀ (k : Nat) (e : Elem F), es[k]? = some e → ∀ nA ∈ u.nodes, ∀ nE ∈ u.nodes, e.conn = [nA.label, nE.label] →
          (∃ j, FreeComp u nA.label j ∨ FreeComp u nE.label j) →
          (∃ l, r.a.lpf = some l ∧ ¬ bad l) ∧ (∃ N, r.a.elementForce[k]? = some N ∧ ¬ bad N) ∧
          (∃ s, r.a.elementStress[k]? = some s ∧ ¬ bad s) ∧ (∃ l, r.a.stretch[k]? = some l ∧ ¬ bad l) ∧
          ∀ (i : Nat) (lab : Int), nt.labels[i]? = some lab → lab = nA.label ∨ lab = nE.label →
            ∀ q, q < 3 → ∃ v, r.a.U[3 * i + q]? = some v ∧ ¬ bad v := by
  obtain ⟨c, bars, hc, hB, hperm, -, hmeant⟩ := C61_structure_as_entered has hu he hw hb
  have h2n : 2 ≤ u.nodes.length := by
    obtain ⟨st⟩ := build_steps hb
    unfold EnteredElems at he
    rw [st.he] at he
    exact two_nodes he hw
  have hnt : m1.nodes = some c.nodes := ctx_nodes hc
  obtain ⟨nt, dm, d1, d2, d3, d4, -⟩ := C06_degrees_of_freedom_partial has hu hw.nodes h2n hbw hb
  rw [hnt] at d1; cases d1
  obtain ⟨hnd, res, r0, outs, g1, g2, g3, g4⟩ := run_accepted hb hr hn hc hB d2
  refine ⟨c.nodes, c, res, r0, outs, hnt, g1, g2, g3, ?_⟩
  intro r hrm hout k e hek nA hA nE hE hconn ⟨j, hfree⟩
  obtain ⟨kr, hkr⟩ := List.getElem?_of_mem hrm
  have hkl := (List.getElem?_eq_some_iff.1 hkr).1
  obtain ⟨p, hp⟩ : ∃ p, res.R[kr]? = some p := ⟨_, List.getElem?_eq_getElem (by rw [g3]; simp; omega)⟩
  obtain ⟨hinc, hacc⟩ := g4 kr p r hp hkr
  obtain ⟨gf, vj, vmax, hgf, hlt⟩ := hacc hout
  obtain ⟨sA, sx, hcy, h1, h2, h3⟩ := hinc.how
  rcases h3 with ⟨h3, -⟩ | ⟨-, ⟨b, b', gv, dV, lpf, htr, hev, hl, ha⟩⟩
  · rw [hout] at h3; cases h3
  have hI := (hinc.prev.carry hcy).trial htr
  obtain ⟨lpf', v, v0, U, U0, os, ef, g, p1, p2, p3, p4, p5, p6, p7, p8⟩ := equilibrium_G hB hI.fits hev
  obtain ⟨hl', -, -⟩ := splitV_ext hinc.len h2 p1
  rw [hl] at hl'; cases hl'
  obtain ⟨bar, hbk, hbar⟩ := hmeant.bar_of hw.nodes hek hA hE hconn
  obtain ⟨o, hok, hov⟩ := evalAll_get p4 hbk
  obtain ⟨i0, dd, hi0, hmem⟩ := free_active hbar (fun i l hi c hc => (d4 i l hi c hc).1) hfree
  -- the recorded fields
  have hfields : r.a.elementForce = os.map (·.N) ∧ r.a.elementStress = os.map (·.stress) ∧
      r.a.stretch = os.map (·.lam) ∧ r.a.U = U ∧ r.a.lpf = some lpf ∧ r.a.g = g := by
    rw [ha, p8]
    unfold afterG
    dsimp only
    split <;> exact ⟨rfl, rfl, rfl, rfl, rfl, rfl⟩
  obtain ⟨q1, q2, q3, q4, q5, q6⟩ := hfields
  rw [q6, hinc.next.dof1] at hgf
  have hNo : ¬ bad o.N := by
    intro hN
    have := hbad.evaluation hB p6 hgf hbk hok hN hi0 hmem htol (vj - vmax)
    rw [this] at hlt
    cases hlt
  obtain ⟨f1, f2, -, -, f5, -⟩ := hbad.force hov
  refine ⟨⟨lpf, q5, ?_⟩, ⟨o.N, by rw [q1, List.getElem?_map, hok]; rfl, hNo⟩,
    ⟨o.stress, by rw [q2, List.getElem?_map, hok]; rfl, fun h => hNo (f2 h)⟩,
    ⟨o.lam, by rw [q3, List.getElem?_map, hok]; rfl, fun h => hNo (f1 h)⟩, ?_⟩
  · intro hlb
    have hin : i0 < ((bars.zip os).foldl addBar (zeroR c.nnodes)).length := by
      have hlen := (residual_get p6).1
      have := hI.fits.dof _ (by rw [hI.dof1]; exact hmem)
      have hg : g.length = 3 * c.nnodes := by
        have h0 : ((bars.zip os).foldl addBar (zeroR c.nnodes)).length = c.nnodes := by
          have := hinc.next.fits.r
          rw [ha, p8] at this
          unfold afterG at this
          dsimp only at this
          split at this <;> exact this
        rw [hlen, h0]
      omega
    obtain ⟨k0, q, -, -, h6⟩ := (residual_get p6).2 i0 _ (List.getElem?_eq_getElem hin) dd
    have := hbad.refuse hgf hmem h6 (hbad.add_right _ (hbad.mul_left _ hlb)) htol (vj - vmax)
    rw [this] at hlt
    cases hlt
  · intro i lab hlab hor q hq
    have hUlen : U.length = 3 * c.nnodes := by
      have := hinc.next.fits.U
      rwa [q4] at this
    have hi : i < c.nnodes := by rw [hB.nnodes]; exact (List.getElem?_eq_some_iff.1 hlab).1
    have hlt' : 3 * i + q < U.length := by omega
    refine ⟨U[3 * i + q], by rw [q4]; exact List.getElem?_eq_getElem hlt', fun hv => hNo ?_⟩
    have hrow : row3 U i ⟨q, hq⟩ = U[3 * i + q] := by
      simp [row3, List.getD, List.getElem?_eq_getElem hlt']
    have hpos : i = bar.iA ∨ i = bar.iE := by
      rcases hor with rfl | rfl
      · exact .inl ((List.getElem?_inj (List.getElem?_eq_some_iff.1 hlab).1 hB.nodes).1 (hlab.trans hbar.posA.symm))
      · exact .inr ((List.getElem?_inj (List.getElem?_eq_some_iff.1 hlab).1 hB.nodes).1 (hlab.trans hbar.posE.symm))
    rw [← hrow] at hv
    rcases hpos with rfl | rfl
    · exact f5 ⟨q, hq⟩ (.inr (.inr (.inl hv)))
    · exact f5 ⟨q, hq⟩ (.inr (.inr (.inr hv)))

/-- **C114** A structure with unusable data is never solved silently: if an entered element with a free component at one
of its ends has no usable modulus (for example none was entered), no usable area or coordinates, or length zero, then
every increment of every run that returns ends with an error message. -/
theorem C114_unusable_element (hbad : NonFinite bad) {argsort : List Int → List Nat} (has : IsArgsort argsort)
    {u : UserInput F} {es : List (Elem F)} {env : Env F} {fuel : Nat} {m m1 m2 : Model F} (hu : Entered u m)
    (he : EnteredElems es m) (hw : WellPosed u es) (hbw : ∀ b ∈ u.bounds, b.values.length = 3)
    (hb : m.build argsort = .ok m1) (hr : m1.run env fuel = .ok m2) (hn : 0 < m1.settings.nsteps)
    (htol : ¬ bad (Flt.pow10neg m1.settings.ftol)) {e : Elem F} (hee : e ∈ es) {nA nE : Node F} (hA : nA ∈ u.nodes)
    (hE : nE ∈ u.nodes) (hconn : e.conn = [nA.label, nE.label]) {j : Nat}
    (hfree : FreeComp u nA.label j ∨ FreeComp u nE.label j) (hunus : Unusable bad e nA nE) :
    ∃ c res r0 outs, m2.results = some res ∧ RunCalls env fuel m1 c outs ∧
      res.R = r0 :: (recorded outs).map (·.a) ∧ ∀ r ∈ recorded outs, r.isError := by
  obtain ⟨c, bars, hc, hB, hperm, -, hmeant⟩ := C61_structure_as_entered has hu he hw hb
  have h2n : 2 ≤ u.nodes.length := by
    obtain ⟨st⟩ := build_steps hb
    unfold EnteredElems at he
    rw [st.he] at he
    exact two_nodes he hw
  have hnt : m1.nodes = some c.nodes := ctx_nodes hc
  obtain ⟨nt, dm, d1, d2, d3, d4, -⟩ := C06_degrees_of_freedom_partial has hu hw.nodes h2n hbw hb
  rw [hnt] at d1; cases d1
  obtain ⟨res, r0, outs, g1, g2, g3, g4⟩ := run_tested hb hr hn hc d2
  refine ⟨c, res, r0, outs, g1, g2, g3, ?_⟩
  intro r hrm
  have hno : ¬ (r.out = .accepted ∨ r.out = .predictor) := by
    intro hout
    obtain ⟨b, b', V, x0, gv, w, y1, y2, -, y4, y5⟩ := g4 r hrm hout
    obtain ⟨lpf', v, v0, U, U0, os, ef, g, p1, p2, p3, p4, p5, p6, p7, p8⟩ := equilibrium_G hB y1 y4
    obtain ⟨k, hek⟩ := List.getElem?_of_mem hee
    obtain ⟨bar, hbk, hbar⟩ := hmeant.bar_of hw.nodes hek hA hE hconn
    obtain ⟨o, hok, hov⟩ := evalAll_get p4 hbk
    obtain ⟨i0, dd, hi0, hmem⟩ := free_active hbar (fun i l hi c hc => (d4 i l hi c hc).1) hfree
    have hN := bad_of_coord hbad hbar hunus hov
    have := hbad.evaluation hB p6 p7 hbk hok hN hi0 (by rw [y2]; exact hmem) htol w
    rw [this] at y5
    cases y5
  cases h : r.out with
  | accepted => exact absurd (.inl h) hno
  | predictor => exact absurd (.inr h) hno
  | error1 => exact .inl h
  | error2 => exact .inr h

/-- **C114** The same for loads: every increment of a step in which a load that is not finite acts on a free component
ends with an error message. -/
theorem C114_unusable_load (hbad : NonFinite bad) {argsort : List Int → List Nat} (has : IsArgsort argsort)
    {u : UserInput F} {es : List (Elem F)} {env : Env F} {fuel : Nat} {m m1 m2 : Model F} (hu : Entered u m)
    (he : EnteredElems es m) (hw : WellPosed u es) (hbw : ∀ b ∈ u.bounds, b.values.length = 3)
    (hb : m.build argsort = .ok m1) (hr : m1.run env fuel = .ok m2) (hn : 0 < m1.settings.nsteps)
    (hfw : 3 * m1.settings.nsteps ≤ loadWidth u.forces) (htol : ¬ bad (Flt.pow10neg m1.settings.ftol)) {n : Node F}
    (hnn : n ∈ u.nodes) {j s : Nat} (hfree : FreeComp u n.label j) {q : F}
    (hq : (loadOf u.forces n.label)[3 * s + j]? = some q) (hqb : bad q) :
    ∃ c res r0 outs, m2.results = some res ∧ RunCalls env fuel m1 c outs ∧
      res.R = r0 :: (recorded outs).map (·.a) ∧ ∀ r ∈ recorded outs, r.a.step = s + 1 → r.isError := by
  obtain ⟨c, bars, hc, hB, hperm, -, hmeant⟩ := C61_structure_as_entered has hu he hw hb
  have h2n : 2 ≤ u.nodes.length := by
    obtain ⟨st⟩ := build_steps hb
    unfold EnteredElems at he
    rw [st.he] at he
    exact two_nodes he hw
  have hnt : m1.nodes = some c.nodes := ctx_nodes hc
  obtain ⟨nt, dm, d1, d2, d3, d4, -⟩ := C06_degrees_of_freedom_partial has hu hw.nodes h2n hbw hb
  rw [hnt] at d1; cases d1
  obtain ⟨res, r0, outs, g1, g2, g3, g4⟩ := run_tested hb hr hn hc d2
  refine ⟨c, res, r0, outs, g1, g2, g3, ?_⟩
  intro r hrm hstep
  have hno : ¬ (r.out = .accepted ∨ r.out = .predictor) := by
    intro hout
    obtain ⟨b, b', V, x0, gv, w, y1, y2, y3, y4, y5⟩ := g4 r hrm hout
    obtain ⟨lpf', v, v0, U, U0, os, ef, g, p1, p2, p3, p4, p5, p6, p7, p8⟩ := equilibrium_G hB y1 y4
    obtain ⟨kr, hkr⟩ := List.getElem?_of_mem hrm
    obtain ⟨s', ef', s1, s2, s3, s4⟩ := C42_step_loads has hu hw.nodes h2n hb hr hfw hnt g1 kr r.a hn (by
      rw [g3, List.getElem?_cons_succ, List.getElem?_map, hkr]; rfl)
    have hss : s' = s := by rw [hstep] at s1; omega
    subst hss
    rw [← y3, p5] at s3; cases s3
    obtain ⟨i, hi⟩ := List.getElem?_of_mem (hperm.mem_iff.2 (List.mem_map.2 ⟨n, hnn, rfl⟩))
    have hin : i < ((bars.zip os).foldl addBar (zeroR c.nnodes)).length := by
      have h0 : ∀ (ps : List (Bar F × TrussOut F)) (r : List (V3 F)), (ps.foldl addBar r).length = r.length := by
        intro ps
        induction ps with
        | nil => intro r; rfl
        | cons p ps ih => intro r; rw [List.foldl_cons, ih, addBar_length]
      rw [h0]
      simp only [zeroR, List.length_replicate, hB.nnodes]
      exact (List.getElem?_eq_some_iff.1 hi).1
    obtain ⟨k0, q', -, e2, e3⟩ := (residual_get p6).2 i _ (List.getElem?_eq_getElem hin) ⟨j, hfree.1⟩
    have hq' : q' = q := by
      have := (s4 i _ hi j hfree.1).symm.trans e2
      rw [hq] at this
      exact (Option.some.inj this).symm
    subst hq'
    have hmem : 3 * i + j ∈ b.DOF1 := by rw [y2]; exact ((d4 i _ hi j hfree.1).1).2 hfree.2
    have := hbad.refuse p7 hmem e3 (hbad.add_right _ (hbad.mul_right _ hqb)) htol w
    rw [this] at y5
    cases y5
  cases h : r.out with
  | accepted => exact absurd (.inl h) hno
  | predictor => exact absurd (.inr h) hno
  | error1 => exact .inl h
  | error2 => exact .inr h

end

/-! ## Concrete cases: rational numbers with NaN -/

/-- Rational numbers with NaN treat NaN as IEEE 754 does. -/
theorem nq_nonFinite : NonFinite (fun v : NQ => v.val = none) where
  nan := rfl
  add_left w h := by show (NQ.lift _ _ w).val = none; simp [NQ.lift, h]
  add_right v {w} h := by
    show (NQ.lift _ v w).val = none
    simp only [NQ.lift, h]
    split <;> first | rfl | simp_all
  sub_left w h := by show (NQ.lift _ _ w).val = none; simp [NQ.lift, h]
  sub_right v {w} h := by
    show (NQ.lift _ v w).val = none
    simp only [NQ.lift, h]
    split <;> first | rfl | simp_all
  neg {v} h := by show v.val.map _ = none; rw [h]; rfl
  mul_left w h := by show (NQ.lift _ _ w).val = none; simp [NQ.lift, h]
  mul_right v {w} h := by
    show (NQ.lift _ v w).val = none
    simp only [NQ.lift, h]
    split <;> first | rfl | simp_all
  div {v} w h := by
    show (if w.val = some 0 then (⟨none⟩ : NQ) else NQ.lift _ v w).val = none
    split
    · rfl
    · simp [NQ.lift, h]
  sqrt {v} h := by show v.val.map _ = none; rw [h]; rfl
  norm {v l t} hv h _ := by
    have hn : ¬ (l.all fun a => a.val.isSome) = true := by
      rw [List.all_eq_true]
      intro hall
      have := hall v hv
      rw [h] at this
      cases this
    show NQ.cmp _ ⟨if l.all (fun a => a.val.isSome) then _ else none⟩ t = false
    rw [if_neg hn]
    rfl
  div_zero v := rfl
  sub_self v := by
    obtain ⟨v⟩ := v
    cases v with
    | none => exact .inl rfl
    | some q =>
      right
      show (⟨some (q - q)⟩ : NQ) = ⟨some 0⟩
      rw [_root_.sub_self]
  zero_add := by decide +kernel
  zero_mul := by decide +kernel
  sqrt_zero := by decide +kernel

/-- A rational number as a value of `NQ`. -/
def nq (q : ℚ) : NQ := ⟨some q⟩

/-- Node 1 held, node 2 free along x and loaded by `p`, node 3 at `X` held. -/
def nfInput (X : ℚ) (p : NQ) : UserInput NQ where
  nodes := [⟨1, [nq 0, nq 0, nq 0]⟩, ⟨2, [nq 1, nq 0, nq 0]⟩, ⟨3, [nq X, nq 0, nq 0]⟩]
  bounds := [⟨1, [0, 0, 0]⟩, ⟨2, [1, 0, 0]⟩, ⟨3, [0, 0, 0]⟩]
  forces := [⟨2, [p, nq 0, nq 0]⟩]

/-- A sound bar from 1 to 2 and a second element between `a` and `b` with material `mat`. -/
def nfElems (a b : Int) (mat : PRow NQ) : List (Elem NQ) :=
  [{ label := 1, conn := [1, 2], mprop := ⟨false, [nq 1]⟩, gprop := ⟨false, [nq 1]⟩ },
   { label := 2, conn := [a, b], mprop := mat, gprop := ⟨false, [nq 1]⟩ }]

/-- The model entered by these calls; load control with increments of 1/4. -/
def nfModel (u : UserInput NQ) (es : List (Elem NQ)) : Model NQ where
  nodes := (addNodes none u.nodes).toOption.join
  elems := (addElems none es).toOption.join
  bounds := (addBoundsU none u.bounds).toOption.join
  forces := (addForces none u.forces).toOption.join
  settings :=
    { maxfac := nq 10, minfac := nq (1 / 10), increase := nq 1, reduce := nq 8, dxtol := nq (5 / 4), dlpf := nq (1 / 4),
      du := nq 1, xlimit := .const 0 (nq 1000), log := 0, j0 := some 2, jFixed := true, incs := .const 2, nsteps := 1 }

/-- Load factor, element forces and displacement of node 2 of each result of build and run. -/
def nfShow (m : Model NQ) : Py (List (Option (Option ℚ) × List (Option ℚ) × Option (Option ℚ))) := do
  let m1 ← m.build refArgsort
  let m2 ← m1.run exEnvNQ 10
  let some res := m2.results | .error .attributeError
  return res.R.map fun a => (a.lpf.map (·.val), a.elementForce.map (·.val), (a.U[3]?).map (·.val))

/-- The outcomes of the increments of the first step. -/
def nfOut (m : Model NQ) : Py (List Outcome) := do
  let m1 ← m.build refArgsort
  let (some c, some a, some ft) := (m1.ctx, m1.analysis, m1.forces) | .error .attributeError
  let a ← setStep ft.forces.rows [] 0 { a with Vred := a.Ured ++ [0], lpf := some 0 }
  let o ← pathfollow exEnvNQ (modelProblem c) (stepCfg m1.settings 2 (0, nq 1000)) 10 a.Ured a
  return o.recs.map (·.out)

theorem nf_hyp (X : ℚ) (p : NQ) (a b : Int) (E : NQ) (h : (a, b) ∈ [((2 : Int), (3 : Int)), (1, 3)]) :
    let u := nfInput X p
    let es := nfElems a b ⟨false, [E]⟩
    let m := nfModel u es
    Entered u m ∧ EnteredElems es m ∧ WellPosed u es ∧ (∀ b ∈ u.bounds, b.values.length = 3) ∧
      0 < m.settings.nsteps ∧ 3 * m.settings.nsteps ≤ loadWidth u.forces ∧
      ¬ (Flt.pow10neg m.settings.ftol : NQ).val = none := by
  refine ⟨⟨rfl, rfl, rfl⟩, rfl, ⟨?_, ?_, ?_, ?_, ?_⟩, ?_, Nat.one_pos, Nat.le_refl 3, Option.some_ne_none _⟩
  · show [(1 : Int), 2, 3].Nodup; decide
  · show [(1 : Int), 2].Nodup; decide
  · intro n hn; simp only [nfInput, List.mem_cons, List.not_mem_nil, or_false] at hn
    rcases hn with rfl | rfl | rfl <;> rfl
  · intro e he
    simp only [nfElems, List.mem_cons, List.not_mem_nil, or_false] at he
    simp only [List.mem_cons, Prod.mk.injEq, List.not_mem_nil, or_false] at h
    rcases he with rfl | rfl
    · exact ⟨_, List.mem_cons_self, _, List.mem_cons_of_mem _ List.mem_cons_self, rfl, by decide⟩
    · rcases h with ⟨rfl, rfl⟩ | ⟨rfl, rfl⟩
      · exact ⟨_, List.mem_cons_of_mem _ List.mem_cons_self,
          _, List.mem_cons_of_mem _ (List.mem_cons_of_mem _ List.mem_cons_self), rfl, Int.ne_of_lt (by simp)⟩
      · exact ⟨_, List.mem_cons_self,
          _, List.mem_cons_of_mem _ (List.mem_cons_of_mem _ List.mem_cons_self), rfl, Int.ne_of_lt (by simp)⟩
  · intro e he
    simp only [nfElems, List.mem_cons, List.not_mem_nil, or_false] at he
    rcases he with rfl | rfl <;> exact .inl rfl
  · intro b hb; simp only [nfInput, List.mem_cons, List.not_mem_nil, or_false] at hb
    rcases hb with rfl | rfl | rfl <;> rfl

/-- `C114_accepted_finite`: two sound bars share the load; both increments are accepted and every number is finite. -/
example : FreeComp (nfInput 2 (nq 1)) 2 0 ∧
    nfOut (nfModel (nfInput 2 (nq 1)) (nfElems 2 3 ⟨false, [nq 1]⟩)) = .ok [.accepted, .accepted] ∧
    nfShow (nfModel (nfInput 2 (nq 1)) (nfElems 2 3 ⟨false, [nq 1]⟩)) =
      .ok [(some (some 0), [some 0, some 0], some (some 0)),
        (some (some (1 / 4)), [some (1 / 8), some (-1 / 8)], some (some (1 / 8))),
        (some (some (1 / 2)), [some (1 / 4), some (-1 / 4)], some (some (1 / 4)))] :=
  ⟨⟨by decide, by decide⟩, by decide +kernel, by decide +kernel⟩

/-- `C114_unusable_element`: the second element has no material (the default is NaN); the run ends with an error message. -/
example : Unusable (fun v : NQ => v.val = none) (nfElems 2 3 defaultProp)[1] (nfInput 2 (nq 1)).nodes[1]
      (nfInput 2 (nq 1)).nodes[2] ∧
    nfOut (nfModel (nfInput 2 (nq 1)) (nfElems 2 3 defaultProp)) = .ok [.error2] ∧
    ∃ l, nfShow (nfModel (nfInput 2 (nq 1)) (nfElems 2 3 defaultProp)) = .ok l ∧ l.length = 2 :=
  ⟨.inl ⟨_, rfl, rfl⟩, by decide +kernel, [(some (some 0), [some 0, some 0], some (some 0)), (some none, [none, none], some none)], by decide +kernel, rfl⟩

/-- `C114_unusable_element`: nodes 2 and 3 are at the same place. -/
example : Unusable (fun v : NQ => v.val = none) (nfElems 2 3 ⟨false, [nq 1]⟩)[1] (nfInput 1 (nq 1)).nodes[1]
      (nfInput 1 (nq 1)).nodes[2] ∧
    nfOut (nfModel (nfInput 1 (nq 1)) (nfElems 2 3 ⟨false, [nq 1]⟩)) = .ok [.error2] :=
  ⟨.inr (.inr (.inr rfl)), by decide +kernel⟩

/-- `C114_unusable_load`: a load of NaN at the free component. -/
example : FreeComp (nfInput 2 ⟨none⟩) 2 0 ∧ (loadOf (nfInput 2 ⟨none⟩).forces 2)[3 * 0 + 0]? = some ⟨none⟩ ∧
    nfOut (nfModel (nfInput 2 ⟨none⟩) (nfElems 2 3 ⟨false, [nq 1]⟩)) = .ok [.error2] :=
  ⟨⟨by decide, by decide⟩, rfl, by decide +kernel⟩

/-- Without a free component the claim is false: the second element joins the two held nodes and has no material.  Both
increments are accepted, and the force recorded for that element is NaN. -/
example : nfOut (nfModel (nfInput 2 (nq 1)) (nfElems 1 3 defaultProp)) = .ok [.accepted, .accepted] ∧
    (nfShow (nfModel (nfInput 2 (nq 1)) (nfElems 1 3 defaultProp))).map List.tail =
      .ok [(some (some (1 / 4)), [some (1 / 4), none], some (some (1 / 4))),
        (some (some (1 / 2)), [some (1 / 2), none], some (some (1 / 2)))] :=
  ⟨by decide +kernel, by decide +kernel⟩

end TrussPy
