import Verif.Props.Mechanics
import Mathlib.Algebra.BigOperators.Ring.Finset
/-!
# C94: bundles of parallel bars and bars without area
-/

set_option linter.unusedSectionVars false

namespace TrussPy

/-- The second structure has the nodes of the first; its bar `k` is the share `w k` of bar `π k` of the first one (same
nodes, material and, if it is plastic, state; that share of its area), or it has no area at all (then `w k = 0`).  The shares of every bar sum
up to one. -/
structure Bundled (c c' : Ctx ℝ) (bars bars' : List (Bar ℝ)) (sv sv' : Option (List (List ℝ))) (π : Nat → Nat) (w : Nat → ℝ) :
    Prop where
  nnodes : c'.nnodes = c.nnodes
  share : ∀ j, j < bars.length → ∑ k ∈ Finset.range bars'.length, (if π k = j then w k else 0) = 1
  bar : ∀ k b', bars'[k]? = some b' → (w k = 0 ∧ b'.geo[0]? = some 0) ∨
    ∃ b A, bars[π k]? = some b ∧ b.geo[0]? = some A ∧ b'.geo[0]? = some (w k * A) ∧
      b'.iA = b.iA ∧ b'.iE = b.iE ∧ b'.XA = b.XA ∧ b'.XE = b.XE ∧ b'.mat = b.mat ∧ b'.law = b.law ∧
      (b.law = .elplast → stateRow c' sv' k = stateRow c sv (π k))

theorem umatEl_state (e de : ℝ) (mp : List ℝ) (sv sv' : Option (List ℝ)) : (umatEl e de mp sv').map (fun o => (o.s, o.dsde)) =
    (umatEl e de mp sv).map fun o => (o.s, o.dsde) := by
  unfold umatEl
  cases pyGet mp 0 <;> rfl

/-- Value of a function of bar and result at position `k`, zero if there is none. -/
def atBar (bars : List (Bar ℝ)) (xs : List BarRes) (f : Bar ℝ → BarRes → ℝ) (k : Nat) : ℝ :=
  match bars[k]?, xs[k]? with
  | some b, some x => f b x
  | _, _ => 0

theorem zip_sum (f : Bar ℝ → BarRes → ℝ) : ∀ (bars : List (Bar ℝ)) (xs : List BarRes), xs.length = bars.length →
    ((bars.zip xs).map fun p => f p.1 p.2).sum = ∑ k ∈ Finset.range bars.length, atBar bars xs f k := by
  intro bars
  induction bars with
  | nil => intro xs _; simp
  | cons b bars ih =>
    intro xs hl
    cases xs with
    | nil => cases hl
    | cons x xs =>
      simp only [List.zip_cons_cons, List.map_cons, List.sum_cons, List.length_cons]
      rw [Finset.sum_range_succ', ih xs (by simpa using hl), add_comm]
      rfl

theorem law_call_de (u : Umat) (e de de' : ℝ) (mp : List ℝ) (sv : Option (List ℝ)) : u.call e de mp sv = u.call e de' mp sv := by
  cases u <;> rfl

/-- Results of the share and of the whole bar. -/
theorem share_result {b b' : Bar ℝ} {U : List ℝ} {row row' : Option (List ℝ)} {x x' : BarRes} {A w : ℝ}
    (h : b.Result U row x) (h' : b'.Result U row' x') (hA : b.geo[0]? = some A) (hA' : b'.geo[0]? = some (w * A))
    (e1 : b'.iA = b.iA) (e2 : b'.iE = b.iE) (e3 : b'.XA = b.XA) (e4 : b'.XE = b.XE) (e5 : b'.mat = b.mat)
    (e6 : b'.law = b.law) (e7 : b.law = .elplast → row' = row) :
    x'.stretch = x.stretch ∧ x'.stress = x.stress ∧ x'.dsde = x.dsde ∧ x'.area = w * x.area ∧ x'.force = w * x.force := by
  have hs : b'.stretch U = b.stretch U := by
    unfold Bar.stretch Bar.axis Bar.ref
    rw [e1, e2, e3, e4]
  have h1 : x'.stretch = x.stretch := by rw [h'.stretch, h.stretch, hs]
  obtain ⟨de, out, l1, l2, l3⟩ := h.law
  obtain ⟨de', out', l1', l2', l3'⟩ := h'.law
  rw [h1, e5, e6, law_call_de _ _ de' de] at l1'
  have hst : out'.s = out.s ∧ out'.dsde = out.dsde := by
    cases hl : b.law with
    | el =>
      rw [hl] at l1 l1'
      have := umatEl_state (x.stretch - 1) de b.mat row row'
      simp only [Umat.call] at l1 l1'
      rw [l1, l1'] at this
      have := Except.ok.inj this
      exact ⟨congrArg Prod.fst this, congrArg Prod.snd this⟩
    | elplast =>
      rw [e7 hl, l1] at l1'
      cases l1'
      exact ⟨rfl, rfl⟩
  have ha : x.area = A := Option.some.inj (h.area.symm.trans hA)
  have ha' : x'.area = w * A := Option.some.inj (h'.area.symm.trans hA')
  refine ⟨h1, by rw [l2, l2', hst.1], by rw [l3, l3', hst.2], by rw [ha, ha'], ?_⟩
  rw [h'.force, h.force, l2, l2', ha, ha', hst.1]
  ring

/-- Sums over the bars of both structures, for functions that are proportional to the area. -/
theorem Bundled.sum {c c' : Ctx ℝ} {bars bars' : List (Bar ℝ)} {sv sv' : Option (List (List ℝ))} {π : Nat → Nat} {w : Nat → ℝ}
    (h : Bundled c c' bars bars' sv sv' π w) {U : List ℝ} {xs xs' : List BarRes} (hx : Results.Of c bars U sv xs)
    (hx' : Results.Of c' bars' U sv' xs') (f : Bar ℝ → BarRes → ℝ)
    (hz : ∀ b x, x.area = 0 → x.force = 0 → f b x = 0)
    (hf : ∀ b b' x x' w, b'.iA = b.iA → b'.iE = b.iE → b'.XA = b.XA → b'.XE = b.XE → x'.dsde = x.dsde →
      x'.area = w * x.area → x'.force = w * x.force → f b' x' = w * f b x) :
    ((bars'.zip xs').map fun p => f p.1 p.2).sum = ((bars.zip xs).map fun p => f p.1 p.2).sum := by
  rw [zip_sum f _ _ hx'.length, zip_sum f _ _ hx.length]
  have h1 : ∀ k ∈ Finset.range bars'.length, atBar bars' xs' f k = w k * atBar bars xs f (π k) := by
    intro k hk
    have hk := Finset.mem_range.1 hk
    have hkx : k < xs'.length := by rw [hx'.length]; exact hk
    have hb' := List.getElem?_eq_getElem hk
    have hxk' := List.getElem?_eq_getElem hkx
    have hr' := hx'.result k _ _ hb' hxk'
    rcases h.bar k _ hb' with ⟨h0, hA⟩ | ⟨b, A, g1, g2, g3, g4, g5, g6, g7, g8, g9, g10⟩
    · have ha : xs'[k].area = 0 := Option.some.inj (hr'.area.symm.trans hA)
      rw [h0, zero_mul]
      unfold atBar
      rw [hb', hxk']
      exact hz _ _ ha (by rw [hr'.force, ha, mul_zero])
    · have hp := (List.getElem?_eq_some_iff.1 g1).1
      have hpx : π k < xs.length := by rw [hx.length]; exact hp
      have hxk := List.getElem?_eq_getElem hpx
      obtain ⟨-, -, r3, r4, r5⟩ := share_result (hx.result (π k) _ _ g1 hxk) hr' g2 g3 g4 g5 g6 g7 g8 g9 g10
      unfold atBar
      rw [hb', hxk', g1, hxk]
      exact hf _ _ _ _ _ g4 g5 g6 g7 r3 r4 r5
  rw [Finset.sum_congr rfl h1]
  have h2 : ∀ k, w k * atBar bars xs f (π k) =
      ∑ j ∈ Finset.range bars.length, (if π k = j then w k else 0) * atBar bars xs f j := by
    intro k
    simp only [ite_mul, zero_mul, Finset.sum_ite_eq, Finset.mem_range]
    split
    · rfl
    · next hlt =>
      have : atBar bars xs f (π k) = 0 := by
        unfold atBar
        rw [List.getElem?_eq_none (by omega)]
      rw [this, mul_zero]
  rw [Finset.sum_congr rfl fun k _ => h2 k, Finset.sum_comm]
  refine Finset.sum_congr rfl fun j hj => ?_
  rw [← Finset.sum_mul, h.share j (Finset.mem_range.1 hj), one_mul]

/-- **C94** Bundles.  Bars that are replaced by parallel bars whose areas sum up to theirs, and additional bars without area:
an evaluation at the same displacements and load factor gives the same displacements, the same internal forces and the same
residual; every part has the stretch and the stress of the whole and its share of the force. -/
theorem C94_forces {c c' : Ctx ℝ} {bars bars' : List (Bar ℝ)} (hB : c.Bars bars) (hB' : c'.Bars bars')
    {a b a1 b1 : Analysis ℝ} (hf : a.Fits c) (hf' : b.Fits c') {π : Nat → Nat} {w : Nat → ℝ}
    (hR : Bundled c c' bars bars' a.statev b.statev π w) (hn : c'.ndof1 = c.ndof1) (hd : b.DOF1 = a.DOF1)
    (hU : b.U = a.U) (hE : b.extForces = a.extForces) {V V0 W0 g g' : List ℝ} (hV : c.ndof1 < V.length) {wr wr' : Bool}
    (h : equilibrium c a V V0 .G wr = .ok (a1, g)) (h' : equilibrium c' b V W0 .G wr' = .ok (b1, g')) :
    g' = g ∧ b1.U = a1.U ∧ b1.r = a1.r ∧ ∀ k, k < bars'.length →
      (w k = 0 ∧ b1.elementForce[k]? = some 0) ∨
      (b1.stretch[k]? = a1.stretch[π k]? ∧ b1.elementStress[k]? = a1.elementStress[π k]? ∧
        b1.elementForce[k]? = (a1.elementForce[π k]?).map fun N => w k * N) := by
  have hUU : b1.U = a1.U := by
    obtain ⟨lpf, u, u0, U, U0, outs, ef, gg, p1, p2, p3, p4, p5, p6, p7, rfl⟩ := equilibrium_G hB hf h
    obtain ⟨lpf', u', u0', U', U0', outs', ef', gg', q1, q2, q3, q4, q5, q6, q7, rfl⟩ := equilibrium_G hB' hf' h'
    have e1 : u' = u := by
      unfold splitV at p1 q1
      rw [if_pos hV] at p1
      rw [hn, if_pos hV] at q1
      cases hl : V.getLast? with
      | none => rw [hl] at p1; cases p1
      | some l => rw [hl] at p1 q1; cases p1; cases q1; rfl
    rw [e1, hU, hd, p2] at q2
    have hfields : ∀ (c : Ctx ℝ) (w lpf u U U0 bars outs gg) (a : Analysis ℝ), (afterG c w lpf u U U0 bars outs gg a).U = U := by
      intro c w lpf u U U0 bars outs gg a
      unfold afterG
      simp only
      split <;> rfl
    rw [hfields, hfields]
    exact (Except.ok.inj q2).symm
  obtain ⟨xs, x1, x2, x3, x4, x5, x6⟩ := C23_internal_forces hB hf h
  obtain ⟨ys, y1, y2, y3, y4, y5, y6⟩ := C23_internal_forces hB' hf' h'
  rw [hUU] at y1 y6
  have hr : b1.r = a1.r := by
    apply List.ext_getElem?
    intro i
    by_cases hi : i < c.nnodes
    · rw [x6 i hi, y6 i (by rw [hR.nnodes]; exact hi)]
      congr 1
      funext d
      unfold nodeForce
      refine hR.sum x1 y1 (fun b x => b.sgn i * (x.force * b.dir a1.U d)) ?_ ?_
      · intro b x _ h0
        rw [h0]
        ring
      · intro b b' x x' w e1 e2 e3 e4 _ _ e5
        have : b'.dir a1.U d = b.dir a1.U d := by
          unfold Bar.dir Bar.axis
          rw [e1, e2, e3, e4]
        rw [this, e5, show b'.sgn i = b.sgn i by unfold Bar.sgn; rw [e1, e2]]
        ring
    · rw [List.getElem?_eq_none_iff.2 (by rw [y5, hR.nnodes]; omega), List.getElem?_eq_none_iff.2 (by rw [x5]; omega)]
  refine ⟨?_, hUU, hr, ?_⟩
  · obtain ⟨lpf, ef, p1, p2, -, p4⟩ := C23_residual hB hf h
    obtain ⟨lpf', ef', q1, q2, -, q4⟩ := C23_residual hB' hf' h'
    rw [hE, p2] at q2
    cases q2
    have e1 : lpf' = lpf := by
      unfold LoadFactor at p1 q1
      rw [if_pos hV] at p1
      rw [hn, if_pos hV] at q1
      exact Option.some.inj (q1.symm.trans p1)
    rw [p4, q4, hd, hr, e1]
  · intro k hk
    have hkx : k < ys.length := by rw [y1.length]; exact hk
    have hb' := List.getElem?_eq_getElem hk
    have hxk' := List.getElem?_eq_getElem hkx
    have hr' := y1.result k _ _ hb' hxk'
    rcases hR.bar k _ hb' with ⟨h0, hA⟩ | ⟨b, A, g1, g2, g3, g4, g5, g6, g7, g8, g9, g10⟩
    · refine .inl ⟨h0, ?_⟩
      have ha : ys[k].area = 0 := Option.some.inj (hr'.area.symm.trans hA)
      rw [y4, List.getElem?_map, hxk', Option.map_some, hr'.force, ha, mul_zero]
    · have hp := (List.getElem?_eq_some_iff.1 g1).1
      have hpx : π k < xs.length := by rw [x1.length]; exact hp
      have hxk := List.getElem?_eq_getElem hpx
      obtain ⟨r1, r2, -, -, r5⟩ := share_result (x1.result (π k) _ _ g1 hxk) hr' g2 g3 g4 g5 g6 g7 g8 g9 g10
      refine .inr ?_
      rw [x2, x3, x4, y2, y3, y4]
      simp only [List.getElem?_map, hxk, hxk', Option.map_some, r1, r2, r5, and_self]

/-- **C94** The stiffness matrix of a bundle is that of the whole bar. -/
theorem C94_stiffness {c c' : Ctx ℝ} {bars bars' : List (Bar ℝ)} (hB : c.Bars bars) (hB' : c'.Bars bars')
    {a b a1 b1 : Analysis ℝ} (hf : a.Fits c) (hf' : b.Fits c') {π : Nat → Nat} {w : Nat → ℝ}
    (hR : Bundled c c' bars bars' a.statev b.statev π w) {V W : List ℝ} {K K' : List (List ℝ)}
    (h : stiffness c a V = .ok (a1, K)) (h' : stiffness c' b W = .ok (b1, K')) (hU : b1.U = a1.U)
    (hd : b.DOF1 = a.DOF1) : K' = K := by
  obtain ⟨xs, x1, -, x2⟩ := C23_stiffness hB hf h
  obtain ⟨ys, y1, -, y2⟩ := C23_stiffness hB' hf' h'
  rw [hU] at y1 y2
  rw [x2, y2, hd]
  unfold reducedStiffness
  refine List.map_congr_left fun p _ => List.map_congr_left fun q _ => ?_
  unfold nodeStiffness
  refine hR.sum x1 y1 (fun b x => b.sgn (p / 3) * b.sgn (q / 3) * b.tangent a1.U x (comp p) (comp q)) ?_ ?_
  · intro b x ha h0
    unfold Bar.tangent
    rw [ha, h0]
    ring
  · intro b b' x x' w e1 e2 e3 e4 e5 e6 e7
    have hs : ∀ i, b'.sgn i = b.sgn i := fun i => by unfold Bar.sgn; rw [e1, e2]
    have hax : b'.axis a1.U = b.axis a1.U := by unfold Bar.axis; rw [e1, e2, e3, e4]
    have href : b'.ref = b.ref := by unfold Bar.ref; rw [e3, e4]
    have hdir : b'.dir a1.U = b.dir a1.U := by unfold Bar.dir; rw [hax]
    unfold Bar.tangent
    simp only [hs, hax, href, hdir, e5, e6, e7]
    ring

/-! ## A bundled structure -/

/-- The example structure with its first bar replaced by two parallel ones (a quarter and three quarters of the area) and an
additional bar without area between the supports. -/
noncomputable def exCtxB : Ctx ℝ := { exCtx (fun q => (q : ℝ)) with
  elems := {
    labels := [1, 2, 3, 4]
    conns := ⟨2, [[1, 2], [2, 3], [1, 2], [1, 3]]⟩
    etype := [1, 1, 1, 1]
    mtype := [1, 2, 1, 1]
    mprop := ⟨false, 3, [[((1 : ℚ) : ℝ), ((0 : ℚ) : ℝ), ((0 : ℚ) : ℝ)], [((1 : ℚ) : ℝ), ((1/2 : ℚ) : ℝ), ((1/10 : ℚ) : ℝ)],
      [((1 : ℚ) : ℝ), ((0 : ℚ) : ℝ), ((0 : ℚ) : ℝ)], [((5 : ℚ) : ℝ), ((0 : ℚ) : ℝ), ((0 : ℚ) : ℝ)]]⟩
    gprop := ⟨false, 1, [[1/4], [((1 : ℚ) : ℝ)], [3/4], [0]]⟩ } }

/-- Its bars. -/
noncomputable def exBarsB : List (Bar ℝ) :=
  [⟨0, 1, vec3 ((0 : ℚ) : ℝ) ((0 : ℚ) : ℝ) ((0 : ℚ) : ℝ), vec3 ((4 : ℚ) : ℝ) ((0 : ℚ) : ℝ) ((3 : ℚ) : ℝ),
     [((1 : ℚ) : ℝ), ((0 : ℚ) : ℝ), ((0 : ℚ) : ℝ)], [1/4], .el⟩,
   ⟨1, 2, vec3 ((4 : ℚ) : ℝ) ((0 : ℚ) : ℝ) ((3 : ℚ) : ℝ), vec3 ((8 : ℚ) : ℝ) ((0 : ℚ) : ℝ) ((0 : ℚ) : ℝ),
     [((1 : ℚ) : ℝ), ((1/2 : ℚ) : ℝ), ((1/10 : ℚ) : ℝ)], [((1 : ℚ) : ℝ)], .elplast⟩,
   ⟨0, 1, vec3 ((0 : ℚ) : ℝ) ((0 : ℚ) : ℝ) ((0 : ℚ) : ℝ), vec3 ((4 : ℚ) : ℝ) ((0 : ℚ) : ℝ) ((3 : ℚ) : ℝ),
     [((1 : ℚ) : ℝ), ((0 : ℚ) : ℝ), ((0 : ℚ) : ℝ)], [3/4], .el⟩,
   ⟨0, 2, vec3 ((0 : ℚ) : ℝ) ((0 : ℚ) : ℝ) ((0 : ℚ) : ℝ), vec3 ((8 : ℚ) : ℝ) ((0 : ℚ) : ℝ) ((0 : ℚ) : ℝ),
     [((5 : ℚ) : ℝ), ((0 : ℚ) : ℝ), ((0 : ℚ) : ℝ)], [0], .el⟩]

/-- Its analysis object. -/
def exAB : Analysis ℝ :=
  { Analysis.fresh 3 4 [0, 1, 2, 6, 7, 8] [3, 4, 5] 2 with
    extForces := (exA fun q => (q : ℝ)).extForces
    f0red := (exA fun q => (q : ℝ)).f0red
    lpf := (exA fun q => (q : ℝ)).lpf }

theorem exCtxB_bars : exCtxB.Bars exBarsB where
  nodes := by
    show ([1, 2, 3] : List Int).Nodup
    decide
  elems := by
    show ([1, 2, 3, 4] : List Int).Nodup
    decide
  length := rfl
  nnodes := rfl
  bar := by
    intro k b hb
    match k with
    | 0 => cases hb; exact ⟨⟨1, 2, rfl, rfl, rfl⟩, rfl, rfl, rfl, rfl, Or.inl ⟨rfl, rfl⟩, by simp⟩
    | 1 => cases hb; exact ⟨⟨2, 3, rfl, rfl, rfl⟩, rfl, rfl, rfl, rfl, Or.inr ⟨rfl, rfl⟩, by simp⟩
    | 2 => cases hb; exact ⟨⟨1, 2, rfl, rfl, rfl⟩, rfl, rfl, rfl, rfl, Or.inl ⟨rfl, rfl⟩, by simp⟩
    | 3 => cases hb; exact ⟨⟨1, 3, rfl, rfl, rfl⟩, rfl, rfl, rfl, rfl, Or.inl ⟨rfl, rfl⟩, by simp⟩
    | k + 4 => cases hb

theorem exAB_fits : exAB.Fits exCtxB where
  U := rfl
  U0 := rfl
  r := rfl
  K := rfl
  Krow := by
    intro row hrow
    have : row = List.replicate 3 fun _ _ => (0 : ℝ) := List.eq_of_mem_replicate hrow
    rw [this]
    rfl
  stretch := rfl
  force := rfl
  stress := rfl
  statev := fun _ => ⟨_, rfl, rfl⟩
  dof := by
    show ∀ i ∈ [3, 4, 5], i < 3 * 3
    decide
  dofNodup := by
    show [3, 4, 5].Nodup
    decide

/-- C94: the bundled structure meets the hypotheses and both structures evaluate, at all displacements. -/
theorem exCtxB_bundled (x y z l : ℝ) : ∃ (a1 : Analysis ℝ) (g : List ℝ) (b1 : Analysis ℝ) (g' : List ℝ),
    equilibrium (exCtx fun q => (q : ℝ)) (exA fun q => (q : ℝ)) [x, y, z, l] [0, 0, 0, 0] .G false = .ok (a1, g) ∧
    equilibrium exCtxB exAB [x, y, z, l] [0, 0, 0, 0] .G false = .ok (b1, g') ∧
    Bundled (exCtx fun q => (q : ℝ)) exCtxB (exBars fun q => (q : ℝ)) exBarsB (exA fun q => (q : ℝ)).statev exAB.statev
      (fun k => [0, 1, 0, 0].getD k 0) (fun k => ([1/4, 1, 3/4, 0] : List ℝ).getD k 0) := by
  obtain ⟨⟨a1, g⟩, h⟩ := (ex_total (fun q => (q : ℝ)) x y z l 0 0 0 0 false).1
  have hcomp : ∀ b ∈ exBarsB, b.Complete 2 := by
    intro b hb
    have hb : b ∈ [_, _, _, _] := hb
    simp only [List.mem_cons, List.not_mem_nil, or_false] at hb
    rcases hb with rfl | rfl | rfl | rfl
    · exact ⟨by simp, by simp, fun h => by cases h⟩
    · exact ⟨by simp, by simp, fun _ => ⟨by simp, by simp⟩⟩
    · exact ⟨by simp, by simp, fun h => by cases h⟩
    · exact ⟨by simp, by simp, fun h => by cases h⟩
  have := C56_evaluation_total exCtxB_bars exAB_fits hcomp
    (by
      intro sv hs row hrow
      have hs : (some (List.replicate 4 (List.replicate 2 (0 : ℝ)))) = some sv := hs
      cases hs
      rw [List.eq_of_mem_replicate hrow]
      rfl) (ef := ⟨_, _⟩) rfl rfl rfl rfl (V := [x, y, z, l]) (V0 := [0, 0, 0, 0]) rfl rfl false
  obtain ⟨⟨b1, g'⟩, h'⟩ := this.1
  refine ⟨a1, g, b1, g', h, h', rfl, ?_, ?_⟩
  · intro j hj
    have hl : exBarsB.length = 4 := rfl
    rw [hl]
    match j with
    | 0 => simp [Finset.sum_range_succ]; norm_num
    | 1 => simp [Finset.sum_range_succ]
    | j + 2 => simp [exBars] at hj
  · intro k b' hb
    match k with
    | 0 => cases hb; exact .inr ⟨_, 1, rfl, by simp, by simp, rfl, rfl, rfl, rfl, rfl, rfl, fun _ => rfl⟩
    | 1 => cases hb; exact .inr ⟨_, 1, rfl, by simp, by simp, rfl, rfl, rfl, rfl, rfl, rfl, fun _ => rfl⟩
    | 2 => cases hb; exact .inr ⟨_, 1, rfl, by simp, by simp, rfl, rfl, rfl, rfl, rfl, rfl, fun _ => rfl⟩
    | 3 => cases hb; exact .inl ⟨rfl, rfl⟩
    | k + 4 => cases hb

/-- C94 applied: at every displacement of the middle node both structures have the same residual. -/
example (x y z l : ℝ) : ∃ a1 b1 g, equilibrium (exCtx fun q => (q : ℝ)) (exA fun q => (q : ℝ)) [x, y, z, l] [0, 0, 0, 0] .G false =
    .ok (a1, g) ∧ equilibrium exCtxB exAB [x, y, z, l] [0, 0, 0, 0] .G false = .ok (b1, g) ∧
    b1.elementForce[2]? = (a1.elementForce[0]?).map fun N => 3/4 * N := by
  obtain ⟨a1, g, b1, g', h, h', hR⟩ := exCtxB_bundled x y z l
  obtain ⟨r1, -, -, r4⟩ := C94_forces (exCtx_bars _) exCtxB_bars (exA_fits _) exAB_fits hR rfl rfl rfl rfl (V := [x, y, z, l]) (Nat.lt_succ_self 3) h h'
  refine ⟨a1, b1, g, h, r1 ▸ h', ?_⟩
  rcases r4 2 (by decide) with ⟨h0, -⟩ | ⟨-, -, h3⟩
  · norm_num at h0
  · exact h3

end TrussPy
