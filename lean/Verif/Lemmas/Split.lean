import Verif.Spec.Split
import Verif.Props.Parallel
import Verif.Lemmas.CongruentBuild
/-!
# Lemmas: runs of structures with bundles of parallel bars
-/

set_option linter.unusedSectionVars false

namespace TrussPy

/-! ## No change of signs -/

theorem flipV_one (x : List ℝ) : flipV (fun _ => 1) x = x := by
  apply List.ext_getElem?
  intro i
  rw [flipV_get]
  cases x[i]? <;> simp

theorem flipJ_one (j : Int) : flipJ (fun _ => 1) j = j := by simp [flipJ]

theorem flipM_one (A : List (List ℝ)) : flipM (fun _ => 1) (fun _ => 1) A = A := by
  unfold flipM
  apply List.ext_getElem?
  intro i
  rw [List.getElem?_mapIdx]
  cases A[i]? <;> simp [flipV_one]

theorem keepsSigns_one (env : Env ℝ) : env.KeepsSignsOf fun _ => 1 := by
  intro τ hτ A b
  have : τ = fun _ => 1 := by
    funext i
    obtain ⟨k, hk⟩ := hτ i
    exact hk
  rw [this, flipM_one, flipV_one]
  cases env.spsolve A b with
  | error e => rfl
  | ok x => simp [Except.map, flipV_one]

/-! ## Bars -/

theorem pyGet_first {l : List ℝ} {x y : ℝ} (h : l[0]? = some x) (hy : pyGet l 0 = .ok y) : y = x := by
  have : pyGet l 0 = .ok x := by
    unfold pyGet
    simp [h]
  rw [this] at hy
  exact (Except.ok.inj hy).symm

/-- The bar `b'` is the share `w` of the bar `b`. -/
structure Bar.Share (w : ℝ) (b b' : Bar ℝ) : Prop where
  iA : b'.iA = b.iA
  iE : b'.iE = b.iE
  XA : b'.XA = b.XA
  XE : b'.XE = b.XE
  mat : b'.mat = b.mat
  law : b'.law = b.law
  area : ∃ A, b.geo[0]? = some A ∧ b'.geo[0]? = some (w * A)

/-- Two structures, the bars of the second one are shares of those of the first one. -/
structure SplitBars (π : Nat → Nat) (w : Nat → ℝ) (c c' : Ctx ℝ) (bars bars' : List (Bar ℝ)) : Prop where
  nnodes : c'.nnodes = c.nnodes
  ndof1 : c'.ndof1 = c.ndof1
  sum : ∀ j, j < bars.length → ∑ k ∈ Finset.range bars'.length, (if π k = j then w k else 0) = 1
  bar : ∀ (k : Nat) b', bars'[k]? = some b' → (w k = 0 ∧ b'.geo[0]? = some 0) ∨
    ∃ b, bars[π k]? = some b ∧ b.Share (w k) b'

theorem share_eval {w : ℝ} {b b' : Bar ℝ} (h : b.Share w b') {U U0 : List ℝ} {row row' : Option (List ℝ)} {o o' : TrussOut ℝ}
    (ho : b.eval U U0 row = .ok o) (ho' : b'.eval U U0 row' = .ok o') (hs : b.law = .elplast → row' = row) :
    o'.lam = o.lam ∧ o'.stress = o.stress ∧ o'.N = w * o.N ∧ (b.law = .elplast → o'.statev = o.statev) := by
  obtain ⟨A, hA, hA'⟩ := h.area
  unfold Bar.eval trussCore at ho ho'
  simp only at ho ho'
  rw [h.iA, h.iE, h.XA, h.XE, h.mat, h.law] at ho'
  obtain ⟨x, p1, ho⟩ := py_bind_eq_ok.1 ho
  obtain ⟨y, p2, ho⟩ := py_bind_eq_ok.1 ho
  obtain ⟨x', q1, ho'⟩ := py_bind_eq_ok.1 ho'
  obtain ⟨y', q2, ho'⟩ := py_bind_eq_ok.1 ho'
  have e2 : y = A := pyGet_first hA p2
  have e2' : y' = w * A := pyGet_first hA' q2
  have key : x'.s = x.s ∧ (b.law = .elplast → x'.statev = x.statev) := by
    cases hl : b.law with
    | el =>
      rw [hl] at p1 q1
      simp only [Umat.call] at p1 q1
      have := (congrArg (Except.map fun o : UmatOut ℝ => (o.s, o.dsde)) q1).symm.trans (umatEl_state _ _ b.mat row row')
      rw [p1] at this
      exact ⟨congrArg Prod.fst (Except.ok.inj this), fun h => by cases h⟩
    | elplast =>
      rw [hs hl, p1] at q1
      cases q1
      exact ⟨rfl, fun _ => rfl⟩
  cases ho
  cases ho'
  refine ⟨rfl, key.1, ?_, key.2⟩
  show x'.s * y' = w * (x.s * y)
  rw [key.1, e2, e2']
  ring

theorem void_eval {b : Bar ℝ} (h : b.geo[0]? = some 0) {U U0 : List ℝ} {row : Option (List ℝ)} {o : TrussOut ℝ}
    (ho : b.eval U U0 row = .ok o) : o.N = 0 := by
  unfold Bar.eval trussCore at ho
  simp only at ho
  obtain ⟨x, p1, ho⟩ := py_bind_eq_ok.1 ho
  obtain ⟨y, p2, ho⟩ := py_bind_eq_ok.1 ho
  have e2 : y = 0 := pyGet_first h p2
  cases ho
  show x.s * y = 0
  rw [e2, mul_zero]

/-! ## Analysis objects -/

/-- Analysis objects of the two structures during a run. -/
structure SplitPair (π : Nat → Nat) (w : Nat → ℝ) (c c' : Ctx ℝ) (bars bars' : List (Bar ℝ)) (a b : Analysis ℝ) : Prop where
  step : b.step = a.step
  U : b.U = a.U
  U0 : b.U0 = a.U0
  r : b.r = a.r
  g : b.g = a.g
  dof0 : b.DOF0 = a.DOF0
  dof1 : b.DOF1 = a.DOF1
  Ured : b.Ured = a.Ured
  loads : b.extForces = a.extForces
  f0red : b.f0red = a.f0red
  Kred : b.Kred = a.Kred
  j : b.j = a.j
  dVmax : b.dVmax = a.dVmax
  share : ∀ (k : Nat) x x', bars'[k]? = some x' → bars[π k]? = some x → x.Share (w k) x' →
    b.stretch[k]? = a.stretch[π k]? ∧ b.elementStress[k]? = a.elementStress[π k]? ∧
      b.elementForce[k]? = (a.elementForce[π k]?).map (w k * ·)
  state : ∀ (k : Nat) x x', bars'[k]? = some x' → bars[π k]? = some x → x.Share (w k) x' → x.law = .elplast →
    stateRow c' b.statev k = stateRow c a.statev (π k)
  void : ∀ (k : Nat) x', bars'[k]? = some x' → x'.geo[0]? = some 0 → b.elementForce[k]? = some 0

section
variable {π : Nat → Nat} {w : Nat → ℝ} {c c' : Ctx ℝ} {bars bars' : List (Bar ℝ)} {dofs : List Nat}

theorem SplitPair.bundled {a b : Analysis ℝ} (h : SplitPair π w c c' bars bars' a b) (hS : SplitBars π w c c' bars bars') :
    Bundled c c' bars bars' a.statev b.statev π w := by
  refine ⟨hS.nnodes, hS.sum, ?_⟩
  intro k x' hx
  rcases hS.bar k x' hx with h0 | ⟨x, h1, h2⟩
  · exact .inl h0
  · obtain ⟨A, hA, hA'⟩ := h2.area
    exact .inr ⟨x, A, h1, hA, hA', h2.iA, h2.iE, h2.XA, h2.XE, h2.mat, h2.law, h.state k x x' hx h1 h2⟩

/-- Load factor and extended vector are left open: a model without state variables does not write them during evaluations. -/
theorem SplitPair.with_state {a b : Analysis ℝ} (h : SplitPair π w c c' bars bars' a b) {sv sv' : Option (List (List ℝ))}
    (hs : ∀ (k : Nat) x x', bars'[k]? = some x' → bars[π k]? = some x → x.Share (w k) x' → x.law = .elplast →
      stateRow c' sv' k = stateRow c sv (π k)) (l l' : Option ℝ) (V V' : List ℝ) :
    SplitPair π w c c' bars bars' { a with statev := sv, lpf := l, Vred := V } { b with statev := sv', lpf := l', Vred := V' } :=
  ⟨h.step, h.U, h.U0, h.r, h.g, h.dof0, h.dof1, h.Ured, h.loads, h.f0red, h.Kred, h.j, h.dVmax, h.share, hs, h.void⟩

/-- Analysis objects of the two structures during a step. -/
structure SplitPairs (π : Nat → Nat) (w : Nat → ℝ) (c c' : Ctx ℝ) (bars bars' : List (Bar ℝ)) (dofs : List Nat) (a b : Analysis ℝ) :
    Prop where
  twin : SplitPair π w c c' bars bars' a b
  ready : a.Ready c
  ready' : b.Ready c'
  dof : a.DOF1 = dofs

theorem afterG_state (c : Ctx ℝ) (wr : Bool) (lpf : ℝ) (u U U0 : List ℝ) (bars : List (Bar ℝ)) (outs : List (TrussOut ℝ)) (g : List ℝ)
    (a : Analysis ℝ) : ∃ l V, afterG c wr lpf u U U0 bars outs g a = { a with
      U := U, U0 := U0, stretch := outs.map (·.lam), elementStress := outs.map (·.stress), elementForce := outs.map (·.N),
      r := (bars.zip outs).foldl addBar (zeroR c.nnodes), g := g,
      statev := if wr && decide (0 < c.nstatev) && !bars.isEmpty then some (outs.map fun o => o.statev.getD []) else a.statev,
      lpf := l, Vred := V } := by
  unfold afterG
  by_cases hw : (wr && decide (0 < c.nstatev) && !bars.isEmpty) = true
  · refine ⟨some lpf, u ++ [lpf], ?_⟩
    simp only [if_pos hw]
  · refine ⟨a.lpf, a.Vred, ?_⟩
    simp only [if_neg hw]

theorem g_twin (hB : c.Bars bars) (hB' : c'.Bars bars') (hK : ∀ b ∈ bars, b.Complete c.nstatev)
    (hK' : ∀ b ∈ bars', b.Complete c'.nstatev) (hS : SplitBars π w c c' bars bars')
    {a b a1 b1 : Analysis ℝ} {V V0 g g' : List ℝ} {wr : Bool} (h : SplitPairs π w c c' bars bars' dofs a b)
    (hV : V.length = c.ndof1 + 1)
    (hg : equilibrium c a V V0 .G wr = .ok (a1, g)) (hg' : equilibrium c' b V V0 .G wr = .ok (b1, g')) :
    SplitPair π w c c' bars bars' a1 b1 ∧ g' = g ∧ a1.DOF1 = dofs := by
  have ht := h.twin
  obtain ⟨f1, f2, f3, -⟩ := C94_forces hB hB' h.ready.base.fits h.ready'.base.fits (ht.bundled hS) hS.ndof1 ht.dof1 ht.U ht.loads
    (by omega) hg hg'
  refine ⟨?_, f1, by rw [(equilibrium_frame hg).1.dof1]; exact h.dof⟩
  obtain ⟨lpf, u, u0, U, U0, outs, ef, gg, p1, p2, p3, p4, p5, p6, p7, hA⟩ := equilibrium_G hB h.ready.base.fits hg
  obtain ⟨lpf', u', u0', U', U0', outs', ef', gg', q1, q2, q3, q4, q5, q6, q7, hA'⟩ := equilibrium_G hB' h.ready'.base.fits hg'
  have e1 : lpf' = lpf ∧ u' = u ∧ u0' = u0 := by
    unfold splitV at p1 q1
    rw [if_pos (by omega)] at p1
    rw [hS.ndof1, if_pos (by omega)] at q1
    cases hl : V.getLast? with
    | none => rw [hl] at p1; cases p1
    | some l => rw [hl] at p1 q1; cases p1; cases q1; exact ⟨rfl, rfl, rfl⟩
  obtain ⟨rfl, rfl, rfl⟩ := e1
  rw [ht.U, ht.dof1, p2] at q2
  cases q2
  rw [ht.U0, ht.dof1, p3] at q3
  cases q3
  rw [ht.loads, p5] at q5
  cases q5
  obtain ⟨l, W, hl⟩ := afterG_state c wr lpf' u' U U0 bars outs gg a
  obtain ⟨l', W', hl'⟩ := afterG_state c' wr lpf' u' U U0 bars' outs' gg' b
  rw [hl] at hA
  rw [hl'] at hA'
  rw [hA, hA'] at f3
  simp only at f3
  rw [f3, p6] at q6
  cases q6
  have hev : ∀ (k : Nat) x x', bars'[k]? = some x' → bars[π k]? = some x → x.Share (w k) x' → ∃ o o', outs[π k]? = some o ∧
      outs'[k]? = some o' ∧ o'.lam = o.lam ∧ o'.stress = o.stress ∧ o'.N = w k * o.N ∧ (x.law = .elplast → o'.statev = o.statev) := by
    intro k x x' h1 h2 h3
    obtain ⟨o, o1, o2⟩ := evalAll_get p4 h2
    obtain ⟨o', o1', o2'⟩ := evalAll_get q4 h1
    rw [Nat.zero_add] at o2 o2'
    exact ⟨o, o', o1, o1', share_eval h3 o2 o2' (ht.state k x x' h1 h2 h3)⟩
  have base : SplitPair π w c c' bars bars'
      { a with U := U, U0 := U0, stretch := outs.map (·.lam), elementStress := outs.map (·.stress), elementForce := outs.map (·.N),
               r := (bars.zip outs).foldl addBar (zeroR c.nnodes), g := gg }
      { b with U := U, U0 := U0, stretch := outs'.map (·.lam), elementStress := outs'.map (·.stress),
               elementForce := outs'.map (·.N), r := (bars'.zip outs').foldl addBar (zeroR c'.nnodes), g := gg } := by
    refine ⟨ht.step, rfl, rfl, f3, rfl, ht.dof0, ht.dof1, ht.Ured, ht.loads, ht.f0red, ht.Kred, ht.j, ht.dVmax, ?_, ht.state, ?_⟩
    · intro k x x' h1 h2 h3
      obtain ⟨o, o', o1, o2, o3, o4, o5, -⟩ := hev k x x' h1 h2 h3
      simp only [List.getElem?_map, o1, o2, Option.map_some, o3, o4, o5, and_self]
    · intro k x' h1 h2
      obtain ⟨o', o1, o2⟩ := evalAll_get q4 h1
      simp only [List.getElem?_map, o1, Option.map_some, void_eval h2 o2]
  rw [hA, hA']
  refine base.with_state ?_ l l' W W'
  intro k x x' h1 h2 h3 h4
  obtain ⟨o, o', o1, o2, -, -, -, o3⟩ := hev k x x' h1 h2 h3
  have n1 : 0 < c.nstatev := by have := ((hK x (List.mem_of_getElem? h2)).plastic h4).2; omega
  have n2 : 0 < c'.nstatev := by
    have := ((hK' x' (List.mem_of_getElem? h1)).plastic (by rw [h3.law]; exact h4)).2
    omega
  have m1 : bars.isEmpty = false := by
    cases bars with
    | nil => simp at h2
    | cons => rfl
  have m2 : bars'.isEmpty = false := by
    cases bars' with
    | nil => simp at h1
    | cons => rfl
  have hst := ht.state k x x' h1 h2 h3 h4
  simp only [n1, n2, m1, m2, decide_true, Bool.and_true, Bool.not_false]
  cases wr with
  | false => exact hst
  | true =>
    simp only [if_true]
    unfold stateRow
    rw [if_pos n1, if_pos n2]
    simp only [Option.bind_some, List.getElem?_map, o1, o2, Option.map_some, o3 h4]

theorem dgdx_twin (hB : c.Bars bars) (hB' : c'.Bars bars') (hS : SplitBars π w c c' bars bars')
    {a b a1 b1 : Analysis ℝ} {V : List ℝ} {K K' : List (List ℝ)} (h : SplitPairs π w c c' bars bars' dofs a b)
    (hV : V.length = c.ndof1) (hg : stiffness c a V = .ok (a1, K)) (hg' : stiffness c' b V = .ok (b1, K')) :
    SplitPair π w c c' bars bars' a1 b1 ∧ K' = K ∧ a1.DOF1 = dofs := by
  have ht := h.twin
  obtain ⟨lpf, u, u0, U, U0, outs, p1, p2, p3, p4, p5, hA⟩ := stiffness_inv hB h.ready.base.fits hg
  obtain ⟨lpf', u', u0', U', U0', outs', q1, q2, q3, q4, q5, hA'⟩ := stiffness_inv hB' h.ready'.base.fits hg'
  have e1 : u' = u ∧ u0' = u0 := by
    unfold splitV at p1 q1
    rw [if_neg (by omega)] at p1
    rw [hS.ndof1, if_neg (by omega)] at q1
    cases hl : a.lpf with
    | none => rw [hl] at p1; cases p1
    | some l =>
      cases hl' : b.lpf with
      | none => rw [hl'] at q1; cases q1
      | some l' => rw [hl] at p1; rw [hl'] at q1; cases p1; cases q1; exact ⟨rfl, rfl⟩
  obtain ⟨rfl, rfl⟩ := e1
  rw [ht.U, ht.dof1, p2] at q2
  cases q2
  rw [ht.U0, ht.dof1, p3] at q3
  cases q3
  have hK : K' = K := C94_stiffness hB hB' h.ready.base.fits h.ready'.base.fits (ht.bundled hS) hg hg' (by rw [hA, hA']) ht.dof1
  refine ⟨?_, hK, by rw [hA]; exact h.dof⟩
  rw [hA, hA']
  exact ⟨ht.step, rfl, rfl, ht.r, ht.g, ht.dof0, ht.dof1, ht.Ured, ht.loads, ht.f0red, hK, ht.j, ht.dVmax, ht.share, ht.state, ht.void⟩

theorem modelProblem_split (hB : c.Bars bars) (hB' : c'.Bars bars') (hK : ∀ b ∈ bars, b.Complete c.nstatev)
    (hK' : ∀ b ∈ bars', b.Complete c'.nstatev) (hS : SplitBars π w c c' bars bars') :
    (modelProblem c).Flip (modelProblem c') c.ndof1 (fun _ => 1) (SplitPairs π w c c' bars bars' dofs) where
  signs := fun _ => Or.inl rfl
  last := rfl
  g := by
    intro a a' V V0 wr h hV hV0
    rw [flipV_one, flipV_one]
    obtain ⟨b, gr, e1, e2, e3⟩ := (modelProblem_runs hB hK).g a V V0 wr h.ready hV hV0
    obtain ⟨b', gr', f1, f2, f3⟩ := (modelProblem_runs hB' hK').g a' V V0 wr h.ready' (by rw [hS.ndof1]; exact hV)
      (by rw [hS.ndof1]; exact hV0)
    rw [e1, f1]
    obtain ⟨i1, i2, i3⟩ := g_twin hB hB' hK hK' hS h hV e1 f1
    exact .ok ⟨⟨i1, e2, f2, i3⟩, by rw [flipV_one]; exact i2, e3⟩
  dgdx := by
    intro a a' U h hU
    rw [flipV_one]
    obtain ⟨b, K, e1, e2, e3, e4⟩ := (modelProblem_runs hB hK).dgdx a U h.ready hU
    obtain ⟨b', K', f1, f2, f3, f4⟩ := (modelProblem_runs hB' hK').dgdx a' U h.ready' (by rw [hS.ndof1]; exact hU)
    rw [e1, f1]
    obtain ⟨i1, i2, i3⟩ := dgdx_twin hB hB' hS h hU e1 f1
    exact .ok ⟨⟨i1, e2, f2, i3⟩, by rw [flipM_one]; exact i2, e3, e4⟩
  f0 := by
    intro a a' h
    rw [flipV_one]
    exact ⟨h.twin.f0red, h.ready.f0⟩
  setJ := by
    intro a a' j h
    rw [flipJ_one]
    have b := (modelProblem_runs hB hK).book a j a.Kmod a.dVmax h.ready
    have b' := (modelProblem_runs hB' hK').book a' j a'.Kmod a'.dVmax h.ready'
    have t := h.twin
    exact ⟨⟨t.step, t.U, t.U0, t.r, t.g, t.dof0, t.dof1, t.Ured, t.loads, t.f0red, t.Kred, rfl, t.dVmax, t.share, t.state, t.void⟩,
      b, b', h.dof⟩
  setK := by
    intro a a' τ K h hτ
    have b := (modelProblem_runs hB hK).book a a.j K a.dVmax h.ready
    have b' := (modelProblem_runs hB' hK').book a' a'.j (flipM τ (fun _ => 1) K) a'.dVmax h.ready'
    have t := h.twin
    exact ⟨⟨t.step, t.U, t.U0, t.r, t.g, t.dof0, t.dof1, t.Ured, t.loads, t.f0red, t.Kred, t.j, t.dVmax, t.share, t.state, t.void⟩,
      b, b', h.dof⟩
  setD := by
    intro a a' dV h
    have b := (modelProblem_runs hB hK).book a a.j a.Kmod dV h.ready
    have b' := (modelProblem_runs hB' hK').book a' a'.j a'.Kmod dV h.ready'
    have t := h.twin
    exact ⟨⟨t.step, t.U, t.U0, t.r, t.g, t.dof0, t.dof1, t.Ured, t.loads, t.f0red, t.Kred, t.j, rfl, t.share, t.state, t.void⟩,
      b, b', h.dof⟩
  save := by
    intro a a' V u l h hV hu
    have b := (modelProblem_runs hB hK).save a V u l h.ready hu
    have b' := (modelProblem_runs hB' hK').save a' V u l h.ready' (by rw [hS.ndof1]; exact hu)
    have t := h.twin
    rw [flipV_one, flipV_one]
    exact ⟨⟨t.step, t.U, t.U0, t.r, t.g, t.dof0, t.dof1, rfl, t.loads, t.f0red, t.Kred, t.j, t.dVmax, t.share, t.state, t.void⟩,
      b, b', h.dof⟩

/-! ## Steps -/

/-- Recorded analysis objects: also the load factors agree. -/
def SplitRec (π : Nat → Nat) (w : Nat → ℝ) (c c' : Ctx ℝ) (bars bars' : List (Bar ℝ)) (a b : Analysis ℝ) : Prop :=
  SplitPair π w c c' bars bars' a b ∧ a.Fits c ∧ b.Fits c' ∧ b.lpf = a.lpf

/-- The states of the two runs between two steps. -/
structure StepSplit (π : Nat → Nat) (w : Nat → ℝ) (c c' : Ctx ℝ) (bars bars' : List (Bar ℝ)) (dofs : List Nat) (k : Nat)
    (st st' : Analysis ℝ × Results ℝ) : Prop where
  twin : SplitPair π w c c' bars bars' st.1 st'.1
  base : st.1.Base c
  base' : st'.1.Base c'
  dof : st.1.DOF1 = dofs
  ends : st'.2.stepLpfEnd = st.2.stepLpfEnd
  len : st.2.stepLpfEnd.length = k
  recs : List.Forall₂ (SplitRec π w c c' bars bars') st.2.R st'.2.R

theorem setStep_split {rows : List (List ℝ)} {wd k : Nat} (hn : c'.nnodes = c.nnodes) (hr : rows.length = c.nnodes)
    (hw : ∀ r ∈ rows, r.length = wd) (hk : 3 * (k + 1) ≤ wd) {st st' : Analysis ℝ × Results ℝ}
    (h : StepSplit π w c c' bars bars' dofs k st st') :
    Alike (SplitPairs π w c c' bars bars' dofs) (setStep rows st.2.stepLpfEnd k st.1) (setStep rows st'.2.stepLpfEnd k st'.1) := by
  obtain ⟨a1, e1, r1⟩ := setStep_total (le := st.2.stepLpfEnd) h.base hr hw hk (by rw [h.len])
  obtain ⟨a2, e2, r2⟩ := setStep_total (le := st'.2.stepLpfEnd) h.base' (by rw [hn]; exact hr) hw hk (by rw [h.ends, h.len])
  rw [e1, e2]
  unfold setStep at e1 e2
  obtain ⟨fc, p1, e1⟩ := py_bind_eq_ok.1 e1
  obtain ⟨f0, p2, e1⟩ := py_bind_eq_ok.1 e1
  obtain ⟨fc', q1, e2⟩ := py_bind_eq_ok.1 e2
  obtain ⟨f0', q2, e2⟩ := py_bind_eq_ok.1 e2
  rw [h.ends, p1] at q1
  cases q1
  rw [h.twin.dof1, p2] at q2
  cases q2
  cases e1
  cases e2
  have t := h.twin
  exact .ok ⟨⟨rfl, t.U, t.U0, t.r, t.g, t.dof0, t.dof1, t.Ured, rfl, rfl, t.Kred, t.j, t.dVmax, t.share, t.state, t.void⟩,
    r1, r2, h.dof⟩

theorem syncU0_split {R R' : List (Analysis ℝ)} (h : List.Forall₂ (SplitRec π w c c' bars bars') R R') :
    Alike (List.Forall₂ (SplitRec π w c c' bars bars')) (syncU0 R) (syncU0 R') := by
  rcases List.eq_nil_or_concat R with rfl | ⟨l0, b, rfl⟩
  · cases h; exact .error _
  · rw [List.concat_eq_append] at h ⊢
    obtain ⟨l1, b', rfl, h1, ⟨t, f, f', hl⟩⟩ := forall₂_snoc h
    unfold syncU0
    rw [List.getLast?_concat, List.getLast?_concat]
    simp only [List.dropLast_concat]
    refine .ok (forall₂_append h1 (.cons ?_ .nil))
    exact ⟨⟨t.step, t.U, t.U, t.r, t.g, t.dof0, t.dof1, t.Ured, t.loads, t.f0red, t.Kred, t.j, t.dVmax, t.share, t.state, t.void⟩,
      ⟨f.U, f.U, f.r, f.K, f.Krow, f.stretch, f.force, f.stress, f.statev, f.dof, f.dofNodup⟩,
      ⟨f'.U, f'.U, f'.r, f'.K, f'.Krow, f'.stretch, f'.force, f'.stress, f'.statev, f'.dof, f'.dofNodup⟩, hl⟩

theorem lastLpf_split {R R' : List (Analysis ℝ)} (h : List.Forall₂ (SplitRec π w c c' bars bars') R R') :
    Alike (fun x y => y = x) (lastLpf R) (lastLpf R') := by
  rcases List.eq_nil_or_concat R with rfl | ⟨l0, b, rfl⟩
  · cases h; exact .error _
  · rw [List.concat_eq_append] at h ⊢
    obtain ⟨l1, b', rfl, h1, hc⟩ := forall₂_snoc h
    unfold lastLpf
    rw [List.getLast?_concat, List.getLast?_concat]
    simp only [hc.2.2.2]
    exact Alike.refl _

theorem pathfollow_split (hB : c.Bars bars) (hB' : c'.Bars bars') (hK : ∀ b ∈ bars, b.Complete c.nstatev)
    (hK' : ∀ b ∈ bars', b.Complete c'.nstatev) (hS : SplitBars π w c c' bars bars') (env : Env ℝ) (cfg : PFCfg ℝ) (fuel : Nat)
    {a a' : Analysis ℝ} (ha : SplitPairs π w c c' bars bars' dofs a a') :
    Alike (fun o o' => List.Forall₂ (SplitRec π w c c' bars bars') (o.recs.map (·.a)) (o'.recs.map (·.a)) ∧
        SplitPairs π w c c' bars bars' dofs o.final o'.final)
      (pathfollow env (modelProblem c) cfg fuel a.Ured a) (pathfollow env (modelProblem c') cfg fuel a'.Ured a') := by
  have h := pathfollow_flip (modelProblem_split (dofs := dofs) hB hB' hK hK' hS) (keepsSigns_one env) cfg fuel ha ha.ready.base.Ured
  have e1 : ({ cfg with j := cfg.j.map (flipJ fun _ => 1) } : PFCfg ℝ) = cfg := by
    have : cfg.j.map (flipJ fun _ => 1) = cfg.j := by cases cfg.j <;> simp [flipJ_one]
    rw [this]
  have e2 : pathfollow env (modelProblem c') cfg fuel a.Ured a' = pathfollow env (modelProblem c') cfg fuel a'.Ured a' := by
    rw [ha.twin.Ured]
  rw [e1, flipV_one, e2] at h
  cases hp : pathfollow env (modelProblem c) cfg fuel a.Ured a with
  | error e =>
    rw [hp] at h
    generalize pathfollow env (modelProblem c') cfg fuel a'.Ured a' = q at h
    cases h
    exact .error _
  | ok o =>
    cases hp' : pathfollow env (modelProblem c') cfg fuel a'.Ured a' with
    | error e =>
      rw [hp, hp'] at h
      cases h
    | ok o' =>
      rw [hp, hp'] at h
      cases h with
      | ok ho =>
      refine .ok ⟨?_, ho.final⟩
      have h1 := pathfollow_loads hp
      have h2 := pathfollow_loads hp'
      have hr := ho.recs
      generalize o.recs = l at h1 hr
      generalize o'.recs = l' at h2 hr
      induction hr with
      | nil => exact .nil
      | cons hc _ ih =>
        refine .cons ⟨hc.a.twin, hc.a.ready.base.fits, hc.a.ready'.base.fits, ?_⟩
          (ih (fun r hr => h1 r (by simp [hr])) (fun r hr => h2 r (by simp [hr])))
        obtain ⟨-, -, -, l1, l2, l3⟩ := h1 _ List.mem_cons_self
        obtain ⟨-, -, -, l1', l2', l3'⟩ := h2 _ List.mem_cons_self
        have hx := hc.x
        rw [flipV_one] at hx
        rw [hx, l3] at l3'
        rw [l2, l2', ← l3']

theorem runStep_split (hB : c.Bars bars) (hB' : c'.Bars bars') (hK : ∀ b ∈ bars, b.Complete c.nstatev)
    (hK' : ∀ b ∈ bars', b.Complete c'.nstatev) (hS : SplitBars π w c c' bars bars') (env : Env ℝ) (fuel : Nat) (s : Settings ℝ)
    (ns : Nat) {rows : List (List ℝ)} {wd k : Nat} (hr : rows.length = c.nnodes)
    (hw : ∀ r ∈ rows, r.length = wd) (hk : 3 * (k + 1) ≤ wd) {st st' : Analysis ℝ × Results ℝ}
    (h : StepSplit π w c c' bars bars' dofs k st st') :
    Alike (StepSplit π w c c' bars bars' dofs (k + 1)) (runStep env fuel c s rows st k)
      (runStep env fuel c' { s with nstatev := ns } rows st' k) := by
  have hset := setStep_split hS.nnodes hr hw hk h
  obtain ⟨a, res⟩ := st
  obtain ⟨a', res'⟩ := st'
  unfold runStep
  simp only
  refine (Alike.refl _).bind ?_
  rintro _ incs rfl
  refine (Alike.refl _).bind ?_
  rintro _ xl rfl
  refine hset.bind ?_
  intro a1 a1' h1
  refine (pathfollow_split hB hB' hK hK' hS env (stepCfg s incs xl) fuel h1).bind ?_
  rintro o o' ⟨hrec, hfin⟩
  refine (syncU0_split (foldl_recordOne_flip hrec h.recs)).bind ?_
  intro R R' hR
  refine (lastLpf_split hR).bind ?_
  rintro _ l rfl
  have hends : res'.stepLpfEnd = res.stepLpfEnd := h.ends
  have hlen : res.stepLpfEnd.length = k := h.len
  obtain ⟨t, fr, fr', fd⟩ := hfin
  split
  · refine .ok ⟨?_, ?_, ?_, fd, by simp only [hends], by simp [hlen], hR⟩
    · exact ⟨t.step, t.U, t.U0, t.r, t.g, t.dof0, t.dof1, t.Ured, t.loads, t.f0red, t.Kred, t.j, t.dVmax, t.share, t.state, t.void⟩
    · obtain ⟨⟨b1, b2, b3, b4, b5⟩, -, -⟩ := fr
      exact ⟨⟨b1.U, b1.U0, b1.r, b1.K, b1.Krow, b1.stretch, b1.force, b1.stress, b1.statev, b1.dof, b1.dofNodup⟩, b2, b3,
        rfl, b5⟩
    · obtain ⟨⟨b1, b2, b3, b4, b5⟩, -, -⟩ := fr'
      exact ⟨⟨b1.U, b1.U0, b1.r, b1.K, b1.Krow, b1.stretch, b1.force, b1.stress, b1.statev, b1.dof, b1.dofNodup⟩, b2, b3,
        rfl, b5⟩
  · exact .ok ⟨t, fr.base, fr'.base, fd, by simp only [hends], by simp [hlen], forall₂_dropLast hR⟩

theorem steps_split (hB : c.Bars bars) (hB' : c'.Bars bars') (hK : ∀ b ∈ bars, b.Complete c.nstatev)
    (hK' : ∀ b ∈ bars', b.Complete c'.nstatev) (hS : SplitBars π w c c' bars bars') (env : Env ℝ) (fuel : Nat) (s : Settings ℝ)
    (ns : Nat) {rows : List (List ℝ)} {wd : Nat} (hr : rows.length = c.nnodes)
    (hw : ∀ r ∈ rows, r.length = wd) {st st' : Analysis ℝ × Results ℝ}
    (h : StepSplit π w c c' bars bars' dofs 0 st st') : ∀ n, 3 * n ≤ wd →
    Alike (StepSplit π w c c' bars bars' dofs n) ((List.range n).foldlM (runStep env fuel c s rows) st)
      ((List.range n).foldlM (runStep env fuel c' { s with nstatev := ns } rows) st')
  | 0, _ => .ok h
  | n + 1, hn => by
    rw [List.range_succ, List.foldlM_append, List.foldlM_append]
    refine (steps_split hB hB' hK hK' hS env fuel s ns hr hw h n (by omega)).bind ?_
    intro st1 st1' h1
    simp only [List.foldlM_cons, List.foldlM_nil]
    refine (runStep_split hB hB' hK hK' hS env fuel s ns hr hw (by omega) h1).bind ?_
    intro st2 st2' h2
    exact .ok h2

end

end TrussPy
