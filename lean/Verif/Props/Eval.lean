import Verif.Lemmas.Frame
import Verif.ExamplesStruct
/-!
# C31, C54, C56: evaluations of `equilibrium` and `stiffness`, for every arithmetic
-/

set_option linter.unusedSectionVars false

namespace TrussPy

variable {F : Type} [Zero F] [One F] [Add F] [Sub F] [Mul F] [Div F] [Neg F] [Flt F]

/-- What a caller sees of a residual evaluation: returned vector, displacements, internal forces,
residual and state variables. -/
def seenG (p : Analysis F × List F) : List F × List F × List F × List (V3 F) × List F × Option (List (List F)) :=
  (p.2, p.1.U, p.1.U0, p.1.r, p.1.g, p.1.statev)

/-- What a caller sees of a stiffness evaluation: returned matrix and full block matrix. -/
def seenK (p : Analysis F × List (List F)) : List (List F) × List (List (M3 F)) := (p.2, p.1.K)

/-- **C31** The outcome of an evaluation (including which error it raises) depends only on the arguments
and on loads, load factor, committed state variables and locked displacements of the analysis
object. -/
theorem C31_depends_only {c : Ctx F} {a b : Analysis F} (h : SameInputs a b) (V V0 : List F) (w : Bool) :
    (equilibrium c a V V0 .G w).map seenG = (equilibrium c b V V0 .G w).map seenG ∧
    (stiffness c a V).map seenK = (stiffness c b V).map seenK := by
  constructor
  · have := equilibrium_sim (c := c) h V V0 .G w
    revert this
    cases equilibrium c a V V0 .G w <;> cases equilibrium c b V V0 .G w
    · intro h; exact congrArg Except.error h
    · exact False.elim
    · exact False.elim
    · rintro ⟨h1, h2, h3⟩
      simp only [Except.map, seenG, h1.U, h1.U0, h1.r rfl, h1.statev, h2, h3 rfl]
  · have := stiffness_sim (c := c) h V
    revert this
    cases stiffness c a V <;> cases stiffness c b V
    · intro h; exact congrArg Except.error h
    · exact False.elim
    · exact False.elim
    · rintro ⟨h1, h2⟩
      simp only [Except.map, seenK, h1, h2]

theorem evaluations_frame {c : Ctx F} {a b : Analysis F} (h : Evaluations c a b) : Frame false a b := by
  induction h with
  | refl => exact Frame.refl _ _
  | equilibrium _ h2 ih => exact ih.trans (equilibrium_frame h2).1
  | stiffness _ h2 ih => exact ih.trans (stiffness_frame h2)

/-- **C31** Evaluations are history independent: after any sequence of evaluations without commit, at
whatever displacements, every further evaluation has the same outcome as on the original object, and
the state variables are unchanged. -/
theorem C31_history_independent {c : Ctx F} {a b : Analysis F} (h : Evaluations c a b) (V V0 : List F) (w : Bool) :
    (equilibrium c b V V0 .G w).map seenG = (equilibrium c a V V0 .G w).map seenG ∧
    (stiffness c b V).map seenK = (stiffness c a V).map seenK ∧ b.statev = a.statev := by
  have f := evaluations_frame h
  obtain ⟨h1, h2⟩ := C31_depends_only (c := c) f.sameInputs V V0 w
  exact ⟨h1.symm, h2.symm, f.statev rfl⟩

/-- **C31** The element results (stretch, stress, force) are history independent as well, if the tables
describe a list of bars. -/
theorem C31_element_results {c : Ctx F} {bars : List (Bar F)} (hB : c.Bars bars) {a b : Analysis F} (hfa : a.Fits c)
    (hfb : b.Fits c) (h : SameInputs a b) {V V0 : List F} {w w' : Bool} {a' b' : Analysis F} {g g' : List F}
    (ha : equilibrium c a V V0 .G w = .ok (a', g)) (hb : equilibrium c b V V0 .G w' = .ok (b', g')) :
    a'.stretch = b'.stretch ∧ a'.elementStress = b'.elementStress ∧ a'.elementForce = b'.elementForce ∧ g = g' := by
  obtain ⟨lpf, u, u0, U, U0, outs, ef, gg, p1, p2, p3, p4, p5, p6, p7, rfl⟩ := equilibrium_G hB hfa ha
  obtain ⟨lpf', u', u0', U', U0', outs', ef', gg', q1, q2, q3, q4, q5, q6, q7, rfl⟩ := equilibrium_G hB hfb hb
  have hs : splitV c b V V0 = splitV c a V V0 := by unfold splitV; rw [h.lpf]
  rw [hs, p1] at q1
  cases q1
  rw [← h.dof1, ← scatter_congr h.Ulen h.U, p2] at q2
  cases q2
  rw [← h.dof1, ← scatter_congr h.U0len h.U0, p3] at q3
  cases q3
  rw [← h.statev, p4] at q4
  cases q4
  rw [← h.ext, p5] at q5
  cases q5
  rw [p6] at q6
  cases q6
  rw [← h.dof1, p7] at q7
  cases q7
  refine ⟨?_, ?_, ?_, rfl⟩ <;> (unfold afterG; simp only; split <;> split <;> rfl)

/-! ## C56 -/

theorem pyGet_ok_of_lt {α : Type} {l : List α} {n : Nat} (h : n < l.length) : ∃ v, pyGet l (n : Int) = .ok v :=
  ⟨l[n], pyGet_ok_nat.2 (List.getElem?_eq_getElem h)⟩

theorem eval_total {b : Bar F} {n : Nat} (hb : b.Complete n) (U U0 : List F) (row : Option (List F))
    (hrow : 2 ≤ n → ∃ l, row = some l ∧ 2 ≤ l.length) : ∃ o, b.eval U U0 row = .ok o := by
  unfold Bar.eval trussCore
  have hA : ∃ A, pyGet b.geo 0 = .ok A := pyGet_ok_of_lt (n := 0) (List.length_pos_iff.2 hb.geo)
  obtain ⟨A, hA⟩ := hA
  have hE : ∃ E, pyGet b.mat 0 = .ok E := pyGet_ok_of_lt (n := 0) (List.length_pos_iff.2 hb.mat)
  obtain ⟨E, hE⟩ := hE
  have hu : ∀ e de, ∃ o, b.law.call e de b.mat row = .ok o := by
    intro e de
    cases hl : b.law with
    | el =>
      unfold Umat.call umatEl
      simp only [hE, py_bind_ok]
      exact ⟨_, rfl⟩
    | elplast =>
      obtain ⟨h3, h2⟩ := hb.plastic hl
      obtain ⟨l, rfl, hlen⟩ := hrow h2
      have hK : ∃ K, pyGet b.mat 1 = .ok K := pyGet_ok_of_lt (n := 1) (by omega)
      have hS : ∃ S, pyGet b.mat 2 = .ok S := pyGet_ok_of_lt (n := 2) (by omega)
      have h0 : ∃ S, pyGet l 0 = .ok S := pyGet_ok_of_lt (n := 0) (by omega)
      have h1 : ∃ S, pyGet l 1 = .ok S := pyGet_ok_of_lt (n := 1) (by omega)
      obtain ⟨K, hK⟩ := hK
      obtain ⟨S, hS⟩ := hS
      obtain ⟨s0, h0⟩ := h0
      obtain ⟨s1, h1⟩ := h1
      unfold Umat.call umatElplastIso
      simp only [hE, hK, hS, h0, h1, py_bind_ok]
      exact ⟨_, rfl⟩
  simp only
  obtain ⟨o, ho⟩ := hu (Flt.sqrt (dot3 (fun i => (b.XE i - b.XA i) + (row3 U b.iE i - row3 U b.iA i))
      (fun i => (b.XE i - b.XA i) + (row3 U b.iE i - row3 U b.iA i))) /
      Flt.sqrt (dot3 (fun i => b.XE i - b.XA i) (fun i => b.XE i - b.XA i)) - 1) _
  rw [ho]
  simp only [py_bind_ok, hA]
  exact ⟨_, rfl⟩

theorem evalAll_total {c : Ctx F} {U U0 : List F} {sv : Option (List (List F))} {bs : List (Bar F)} :
    ∀ k, (∀ b ∈ bs, b.Complete c.nstatev) →
    (2 ≤ c.nstatev → ∀ i, k ≤ i → i < k + bs.length → ∃ l, stateRow c sv i = some l ∧ 2 ≤ l.length) →
    ∃ outs, evalAll c U U0 sv bs k = .ok outs := by
  induction bs with
  | nil => intro k _ _; exact ⟨[], rfl⟩
  | cons b bs ih =>
    intro k hb hr
    obtain ⟨o, ho⟩ := eval_total (hb b (by simp)) U U0 (stateRow c sv k)
      (fun h2 => hr h2 k (Nat.le_refl _) (by simp))
    obtain ⟨os, hos⟩ := ih (k + 1) (fun b hb' => hb b (by simp [hb']))
      (fun h2 i hi hi' => hr h2 i (by omega) (by simp only [List.length_cons]; omega))
    exact ⟨o :: os, by unfold evalAll; rw [ho, py_bind_ok, hos]; rfl⟩

theorem addBars_length (ps : List (Bar F × TrussOut F)) : ∀ r : List (V3 F), (ps.foldl addBar r).length = r.length := by
  induction ps with
  | nil => intro r; rfl
  | cons p ps ih => intro r; rw [List.foldl_cons, ih, addBar_length]

theorem flat3_length (r : List (V3 F)) : (flat3 r).length = 3 * r.length := by
  unfold flat3
  induction r with
  | nil => rfl
  | cons v r ih => simp only [List.map_cons, List.flatten_cons, List.length_append, ih, List.length_cons,
      List.length_nil]; omega

/-- **C56** An evaluation of a complete structure never raises: with consistent tables, all properties
present, loads and vectors of the right size, `equilibrium` and `stiffness` return, at every
displacement. -/
theorem C56_evaluation_total {c : Ctx F} {bars : List (Bar F)} (hB : c.Bars bars) {a : Analysis F} (hf : a.Fits c)
    (hc : ∀ b ∈ bars, b.Complete c.nstatev)
    (hsv : ∀ sv, a.statev = some sv → ∀ row ∈ sv, row.length = c.nstatev)
    {ef : StepForces F} (he : a.extForces = some ef) (h1 : ef.forces.length = 3 * c.nnodes)
    (h2 : ef.forcesConst.length = 3 * c.nnodes) (hd : a.DOF1.length = c.ndof1) {V V0 : List F}
    (hV : V.length = c.ndof1 + 1) (hV0 : V0.length = c.ndof1 + 1) (w : Bool) :
    (∃ r, equilibrium c a V V0 .G w = .ok r) ∧ (a.lpf.isSome → ∃ r, stiffness c a V.dropLast = .ok r) := by
  have hrows : 2 ≤ c.nstatev → ∀ i, 0 ≤ i → i < 0 + bars.length →
      ∃ l, stateRow c a.statev i = some l ∧ 2 ≤ l.length := by
    intro h2 i _ hi
    obtain ⟨sv, hs, hl⟩ := hf.statev (by omega)
    have hi' : i < sv.length := by rw [hl, ← hB.length]; omega
    refine ⟨sv[i], ?_, ?_⟩
    · unfold stateRow
      rw [if_pos (by omega), hs]
      exact List.getElem?_eq_getElem hi'
    · rw [hsv sv hs _ (List.getElem_mem hi')]
      exact h2
  constructor
  · obtain ⟨lpf, hlpf⟩ : ∃ lpf, V.getLast? = some lpf := by
      cases hV' : V.getLast? with
      | none => rw [List.getLast?_eq_none_iff.1 hV'] at hV; simp at hV
      | some l => exact ⟨l, rfl⟩
    have hsplit : splitV c a V V0 = .ok (lpf, V.take c.ndof1, V0.take c.ndof1) := by
      unfold splitV
      rw [if_pos (by omega), hlpf]
    obtain ⟨U, hU⟩ := scatter_ok (u := a.U) (idx := a.DOF1) (v := V.take c.ndof1) (by rw [List.length_take, hd]; omega)
    obtain ⟨U0, hU0⟩ := scatter_ok (u := a.U0) (idx := a.DOF1) (v := V0.take c.ndof1) (by rw [List.length_take, hd]; omega)
    obtain ⟨outs, ho⟩ := evalAll_total (U := U) (U0 := U0) 0 hc hrows
    have hlen : (flat3 ((bars.zip outs).foldl addBar (zeroR c.nnodes))).length = 3 * c.nnodes := by
      rw [flat3_length, addBars_length]
      simp [zeroR]
    obtain ⟨g, hg⟩ : ∃ g, residual ((bars.zip outs).foldl addBar (zeroR c.nnodes)) ef.forcesConst ef.forces lpf = .ok g ∧
        g.length = 3 * c.nnodes := by
      unfold residual
      simp only [hlen, h1, h2, and_self, if_true]
      exact ⟨_, rfl, by simp [hlen, h1, h2]⟩
    have ht := npTake_eq_map (0 : F) (l := g) (idx := a.DOF1) (fun i hi => by rw [hg.2]; exact hf.dof i hi)
    exact ⟨_, equilibrium_G_ok hB hf hsplit hU hU0 ho he hg.1 ht⟩
  · intro hl
    obtain ⟨lpf, hlpf⟩ := Option.isSome_iff_exists.1 hl
    have hsplit : splitV c a V.dropLast V.dropLast = .ok (lpf, V.dropLast, V.dropLast) := by
      unfold splitV
      rw [if_neg (by rw [List.length_dropLast]; omega), hlpf]
    obtain ⟨U, hU⟩ := scatter_ok (u := a.U) (idx := a.DOF1) (v := V.dropLast) (by rw [List.length_dropLast, hd]; omega)
    obtain ⟨U0, hU0⟩ := scatter_ok (u := a.U0) (idx := a.DOF1) (v := V.dropLast) (by rw [List.length_dropLast, hd]; omega)
    obtain ⟨outs, ho⟩ := evalAll_total (U := U) (U0 := U0) 0 hc hrows
    unfold stiffness
    rw [equilibrium_K_ok hB hf hsplit hU hU0 ho]
    exact ⟨_, rfl⟩

/-- The hypotheses hold for the example structure at every displacement (here for any arithmetic). -/
theorem ex_total (q : ℚ → F) (x y z l x0 y0 z0 l0 : F) (w : Bool) :
    (∃ r, equilibrium (exCtx q) (exA q) [x, y, z, l] [x0, y0, z0, l0] .G w = .ok r) ∧
    ∃ r, stiffness (exCtx q) (exA q) [x, y, z] = .ok r := by
  have := C56_evaluation_total (exCtx_bars q) (exA_fits q) (exBars_complete q)
    (by
      intro sv hs row hrow
      have hs : (some (List.replicate 2 (List.replicate 2 (0 : F)))) = some sv := hs
      cases hs
      rw [List.eq_of_mem_replicate hrow]
      rfl) (ef := ⟨_, _⟩) rfl rfl rfl rfl (V := [x, y, z, l]) (V0 := [x0, y0, z0, l0]) rfl rfl w
  exact ⟨this.1, this.2 rfl⟩

/-- Concrete values: node 2 pushed down to (4,0,0); the second bar yields. -/
example : (equilibrium (exCtx id) (exA (id : ℚ → ℚ)) [0, 0, -3, 1/2] [0, 0, 0, 0] .G false).map (fun p => (p.2, p.1.elementForce)) =
    .ok ([1/15, 0, -1/2], [-1/5, -2/15]) := by decide +kernel

/-- C31 is not about trivial sequences: in the example structure a residual evaluation at any displacement
leaves those displacements behind. -/
example (q : ℚ → F) (x y z l : F) : ∃ b, Evaluations (exCtx q) (exA q) b ∧ b.U = [0, 0, 0, x, y, z, 0, 0, 0] := by
  obtain ⟨⟨a1, g⟩, h1⟩ := (ex_total q x y z l x y z l false).1
  refine ⟨a1, .equilibrium (.refl _) h1, ?_⟩
  obtain ⟨lpf, u, u0, U, U0, outs, ef, gg, p1, p2, p3, p4, p5, p6, p7, rfl⟩ := equilibrium_G (exCtx_bars q) (exA_fits q) h1
  have hu : u = [x, y, z] := (congrArg (fun t => t.2.1) (Except.ok.inj p1)).symm
  subst hu
  exact (Except.ok.inj p2).symm

/-! ## C54 -/

/-- **C54** (first element only) If an evaluation of a non-empty element table succeeds, the first
element has a known material type.  Missing from the full statement: the other elements, for which it
is false, see `C54_unknown_type_counterexample`. -/
theorem C54_unknown_type_partial {c : Ctx F} {a a' : Analysis F} {V V0 : List F} {st : Stage} {w : Bool} {g : List F}
    (h : equilibrium c a V V0 st w = .ok (a', g)) {e : Int} (he : c.elems.labels[0]? = some e) :
    getMaterialType c.elems e = .ok 1 ∨ getMaterialType c.elems e = .ok 2 := by
  unfold equilibrium at h
  obtain ⟨⟨lpf, u, u0⟩, h1, h⟩ := py_bind_eq_ok.1 h
  obtain ⟨a1, h2, h⟩ := py_bind_eq_ok.1 h
  obtain ⟨⟨a2, um⟩, h3, h⟩ := py_bind_eq_ok.1 h
  cases hl : c.elems.labels with
  | nil => rw [hl] at he; cases he
  | cons e' ls =>
    rw [hl] at he h3
    cases he
    rw [List.foldlM_cons] at h3
    obtain ⟨p, h4, -⟩ := py_bind_eq_ok.1 h3
    unfold elemStep at h4
    simp only at h4
    obtain ⟨nodes, h1, h4⟩ := py_bind_eq_ok.1 h4
    obtain ⟨mp, h2, h4⟩ := py_bind_eq_ok.1 h4
    obtain ⟨gp, h3, h4⟩ := py_bind_eq_ok.1 h4
    obtain ⟨Xn, h5, h4⟩ := py_bind_eq_ok.1 h4
    obtain ⟨Un, h5, h4⟩ := py_bind_eq_ok.1 h4
    obtain ⟨U0n, h6, h4⟩ := py_bind_eq_ok.1 h4
    obtain ⟨rn, h7, h4⟩ := py_bind_eq_ok.1 h4
    obtain ⟨mt, h8, h4⟩ := py_bind_eq_ok.1 h4
    split at h4
    · rename_i um hum
      unfold selectUmat at hum
      split at hum
      · rename_i h1; rw [h8, h1]; exact Or.inl rfl
      · split at hum
        · rename_i h1; rw [h8, h1]; exact Or.inr rfl
        · cases hum
    · cases h4

/-- The example structure with material type `t` for the second bar. -/
def exCtxType (t : Int) : Ctx ℚ :=
  { exCtx id with elems := { (exCtx (id : ℚ → ℚ)).elems with mtype := [1, t] } }

/-- An element of the unknown type 7 behind an elastic one is silently treated as elastic. -/
theorem C54_unknown_type_counterexample :
    (equilibrium (exCtxType 7) (exA id) [0, 0, -3, 1/2] [0, 0, 0, 0] .G false).map (fun p => (p.2, p.1.elementForce)) =
      .ok ([0, 0, -1/2], [-1/5, -1/5]) ∧
    (equilibrium (exCtxType 1) (exA id) [0, 0, -3, 1/2] [0, 0, 0, 0] .G false).map (fun p => (p.2, p.1.elementForce)) =
      .ok ([0, 0, -1/2], [-1/5, -1/5]) := by
  decide +kernel

end TrussPy
