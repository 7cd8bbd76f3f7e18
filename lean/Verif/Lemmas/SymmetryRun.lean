import Verif.Lemmas.SymmetryStep
import Verif.Lemmas.Keep
import Verif.Lemmas.StagesRun
import Verif.Lemmas.CongruentBuild
import Verif.Lemmas.Influence
import Verif.Props.Split
/-!
# Lemmas: runs keep symmetric states
-/

set_option linter.unusedSectionVars false

namespace TrussPy

variable {N : Nat} {Q : M3 ℝ} {τ : Equiv.Perm (Fin N)} {π : Nat → Nat} {c : Ctx ℝ} {bars : List (Bar ℝ)} {dofs : List Nat}

/-- The loads of the first `n` steps are symmetric. -/
def SymLoads (Q : M3 ℝ) (τ : Equiv.Perm (Fin N)) (n : Nat) (rows : List (List ℝ)) : Prop :=
  ∀ s, s < n → SymRows Q τ (rows3 N (stepSlice rows s).flatten)

theorem symmetric_setStep {m n k w : Nat} {rows : List (List ℝ)} {le : List ℝ} {a a1 : Analysis ℝ} (hr : rows.length = c.nnodes)
    (hw : ∀ r ∈ rows, r.length = w) (hk : 3 * n ≤ w) (hkn : k < n) (hL : SymLoads Q τ n rows) (hle : k ≤ le.length)
    (ha : SymState Q τ π c m dofs a) (hb : a.Base c) (h : setStep rows le k a = .ok a1) : SymReady Q τ π c m dofs a1 := by
  obtain ⟨b1, h1, h2⟩ := setStep_total (le := le) hb hr hw (k := k) (by omega) hle
  rw [h] at h1
  cases h1
  unfold setStep at h
  obtain ⟨fc, h3, h⟩ := py_bind_eq_ok.1 h
  simp only at h
  obtain ⟨f0, h4, h⟩ := py_bind_eq_ok.1 h
  cases h
  refine ⟨⟨ha.dof, ha.off, ha.U, ha.r, ha.g, ha.stretch, ha.force, ha.stress, ha.state, ha.red, ha.stateless⟩, h2,
    _, rfl, hL k hkn, ?_, ?_⟩
  · intro i
    have e : ∀ i : Fin N, rows3 N fc i = ∑ s ∈ Finset.range k, le.getD s 0 • rows3 N (stepSlice rows s).flatten i := by
      intro i
      funext d
      show fc.getD (3 * (i : Nat) + (d : Nat)) 0 = _
      rw [constLoad_getD h3, Finset.sum_apply]
      rfl
    show rows3 N fc (τ i) = mulVec3 Q (rows3 N fc i)
    rw [e, e]
    have hs : ∀ (t : Finset Nat) (v : Nat → V3 ℝ), mulVec3 Q (∑ s ∈ t, v s) = ∑ s ∈ t, mulVec3 Q (v s) := by
      intro t v
      induction t using Finset.induction_on with
      | empty =>
        funext d
        simp [mulVec3]
      | insert x t hx ih => rw [Finset.sum_insert hx, Finset.sum_insert hx, mulVec3_add, ih]
    rw [hs]
    refine Finset.sum_congr rfl fun s hs => ?_
    rw [mulVec3_smul, hL s (by have := Finset.mem_range.1 hs; omega) i]
  · rw [npTake_eq_map (0 : ℝ) (fun i hi => by
      rw [stepSlice_length hw (by omega), hr]
      exact hb.fits.dof i hi)] at h4
    cases h4
    show a.DOF1.map _ = _
    rw [ha.dof]

theorem mem_foldl_recordOne {x : Analysis ℝ} : ∀ {l R : List (Analysis ℝ)}, x ∈ l.foldl recordOne R → x ∈ R ∨ x ∈ l
  | [], _, h => .inl h
  | y :: l, R, h => by
    rw [List.foldl_cons] at h
    rcases mem_foldl_recordOne h with h | h
    · unfold recordOne at h
      simp only [List.mem_append, List.mem_singleton] at h
      rcases h with (h | h) | h
      · exact .inl (List.mem_of_mem_dropLast h)
      · exact .inr (by simp [h])
      · exact .inr (by simp [h])
    · exact .inr (List.mem_cons_of_mem _ h)

theorem mem_syncU0 {x : Analysis ℝ} {R R' : List (Analysis ℝ)} (h : syncU0 R = .ok R') (hx : x ∈ R') :
    ∃ y ∈ R, ∃ V, x = { y with U0 := V } := by
  unfold syncU0 at h
  split at h
  · cases h
  · next a ha =>
    cases h
    rcases List.mem_append.1 hx with hx | hx
    · exact ⟨x, List.mem_of_mem_dropLast hx, x.U0, rfl⟩
    · rw [List.mem_singleton.1 hx]
      exact ⟨a, List.mem_of_getLast? ha, a.U, rfl⟩

theorem symmetric_steps (hQ : Orthogonal Q) (hB : c.Bars bars) (hN : c.nnodes = N) (hS : SymBars Q τ π bars)
    (hC : ∀ b ∈ bars, b.Complete c.nstatev) (hnd : dofs.Nodup) (hlt : ∀ i ∈ dofs, i < 3 * N) (hdl : dofs.length = c.ndof1)
    (hsup : KeepsSupports Q τ dofs) {env : Env ℝ} (henv : UniqueSolver env) {n w : Nat} {rows : List (List ℝ)}
    (hr : rows.length = c.nnodes) (hw : ∀ r ∈ rows, r.length = w) (hwn : 3 * n ≤ w) (hL : SymLoads Q τ n rows)
    {fuel : Nat} {s : Settings ℝ} {a0 : Analysis ℝ} {r0 : List (Analysis ℝ)} (ha0 : SymState Q τ π c bars.length dofs a0)
    (hb0 : a0.Base c) (hr0 : ∀ r ∈ r0, SymState Q τ π c bars.length dofs r) {outs : List (PFOut ℝ)} {a : Analysis ℝ}
    {res : Results ℝ} (h : Steps env fuel c s rows a0 ⟨r0, []⟩ outs a res) (hn : outs.length ≤ n) :
    SymState Q τ π c bars.length dofs a ∧ a.Base c ∧ res.stepLpfEnd.length = outs.length ∧
      ∀ r ∈ res.R, SymState Q τ π c bars.length dofs r := by
  generalize hq : (⟨r0, []⟩ : Results ℝ) = q at h
  induction h with
  | nil => subst hq; exact ⟨ha0, hb0, rfl, hr0⟩
  | @snoc outs a res incs xl a1 o R l hs h1 h2 h3 h4 h5 h6 ih =>
    rw [List.length_append, List.length_singleton] at hn
    obtain ⟨i1, i2, i3, i4⟩ := ih (by omega)
    have hrd := symmetric_setStep hr hw hwn (by omega) hL (by omega) i1 i2 h3
    obtain ⟨k1, k2⟩ := pathfollow_kept (modelProblem_symmetric hQ hB hN hS hC hnd hlt hdl hsup henv) hrd hrd.state.red h4
    refine ⟨?_, ?_, by simp [i3], ?_⟩
    · have t := k1.state
      exact ⟨t.dof, t.off, t.U, t.r, t.g, t.stretch, t.force, t.stress, t.state, t.red, t.stateless⟩
    · have b := k1.ready.base
      have f := b.fits
      exact ⟨⟨f.U, f.U0, f.r, f.K, f.Krow, f.stretch, f.force, f.stress, f.statev, f.dof, f.dofNodup⟩, b.statev, b.dofs, rfl,
        b.Ured⟩
    · intro x hx
      obtain ⟨y, hy, V, rfl⟩ := mem_syncU0 h5 hx
      have t : SymState Q τ π c bars.length dofs y := by
        rcases mem_foldl_recordOne hy with hy | hy
        · exact i4 y hy
        · obtain ⟨z, hz, rfl⟩ := List.mem_map.1 hy
          exact (k2 z hz).1.state
      exact ⟨t.dof, t.off, t.U, t.r, t.g, t.stretch, t.force, t.stress, t.state, t.red, t.stateless⟩

/-- The undeformed state. -/
theorem fresh_symmetric {d0 : List Nat} (hn : dofs.length = c.ndof1) (hp : Rearranges π bars.length) (l : Option ℝ) (V : List ℝ)
    (ef : Option (StepForces ℝ)) :
    SymState Q τ π c bars.length dofs
      { (Analysis.fresh N bars.length d0 dofs c.nstatev : Analysis ℝ) with Vred := V, lpf := l, extForces := ef } := by
  have hπ : ∀ k, k < bars.length → π k < bars.length := by
    intro k hk
    exact List.mem_range.1 (hp.mem_iff.1 (List.mem_map.2 ⟨k, List.mem_range.2 hk, rfl⟩))
  have zero : ∀ {w : Fin N → V3 ℝ}, w = 0 → SymRows Q τ w := by
    rintro w rfl i
    funext d
    simp [mulVec3]
  have hrow : rows3 N (List.replicate (3 * N) (0 : ℝ)) = 0 := by
    funext i d
    exact zero_table _
  have hrep : ∀ {α : Type} (x : α) k, k < bars.length → (List.replicate bars.length x)[π k]? = (List.replicate bars.length x)[k]? := by
    intro α x k hk
    rw [List.getElem?_replicate_of_lt (hπ k hk), List.getElem?_replicate_of_lt hk]
  unfold Analysis.fresh
  refine ⟨rfl, ?_, zero hrow, zero ?_, zero hrow, hrep _, hrep _, hrep _, ?_, ⟨by simp [hn], zero ?_⟩, ?_⟩
  · intro i d _
    exact zero_table _
  · funext i
    show (List.replicate N (fun _ => (0 : ℝ)) : List (V3 ℝ)).getD i 0 = 0
    rw [List.getD_eq_getElem?_getD, List.getElem?_replicate_of_lt i.isLt]
    rfl
  · intro k hk
    unfold stateRow
    by_cases h : 0 < c.nstatev
    · simp only [if_pos h, Option.bind_some]
      exact hrep _ k hk
    · simp only [if_neg h]
  · funext i d
    unfold expand
    refine Finset.sum_eq_zero fun m _ => ?_
    have : (List.replicate dofs.length (0 : ℝ) ++ [0]).getD m 0 = 0 := by
      rw [← List.replicate_succ']
      exact zero_table _
    show (if _ then (List.replicate dofs.length (0 : ℝ) ++ [0]).getD m 0 else 0) = 0
    rw [this]
    simp
  · intro h0
    show (if 0 < c.nstatev then _ else _) = _
    rw [if_neg (by omega)]

/-! ## Symmetry of the input -/

section
variable {t : V3 ℝ} {ν : Int → Int} {u : UserInput ℝ} {es : List (Elem ℝ)} {nsteps : Nat} {labels : List Int}

/-- Positions of the images of the nodes. -/
theorem Symmetry.positions (h : Symmetry Q t ν π u es nsteps) (hp : labels.Perm (u.nodes.map (·.label)))
    (hs : labels.Pairwise (· < ·)) :
    ∃ τ : Equiv.Perm (Fin labels.length), ∀ (i : Fin labels.length) (l : Int), labels[(i : Nat)]? = some l →
      labels[(τ i : Nat)]? = some (ν l) := by
  have hex : ∀ i : Fin labels.length, ∃ j : Fin labels.length, labels[(j : Nat)] = ν labels[(i : Nat)] := by
    intro i
    obtain ⟨n, hn, hl⟩ := List.mem_map.1 (hp.mem_iff.1 (List.getElem_mem i.isLt))
    obtain ⟨n', hn', hl', -⟩ := h.nodes n hn
    have : ν labels[(i : Nat)] ∈ labels := by
      rw [hp.mem_iff, ← hl, ← hl']
      exact List.mem_map.2 ⟨n', hn', rfl⟩
    obtain ⟨j, hj, hjl⟩ := List.getElem_of_mem this
    exact ⟨⟨j, hj⟩, hjl⟩
  choose f hf using hex
  have hinj : Function.Injective f := by
    intro i k hik
    have h1 : ν labels[(i : Nat)] = ν labels[(k : Nat)] := by rw [← hf, ← hf, hik]
    obtain ⟨n, hn, hl⟩ := List.mem_map.1 (hp.mem_iff.1 (List.getElem_mem i.isLt))
    obtain ⟨n', hn', hl'⟩ := List.mem_map.1 (hp.mem_iff.1 (List.getElem_mem k.isLt))
    rw [← hl, ← hl'] at h1
    have h2 := h.once n hn n' hn' h1
    rw [hl, hl'] at h2
    refine Fin.ext (label_inj hs (List.getElem?_eq_getElem i.isLt) ?_)
    rw [h2]
    exact List.getElem?_eq_getElem k.isLt
  refine ⟨Equiv.ofBijective f (Finite.injective_iff_bijective.1 hinj), ?_⟩
  intro i l hl
  rw [List.getElem?_eq_getElem i.isLt] at hl
  cases hl
  show labels[(f i : Nat)]? = _
  rw [List.getElem?_eq_getElem (f i).isLt, hf]

theorem Symmetry.supported (h : Symmetry Q t ν π u es nsteps) (hp : labels.Perm (u.nodes.map (·.label)))
    (hsup : ∀ b ∈ u.bounds, b.values.length = 3) {τ : Equiv.Perm (Fin labels.length)}
    (hτ : ∀ (i : Fin labels.length) (l : Int), labels[(i : Nat)]? = some l → labels[(τ i : Nat)]? = some (ν l)) :
    KeepsSupports Q τ (whereEq (labels.map (supportOf u.bounds)).flatten 1) := by
  have hfree : ∀ (i : Fin labels.length) (d : Fin 3) (l : Int), labels[(i : Nat)]? = some l →
      (3 * (i : Nat) + (d : Nat) ∈ whereEq (labels.map (supportOf u.bounds)).flatten 1 ↔ FreeAt u l d) := by
    intro i d l hl
    rw [mem_whereEq, flatten_get (w := 3) (by
      intro r hr
      obtain ⟨l, -, rfl⟩ := List.mem_map.1 hr
      exact supportOf_length hsup l) _ _ d.isLt, List.getElem?_map, hl]
    simp only [Option.map_some, Option.bind_some]
    constructor
    · intro h1
      obtain ⟨n, hn, rfl⟩ := List.mem_map.1 (hp.mem_iff.1 (List.mem_of_getElem? hl))
      exact ⟨⟨n, hn, rfl⟩, h1⟩
    · exact fun h1 => h1.2
  intro w hw i d hi
  obtain ⟨j, rfl⟩ := τ.surjective i
  rw [turn_image]
  have hl := List.getElem?_eq_getElem j.isLt
  rw [hfree _ d _ (hτ j _ hl)] at hi
  obtain ⟨n, hn, hnl⟩ := List.mem_map.1 (hp.mem_iff.1 (List.getElem_mem j.isLt))
  have hz : ∀ e : Fin 3, Q d e * w j e = 0 := by
    intro e
    by_cases hq : Q d e = 0
    · rw [hq, zero_mul]
    · rw [hw j e, mul_zero]
      rw [hfree j e _ hl, ← hnl]
      intro hf
      exact hi (by rw [← hnl]; exact h.supports n hn e d hf hq)
  unfold mulVec3
  rw [hz, hz, hz]
  norm_num

theorem Symmetry.loadRows (h : Symmetry Q t ν π u es nsteps) (hp : labels.Perm (u.nodes.map (·.label)))
    {w : Nat} (hw : ∀ r ∈ labels.map (loadOf u.forces), r.length = w) (hwn : 3 * nsteps ≤ w)
    {τ : Equiv.Perm (Fin labels.length)}
    (hτ : ∀ (i : Fin labels.length) (l : Int), labels[(i : Nat)]? = some l → labels[(τ i : Nat)]? = some (ν l)) :
    SymLoads Q τ nsteps (labels.map (loadOf u.forces)) := by
  intro s hs i
  have hrow : ∀ (i : Fin labels.length) (l : Int), labels[(i : Nat)]? = some l →
      rows3 labels.length (stepSlice (labels.map (loadOf u.forces)) s).flatten i = stepLoad u s l := by
    intro i l hl
    funext d
    show ((stepSlice (labels.map (loadOf u.forces)) s).flatten).getD (3 * (i : Nat) + (d : Nat)) 0 = _
    rw [List.getD_eq_getElem?_getD, stepSlice_get hw (by omega) (by rw [List.getElem?_map, hl]; rfl) d.isLt,
      ← List.getD_eq_getElem?_getD]
    rfl
  have hl := List.getElem?_eq_getElem i.isLt
  rw [hrow i _ hl, hrow (τ i) _ (hτ i _ hl)]
  obtain ⟨n, hn, hnl⟩ := List.mem_map.1 (hp.mem_iff.1 (List.getElem_mem i.isLt))
  rw [← hnl]
  exact h.loads n hn s hs

theorem Symmetry.symBars (h : Symmetry Q t ν π u es nsteps) (hnd : (u.nodes.map (·.label)).Nodup)
    (hs : labels.Pairwise (· < ·)) (hm : Meant u es labels bars) {τ : Equiv.Perm (Fin labels.length)}
    (hτ : ∀ (i : Fin labels.length) (l : Int), labels[(i : Nat)]? = some l → labels[(τ i : Nat)]? = some (ν l)) :
    SymBars Q τ π bars := by
  refine ⟨by rw [← hm.length_eq]; exact h.order, ?_⟩
  intro k hk
  obtain ⟨e, h1, nA, hA, nE, hE, hb⟩ := hm.elem (List.getElem?_eq_getElem hk)
  obtain ⟨e', A, E, g1, g2, g3, g4, g5, g6⟩ := h.elems k e h1
  obtain ⟨b', h2, nA', hA', nE', hE', hb'⟩ := hm.bar g1
  refine ⟨_, b', List.getElem?_eq_getElem hk, h2, ?_⟩
  generalize bars[k] = b at hb
  rw [hb.conn] at g5
  simp only [List.cons.injEq, and_true] at g5
  obtain ⟨rfl, rfl⟩ := g5
  rw [hb'.conn] at g6
  simp only [List.cons.injEq, and_true] at g6
  have iA := (List.getElem?_eq_some_iff.1 hb.posA).1
  have iE := (List.getElem?_eq_some_iff.1 hb.posE).1
  have tA := hτ ⟨b.iA, iA⟩ _ hb.posA
  have tE := hτ ⟨b.iE, iE⟩ _ hb.posE
  obtain ⟨mA, hmA, lA, cA⟩ := h.nodes nA hA
  obtain ⟨mE, hmE, lE, cE⟩ := h.nodes nE hE
  have vec : ∀ {X : V3 ℝ} {L : List ℝ}, L = [X 0, X 1, X 2] → ∀ d : Fin 3, L.getD d 0 = X d := by
    rintro X L rfl d
    match d with
    | 0 => rfl
    | 1 => rfl
    | 2 => rfl
  have sA : (fun d : Fin 3 => nA.coord.getD d 0) = b.XA := by
    funext d
    exact vec hb.coordA d
  have sE : (fun d : Fin 3 => nE.coord.getD d 0) = b.XE := by
    funext d
    exact vec hb.coordE d
  rw [sA] at cA
  rw [sE] at cE
  refine ⟨⟨⟨b.iA, iA⟩, ⟨b.iE, iE⟩, rfl, rfl, ?_⟩, by rw [hb.mat, hb'.mat, g3], by rw [hb.geo, hb'.geo, g4], ?_⟩
  · rcases g6 with ⟨j1, j2⟩ | ⟨j1, j2⟩
    · have e1 := node_eq hnd hA' hmA (j1.trans lA.symm)
      have e2 := node_eq hnd hE' hmE (j2.trans lE.symm)
      subst e1 e2
      refine .inl ⟨label_inj hs hb'.posA (by rw [tA, j1]), label_inj hs hb'.posE (by rw [tE, j2]), ?_⟩
      funext d
      have x1 := cA d
      have x2 := cE d
      rw [vec hb'.coordA] at x1
      rw [vec hb'.coordE] at x2
      simp only [Bar.ref, mulVec3] at x1 x2 ⊢
      rw [x1, x2]
      ring
    · have e1 := node_eq hnd hA' hmE (j1.trans lE.symm)
      have e2 := node_eq hnd hE' hmA (j2.trans lA.symm)
      subst e1 e2
      refine .inr ⟨label_inj hs hb'.posA (by rw [tE, j1]), label_inj hs hb'.posE (by rw [tA, j2]), ?_⟩
      funext d
      have x1 := cA d
      have x2 := cE d
      rw [vec hb'.coordE] at x1
      rw [vec hb'.coordA] at x2
      simp only [Bar.ref, mulVec3, Pi.neg_apply] at x1 x2 ⊢
      rw [x1, x2]
      ring
  · rcases hb.law with ⟨l1, l2⟩ | ⟨l1, l2⟩ <;> rcases hb'.law with ⟨r1, r2⟩ | ⟨r1, r2⟩
    · rw [l2, r2]
    · omega
    · omega
    · rw [l2, r2]

theorem SymState.symmetric {τ : Equiv.Perm (Fin labels.length)} {m : Nat} {a : Analysis ℝ}
    (h : SymState Q τ π c m dofs a) (hs : labels.Pairwise (· < ·))
    (hτ : ∀ (i : Fin labels.length) (l : Int), labels[(i : Nat)]? = some l → labels[(τ i : Nat)]? = some (ν l)) :
    a.Symmetric Q ν π labels m := by
  refine ⟨?_, h.stretch, h.force, h.stress, ?_⟩
  · intro i j l hi hj
    have hil := (List.getElem?_eq_some_iff.1 hi).1
    have : j = (τ ⟨i, hil⟩ : Nat) := label_inj hs hj (hτ ⟨i, hil⟩ l hi)
    subst this
    exact ⟨h.U ⟨i, hil⟩, h.r ⟨i, hil⟩, h.g ⟨i, hil⟩⟩
  · intro sv hsv k hk
    have := h.state k hk
    by_cases h0 : 0 < c.nstatev
    · unfold stateRow at this
      rw [if_pos h0, if_pos h0, hsv] at this
      exact this
    · have := h.stateless (by omega)
      rw [hsv] at this
      cases this

end

end TrussPy
