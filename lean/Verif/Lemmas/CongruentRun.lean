import Verif.Lemmas.Congruent
/-!
# Lemmas: runs of congruent structures
-/

set_option linter.unusedSectionVars false

namespace TrussPy

variable {m : Axes} {π : Nat → Nat}

/-! ## Lists -/

theorem Alike.foldlM {α β γ : Type} {R : α → β → Prop} {f : α → γ → Py α} {f' : β → γ → Py β} :
    ∀ (l : List γ), (∀ x ∈ l, ∀ s s', R s s' → Alike R (f s x) (f' s' x)) → ∀ {s s'}, R s s' →
      Alike R (l.foldlM f s) (l.foldlM f' s')
  | [], _, _, _, hs => .ok hs
  | x :: l, h, s, s', hs => by
    rw [List.foldlM_cons, List.foldlM_cons]
    refine (h x (by simp) s s' hs).bind fun t t' ht => ?_
    exact Alike.foldlM l (fun y hy => h y (by simp [hy])) ht

theorem forall₂_snoc {α β : Type} {R : α → β → Prop} {b : α} : ∀ {l : List α} {l' : List β}, List.Forall₂ R (l ++ [b]) l' →
    ∃ l0 b', l' = l0 ++ [b'] ∧ List.Forall₂ R l l0 ∧ R b b'
  | [], _, .cons h .nil => ⟨[], _, rfl, .nil, h⟩
  | x :: l, _, .cons h hl => by
    obtain ⟨l0, b', rfl, h1, h2⟩ := forall₂_snoc (l := l) hl
    exact ⟨_ :: l0, b', rfl, .cons h h1, h2⟩

theorem forall₂_append {α β : Type} {R : α → β → Prop} {l1 l2 : List α} {l1' l2' : List β} (h1 : List.Forall₂ R l1 l1')
    (h2 : List.Forall₂ R l2 l2') : List.Forall₂ R (l1 ++ l2) (l1' ++ l2') := by
  induction h1 with
  | nil => exact h2
  | cons h _ ih => exact .cons h ih

theorem forall₂_dropLast {α β : Type} {R : α → β → Prop} {l : List α} {l' : List β} (h : List.Forall₂ R l l') :
    List.Forall₂ R l.dropLast l'.dropLast := by
  rcases List.eq_nil_or_concat l with rfl | ⟨l0, b, rfl⟩
  · cases h; exact .nil
  · rw [List.concat_eq_append] at h ⊢
    obtain ⟨l1, b', rfl, h1, -⟩ := forall₂_snoc h
    rw [List.dropLast_concat, List.dropLast_concat]
    exact h1

theorem foldl_recordOne_flip {R : Analysis ℝ → Analysis ℝ → Prop} {l l' : List (Analysis ℝ)} (h : List.Forall₂ R l l') :
    ∀ {X X' : List (Analysis ℝ)}, List.Forall₂ R X X' → List.Forall₂ R (l.foldl recordOne X) (l'.foldl recordOne X') := by
  induction h with
  | nil => exact fun hX => hX
  | cons h _ ih =>
    intro X X' hX
    refine ih ?_
    unfold recordOne
    exact forall₂_append (forall₂_append (forall₂_dropLast hX) (.cons h .nil)) (.cons h .nil)

/-! ## Loads -/

theorem full_shift (m : Axes) (n i : Nat) : m.full (3 * n + i) = m.full i := by
  unfold Axes.full comp
  congr 1
  apply Fin.ext
  show (3 * n + i) % 3 = i % 3
  omega

theorem flipV_append_full (m : Axes) {x y : List ℝ} (h : 3 ∣ x.length) :
    flipV m.full (x ++ y) = flipV m.full x ++ flipV m.full y := by
  obtain ⟨n, hn⟩ := h
  unfold flipV
  rw [List.mapIdx_append]
  congr 1
  apply List.ext_getElem?
  intro i
  rw [List.getElem?_mapIdx, List.getElem?_mapIdx, hn]
  have : i + 3 * n = 3 * n + i := by omega
  rw [this, full_shift]

theorem flatten_flip (m : Axes) : ∀ (rows : List (List ℝ)), (∀ r ∈ rows, 3 ∣ r.length) →
    (rows.map (flipV m.full)).flatten = flipV m.full rows.flatten
  | [], _ => rfl
  | r :: rows, h => by
    rw [List.map_cons, List.flatten_cons, List.flatten_cons, flatten_flip m rows fun r hr => h r (by simp [hr]),
      flipV_append_full m (h r (by simp))]

theorem slice_flip (m : Axes) (r : List ℝ) (k : Nat) :
    ((flipV m.full r).drop (3 * k)).take 3 = flipV m.full ((r.drop (3 * k)).take 3) := by
  apply List.ext_getElem?
  intro i
  rw [flipV_get, List.getElem?_take, List.getElem?_take]
  split
  · rw [List.getElem?_drop, List.getElem?_drop, flipV_get, full_shift]
  · rfl

theorem stepSlice_flip (m : Axes) {rows : List (List ℝ)} {w k : Nat} (hw : ∀ r ∈ rows, r.length = w) (hk : 3 * (k + 1) ≤ w) :
    (stepSlice (rows.map (flipV m.full)) k).flatten = flipV m.full (stepSlice rows k).flatten := by
  rw [← flatten_flip]
  · unfold stepSlice
    rw [List.map_map, List.map_map]
    congr 1
    refine List.map_congr_left fun r _ => ?_
    exact slice_flip m r k
  · intro r hr
    unfold stepSlice at hr
    obtain ⟨r0, h0, rfl⟩ := List.mem_map.1 hr
    rw [List.length_take, List.length_drop, hw r0 h0]
    exact ⟨1, by omega⟩

theorem addScaled_flip (σ : Nat → Int) (acc f : List ℝ) (l : ℝ) :
    Alike (fun x y => y = flipV σ x) (addScaled acc l f) (addScaled (flipV σ acc) l (flipV σ f)) := by
  unfold addScaled
  rw [flipV_length, flipV_length]
  split
  · refine .ok ?_
    apply List.ext_getElem?
    intro i
    rw [flipV_get]
    simp only [List.getElem?_zipWith, flipV_get]
    cases acc[i]? <;> cases f[i]? <;> simp
    ring
  · exact .error _

theorem constLoad_flip (m : Axes) {rows : List (List ℝ)} {w k : Nat} (hw : ∀ r ∈ rows, r.length = w) (hk : 3 * (k + 1) ≤ w)
    (le : List ℝ) :
    Alike (fun x y => y = flipV m.full x) (constLoad rows le k) (constLoad (rows.map (flipV m.full)) le k) := by
  unfold constLoad
  refine Alike.foldlM _ ?_ ?_
  · rintro s hs acc _ rfl
    refine (Alike.refl _).bind ?_
    rintro _ l rfl
    rw [stepSlice_flip m hw (by have := List.mem_range.1 hs; omega)]
    exact addScaled_flip _ _ _ _
  · rw [stepSlice_flip m hw hk, flipV_map]
    intro i v
    simp

/-! ## Steps -/

/-- The states of the two runs between two steps. -/
structure StepImage (m : Axes) (π : Nat → Nat) (c c' : Ctx ℝ) (dofs : List Nat) (k : Nat) (st st' : Analysis ℝ × Results ℝ) :
    Prop where
  cong : st.1.Congruent m π st'.1
  base : st.1.Base c
  base' : st'.1.Base c'
  dof : st.1.DOF1 = dofs
  ends : st'.2.stepLpfEnd = st.2.stepLpfEnd
  len : st.2.stepLpfEnd.length = k
  recs : List.Forall₂ (Analysis.Congruent m π) st.2.R st'.2.R

section
variable {t : V3 ℝ} {c c' : Ctx ℝ} {bars bars' : List (Bar ℝ)} {dofs : List Nat}

theorem setStep_flip {rows : List (List ℝ)} {w k : Nat} (hn : c'.nnodes = c.nnodes) (hr : rows.length = c.nnodes)
    (hw : ∀ r ∈ rows, r.length = w) (hk : 3 * (k + 1) ≤ w) {st st' : Analysis ℝ × Results ℝ}
    (h : StepImage m π c c' dofs k st st') :
    Alike (Images m π c c' dofs) (setStep rows st.2.stepLpfEnd k st.1)
      (setStep (rows.map (flipV m.full)) st'.2.stepLpfEnd k st'.1) := by
  obtain ⟨a1, e1, r1⟩ := setStep_total (le := st.2.stepLpfEnd) h.base hr hw hk (by rw [h.len])
  obtain ⟨a2, e2, r2⟩ := setStep_total (rows := rows.map (flipV m.full)) (w := w) (le := st'.2.stepLpfEnd) h.base'
    (by rw [List.length_map, hn]; exact hr)
    (by intro r hr; obtain ⟨r0, h0, rfl⟩ := List.mem_map.1 hr; rw [flipV_length]; exact hw r0 h0) hk (by rw [h.ends, h.len])
  rw [e1, e2]
  unfold setStep at e1 e2
  obtain ⟨fc, p1, e1⟩ := py_bind_eq_ok.1 e1
  obtain ⟨f0, p2, e1⟩ := py_bind_eq_ok.1 e1
  obtain ⟨fc', q1, e2⟩ := py_bind_eq_ok.1 e2
  obtain ⟨f0', q2, e2⟩ := py_bind_eq_ok.1 e2
  have hc := constLoad_flip m hw hk st.2.stepLpfEnd
  rw [h.ends] at q1
  rw [p1, q1] at hc
  cases hc with
  | ok hc =>
  subst hc
  rw [stepSlice_flip m hw hk, h.cong.dof1] at q2
  rw [npTake_flip m p2] at q2
  cases q2
  cases e1
  cases e2
  refine .ok ⟨?_, r1, r2, h.dof⟩
  have hc := h.cong
  exact ⟨rfl, hc.U, hc.U0, hc.r, hc.g, hc.K, hc.stretch, hc.force, hc.stress, hc.statev, hc.dof0, hc.dof1, hc.Ured, hc.Vred,
      hc.lpf, by simp only [Option.map_some]; rw [stepSlice_flip m hw hk], rfl, hc.Kred, hc.Kmod, hc.j, hc.dVmax⟩

theorem syncU0_flip {R R' : List (Analysis ℝ)} (h : List.Forall₂ (Analysis.Congruent m π) R R') :
    Alike (List.Forall₂ (Analysis.Congruent m π)) (syncU0 R) (syncU0 R') := by
  rcases List.eq_nil_or_concat R with rfl | ⟨l0, b, rfl⟩
  · cases h; exact .error _
  · rw [List.concat_eq_append] at h ⊢
    obtain ⟨l1, b', rfl, h1, hc⟩ := forall₂_snoc h
    unfold syncU0
    rw [List.getLast?_concat, List.getLast?_concat]
    simp only [List.dropLast_concat]
    refine .ok (forall₂_append h1 (.cons ?_ .nil))
    exact ⟨hc.step, hc.U, hc.U, hc.r, hc.g, hc.K, hc.stretch, hc.force, hc.stress, hc.statev, hc.dof0, hc.dof1, hc.Ured, hc.Vred,
      hc.lpf, hc.loads, hc.f0red, hc.Kred, hc.Kmod, hc.j, hc.dVmax⟩

theorem lastLpf_flip {R R' : List (Analysis ℝ)} (h : List.Forall₂ (Analysis.Congruent m π) R R') :
    Alike (fun x y => y = x) (lastLpf R) (lastLpf R') := by
  rcases List.eq_nil_or_concat R with rfl | ⟨l0, b, rfl⟩
  · cases h; exact .error _
  · rw [List.concat_eq_append] at h ⊢
    obtain ⟨l1, b', rfl, h1, hc⟩ := forall₂_snoc h
    unfold lastLpf
    rw [List.getLast?_concat, List.getLast?_concat]
    simp only [hc.lpf]
    exact Alike.refl _

theorem runStep_flip (hB : c.Bars bars) (hB' : c'.Bars bars') (hK : ∀ b ∈ bars, b.Complete c.nstatev)
    (hK' : ∀ b ∈ bars', b.Complete c'.nstatev) (hC : Congruent m t π c c' bars bars') (hdl : dofs.length = c.ndof1)
    {env : Env ℝ} (hE : env.KeepsSignsOf (m.free dofs)) (fuel : Nat) (s : Settings ℝ)
    {rows : List (List ℝ)} {w k : Nat} (hr : rows.length = c.nnodes)
    (hw : ∀ r ∈ rows, r.length = w) (hk : 3 * (k + 1) ≤ w) {st st' : Analysis ℝ × Results ℝ}
    (h : StepImage m π c c' dofs k st st') :
    Alike (StepImage m π c c' dofs (k + 1)) (runStep env fuel c s rows st k)
      (runStep env fuel c' { s with j0 := s.j0.map (flipJ (m.free dofs)) } (rows.map (flipV m.full)) st' k) := by
  have hset := setStep_flip hC.nnodes hr hw hk h
  obtain ⟨a, res⟩ := st
  obtain ⟨a', res'⟩ := st'
  unfold runStep
  simp only
  refine (Alike.refl _).bind ?_
  rintro _ incs rfl
  refine (Alike.refl _).bind ?_
  rintro _ xl rfl
  refine hset.bind ?_
  intro a1 a1' h1
  have hU : a1'.Ured = flipV (m.free dofs) a1.Ured := by rw [h1.cong.Ured, h1.dof]
  rw [hU]
  refine (pathfollow_flip (modelProblem_flip hB hB' hK hK' hC hdl) hE (stepCfg s incs xl) fuel h1 h1.ready.base.Ured).bind ?_
  intro o o' ho
  have hrec : List.Forall₂ (Analysis.Congruent m π) (o.recs.map (·.a)) (o'.recs.map (·.a)) := by
    rw [List.forall₂_map_left_iff, List.forall₂_map_right_iff]
    exact ho.recs.imp fun _ _ h => h.a.cong
  refine (syncU0_flip (foldl_recordOne_flip hrec h.recs)).bind ?_
  intro R R' hR
  refine (lastLpf_flip hR).bind ?_
  rintro _ l rfl
  have hends : res'.stepLpfEnd = res.stepLpfEnd := h.ends
  have hlen : res.stepLpfEnd.length = k := h.len
  obtain ⟨fc, fr, fr', fd⟩ := ho.final
  split
  · refine .ok ⟨?_, ?_, ?_, fd, by simp only [hends], by simp [hlen], hR⟩
    · refine ⟨fc.step, fc.U, fc.U0, fc.r, fc.g, fc.K, fc.stretch, fc.force, fc.stress, fc.statev, fc.dof0, fc.dof1, fc.Ured, ?_,
        rfl, fc.loads, fc.f0red, fc.Kred, fc.Kmod, fc.j, fc.dVmax⟩
      simp only [resetLpf]
      rw [fc.Vred, flipV_dropLast, flipV_append, mul_zero]
    · obtain ⟨⟨b1, b2, b3, b4, b5⟩, -, -⟩ := fr
      exact ⟨⟨b1.U, b1.U0, b1.r, b1.K, b1.Krow, b1.stretch, b1.force, b1.stress, b1.statev, b1.dof, b1.dofNodup⟩, b2, b3,
        rfl, b5⟩
    · obtain ⟨⟨b1, b2, b3, b4, b5⟩, -, -⟩ := fr'
      exact ⟨⟨b1.U, b1.U0, b1.r, b1.K, b1.Krow, b1.stretch, b1.force, b1.stress, b1.statev, b1.dof, b1.dofNodup⟩, b2, b3,
        rfl, b5⟩
  · exact .ok ⟨fc, fr.base, fr'.base, fd, by simp only [hends], by simp [hlen], forall₂_dropLast hR⟩

theorem steps_flip (hB : c.Bars bars) (hB' : c'.Bars bars') (hK : ∀ b ∈ bars, b.Complete c.nstatev)
    (hK' : ∀ b ∈ bars', b.Complete c'.nstatev) (hC : Congruent m t π c c' bars bars') (hdl : dofs.length = c.ndof1)
    {env : Env ℝ} (hE : env.KeepsSignsOf (m.free dofs)) (fuel : Nat) (s : Settings ℝ)
    {rows : List (List ℝ)} {w : Nat} (hr : rows.length = c.nnodes)
    (hw : ∀ r ∈ rows, r.length = w) {st st' : Analysis ℝ × Results ℝ}
    (h : StepImage m π c c' dofs 0 st st') : ∀ n, 3 * n ≤ w →
    Alike (StepImage m π c c' dofs n) ((List.range n).foldlM (runStep env fuel c s rows) st)
      ((List.range n).foldlM
        (runStep env fuel c' { s with j0 := s.j0.map (flipJ (m.free dofs)) } (rows.map (flipV m.full))) st')
  | 0, _ => .ok h
  | n + 1, hn => by
    rw [List.range_succ, List.foldlM_append, List.foldlM_append]
    refine (steps_flip hB hB' hK hK' hC hdl hE fuel s hr hw h n (by omega)).bind ?_
    intro st1 st1' h1
    simp only [List.foldlM_cons, List.foldlM_nil]
    refine (runStep_flip hB hB' hK hK' hC hdl hE fuel s hr hw (by omega) h1).bind ?_
    intro st2 st2' h2
    exact .ok h2

end

end TrussPy
