import Verif.Lemmas.SmallStep
/-!
# Bars that respond elastically
-/

namespace TrussPy

open Spec Filter

/-- The rows `row` and `row'` of state variables mean the same for the bar: equal yield stress and equal plastic strain. -/
def Bar.Alike (b : Bar ℝ) (row row' : Option (List ℝ)) : Prop :=
  b.law = .elplast → ∃ (m : Plastic) (rest more more' : List ℝ) (y y' p : ℝ), m.Valid ∧ b.mat = m.E :: m.K :: m.Sy :: rest ∧
    row = some (y :: p :: more) ∧ row' = some (y' :: p :: more') ∧ 0 ≤ y ∧ 0 ≤ y' ∧
    (if y = 0 then m.Sy else y) = if y' = 0 then m.Sy else y'

theorem Bar.Calm.smooth {b : Bar ℝ} {U : List ℝ} {row : Option (List ℝ)} (h : b.Calm U row) : b.Smooth U row := by
  refine ⟨h.length, fun hp => ?_⟩
  obtain ⟨m, rest, more, y, p, h1, h2, h3, h4, h5⟩ := h.plastic hp
  exact ⟨m, rest, more, y, p, h1, h2, h3, h4, h5.ne⟩

theorem Bar.Calm.alike {b : Bar ℝ} {U : List ℝ} {row : Option (List ℝ)} (h : b.Calm U row) : b.Alike row row := by
  intro hp
  obtain ⟨m, rest, more, y, p, h1, h2, h3, h4, h5⟩ := h.plastic hp
  exact ⟨m, rest, more, more, y, y, p, h1, h2, h3, h3, h4, h4, rfl⟩

theorem Bar.Alike.symm {b : Bar ℝ} {row row' : Option (List ℝ)} (h : b.Alike row row') : b.Alike row' row := by
  intro hp
  obtain ⟨m, rest, more, more', y, y', p, h1, h2, h3, h4, h5, h6, h7⟩ := h hp
  exact ⟨m, rest, more', more, y', y, p, h1, h2, h4, h3, h6, h5, h7.symm⟩

theorem Bar.Alike.trans {b : Bar ℝ} {r1 r2 r3 : Option (List ℝ)} (h : b.Alike r1 r2) (h' : b.Alike r2 r3) : b.Alike r1 r3 := by
  intro hp
  obtain ⟨m, rest, more, more', y, y', p, h1, h2, h3, h4, h5, h6, h7⟩ := h hp
  obtain ⟨m', rest', q, q', z, z', p', g1, g2, g3, g4, g5, g6, g7⟩ := h' hp
  rw [h4] at g3
  simp only [Option.some.injEq, List.cons.injEq] at g3
  obtain ⟨rfl, rfl, -⟩ := g3
  rw [h2] at g2
  simp only [List.cons.injEq] at g2
  exact ⟨m, rest, more, q', y, z', p, h1, h2, h3, g4, h5, g6, by rw [h7, g2.2.2.1]; exact g7⟩

theorem Bar.Alike.calm {b : Bar ℝ} {U : List ℝ} {row row' : Option (List ℝ)} (h : b.Alike row row') (hc : b.Calm U row) :
    b.Calm U row' := by
  refine ⟨hc.length, fun hp => ?_⟩
  obtain ⟨m, rest, more, more', y, y', p, h1, h2, h3, h4, h5, h6, h7⟩ := h hp
  obtain ⟨m', rest', q, z, p', g1, g2, g3, g4, g5⟩ := hc.plastic hp
  rw [h3] at g3
  simp only [Option.some.injEq, List.cons.injEq] at g3
  obtain ⟨rfl, rfl, -⟩ := g3
  rw [h2] at g2
  simp only [List.cons.injEq] at g2
  refine ⟨m, rest, more', y', p, h1, h2, h4, h6, ?_⟩
  rw [← h7, g2.1, g2.2.2.1]
  exact g5

/-- Rows that mean the same give the same stresses. -/
theorem Bar.Alike.stress {b : Bar ℝ} {row row' : Option (List ℝ)} (h : b.Alike row row') : b.stressAt row = b.stressAt row' := by
  funext e
  unfold Bar.stressAt TrussPy.stressAt
  cases hl : b.law with
  | el => cases b.mat <;> rfl
  | elplast =>
    obtain ⟨m, rest, more, more', y, y', p, h1, h2, h3, h4, h5, h6, h7⟩ := h hl
    have hY : 0 ≤ if y = 0 then m.Sy else y := by
      split
      · exact h1.Sy.le
      · exact h5
    have e1 := umat_real h1 rest e 0 y p rfl hY more
    have e2 := umat_real h1 rest e 0 y' p h7 hY more'
    rw [← h2, ← h3] at e1
    rw [← h2, ← h4] at e2
    simp only [Umat.call, e1, e2]

/-- An elastic response keeps the meaning of the state variables. -/
theorem Bar.Alike.update {b : Bar ℝ} {U U0 old new : List ℝ} {row : Option (List ℝ)} (h : b.Alike row (some old))
    (hc : b.Calm U row) (hu : StateUpdate b U U0 old new) : b.Alike row (some new) := by
  refine h.trans fun hp => ?_
  have hc' := h.calm hc
  obtain ⟨m, rest, more, y, p, g1, g2, g3, g4, g5⟩ := hc'.plastic hp
  obtain ⟨out, k1, k2⟩ := hu
  have hY : 0 ≤ if y = 0 then m.Sy else y := by
    split
    · exact g1.Sy.le
    · exact g4
  have hs : b.strainAt U = b.stretch U - 1 := by
    unfold Bar.strainAt Bar.stretchAt Bar.stretch len Bar.axis Bar.ref dot3
    show √_ / √_ - 1 = √_ / √_ - 1
    congr 3 <;> ring
  rw [hp, g2, g3, hs] at k1
  have k3 := k1.symm.trans (umat_real g1 rest (b.stretch U - 1) (b.stretchAt U - b.stretchAt U0) y p rfl hY more)
  have k4 : out.statev = _ := congrArg UmatOut.statev (Except.ok.inj k3)
  rw [k2] at k4
  have hfl := flow_elastic g1 g5.le
  have hP : newP m (if y = 0 then m.Sy else y) p (b.stretch U - 1) = p := by
    unfold newP
    rw [hfl, zero_mul, add_zero]
  have hYn : newY m (if y = 0 then m.Sy else y) p (b.stretch U - 1) = if y = 0 then m.Sy else y := by
    unfold newY
    rw [hfl, mul_zero, add_zero]
  simp only [hP, hYn] at k4
  refine ⟨m, rest, more, more, y, _, p, g1, g2, g3, k4, g4, hY, ?_⟩
  by_cases hy : y = 0
  · simp only [hy, if_true]
    rw [if_neg g1.Sy.ne']
  · simp only [hy, if_false]

section
variable {E : Type} [NormedAddCommGroup E] [NormedSpace ℝ E]

theorem calm_eventually {b : Bar ℝ} {U : E → List ℝ} {x0 : E} (hD : ∀ p, ContDiffAt ℝ 2 (fun x => (U x).getD p 0) x0)
    {row : Option (List ℝ)} (h : b.Calm (U x0) row) : ∀ᶠ x in nhds x0, b.Calm (U x) row := by
  have hlen := (len_contDiff (fun d => axis_contDiff (b := b) hD d) h.length).continuousAt
  have e1 : ∀ᶠ x in nhds x0, len (b.axis (U x)) ≠ 0 := hlen.eventually_ne h.length
  by_cases hp : b.law = .elplast
  · obtain ⟨m, rest, more, y, p, hv, hm, hr, hy, hoff⟩ := h.plastic hp
    have hst : ContinuousAt (fun x => |m.E * (b.stretch (U x) - 1 - p)|) x0 := by
      unfold Bar.stretch
      have := hlen.div_const (len b.ref)
      exact ((continuousAt_const.mul ((this.sub continuousAt_const).sub continuousAt_const))).abs
    filter_upwards [e1, hst.eventually_lt continuousAt_const hoff] with x h1 h2
    exact ⟨h1, fun _ => ⟨m, rest, more, y, p, hv, hm, hr, hy, h2⟩⟩
  · filter_upwards [e1] with x h1
    exact ⟨h1, fun h => absurd h hp⟩

end

section
variable {c : Ctx ℝ} {bars : List (Bar ℝ)} {a : Analysis ℝ} {ef : StepForces ℝ}

theorem CalmAt.smooth {n : Nat} {x : Fin (n + 1) → ℝ} (h : CalmAt c bars a x) : SmoothAt c bars a x :=
  fun U hU k b hb => (h U hU k b hb).smooth

theorem CalmAt.alike (he : Evaluable c bars a ef) {n : Nat} (hn : c.ndof1 = n) {x : Fin (n + 1) → ℝ} (h : CalmAt c bars a x)
    {k : Nat} {b : Bar ℝ} (hb : bars[k]? = some b) : b.Alike (stateRow c a.statev k) (stateRow c a.statev k) := by
  obtain ⟨U, hU⟩ := exists_disp he hn
  exact (h (U x) (hU x) k b hb).alike

theorem SmoothAt.calm {n : Nat} {x : Fin (n + 1) → ℝ} (h : SmoothAt c bars a x) (hel : ∀ b ∈ bars, b.law = .el) :
    CalmAt c bars a x := by
  intro U hU k b hb
  refine ⟨(h U hU k b hb).length, fun hp => ?_⟩
  rw [hel b (List.mem_of_getElem? hb)] at hp
  cases hp

theorem calmAt_eventually (he : Evaluable c bars a ef) {n : Nat} (hn : c.ndof1 = n) {x : Fin (n + 1) → ℝ}
    (hs : CalmAt c bars a x) : ∀ᶠ y in nhds x, CalmAt c bars a y := by
  obtain ⟨U, hU⟩ := exists_disp he hn
  have key : ∀ᶠ y in nhds x, ∀ p ∈ bars.zipIdx, p.1.Calm (U y) (stateRow c a.statev p.2) := by
    have hall : ∀ p ∈ bars.zipIdx, ∀ᶠ y in nhds x, p.1.Calm (U y) (stateRow c a.statev p.2) := by
      intro p hp
      exact calm_eventually (fun q => disp_contDiff he hn hU x q) (hs (U x) (hU x) p.2 p.1 (List.mem_zipIdx_iff_getElem?.1 hp))
    generalize bars.zipIdx = l at hall ⊢
    induction l with
    | nil => simp
    | cons p l ih =>
      filter_upwards [hall p (by simp), ih fun q hq => hall q (by simp [hq])] with y h1 h2
      intro q hq
      rcases List.mem_cons.1 hq with rfl | hq
      · exact h1
      · exact h2 q hq
  filter_upwards [key] with y hy
  intro U' hU' k b hb
  rw [hU y] at hU'
  cases hU'
  exact hy (b, k) (List.mem_zipIdx_iff_getElem?.2 hb)

theorem forceFn_alike {sv sv' : Option (List (List ℝ))}
    (h : ∀ (k : Nat) (b : Bar ℝ), bars[k]? = some b → b.Alike (stateRow c sv k) (stateRow c sv' k)) (U : List ℝ) (i : Nat) (d : Fin 3) :
    forceFn c sv bars U i d = forceFn c sv' bars U i d := by
  unfold forceFn
  congr 1
  refine List.map_congr_left fun p hp => ?_
  obtain ⟨b, q⟩ := p
  simp only
  rw [(h q b (List.mem_zipIdx_iff_getElem?.1 hp)).stress]

end

end TrussPy
