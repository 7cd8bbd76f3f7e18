import Verif.Lemmas.Plasticity
import Verif.Spec.Commit
import Mathlib.Analysis.Calculus.Deriv.Basic
import Mathlib.Analysis.Calculus.Deriv.Add
import Mathlib.Analysis.Calculus.Deriv.Mul
import Mathlib.Topology.Order.Basic
/-!
# C13-C20: material laws

Exact real arithmetic except for C13.  A history is any finite list of pairs (strain, strain
increment); the virgin state is `[0, 0]`.
-/

namespace TrussPy

open Spec

/-- Property list of a plastic material: `E, K, Sy` and whatever padding follows. -/
def Spec.Plastic.props (c : Plastic) (rest : List ℝ) : List ℝ := c.E :: c.K :: c.Sy :: rest

/-- Concrete constants used in the examples. -/
noncomputable def exPlastic : Plastic := ⟨4, 1, 2⟩

theorem exPlastic_valid : exPlastic.Valid := by constructor <;> norm_num [exPlastic]

/-- **C13** The elastic law returns `E*e`, tangent `E` and the state unchanged, for every carrier,
strain, strain increment and state; it raises only if there is no property. -/
theorem C13_elastic_law {F : Type} [Zero F] [Mul F] (e de : F) (mp : List F) (sv : Option (List F)) :
    (∀ E rest, mp = E :: rest → umatEl e de mp sv = .ok ⟨E * e, E, 0, sv⟩) ∧
    (mp = [] → umatEl e de mp sv = .error .indexError) := by
  constructor
  · rintro E rest rfl
    rfl
  · rintro rfl
    rfl

example : umatEl (3 : ℚ) 1 [2, 7] (some [5, 6]) = .ok ⟨6, 2, 0, some [5, 6]⟩ := by decide +kernel

/-! ## Reachable states -/

/-- States that committed histories produce: yield stress and plastic strain, where yield stress 0
encodes the virgin state. -/
structure Admissible (c : Plastic) (y p : ℝ) : Prop where
  y : y = 0 ∨ c.Sy ≤ y

/-- Yield stress meant by the first state variable. -/
noncomputable def meantY (c : Plastic) (y : ℝ) : ℝ := if y = 0 then c.Sy else y

theorem meantY_ge {c : Plastic} (_hc : c.Valid) {y p : ℝ} (h : Admissible c y p) : c.Sy ≤ meantY c y := by
  unfold meantY
  split
  · exact le_rfl
  · exact h.y.resolve_left ‹_›

theorem meantY_pos {c : Plastic} (hc : c.Valid) {y p : ℝ} (h : Admissible c y p) : 0 < meantY c y :=
  lt_of_lt_of_le hc.Sy (meantY_ge hc h)

/-- One update from an admissible state. -/
theorem step_ok {c : Plastic} (hc : c.Valid) (rest : List ℝ) {y p : ℝ} (h : Admissible c y p) (e de : ℝ) :
    umatElplastIso e de (c.props rest) (some [y, p]) =
      .ok ⟨c.E * (e - newP c (meantY c y) p e),
        if |c.E * (e - p)| ≤ meantY c y then c.E else c.E * c.K / (c.E + c.K), 0,
        some [newY c (meantY c y) p e, newP c (meantY c y) p e]⟩ :=
  umat_real hc rest e de y p rfl (meantY_pos hc h).le

theorem step_adm {c : Plastic} (hc : c.Valid) {y p : ℝ} (h : Admissible c y p) (e : ℝ) :
    Admissible c (newY c (meantY c y) p e) (newP c (meantY c y) p e) ∧
      meantY c (newY c (meantY c y) p e) = newY c (meantY c y) p e := by
  have hge := (meantY_ge hc h).trans (newY_ge hc (meantY c y) p e)
  have hpos := lt_of_lt_of_le hc.Sy hge
  exact ⟨⟨Or.inr hge⟩, by rw [meantY, if_neg hpos.ne']⟩

private theorem trace_adm {c : Plastic} (hc : c.Valid) (rest : List ℝ) : ∀ (h : List (ℝ × ℝ)) {y p : ℝ},
    Admissible c y p → ∃ tr, commitTrace (c.props rest) [y, p] h = .ok tr ∧
      ∀ s ∈ tr, ∃ y' p', s = [y', p'] ∧ c.Sy ≤ y'
  | [], y, p, _ => ⟨[], rfl, by simp⟩
  | (e, de) :: h, y, p, ha => by
    obtain ⟨tr, h1, h2⟩ := trace_adm hc rest h (step_adm hc ha e).1
    refine ⟨[newY c (meantY c y) p e, newP c (meantY c y) p e] :: tr, ?_, ?_⟩
    · simp only [commitTrace, step_ok hc rest ha, py_bind_ok, Option.getD_some, h1, py_pure]
    · intro s hs
      rcases List.mem_cons.1 hs with rfl | hs
      · refine ⟨_, _, rfl, ?_⟩
        exact (meantY_ge hc ha).trans (newY_ge hc _ _ _)
      · exact h2 s hs

/-- Histories never raise; afterwards the state is admissible. -/
private theorem commit_adm {c : Plastic} (hc : c.Valid) (rest : List ℝ) (h : List (ℝ × ℝ)) {y p : ℝ}
    (ha : Admissible c y p) :
    ∃ y' p', commitAll (c.props rest) [y, p] h = .ok [y', p'] ∧ Admissible c y' p' := by
  obtain ⟨tr, h1, h2⟩ := trace_adm hc rest h ha
  unfold commitAll
  rw [h1]
  simp only [py_bind_ok, py_pure]
  cases tr with
  | nil => exact ⟨y, p, rfl, ha⟩
  | cons s tr =>
    have : (s :: tr).getLastD [y, p] ∈ s :: tr := by
      exact List.getLast_mem (List.cons_ne_nil s tr)
    obtain ⟨y', p', h3, h4⟩ := h2 _ this
    exact ⟨y', p', by rw [h3], ⟨Or.inr h4⟩⟩

theorem virgin_adm (c : Plastic) : Admissible c 0 0 := ⟨Or.inl rfl⟩

/-- **C14** After any history of committed strains, evaluating the law at any strain succeeds, and the
stress does not exceed the updated yield stress in absolute value; it equals it if the update was
plastic (the plastic strain changed). -/
theorem C14_yield_condition {c : Plastic} (hc : c.Valid) (rest : List ℝ) (h : List (ℝ × ℝ)) (e de : ℝ) :
    ∃ y p o y' p', commitAll (c.props rest) [0, 0] h = .ok [y, p] ∧
      umatElplastIso e de (c.props rest) (some [y, p]) = .ok o ∧ o.statev = some [y', p'] ∧
      |o.s| ≤ y' ∧ (p' ≠ p → |o.s| = y') := by
  obtain ⟨y, p, h1, ha⟩ := commit_adm hc rest h (virgin_adm c)
  have hY := (meantY_pos hc ha).le
  have := abs_stress_le (e := e) (p := p) hc hY
  refine ⟨y, p, _, _, _, h1, step_ok hc rest ha e de, rfl, this.1, ?_⟩
  intro hne
  exact this.2 ((newP_ne_iff hc hY).1 hne)

example : ∃ h : List (ℝ × ℝ), h.length = 2 ∧ exPlastic.Valid := ⟨[(1, 1), (-1, -2)], rfl, exPlastic_valid⟩

example : umatElplastIso (1 : ℚ) 1 [4, 1, 2] (some [0, 0]) =
    .ok ⟨12/5, 4/5, 0, some [12/5, 2/5]⟩ := by decide +kernel

/-- Sum of absolute differences of consecutive numbers. -/
def variation : List ℝ → ℝ
  | a :: b :: l => |b - a| + variation (b :: l)
  | _ => 0

private theorem hardening_go {c : Plastic} (hc : c.Valid) (rest : List ℝ) : ∀ (h : List (ℝ × ℝ)) {y p : ℝ},
    Admissible c y p → ∃ tr : List (ℝ × ℝ), commitTrace (c.props rest) [y, p] h = .ok (tr.map fun s => [s.1, s.2]) ∧
      (meantY c y :: tr.map (·.1)).Pairwise (· ≤ ·) ∧
      ((tr.map (·.1)).getLastD (meantY c y)) = meantY c y + c.K * variation (p :: tr.map (·.2))
  | [], y, p, _ => ⟨[], rfl, by simp, by simp [variation]⟩
  | (e, de) :: h, y, p, ha => by
    obtain ⟨hadm, hm⟩ := step_adm hc ha e
    obtain ⟨tr, h1, h2, h3⟩ := hardening_go hc rest h hadm
    rw [hm] at h2 h3
    refine ⟨(newY c (meantY c y) p e, newP c (meantY c y) p e) :: tr, ?_, ?_, ?_⟩
    · simp only [commitTrace, step_ok hc rest ha, py_bind_ok, Option.getD_some, h1, py_pure, List.map_cons]
    · rw [List.map_cons, List.pairwise_cons]
      refine ⟨?_, h2⟩
      intro a haa
      have hle := newY_ge hc (meantY c y) p e
      rcases List.mem_cons.1 haa with rfl | haa
      · exact hle
      · exact hle.trans (List.rel_of_pairwise_cons h2 haa)
    · simp only [List.map_cons, List.getLastD_cons, variation]
      rw [h3, abs_newP_sub hc (meantY_pos hc ha).le]
      simp only [newY]
      ring

/-- **C15** Along every committed history from the virgin state the yield stress never decreases, never
falls below `Sy`, and always equals `Sy + K * (sum of absolute plastic strain increments)`.
(Every prefix of a history is a history, so the last statement holds at every commit.)
Missing from the full statement: softening materials `K < 0`, for which it is false, see
`C15_softening_counterexample`. -/
theorem C15_hardening_partial {c : Plastic} (hc : c.Valid) (rest : List ℝ) (h : List (ℝ × ℝ)) :
    ∃ tr : List (ℝ × ℝ), commitTrace (c.props rest) [0, 0] h = .ok (tr.map fun s => [s.1, s.2]) ∧
      (c.Sy :: tr.map (·.1)).Pairwise (· ≤ ·) ∧
      (tr.map (·.1)).getLastD c.Sy = c.Sy + c.K * variation (0 :: tr.map (·.2)) := by
  have := hardening_go hc rest h (virgin_adm c)
  simpa [meantY] using this

example : commitTrace [4, 1, (2 : ℚ)] [0, 0] [(1, 1), (0, -1), (-1, -1)] =
    .ok [[12/5, 2/5], [12/5, 2/5], [76/25, -6/25]] := by decide +kernel

/-- Softening material `E = 1, K = -1/2, Sy = 1`: the yield stress falls to exactly 0 at strain 2; the
next commit reads the 0 as 'virgin' and the material has its full initial strength again. -/
theorem C15_softening_counterexample :
    commitTrace [1, -1/2, (1 : ℚ)] [0, 0] [(2, 2), (5/2, 1/2)] = .ok [[0, 2], [1, 2]] := by decide +kernel

/-- **C16** After any history: while the trial stress stays inside the yield surface the state means
the same as before (a virgin state is rewritten as yield stress `Sy`); in every case the stress is
`E` times the elastic strain `e - p'`. -/
theorem C16_elastic_unloading {c : Plastic} (hc : c.Valid) (rest : List ℝ) (h : List (ℝ × ℝ)) (e de : ℝ) :
    ∃ y p o y' p', commitAll (c.props rest) [0, 0] h = .ok [y, p] ∧
      umatElplastIso e de (c.props rest) (some [y, p]) = .ok o ∧ o.statev = some [y', p'] ∧
      o.s = c.E * (e - p') ∧
      (|c.E * (e - p)| ≤ (if y = 0 then c.Sy else y) → y' = (if y = 0 then c.Sy else y) ∧ p' = p ∧
        o.s = c.E * (e - p) ∧ o.dsde = c.E) := by
  obtain ⟨y, p, h1, ha⟩ := commit_adm hc rest h (virgin_adm c)
  refine ⟨y, p, _, _, _, h1, step_ok hc rest ha e de, rfl, rfl, ?_⟩
  intro hin
  have hf : flow c (meantY c y) p e = 0 := flow_elastic hc hin
  refine ⟨by simp only [newY, hf]; simp [meantY], by simp [newP, hf], by simp [newP, hf], if_pos hin⟩

example : commitAll [4, 1, (2 : ℚ)] [0, 0] [(1, 1)] = .ok [12/5, 2/5] ∧
    umatElplastIso (1/2 : ℚ) 0 [4, 1, 2] (some [12/5, 2/5]) = .ok ⟨2/5, 4, 0, some [12/5, 2/5]⟩ := by
  decide +kernel

/-- **C17** Committing a strain and evaluating the law again at the same strain (with any strain
increment) gives the same stress and the same state. -/
theorem C17_reevaluation {c : Plastic} (hc : c.Valid) (rest : List ℝ) (h : List (ℝ × ℝ)) (e de de' : ℝ) :
    ∃ sv o o', commitAll (c.props rest) [0, 0] h = .ok sv ∧
      umatElplastIso e de (c.props rest) (some sv) = .ok o ∧
      umatElplastIso e de' (c.props rest) o.statev = .ok o' ∧ o'.s = o.s ∧ o'.statev = o.statev := by
  obtain ⟨y, p, h1, ha⟩ := commit_adm hc rest h (virgin_adm c)
  obtain ⟨hadm, hm⟩ := step_adm hc ha e
  have hY := (meantY_pos hc ha).le
  have hin := (abs_stress_le (e := e) (p := p) hc hY).1
  have hf : flow c (newY c (meantY c y) p e) (newP c (meantY c y) p e) e = 0 := flow_elastic hc hin
  have hstep := step_ok hc rest hadm e de'
  rw [hm] at hstep
  refine ⟨[y, p], _, _, h1, step_ok hc rest ha e de, hstep, ?_, ?_⟩
  · simp only [newP] at hf ⊢
    rw [hf]; ring
  · have hY' : newY c (newY c (meantY c y) p e) (newP c (meantY c y) p e) e = newY c (meantY c y) p e := by
      conv_lhs => rw [newY]
      rw [hf]; ring
    have hP' : newP c (newY c (meantY c y) p e) (newP c (meantY c y) p e) e = newP c (meantY c y) p e := by
      conv_lhs => rw [newP]
      rw [hf]; ring
    rw [hY', hP']

example : umatElplastIso (1 : ℚ) 1 [4, 1, 2] (some [12/5, 2/5]) =
    .ok ⟨12/5, 4, 0, some [12/5, 2/5]⟩ := by decide +kernel

/-- Monotone updates compose. -/
private theorem monotone_go {c : Plastic} (hc : c.Valid) (rest : List ℝ) (le : ℝ → ℝ → Prop)
    (trans : ∀ {a b d}, le a b → le b d → le a d)
    (htwo : ∀ {Y p e0 e1 e2 : ℝ}, 0 < Y → |c.E * (e0 - p)| ≤ Y → le e0 e1 → le e1 e2 →
      newP c (newY c Y p e1) (newP c Y p e1) e2 = newP c Y p e2 ∧
      newY c (newY c Y p e1) (newP c Y p e1) e2 = newY c Y p e2) :
    ∀ (h : List (ℝ × ℝ)) {y p e0 : ℝ} (last : ℝ × ℝ), Admissible c y p → |c.E * (e0 - p)| ≤ meantY c y →
      ((e0 :: (h ++ [last]).map (·.1)).Pairwise le) →
      commitAll (c.props rest) [y, p] (h ++ [last]) =
        .ok [newY c (meantY c y) p last.1, newP c (meantY c y) p last.1]
  | [], y, p, e0, last, ha, _, _ => by
    obtain ⟨e, de⟩ := last
    unfold commitAll
    simp only [List.nil_append, commitTrace, step_ok hc rest ha, py_bind_ok, Option.getD_some, py_pure]
    rfl
  | (e1, de) :: h, y, p, e0, last, ha, h0, hs => by
    obtain ⟨hadm, hm⟩ := step_adm hc ha e1
    have hin := (abs_stress_le (e := e1) (p := p) hc (meantY_pos hc ha).le).1
    have hs' : ((e1 :: (h ++ [last]).map (·.1)).Pairwise le) := hs.tail
    have h01 : le e0 e1 := List.rel_of_pairwise_cons hs (by simp)
    have h12 : le e1 last.1 := List.rel_of_pairwise_cons hs' (by simp)
    have ih := monotone_go hc rest le trans htwo h last hadm (by rw [hm]; exact hin) hs'
    rw [hm] at ih
    obtain ⟨t1, t2⟩ := htwo (meantY_pos hc ha) h0 h01 h12
    rw [t1, t2] at ih
    unfold commitAll at ih ⊢
    obtain ⟨tr, htr, hlast⟩ := py_bind_eq_ok.1 ih
    simp only [List.cons_append, commitTrace, step_ok hc rest ha, py_bind_ok, Option.getD_some, htr, py_pure,
      List.getLastD_cons] at hlast ⊢
    cases tr with
    | nil => exact hlast
    | cons a l => simpa [List.getLastD_cons] using hlast

/-- **C18** From the virgin state, committing a monotone strain path (increasing from 0 or decreasing
from 0) in any number of increments leaves the same state as committing its last strain at once;
hence any later evaluation agrees as well. -/
theorem C18_increment_size_irrelevant {c : Plastic} (hc : c.Valid) (rest : List ℝ) (h : List (ℝ × ℝ))
    (e de de' : ℝ)
    (hmono : (0 :: (h ++ [(e, de)]).map (·.1)).Pairwise (· ≤ ·) ∨
      (0 :: (h ++ [(e, de)]).map (·.1)).Pairwise (· ≥ ·)) :
    ∃ o, umatElplastIso e de' (c.props rest) (some [0, 0]) = .ok o ∧
      commitAll (c.props rest) [0, 0] (h ++ [(e, de)]) = .ok (o.statev.getD []) ∧
      ∀ sv o2, commitAll (c.props rest) [0, 0] h = .ok sv →
        umatElplastIso e de (c.props rest) (some sv) = .ok o2 → o2.s = o.s := by
  have h0 : |c.E * ((0 : ℝ) - 0)| ≤ meantY c 0 := by
    simp [meantY]; exact hc.Sy.le
  have hfin : commitAll (c.props rest) [0, 0] (h ++ [(e, de)]) =
      .ok [newY c (meantY c 0) 0 e, newP c (meantY c 0) 0 e] := by
    rcases hmono with hm | hm
    · exact monotone_go hc rest (· ≤ ·) (fun a b => le_trans a b) (fun a b d e => two_steps_up hc a b d e)
        h (e, de) (virgin_adm c) h0 hm
    · exact monotone_go hc rest (· ≥ ·) (fun a b => ge_trans a b)
        (fun a b d e => two_steps_down hc a b d e) h (e, de) (virgin_adm c) h0 hm
  refine ⟨_, step_ok hc rest (virgin_adm c) e de', hfin, ?_⟩
  intro sv o2 hsv ho2
  -- the stress is `E (e - p)` with the final plastic strain
  obtain ⟨y, p, h1, ha⟩ := commit_adm hc rest h (virgin_adm c)
  rw [h1] at hsv
  cases hsv
  rw [step_ok hc rest ha] at ho2
  cases ho2
  have htr : ∀ (h : List (ℝ × ℝ)) (sv : List ℝ) (tr : List (List ℝ)), commitTrace (c.props rest) sv h = .ok tr →
      commitTrace (c.props rest) sv (h ++ [(e, de)]) = (commitTrace (c.props rest) (tr.getLastD sv) [(e, de)]) >>=
        fun t => .ok (tr ++ t) := by
    intro h
    induction h with
    | nil =>
      intro sv tr htr
      cases htr
      simp only [List.nil_append, List.getLastD_nil]
      cases commitTrace (c.props rest) sv [(e, de)] <;> rfl
    | cons a h ih =>
      intro sv tr htr
      simp only [commitTrace] at htr
      obtain ⟨o, ho, htr⟩ := py_bind_eq_ok.1 htr
      obtain ⟨r, hr, htr⟩ := py_bind_eq_ok.1 htr
      cases htr
      rw [List.cons_append]
      conv_lhs => unfold commitTrace
      simp only [ho, py_bind_ok, ih _ _ hr, List.getLastD_cons]
      have : r.getLastD (o.statev.getD []) = r.getLastD (o.statev.getD []) := rfl
      cases commitTrace (c.props rest) (r.getLastD (o.statev.getD [])) [(e, de)] <;> rfl
  unfold commitAll at h1 hfin
  obtain ⟨tr, ht, hl⟩ := py_bind_eq_ok.1 h1
  rw [htr _ _ _ ht] at hfin
  have hl' : tr.getLastD [0, 0] = [y, p] := Except.ok.inj hl
  rw [hl'] at hfin
  simp only [commitTrace, step_ok hc rest ha, py_bind_ok, Option.getD_some, py_pure] at hfin
  simp at hfin
  simp only
  rw [hfin.2]

example : ((0 : ℝ) :: ([((1 : ℝ), (1 : ℝ))] ++ [((2 : ℝ), (1 : ℝ))]).map (·.1)).Pairwise (· ≤ ·) := by
  simp

example : commitAll [4, 1, (2 : ℚ)] [0, 0] [(1/4, 1/4), (1, 3/4), (2, 1)] = .ok [16/5, 6/5] ∧
    commitAll [4, 1, (2 : ℚ)] [0, 0] [(2, 2)] = .ok [16/5, 6/5] := by decide +kernel

/-- Plastic flow has the direction of the stress. -/
theorem flow_dissipates {c : Plastic} (hc : c.Valid) {y p : ℝ} (ha : Admissible c y p) (e : ℝ)
    (hne : newP c (meantY c y) p e ≠ p) : 0 < c.E * (e - newP c (meantY c y) p e) * (newP c (meantY c y) p e - p) := by
  have hYp := meantY_pos hc ha
  have hf := (newP_ne_iff hc hYp.le).1 hne
  have hnot : ¬ |c.E * (e - p)| ≤ meantY c y := fun hin => hf (flow_elastic hc hin)
  have hlt := not_le.1 hnot
  have hfpos := lt_of_le_of_ne (flow_nonneg c (meantY c y) p e) (Ne.symm hf)
  have hab := (abs_stress_le (e := e) (p := p) hc hYp.le).2 hf
  have hy' : 0 < newY c (meantY c y) p e := lt_of_lt_of_le hYp (newY_ge hc _ _ _)
  have hEK : 0 < c.E + c.K := by have := hc.E; have := hc.K; linarith
  have hfl := flow_plastic hc hlt.le
  have hEf : c.E * flow c (meantY c y) p e ≤ |c.E * (e - p)| - meantY c y := by
    rw [hfl, mul_div_assoc', div_le_iff₀ hEK]
    have := hc.K; have := hc.E
    nlinarith
  rcases lt_trichotomy (c.E * (e - p)) 0 with hneg | hz | hpos
  · have hP : newP c (meantY c y) p e = p - flow c (meantY c y) p e := by
      unfold newP; rw [Real.sign_of_neg hneg]; ring
    rw [abs_of_neg hneg] at hEf
    rw [hP]
    have : c.E * (e - (p - flow c (meantY c y) p e)) = c.E * (e - p) + c.E * flow c (meantY c y) p e := by ring
    rw [this]
    nlinarith
  · rw [hz] at hlt; simp at hlt; linarith
  · have hP : newP c (meantY c y) p e = p + flow c (meantY c y) p e := by
      unfold newP; rw [Real.sign_of_pos hpos]; ring
    rw [abs_of_pos hpos] at hEf
    rw [hP]
    have : c.E * (e - (p + flow c (meantY c y) p e)) = c.E * (e - p) - c.E * flow c (meantY c y) p e := by ring
    rw [this]
    nlinarith

/-- **C19** After any history, in every update stress times plastic strain increment is non-negative,
and positive if the plastic strain changes. -/
theorem C19_dissipation {c : Plastic} (hc : c.Valid) (rest : List ℝ) (h : List (ℝ × ℝ)) (e de : ℝ) :
    ∃ y p o y' p', commitAll (c.props rest) [0, 0] h = .ok [y, p] ∧
      umatElplastIso e de (c.props rest) (some [y, p]) = .ok o ∧ o.statev = some [y', p'] ∧
      0 ≤ o.s * (p' - p) ∧ (p' ≠ p → 0 < o.s * (p' - p)) := by
  obtain ⟨y, p, h1, ha⟩ := commit_adm hc rest h (virgin_adm c)
  have key := flow_dissipates hc ha e
  refine ⟨y, p, _, _, _, h1, step_ok hc rest ha e de, rfl, ?_, key⟩
  by_cases hne : newP c (meantY c y) p e = p
  · simp only [hne]; simp
  · exact (key hne).le

example : umatElplastIso (-1 : ℚ) 1 [4, 1, 2] (some [12/5, 2/5]) =
    .ok ⟨-76/25, 4/5, 0, some [76/25, -6/25]⟩ := by decide +kernel

/-- Derivative of the stress off the yield surface. -/
theorem stress_hasDerivAt {c : Plastic} (hc : c.Valid) {Y p e : ℝ} (hY : 0 ≤ Y) (hoff : |c.E * (e - p)| ≠ Y) :
    HasDerivAt (fun x => c.E * (x - newP c Y p x))
      (if |c.E * (e - p)| ≤ Y then c.E else c.E * c.K / (c.E + c.K)) e := by
  have hcont : Continuous fun x : ℝ => |c.E * (x - p)| := by fun_prop
  rcases lt_or_gt_of_ne hoff with hlt | hgt
  · -- elastic
    have hev : (fun x => c.E * (x - newP c (Y) p x)) =ᶠ[nhds e] fun x => c.E * (x - p) := by
      have : ∀ᶠ x in nhds e, |c.E * (x - p)| < Y := hcont.continuousAt.eventually_lt continuousAt_const hlt
      filter_upwards [this] with x hx
      simp [newP, flow_elastic hc hx.le]
    simp only [if_pos hlt.le]
    refine HasDerivAt.congr_of_eventuallyEq ?_ hev
    simpa using ((hasDerivAt_id e).sub_const p).const_mul c.E
  · have hEK : 0 < c.E + c.K := by have := hc.E; have := hc.K; linarith
    simp only [if_neg (not_le.2 hgt)]
    have hplus : ∀ᶠ x in nhds e, Y < |c.E * (x - p)| := continuousAt_const.eventually_lt hcont.continuousAt hgt
    have hcont2 : Continuous fun x : ℝ => c.E * (x - p) := by fun_prop
    rcases lt_trichotomy (c.E * (e - p)) 0 with hneg | hz | hpos
    · have hsg : ∀ᶠ x in nhds e, c.E * (x - p) < 0 := hcont2.continuousAt.eventually_lt continuousAt_const hneg
      have hev : (fun x => c.E * (x - newP c (Y) p x)) =ᶠ[nhds e]
          fun x => c.E * c.K / (c.E + c.K) * (x - p) - c.E * Y / (c.E + c.K) := by
        filter_upwards [hplus, hsg] with x hx hx'
        simp only [newP, flow_plastic hc hx.le, abs_of_neg hx', Real.sign_of_neg hx']
        field_simp
        ring
      refine HasDerivAt.congr_of_eventuallyEq ?_ hev
      simpa using (((hasDerivAt_id e).sub_const p).const_mul (c.E * c.K / (c.E + c.K))).sub_const (c.E * Y / (c.E + c.K))
    · rw [hz] at hgt; simp at hgt; exact absurd hgt (not_lt.2 hY)
    · have hsg : ∀ᶠ x in nhds e, 0 < c.E * (x - p) := continuousAt_const.eventually_lt hcont2.continuousAt hpos
      have hev : (fun x => c.E * (x - newP c (Y) p x)) =ᶠ[nhds e]
          fun x => c.E * c.K / (c.E + c.K) * (x - p) + c.E * Y / (c.E + c.K) := by
        filter_upwards [hplus, hsg] with x hx hx'
        simp only [newP, flow_plastic hc hx.le, abs_of_pos hx', Real.sign_of_pos hx']
        field_simp
        ring
      refine HasDerivAt.congr_of_eventuallyEq ?_ hev
      simpa using (((hasDerivAt_id e).sub_const p).const_mul (c.E * c.K / (c.E + c.K))).add_const (c.E * Y / (c.E + c.K))

/-- **C20** After any history the returned tangent is the derivative of the stress with respect to the
strain (state held fixed) at every strain whose trial stress is not exactly on the yield surface. -/
theorem C20_tangent {c : Plastic} (hc : c.Valid) (rest : List ℝ) (h : List (ℝ × ℝ)) (e de : ℝ) :
    ∃ y p o, commitAll (c.props rest) [0, 0] h = .ok [y, p] ∧
      umatElplastIso e de (c.props rest) (some [y, p]) = .ok o ∧
      (|c.E * (e - p)| ≠ (if y = 0 then c.Sy else y) →
        HasDerivAt (stressAt fun x => umatElplastIso x de (c.props rest) (some [y, p])) o.dsde e) := by
  obtain ⟨y, p, h1, ha⟩ := commit_adm hc rest h (virgin_adm c)
  refine ⟨y, p, _, h1, step_ok hc rest ha e de, ?_⟩
  intro hoff
  have hfun : (stressAt fun x => umatElplastIso x de (c.props rest) (some [y, p])) =
      fun x => c.E * (x - newP c (meantY c y) p x) := by
    funext x
    simp only [stressAt, step_ok hc rest ha]
  rw [hfun]
  exact stress_hasDerivAt hc (meantY_pos hc ha).le hoff

/-- The elastic law: tangent everywhere. -/
theorem C20_tangent_elastic (E : ℝ) (rest : List ℝ) (sv : Option (List ℝ)) (e de : ℝ) :
    ∃ o, umatEl e de (E :: rest) sv = .ok o ∧
      HasDerivAt (stressAt fun x => umatEl x de (E :: rest) sv) o.dsde e := by
  refine ⟨_, rfl, ?_⟩
  have : (stressAt fun x => umatEl x de (E :: rest) sv) = fun x => E * x := by
    funext x; rfl
  rw [this]
  simpa using (hasDerivAt_id e).const_mul E

/-- Strain 1 after a virgin start is off the yield surface for the example constants. -/
example : |exPlastic.E * ((1 : ℝ) - 0)| ≠ if (0 : ℝ) = 0 then exPlastic.Sy else 0 := by
  norm_num [exPlastic]

end TrussPy
