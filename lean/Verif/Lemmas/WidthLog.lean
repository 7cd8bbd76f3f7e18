import Verif.Spec.Width
import Verif.Spec.Path
import Verif.Lemmas.Width
/-!
# The log of all passes: helper lemmas
-/

set_option linter.unusedSectionVars false

namespace TrussPy

theorem acceptedIn_append (l l' : List PassEvent) : acceptedIn (l ++ l') = acceptedIn l + acceptedIn l' := by
  unfold acceptedIn
  rw [List.filter_append, List.length_append]

/-- Four ways in which `dxmax_control` ends. -/
theorem dxmaxControl_cases {cfg : PFCfg ℝ} (hc : cfg.WidthOK) {dxmax dxmax0 : List ℝ} {d d0 : ℝ}
    (hd : dxmax[0]? = some d) (h0 : dxmax0[0]? = some d0) (hd0 : 0 < d)
    {j j0 z b n nfev : Int} (hn1 : 1 ≤ n) (hn2 : n ≤ nfev) {s : Bool} {o : DxOut ℝ}
    (h : dxmaxControl cfg dxmax dxmax0 j j0 z s b n nfev = .ok o) :
    (o.dxmax = dxmax ∧ o.b = b) ∨
    (s = false ∧ o.b = 0 ∧ firstOf o.dxmax < d) ∨
    (s = true ∧ 3 < b ∧ d < d0 * cfg.maxfac ∧ o.b = b ∧ d ≤ firstOf o.dxmax) ∨
    (s = true ∧ d0 * cfg.maxfac ≤ d ∧ o.b = b ∧ firstOf o.dxmax = d0 * cfg.maxfac) := by
  have hg : pyGet dxmax 0 = .ok d := by unfold pyGet; simp [hd]
  have hg0 : pyGet dxmax0 0 = .ok d0 := by unfold pyGet; simp [h0]
  have hmap : ∀ (f : ℝ → ℝ) (l : List ℝ) (v : ℝ), l[0]? = some v → firstOf (l.map f) = f v := by
    intro f l v hv
    cases l with
    | nil => cases hv
    | cons w l => cases hv; rfl
  unfold dxmaxControl at h
  rw [hg, hg0] at h
  simp only [bind, Except.bind] at h
  cases hsucc : s with
  | false =>
    rw [hsucc] at h
    simp only [Bool.not_false, if_true] at h
    have hred : firstOf (dxmax.map fun v => v / cfg.reduce) < d := by
      rw [hmap _ _ _ hd]
      exact div_lt_self hd0 hc.reduce_gt
    split at h
    · split at h
      · cases h; exact .inr (.inl ⟨rfl, rfl, hred⟩)
      · cases h; exact .inl ⟨rfl, rfl⟩
    · cases h; exact .inl ⟨rfl, rfl⟩
  | true =>
    rw [hsucc] at h
    simp only [Bool.not_true] at h
    rw [if_neg (by simp)] at h
    by_cases hlt : Flt.lt d (d0 * cfg.maxfac) = true
    · rw [if_pos hlt] at h
      have hlt : d < d0 * cfg.maxfac := of_decide_eq_true hlt
      split at h
      · split at h
        · cases h; exact .inl ⟨rfl, rfl⟩
        · split at h
          · cases h; exact .inl ⟨rfl, rfl⟩
          · next hb =>
            cases h
            refine .inr (.inr (.inl ⟨rfl, by omega, hlt, rfl, ?_⟩))
            show d ≤ firstOf (dxmax.map _)
            rw [hmap _ _ _ hd]
            have hnf : (0 : ℝ) < ((nfev : Int) : ℝ) := by exact_mod_cast (by omega : 0 < nfev)
            have hq0 : (0 : ℝ) ≤ ((nfev - n : Int) : ℝ) / ((nfev : Int) : ℝ) :=
              div_nonneg (by exact_mod_cast (by omega : 0 ≤ nfev - n)) hnf.le
            have h1 : 0 ≤ ((nfev - n : Int) : ℝ) / ((nfev : Int) : ℝ) * cfg.increase := mul_nonneg hq0 hc.increase_ge
            show d ≤ d * (1 + ((nfev - n : Int) : ℝ) / ((nfev : Int) : ℝ) * cfg.increase)
            nlinarith
      · cases h; exact .inl ⟨rfl, rfl⟩
    · rw [if_neg hlt] at h
      have hge : d0 * cfg.maxfac ≤ d := by
        by_contra hcon
        exact hlt (decide_eq_true (not_le.1 hcon))
      split at h
      · cases h
        exact .inr (.inr (.inr ⟨rfl, hge, rfl, hmap _ _ _ h0⟩))
      · cases h; exact .inl ⟨rfl, rfl⟩

/-- After the events `A` the counter `b` is at most the number of acceptances since the last reduction, unless the width is
at its upper limit. -/
def Cool (cfg : PFCfg ℝ) (d0 : ℝ) (A : List PassEvent) (w : List ℝ) (b : Int) : Prop :=
  ∀ A1 r A2, A = A1 ++ r :: A2 → r.Shrinks → b ≤ acceptedIn A2 ∨ d0 * cfg.maxfac ≤ firstOf w

/-- A growing event of `log` after `A` is preceded by enough acceptances. -/
def SafeAfter (A log : List PassEvent) : Prop :=
  ∀ L e C, log = L ++ e :: C → e.Grows → ∀ A1 r A2, A ++ L = A1 ++ r :: A2 → r.Shrinks → 4 ≤ acceptedIn A2

theorem snoc_split {A A1 A2 : List PassEvent} {e r : PassEvent} (h : A ++ [e] = A1 ++ r :: A2) :
    (A2 = [] ∧ r = e ∧ A1 = A) ∨ ∃ A3, A2 = A3 ++ [e] ∧ A = A1 ++ r :: A3 := by
  rcases List.eq_nil_or_concat A2 with rfl | ⟨A3, x, rfl⟩
  · obtain ⟨h1, h2⟩ := List.append_inj' h rfl
    exact .inl ⟨rfl, (List.singleton_inj.1 h2).symm, h1.symm⟩
  · right
    have h' : A ++ [e] = (A1 ++ r :: A3) ++ [x] := by rw [h]; simp
    obtain ⟨h1, h2⟩ := List.append_inj' h' rfl
    have := List.singleton_inj.1 h2
    subst this
    exact ⟨A3, by simp, h1⟩

theorem WidthInv.first {cfg : PFCfg ℝ} (hsc : cfg.stepcontrol = true) (hc : cfg.WidthOK) {dxmax0 l : List ℝ} {d0 : ℝ}
    (h0 : dxmax0[0]? = some d0) (hd0 : 0 < d0) (h : WidthInv cfg dxmax0 l) : l[0]? = some (firstOf l) ∧ 0 < firstOf l := by
  unfold WidthInv at h
  rw [if_pos hsc] at h
  obtain ⟨c, hs, hlo, -⟩ := h
  have hc0 : 0 < c := lt_trans (div_pos hc.minfac_pos (by linarith [hc.reduce_gt])) hlo
  have h1 : l[0]? = some (c * d0) := by rw [hs, List.getElem?_map, h0]; rfl
  have h2 : firstOf l = c * d0 := by
    cases l with
    | nil => cases h1
    | cons w l => cases h1; rfl
  rw [h2]
  exact ⟨h1, mul_pos hc0 hd0⟩

/-- One pass. -/
theorem pass_cool {cfg : PFCfg ℝ} (hsc : cfg.stepcontrol = true) (hc : cfg.WidthOK) {env : Env ℝ} {P : Problem ℝ}
    {rc : RCtx ℝ} {d0 : ℝ} (h0 : rc.dxmax0[0]? = some d0) (hd0 : 0 < d0) {st st' : RState ℝ} {o : Option Outcome}
    (ha : attempt env P cfg rc st = .ok (st', o)) (hw : WidthInv cfg rc.dxmax0 st.dxmax) {A : List PassEvent}
    (hA : Cool cfg d0 A st.dxmax st.b) :
    let e : PassEvent := ⟨st.dxmax, st'.dxmax, o == some .accepted⟩
    WidthInv cfg rc.dxmax0 st'.dxmax ∧ Cool cfg d0 (A ++ [e]) st'.dxmax st'.b ∧
      (e.Grows → ∀ A1 r A2, A = A1 ++ r :: A2 → r.Shrinks → 4 ≤ acceptedIn A2) := by
  intro e
  obtain ⟨d, hd, he⟩ := attempt_ok ha
  have hw' : WidthInv cfg rc.dxmax0 st'.dxmax := by rw [he.dxmax.1]; exact hd.width (fun _ => hc) h0 hd0 hw
  obtain ⟨f1, f2⟩ := hw.first hsc hc h0 hd0
  have hdc := hd.hdc
  unfold nextWidth at hdc
  rw [if_pos hsc] at hdc
  obtain ⟨n1, n2, -⟩ := newton_last hd.hnewton
  have hcases := dxmaxControl_cases hc f1 h0 f2 n1 n2 hdc
  have hdx : st'.dxmax = d.dc.dxmax := he.dxmax.1
  -- the counter
  have hb : st'.b = d.dc.b + (if e.accepted then 1 else 0) ∧ (e.accepted = true → d.nr.success = true) := by
    show st'.b = d.dc.b + (if (o == some .accepted) = true then 1 else 0) ∧ ((o == some .accepted) = true → _)
    cases he with
    | accepted a2 fx hv hs hcm => exact ⟨rfl, fun _ => hs⟩
    | error1 => exact ⟨(Int.add_zero _).symm, fun h => nomatch h⟩
    | error2 => exact ⟨(Int.add_zero _).symm, fun h => nomatch h⟩
    | again => exact ⟨(Int.add_zero _).symm, fun h => nomatch h⟩
  have hacc : ((acceptedIn [e] : Nat) : Int) = if e.accepted then 1 else 0 := by
    unfold acceptedIn
    cases h : e.accepted <;> simp [h]
  refine ⟨hw', ?_, ?_⟩
  · intro A1 r A2 hsplit hr
    rw [hb.1]
    rcases snoc_split hsplit with ⟨rfl, rfl, -⟩ | ⟨A3, rfl, hA3⟩
    · -- the new event shrinks
      have hr : firstOf d.dc.dxmax < firstOf st.dxmax := by rw [← hdx]; exact hr
      rcases hcases with ⟨c1, -⟩ | ⟨c1, c2, -⟩ | ⟨-, -, -, -, c5⟩ | ⟨-, -, -, c4⟩
      · rw [c1] at hr; exact absurd hr (lt_irrefl _)
      · left
        have : e.accepted = false := by
          cases h : e.accepted with
          | false => rfl
          | true => have := hb.2 h; rw [c1] at this; cases this
        show d.dc.b + (if e.accepted then 1 else 0) ≤ _
        rw [c2, this]
        simp [acceptedIn]
      · exact absurd hr (not_lt.2 c5)
      · right; rw [hdx, c4]
    · rw [acceptedIn_append]
      push_cast
      rw [hacc]
      have hold := hA A1 r A3 hA3 hr
      rcases hcases with ⟨c1, c2⟩ | ⟨c1, c2, -⟩ | ⟨-, c2, c3, c4, c5⟩ | ⟨-, -, -, c4⟩
      · rw [c2, hdx, c1]
        rcases hold with h | h
        · left; omega
        · right; exact h
      · left
        rw [c2]
        have : (0 : Int) ≤ acceptedIn A3 := Int.natCast_nonneg _
        omega
      · rcases hold with h | h
        · left; rw [c4]; omega
        · exact absurd h (not_le.2 c3)
      · right; rw [hdx, c4]
  · intro hg A1 r A2 hsplit hr
    have hg : firstOf st.dxmax < firstOf d.dc.dxmax := by rw [← hdx]; exact hg
    have hold := hA A1 r A2 hsplit hr
    rcases hcases with ⟨c1, -⟩ | ⟨-, -, c3⟩ | ⟨-, c2, c3, -, -⟩ | ⟨-, c2, -, c4⟩
    · rw [c1] at hg; exact absurd hg (lt_irrefl _)
    · exact absurd (hg.trans c3) (lt_irrefl _)
    · rcases hold with h | h
      · omega
      · exact absurd h (not_le.2 c3)
    · rw [c4] at hg; exact absurd (lt_of_le_of_lt c2 hg) (lt_irrefl _)

theorem SafeAfter.cons {A log : List PassEvent} {e : PassEvent} (h1 : SafeAfter (A ++ [e]) log)
    (h2 : e.Grows → ∀ A1 r A2, A = A1 ++ r :: A2 → r.Shrinks → 4 ≤ acceptedIn A2) : SafeAfter A (e :: log) := by
  intro L e' C hs hg A1 r A2 hA hr
  cases L with
  | nil =>
    simp only [List.nil_append, List.cons.injEq] at hs
    obtain ⟨rfl, rfl⟩ := hs
    exact h2 hg A1 r A2 (by simpa using hA) hr
  | cons x L =>
    simp only [List.cons_append, List.cons.injEq] at hs
    obtain ⟨rfl, rfl⟩ := hs
    exact h1 L e' C rfl hg A1 r A2 (by simpa using hA) hr

/-- The passes of an increment. -/
theorem PassLog.cool {cfg : PFCfg ℝ} (hsc : cfg.stepcontrol = true) (hc : cfg.WidthOK) {env : Env ℝ} {P : Problem ℝ}
    {rc : RCtx ℝ} {d0 : ℝ} (h0 : rc.dxmax0[0]? = some d0) (hd0 : 0 < d0) {st st' : RState ℝ} {o : Outcome}
    {l : List PassEvent} (h : PassLog env P cfg rc st l st' o) : ∀ {A : List PassEvent}, WidthInv cfg rc.dxmax0 st.dxmax →
      Cool cfg d0 A st.dxmax st.b →
      WidthInv cfg rc.dxmax0 st'.dxmax ∧ Cool cfg d0 (A ++ l) st'.dxmax st'.b ∧ SafeAfter A l := by
  induction h with
  | @last st st' o ha =>
    intro A hw hA
    obtain ⟨h1, h2, h3⟩ := pass_cool hsc hc h0 hd0 ha hw hA
    have e1 : (some o == some Outcome.accepted) = (o == Outcome.accepted) := by cases o <;> rfl
    rw [e1] at h2 h3
    refine ⟨h1, h2, SafeAfter.cons ?_ h3⟩
    intro L e C hs
    cases L <;> cases hs
  | @more st st1 log st' o ha _ ih =>
    intro A hw hA
    obtain ⟨h1, h2, h3⟩ := pass_cool hsc hc h0 hd0 ha hw hA
    obtain ⟨i1, i2, i3⟩ := ih h1 h2
    refine ⟨i1, ?_, SafeAfter.cons i3 h3⟩
    rw [List.append_assoc] at i2
    exact i2

theorem SafeAfter.append {A l log : List PassEvent} (h1 : SafeAfter A l) (h2 : SafeAfter (A ++ l) log) :
    SafeAfter A (l ++ log) := by
  intro L e C hs hg A1 r A2 hA hr
  rcases List.append_eq_append_iff.1 hs with ⟨M, hM1, hM2⟩ | ⟨M, hM1, hM2⟩
  · exact h2 M e C hM2 hg A1 r A2 (by rw [List.append_assoc, ← hM1]; exact hA) hr
  · cases M with
    | nil => exact h2 [] e C (by simpa using hM2.symm) hg A1 r A2 (by rw [hM1]; simpa using hA) hr
    | cons x M =>
      simp only [List.cons_append, List.cons.injEq] at hM2
      obtain ⟨rfl, hM2⟩ := hM2
      exact h1 L e M hM1 hg A1 r A2 hA hr

theorem recycle_log {env : Env ℝ} {P : Problem ℝ} {cfg : PFCfg ℝ} {rc : RCtx ℝ} : ∀ {fuel : Nat} {st st' : RState ℝ}
    {o : Outcome}, recycle env P cfg rc fuel st = .ok (st', o) → ∃ l, PassLog env P cfg rc st l st' o
  | 0, _, _, _, h => nomatch h
  | k + 1, st, st', o, h => by
    unfold recycle at h
    obtain ⟨⟨s1, o1⟩, h1, h⟩ := py_bind_eq_ok.1 h
    cases o1 with
    | some o1 => cases h; exact ⟨_, .last h1⟩
    | none =>
      obtain ⟨l, hl⟩ := recycle_log h
      exact ⟨_, .more h1 hl⟩

/-- The last state of the passes is the state after the increment. -/
theorem increment_log {env : Env ℝ} {P : Problem ℝ} {cfg : PFCfg ℝ} {dxmax0 : List ℝ} {fuel : Nat} {s s' : PState ℝ}
    {o : Outcome} (h : increment env P cfg dxmax0 fuel s = .ok (s', o)) :
    (o = .predictor ∧ s'.dxmax = s.dxmax ∧ s'.b = s.b) ∨
    (o ≠ .predictor ∧ ∃ p l st', predictor env P cfg s = .ok p ∧
      PassLog env P cfg ⟨s.x, dxmax0, p.jPre, p.DxPre, p.vPre⟩ ⟨s.x, 0, p.nPre, s.dxmax, p.j, s.b, p.a⟩ l st' o ∧
      s'.dxmax = st'.dxmax ∧ s'.b = st'.b ∧ s'.a.dVmax = st'.a.dVmax) := by
  unfold increment at h
  obtain ⟨⟨jp, st, o1⟩, h1, h⟩ := py_bind_eq_ok.1 h
  simp only at h
  split at h
  · cases h
  next lpf hl =>
  cases h
  unfold solveInc at h1
  obtain ⟨p, hp, h1⟩ := py_bind_eq_ok.1 h1
  simp only at h1
  split at h1
  · cases h1
    exact .inl ⟨rfl, rfl, rfl⟩
  · obtain ⟨⟨st2, o2⟩, h2, h1⟩ := py_bind_eq_ok.1 h1
    cases h1
    obtain ⟨l, hl⟩ := recycle_log h2
    right
    refine ⟨?_, p, l, _, hp, hl, rfl, rfl, rfl⟩
    obtain ⟨n, st1, -, ha⟩ := recycle_ok h2
    obtain ⟨d, -, he⟩ := attempt_ok ha
    cases he <;> simp

theorem incrLoop_log {env : Env ℝ} {P : Problem ℝ} {cfg : PFCfg ℝ} {dxmax0 : List ℝ} {fuel : Nat} :
    ∀ {k : Nat} {s s' : PState ℝ} {recs : List (Rec ℝ)}, incrLoop env P cfg dxmax0 fuel k s = .ok (s', recs) →
      ∃ log, WidthLog env P cfg dxmax0 fuel s recs log
  | 0, _, _, _, h => by cases h; exact ⟨_, .nil _⟩
  | k + 1, s, s', recs, h => by
    unfold incrLoop at h
    obtain ⟨⟨s1, o⟩, h1, h⟩ := py_bind_eq_ok.1 h
    have key : ∀ {recs : List (Rec ℝ)}, (∃ log, WidthLog env P cfg dxmax0 fuel s1 recs log) →
        ∃ log, WidthLog env P cfg dxmax0 fuel s (⟨s1.x, s1.a, o⟩ :: recs) log := by
      rintro recs ⟨log, hlog⟩
      rcases increment_log h1 with ⟨rfl, -, -⟩ | ⟨ho, p, l, st', hp, hl, -⟩
      · exact ⟨_, .predicted h1 hlog⟩
      · exact ⟨_, .solved h1 ho hp hl hlog⟩
    simp only at h
    split at h
    · cases h; exact key ⟨_, .nil _⟩
    obtain ⟨lim, h2, h⟩ := py_bind_eq_ok.1 h
    split at h
    · cases h; exact key ⟨_, .nil _⟩
    obtain ⟨⟨s2, rest⟩, h3, h⟩ := py_bind_eq_ok.1 h
    cases h
    exact key (incrLoop_log h3)

theorem PassLog.unique {env : Env ℝ} {P : Problem ℝ} {cfg : PFCfg ℝ} {rc : RCtx ℝ} {st st1 st2 : RState ℝ}
    {l1 l2 : List PassEvent} {o1 o2 : Outcome} (h1 : PassLog env P cfg rc st l1 st1 o1) :
    PassLog env P cfg rc st l2 st2 o2 → l1 = l2 ∧ st1 = st2 ∧ o1 = o2 := by
  induction h1 generalizing l2 with
  | last ha =>
    intro h2
    cases h2 with
    | last hb => rw [ha] at hb; cases hb; exact ⟨rfl, rfl, rfl⟩
    | more hb => rw [ha] at hb; cases hb
  | more ha _ ih =>
    intro h2
    cases h2 with
    | last hb => rw [ha] at hb; cases hb
    | more hb hr =>
      rw [ha] at hb
      cases hb
      obtain ⟨rfl, rfl, rfl⟩ := ih hr
      exact ⟨rfl, rfl, rfl⟩

/-- All increments. -/
theorem WidthLog.safe {cfg : PFCfg ℝ} (hsc : cfg.stepcontrol = true) (hc : cfg.WidthOK) {env : Env ℝ} {P : Problem ℝ}
    {dxmax0 : List ℝ} {d0 : ℝ} (h0 : dxmax0[0]? = some d0) (hd0 : 0 < d0) {fuel : Nat} {s : PState ℝ} {recs : List (Rec ℝ)}
    {log : List PassEvent} (h : WidthLog env P cfg dxmax0 fuel s recs log) : ∀ {A : List PassEvent},
      WidthInv cfg dxmax0 s.dxmax → Cool cfg d0 A s.dxmax s.b → SafeAfter A log := by
  induction h with
  | nil s =>
    intro A _ _ L e C hs
    cases L <;> cases hs
  | @predicted s s' recs log hi _ ih =>
    intro A hw hA
    rcases increment_log hi with ⟨-, e1, e2⟩ | ⟨h, -⟩
    · exact ih (by rw [e1]; exact hw) (by rw [e1, e2]; exact hA)
    · exact absurd rfl h
  | @solved s s' p l st' o recs log hi ho hp hl _ ih =>
    intro A hw hA
    rcases increment_log hi with ⟨h, -⟩ | ⟨-, p', l', st2, hp', hl', e1, e2, -⟩
    · exact absurd h ho
    · rw [hp] at hp'
      cases hp'
      obtain ⟨-, rfl, -⟩ := hl.unique hl'
      obtain ⟨i1, i2, i3⟩ := hl.cool hsc hc (rc := ⟨s.x, dxmax0, p.jPre, p.DxPre, p.vPre⟩) h0 hd0 hw hA
      exact i3.append (ih (by rw [e1]; exact i1) (by rw [e1, e2]; exact i2))

/-- Recorded widths. -/
theorem PassLog.recorded {env : Env ℝ} {P : Problem ℝ} (hP : KeepsWidth P) {cfg : PFCfg ℝ} {rc : RCtx ℝ} {st st' : RState ℝ}
    {l : List PassEvent} {o : Outcome} (h : PassLog env P cfg rc st l st' o) :
    (l.filter (·.accepted)).map (fun e => some e.before) = if o = .accepted then [st'.a.dVmax] else [] := by
  induction h with
  | @last st st' o ha =>
    obtain ⟨d, hd, he⟩ := attempt_ok ha
    cases he with
    | accepted a2 fx hv hs hcm =>
      obtain ⟨gv, vj, hg, -, -⟩ := extF_ok hcm
      have : a2.dVmax = some st.dxmax := hP _ _ _ _ _ _ hg
      simp [this]
    | error1 => simp
    | error2 => simp
  | more _ _ ih => simpa using ih

theorem WidthLog.recorded {env : Env ℝ} {P : Problem ℝ} (hP : KeepsWidth P) {cfg : PFCfg ℝ} {dxmax0 : List ℝ} {fuel : Nat}
    {s : PState ℝ} {recs : List (Rec ℝ)} {log : List PassEvent} (h : WidthLog env P cfg dxmax0 fuel s recs log) :
    (log.filter (·.accepted)).map (fun e => some e.before) =
      (recs.filter (·.out == .accepted)).map (·.a.dVmax) := by
  induction h with
  | nil => rfl
  | predicted _ _ ih => simpa using ih
  | @solved s s' p l st' o recs log hi ho hp hl _ ih =>
    rw [List.filter_append, List.map_append, ih, hl.recorded hP]
    rcases increment_log hi with ⟨h, -⟩ | ⟨-, p', l', st2, hp', hl', e1, e2, e3⟩
    · exact absurd h ho
    · rw [hp] at hp'
      cases hp'
      obtain ⟨-, rfl, -⟩ := hl.unique hl'
      rw [← e3]
      cases o <;> simp

end TrussPy
