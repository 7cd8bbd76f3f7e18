import Verif.Lemmas.Compare
import Verif.Props.Path
import Verif.Spec.Bounded
/-!
# Two results in a row
-/

set_option linter.unusedSectionVars false

namespace TrussPy

variable {F : Type} [Zero F] [One F] [Add F] [Sub F] [Mul F] [Div F] [Neg F] [Flt F]

/-- A record shows its vector. -/
theorem record_vector {env : Env F} {P : Problem F} {cfg : PFCfg F} {fuel : Nat} {x : List F} {a : Analysis F} {o : PFOut F}
    (h : pathfollow env P cfg fuel x a = .ok o) {i : Nat} {q : Rec F} (hq : o.recs[i]? = some q) :
    ∃ l, q.a.lpf = some l ∧ q.x = q.a.Ured ++ [l] ∧ q.a.Vred = q.x := by
  obtain ⟨-, -, -, h4⟩ := C39_snapshots env P cfg fuel x a o h
  obtain ⟨g1, g2, g3, g4⟩ := h4 i q.x q.a (by simp [PFOut.resX, hq]) (by simp [PFOut.resA, hq])
  cases hl : q.a.lpf with
  | none => exact absurd hl g4
  | some l =>
    rw [hl] at g3
    refine ⟨l, rfl, ?_, g1⟩
    have hne : q.x ≠ [] := by
      intro e
      rw [e] at g3
      cases g3
    rw [g2]
    rw [List.getLast?_eq_getLast_of_ne_nil hne] at g3
    cases g3
    exact (List.dropLast_append_getLast hne).symm

/-- All records of a path-following call have the size of its start. -/
theorem record_length {env : Env F} {c : Ctx F} {cfg : PFCfg F} {fuel : Nat} {a : Analysis F} {o : PFOut F}
    (h : pathfollow env (modelProblem c) cfg fuel a.Ured a = .ok o) : ∀ (i : Nat) (r : Rec F), o.recs[i]? = some r →
    r.x.length = a.Ured.length + 1 := by
  intro i
  induction i with
  | zero =>
    intro r hr
    obtain ⟨-, s, -, -, -, -, -, -, e1, e2⟩ := pathfollow_increments h (k := 0) (p := a) rfl hr
    rw [e2, e1]
  | succ i ih =>
    intro r hr
    have hi : i < o.recs.length := by
      have := (List.getElem?_eq_some_iff.1 hr).1
      omega
    have hq := List.getElem?_eq_getElem hi
    obtain ⟨-, s, -, -, -, -, -, -, e1, e2⟩ := pathfollow_increments h (k := i + 1) (p := o.recs[i].a) (by simp [hq]) hr
    obtain ⟨l, -, e3, -⟩ := record_vector h hq
    have := ih _ hq
    rw [e3] at this
    rw [e2, e1, ← this]
    simp

/-- Where two results in a row come from. -/
theorem Steps.position {env : Env F} {fuel : Nat} {c : Ctx F} {σ : Settings F} {rows : List (List F)}
    {a0 : Analysis F} {r0 : Results F} {outs : List (PFOut F)} {a : Analysis F} {res : Results F}
    (h : Steps env fuel c σ rows a0 r0 outs a res) {b0 : Analysis F} (hb : Carry b0 a0) (hl : b0.lpf = some 0) :
    ∀ {k : Nat} {p : Analysis F} {r : Rec F}, (b0 :: (recorded outs).map (·.a))[k]? = some p → (recorded outs)[k]? = some r →
    ∃ (n : Nat) (o : PFOut F) (i : Nat) (l0 : F), outs[n]? = some o ∧ o.recs[i]? = some r ∧ r.a.step = n + 1 ∧
      o.resX[i]? = some (p.Ured ++ [l0]) ∧ factorFrom p r.a.step = some l0 ∧
      (p.step = r.a.step → k ≠ 0 → ∃ i' q, i = i' + 1 ∧ o.recs[i']? = some q ∧ q.a = p) := by
  have hnum := h.stepNumber
  induction h with
  | nil => intro k p r _ h2; simp [recorded] at h2
  | @snoc outs a res incs xl a1 o R l hs g1 g2 h3 h4 _ _ ih =>
    intro k p r h1 h2
    rw [recorded_snoc] at h1 h2
    rw [List.getElem?_append] at h2
    split at h2
    · next hk =>
      obtain ⟨n, o', i, l0, e1, e2, e3⟩ := ih hs.stepNumber (k := k) (p := p) (r := r) (by
        rw [← h1, List.map_append, ← List.cons_append, List.getElem?_append, if_pos (by simp; omega)]) h2
      refine ⟨n, o', i, l0, ?_, e2, e3⟩
      rw [List.getElem?_append, if_pos (List.getElem?_eq_some_iff.1 e1).1, e1]
    · next hk =>
      obtain ⟨i, rfl⟩ : ∃ i, k = (recorded outs).length + i := ⟨k - (recorded outs).length, by omega⟩
      rw [show (recorded outs).length + i - (recorded outs).length = i by omega] at h2
      have ho : (outs ++ [o])[outs.length]? = some o := by simp
      have hst : r.a.step = outs.length + 1 := hnum _ _ ho r (List.mem_of_getElem? h2)
      cases i with
      | zero =>
        have hp : p = ((recorded outs).map (·.a)).getLastD b0 := by
          rw [List.map_append, ← List.cons_append, List.getElem?_append, if_pos (by simp)] at h1
          rcases List.eq_nil_or_concat (recorded outs) with hn | ⟨rs, x, hn⟩
          · rw [hn] at h1 ⊢; simpa using h1.symm
          · rw [hn] at h1 ⊢
            simpa using h1.symm
        have hU : a1.Ured = p.Ured := by
          have hc := hs.carry.trans (setStep_ok h3).1
          rw [hc.Ured, hp]
          rcases List.eq_nil_or_concat (recorded outs) with hn | ⟨rs, x, hn⟩
          · rw [hn]; exact hb.Ured
          · rw [hn]; simp
        have hnew : (recorded outs).length + 0 ≠ 0 → p.step ≠ r.a.step := by
          intro hne e
          rcases List.eq_nil_or_concat (recorded outs) with hn | ⟨rs, x, hn⟩
          · rw [hn] at hne; exact hne rfl
          · have hx : x ∈ recorded outs := by rw [hn]; simp
            have hpx : p = x.a := by rw [hp, hn]; simp
            obtain ⟨o', ho', hxo⟩ := List.mem_flatMap.1 hx
            obtain ⟨n, hn'⟩ := List.getElem?_of_mem ho'
            have := hs.stepNumber n o' hn' x hxo
            have hlt := (List.getElem?_eq_some_iff.1 hn').1
            rw [hpx, hst] at e
            omega
        have hstep : p.step = r.a.step → p = b0 := by
          intro e
          have hn : recorded outs = [] := List.length_eq_zero_iff.1 (not_not.1 fun hne => hnew hne e)
          rw [hp, hn]
          rfl
        refine ⟨outs.length, o, 0, 0, ho, h2, hst, ?_, ?_, fun e hne => absurd e (hnew hne)⟩
        · have := (pathfollow_ok h4).1
          show some o.startX = _
          rw [this, hU]
        · unfold factorFrom
          split
          · next e => rw [hstep e]; exact hl
          · rfl
      | succ i =>
        have hp : (o.recs.map (·.a))[i]? = some p := by
          rw [List.map_append, ← List.cons_append, List.getElem?_append, if_neg (by simp)] at h1
          rw [← h1]
          simp only [List.length_cons, List.length_map]
          congr 1
          omega
        rw [List.getElem?_map] at hp
        cases hq : o.recs[i]? with
        | none => rw [hq] at hp; cases hp
        | some q =>
          rw [hq] at hp
          cases hp
          obtain ⟨l0, l1, l2, -⟩ := record_vector h4 hq
          have hsq : q.a.step = outs.length + 1 := hnum _ _ ho q (List.mem_of_getElem? hq)
          refine ⟨outs.length, o, i + 1, l0, ho, h2, hst, ?_, ?_, fun _ _ => ⟨i, q, rfl, hq, rfl⟩⟩
          · rw [← l2]
            simp [PFOut.resX, hq]
          · unfold factorFrom
            rw [if_pos (hsq.trans hst.symm), l1]

/-- Number of results of one step. -/
theorem Steps.count {env : Env F} {fuel : Nat} {c : Ctx F} {σ : Settings F} {rows : List (List F)}
    {a0 : Analysis F} {r0 : Results F} {outs : List (PFOut F)} {a : Analysis F} {res : Results F}
    (h : Steps env fuel c σ rows a0 r0 outs a res) (n : Nat) :
    ((recorded outs).map (·.a)).countP (fun r => r.step = n + 1) =
      match outs[n]? with
      | some o => o.recs.length
      | none => 0 := by
  have hnum := h.stepNumber
  clear h
  induction outs using List.reverseRecOn with
  | nil => rfl
  | append_singleton outs o ih =>
    have hnum' : ∀ i o', outs[i]? = some o' → ∀ r ∈ o'.recs, r.a.step = i + 1 := by
      intro i o' hi
      refine hnum i o' ?_
      rw [List.getElem?_append, if_pos (List.getElem?_eq_some_iff.1 hi).1, hi]
    have ho : ∀ r ∈ o.recs, r.a.step = outs.length + 1 := hnum outs.length o (by simp)
    rw [recorded_snoc, List.map_append, List.countP_append, ih hnum', List.getElem?_append]
    by_cases hn : n < outs.length
    · rw [if_pos hn, List.getElem?_eq_getElem hn]
      have : (o.recs.map (·.a)).countP (fun r => r.step = n + 1) = 0 := by
        rw [List.countP_eq_zero]
        intro b hb
        obtain ⟨r, hr, rfl⟩ := List.mem_map.1 hb
        have := ho r hr
        simp
        omega
      simp [this]
    · rw [if_neg hn, List.getElem?_eq_none (by omega)]
      by_cases he : n = outs.length
      · subst he
        have : (o.recs.map (·.a)).countP (fun r => r.step = outs.length + 1) = o.recs.length := by
          rw [List.countP_eq_length.2, List.length_map]
          intro b hb
          obtain ⟨r, hr, rfl⟩ := List.mem_map.1 hb
          simpa using ho r hr
        simp [this]
      · have : (o.recs.map (·.a)).countP (fun r => r.step = n + 1) = 0 := by
          rw [List.countP_eq_zero]
          intro b hb
          obtain ⟨r, hr, rfl⟩ := List.mem_map.1 hb
          have := ho r hr
          simp
          omega
        rw [this, List.getElem?_eq_none (by simp; omega)]

end TrussPy
