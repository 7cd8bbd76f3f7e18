import Verif.Lemmas.ReportRun
import Verif.Spec.Rows
/-!
# The iteration tables of the protocol: helper lemmas
-/

set_option linter.unusedSectionVars false

namespace TrussPy

variable {F : Type} [Zero F] [One F] [Add F] [Sub F] [Mul F] [Div F] [Neg F] [Flt F]

/-- Rows numbered after `n`. -/
def rowsFrom : Int → List F → List (Line F)
  | _, [] => []
  | n, f :: fs => .iterRow (n + 1) f :: rowsFrom (n + 1) fs

theorem rowsFrom_eq (n : Int) (fs : List F) : rowsFrom n fs = fs.mapIdx fun k f => .iterRow (n + (k : Int) + 1) f := by
  induction fs generalizing n with
  | nil => rfl
  | cons f fs ih =>
    rw [rowsFrom, ih, List.mapIdx_cons]
    congr 1
    · simp
    · congr 1
      funext k f
      congr 1
      push_cast
      omega

theorem iterRows_eq (fs : List F) : iterRows fs = rowsFrom 0 fs := by
  rw [rowsFrom_eq]
  unfold iterRows
  congr 1
  funext k f
  congr 1
  omega

theorem newtonLoopP_rows {S : Type} {verbose : Int} {f : S → List F → Py (S × List F)}
    {df : S → List F → Py (S × List (List F))} {sp : List (List F) → List F → Py (List F)} {ftol xtol : F} :
    ∀ (k : Nat) (n : Int) {s s' : S} {x : List F} {out : NewtonOut F},
      (newtonLoopP verbose f df sp ftol xtol k n s x).res = .ok (s', out) →
      ∃ (its : List (Iter F)) (i : Iter F), Iterates f df sp s x (its ++ [i]) s' ∧ out.x = i.x ∧
        out.fnorm = Flt.vnorm i.fx ∧ out.xnorm = Flt.vnorm i.dx ∧ out.n = n + its.length + 1 ∧ its.length + 1 ≤ k ∧
        (∀ i ∈ its, i.converged ftol xtol = false) ∧ out.success = i.converged ftol xtol ∧
        (out.success = false → its.length + 1 = k) ∧
        (newtonLoopP verbose f df sp ftol xtol k n s x).text =
          if 0 < verbose then rowsFrom n ((its ++ [i]).map fun i => Flt.vnorm i.fx) else []
  | 0, _, _, _, _, _, h => by cases h
  | k + 1, n, s, s', x, out, h => by
    unfold newtonLoopP at h ⊢
    obtain ⟨⟨s1, J⟩, h1, h, t⟩ := Pr.bind_ok h
    rw [t]; clear t
    obtain ⟨⟨s2, b⟩, h2, h, t⟩ := Pr.bind_ok h
    rw [t]; clear t
    obtain ⟨dx, h3, h, t⟩ := Pr.bind_ok h
    rw [t]; clear t
    simp only [Pr.text_lift, List.nil_append]
    by_cases h4 : dx.length ≠ x.length
    · rw [if_pos h4] at h; cases h
    rw [if_neg h4] at h ⊢
    rw [not_not] at h4
    simp only at h ⊢
    obtain ⟨⟨s3, fx⟩, h5, h, t⟩ := Pr.bind_ok h
    rw [t]; clear t
    simp only [Pr.text_lift, List.nil_append]
    obtain ⟨_, -, h, t⟩ := Pr.bind_ok h
    rw [t]; clear t
    rw [Pr.text_sayIf]
    rw [Pr.res_lift] at h1 h2 h3 h5
    by_cases hc : (Flt.lt (Flt.vnorm fx) ftol && Flt.lt (Flt.vnorm dx) xtol) = true
    · rw [if_pos hc] at h ⊢
      cases h
      refine ⟨[], ⟨vadd x dx, fx, dx⟩, .cons h1 h2 h3 h4 h5 (.nil ..), rfl, rfl, rfl, by simp, by simp, by simp, hc.symm,
        by simp, ?_⟩
      simp only [Pr.text_pure, List.append_nil]
      split <;> rfl
    · rw [if_neg hc] at h ⊢
      have hc' : (⟨vadd x dx, fx, dx⟩ : Iter F).converged ftol xtol = false := by
        rw [Bool.not_eq_true] at hc
        exact hc
      cases k with
      | zero =>
        cases h
        refine ⟨[], ⟨vadd x dx, fx, dx⟩, .cons h1 h2 h3 h4 h5 (.nil ..), rfl, rfl, rfl, by simp, by simp, by simp, hc'.symm,
          by simp, ?_⟩
        simp only [Pr.text_pure, List.append_nil]
        split <;> rfl
      | succ k =>
        obtain ⟨its, i, e1, e2, e3, e4, e5, e6, e7, e8, e9, e10⟩ := newtonLoopP_rows (k + 1) (n + 1) h
        refine ⟨⟨vadd x dx, fx, dx⟩ :: its, i, .cons h1 h2 h3 h4 h5 e1, e2, e3, e4, ?_, ?_, ?_, e8, ?_, ?_⟩
        · rw [e5, List.length_cons]; push_cast; omega
        · rw [List.length_cons]; omega
        · intro i hi
          rcases List.mem_cons.1 hi with rfl | hi
          · exact hc'
          · exact e7 i hi
        · intro hs
          rw [List.length_cons, e9 hs]
        · simp only at e10 ⊢
          rw [e10]
          split
          · rfl
          · rfl

theorem Iterates.eval {S : Type} {f : S → List F → Py (S × List F)} {df : S → List F → Py (S × List (List F))}
    {sp : List (List F) → List F → Py (List F)} {s s' : S} {x : List F} {its : List (Iter F)}
    (h : Iterates f df sp s x its s') : ∀ i ∈ its, ∃ s1 s2, f s1 i.x = .ok (s2, i.fx) := by
  induction h with
  | nil => simp
  | cons h1 h2 h3 h4 h5 _ ih =>
    intro i hi
    rcases List.mem_cons.1 hi with rfl | hi
    · exact ⟨_, _, h5⟩
    · exact ih i hi

theorem extF_norm {P : Problem F} {V0 : List F} {j : Int} {xmax : F} {a a' : Analysis F} {V fx : List F}
    (h : extF P V0 j xmax false a V = .ok (a', fx)) : ResidualNorm P V0 j xmax V (Flt.vnorm fx) := by
  unfold extF at h
  obtain ⟨⟨a1, gv⟩, h1, h⟩ := py_bind_eq_ok.1 h
  obtain ⟨vj, h2, h⟩ := py_bind_eq_ok.1 h
  cases h
  exact ⟨_, _, _, _, h1, h2, rfl⟩

theorem target_parts {x w : List F} {j : Int} {xmax : F} (h : target x w j = .ok xmax) :
    ∃ b d, pyGet x (j.natAbs - 1) = .ok b ∧ pyGet w (j.natAbs - 1) = .ok d ∧ xmax = b + d * Flt.ofInt j.sign := by
  unfold target at h
  obtain ⟨b, h1, h⟩ := py_bind_eq_ok.1 h
  obtain ⟨d, h2, h⟩ := py_bind_eq_ok.1 h
  cases h
  exact ⟨b, d, h1, h2, rfl⟩

/-! ## The biggest components -/

theorem bigComp_pos {env : Env F} {d : List F} {k : Nat} {i : Int} {v : F} (h : bigComp env d k = .ok (i, v)) :
    ∃ (p : Nat) (w : F), (env.argsortF (d.map Flt.abs)).reverse[k - 1]? = some p ∧ d[p]? = some w ∧ i = (p : Int) + 1 ∧
      v = Flt.abs w * npSign w := by
  unfold bigComp at h
  split at h
  · cases h
  · next p hp =>
    split at h
    · cases h
    · next w hw => cases h; exact ⟨p, w, hp, hw, rfl, rfl⟩

/-- Nothing but the components listed before it is bigger. -/
theorem reverse_noBigger {env : Env F} (hs : env.Sorts) {d : List F} {k p : Nat} {top : List Int}
    (hp : (env.argsortF (d.map Flt.abs)).reverse[k]? = some p)
    (ht : ∀ m q, m ≤ k → (env.argsortF (d.map Flt.abs)).reverse[m]? = some q → ((q : Int) + 1) ∈ top) :
    NoBigger d top ((p : Int) + 1) := by
  intro q p' w w' hq hn hp' e
  have e : p' = p := by omega
  subst e
  have hqlt : q < d.length := (List.getElem?_eq_some_iff.1 hq).1
  have hmem : q ∈ (env.argsortF (d.map Flt.abs)).reverse := by
    rw [List.mem_reverse, (hs.ranks _).mem_iff, List.mem_range, List.length_map]
    exact hqlt
  obtain ⟨m, hm⟩ := List.getElem?_of_mem hmem
  have hkm : k < m := by
    by_contra hc
    exact hn (ht m q (by omega) hm)
  have hpw := List.pairwise_reverse.2 (hs.sorted (d.map Flt.abs))
  obtain ⟨h1, e1⟩ := List.getElem?_eq_some_iff.1 hp
  obtain ⟨h2, e2⟩ := List.getElem?_eq_some_iff.1 hm
  have := List.pairwise_iff_getElem.1 hpw k m h1 h2 hkm (Flt.abs w) (Flt.abs w')
  rw [e1, e2, List.getElem?_map, List.getElem?_map, hq, hp'] at this
  exact this rfl rfl

theorem reverse_ne {env : Env F} (hs : env.Ranks) {l : List F} {k m p q : Nat} (hkm : k ≠ m)
    (hp : (env.argsortF l).reverse[k]? = some p) (hq : (env.argsortF l).reverse[m]? = some q) : p ≠ q := by
  have hnd : (env.argsortF l).reverse.Nodup := List.nodup_reverse.2 ((hs l).nodup_iff.2 List.nodup_range)
  obtain ⟨h1, e1⟩ := List.getElem?_eq_some_iff.1 hp
  obtain ⟨h2, e2⟩ := List.getElem?_eq_some_iff.1 hq
  rintro rfl
  exact hkm ((hnd.getElem_inj_iff).1 (e1.trans e2.symm))

theorem bigComp_first {env : Env F} (hs : env.Sorts) {d : List F} {i1 : Int} {v1 : F}
    (h1 : bigComp env d 1 = .ok (i1, v1)) : ShowsComp d i1 v1 ∧ NoBigger d [i1] i1 := by
  obtain ⟨p, w, e1, e2, rfl, rfl⟩ := bigComp_pos h1
  refine ⟨⟨p, w, e2, rfl, rfl⟩, reverse_noBigger hs e1 ?_⟩
  intro m q hm hq
  have : m = 0 := by omega
  subst this
  rw [e1] at hq
  cases hq
  simp

theorem biggest_of {env : Env F} (hs : env.Sorts) {d : List F} {i1 i2 i3 : Int} {v1 v2 v3 : F}
    (h1 : bigComp env d 1 = .ok (i1, v1)) (h2 : bigComp env d 2 = .ok (i2, v2)) (h3 : thirdComp env d = .ok (i3, v3)) :
    Biggest d i1 v1 i2 v2 i3 v3 := by
  refine ⟨bigComp_first hs h1, ?_, ?_⟩
  all_goals
    obtain ⟨p, w, e1, e2, rfl, rfl⟩ := bigComp_pos h1
    obtain ⟨p2, w2, f1, f2, rfl, rfl⟩ := bigComp_pos h2
    have hne := reverse_ne hs.ranks (by decide) f1 e1
  · refine ⟨⟨p2, w2, f2, rfl, rfl⟩, by omega, reverse_noBigger hs f1 ?_⟩
    intro m q hm hq
    obtain rfl | rfl : m = 0 ∨ m = 1 := by omega
    · rw [e1] at hq; cases hq; simp
    · rw [f1] at hq; cases hq; simp
  · unfold thirdComp at h3
    split
    · next hd =>
      rw [if_pos hd] at h3
      obtain ⟨p3, w3, g1, g2, rfl, rfl⟩ := bigComp_pos h3
      have hne1 := reverse_ne hs.ranks (by decide) g1 e1
      have hne2 := reverse_ne hs.ranks (by decide) g1 f1
      refine ⟨⟨p3, w3, g2, rfl, rfl⟩, by omega, by omega, reverse_noBigger hs g1 ?_⟩
      intro m q hm hq
      obtain rfl | rfl | rfl : m = 0 ∨ m = 1 ∨ m = 2 := by omega
      · rw [e1] at hq; cases hq; simp
      · rw [f1] at hq; cases hq; simp
      · rw [g1] at hq; cases hq; simp
    · next hd =>
      rw [if_neg hd] at h3
      cases h3
      exact ⟨rfl, rfl⟩

/-! ## Cycles -/

theorem dxmaxControlP_z {cfg : PFCfg F} {dxmax dxmax0 : List F} {j j0 z : Int} {ok : Bool} {b n nfev : Int} {o : DxOut F}
    (h : (dxmaxControlP cfg dxmax dxmax0 j j0 z ok b n nfev).res = .ok o) :
    o.z = z ∨ (z + 1 = cfg.cycl ∧ o.z = 0) := by
  unfold dxmaxControlP at h
  obtain ⟨d, -, h, -⟩ := Pr.bind_ok h
  obtain ⟨d0, -, h, -⟩ := Pr.bind_ok h
  split at h
  · split at h
    · simp only at h
      obtain ⟨_, -, h, -⟩ := Pr.bind_ok h
      have key : ∀ {z'}, z' = (if decide (z + 1 = cfg.cycl) = true then 0 else z) → z' = z ∨ (z + 1 = cfg.cycl ∧ z' = 0) := by
        intro z' hz
        split at hz
        · next hf => exact .inr ⟨of_decide_eq_true hf, hz⟩
        · exact .inl hz
      split at h
      · obtain ⟨v, -, h, -⟩ := Pr.bind_ok h
        obtain ⟨_, -, h, -⟩ := Pr.bind_ok h
        cases h
        exact key rfl
      · cases h
        exact key rfl
    · cases h; exact .inl rfl
  · split at h
    · split at h
      · split at h
        · cases h; exact .inl rfl
        · split at h
          · obtain ⟨_, -, h, -⟩ := Pr.bind_ok h
            cases h; exact .inl rfl
          · simp only at h
            obtain ⟨_, -, h, -⟩ := Pr.bind_ok h
            cases h; exact .inl rfl
      · cases h; exact .inl rfl
    · split at h <;> cases h <;> exact .inl rfl

theorem nextWidthP_z {cfg : PFCfg F} {rc : RCtx F} {st : RState F} {j : Int} {nr : NewtonOut F} {o : DxOut F}
    (h : (nextWidthP cfg rc st j nr).res = .ok o) :
    o.z = st.z ∨ (cfg.stepcontrol = true ∧ st.z + 1 = cfg.cycl ∧ o.z = 0) := by
  unfold nextWidthP at h
  split at h
  · next hs =>
    rcases dxmaxControlP_z h with h | h
    · exact .inl h
    · exact .inr ⟨hs, h⟩
  · cases h; exact .inl rfl

/-- A pass of the recycle loop that returns is a cycle with a true table. -/
theorem attemptP_cycle {env : Env F} (hs : env.Sorts) {verbose : Int} {P : Problem F} {cfg : PFCfg F} {rc : RCtx F}
    {st st' : RState F} {o : Option Outcome} (h : (attemptP verbose env P cfg rc st).res = .ok (st', o)) :
    ∃ c : Cycle F, (attemptP verbose env P cfg rc st).text = c.text verbose ∧ c.IsTrue P cfg rc.x0 ∧
      c.number = st.z + 1 ∧ c.before = st.nPre ∧ c.width = st.dxmax ∧ c.out = o ∧
      c.iterates.getLast? = some st'.x ∧ o ≠ some .predictor ∧
      (o = none → st'.nPre = 0 ∧
        (st'.z = st.z + 1 ∨ (cfg.stepcontrol = true ∧ st.z + 1 = cfg.cycl ∧ st'.z = 1))) := by
  unfold attemptP at h ⊢
  obtain ⟨_, -, h, t0⟩ := Pr.bind_ok h
  rw [t0]; clear t0
  obtain ⟨xmax, h1, h, t0⟩ := Pr.bind_ok h
  rw [t0]; clear t0
  obtain ⟨⟨a, nr⟩, h2, h, t0⟩ := Pr.bind_ok h
  rw [t0]; clear t0
  obtain ⟨⟨i1, v1⟩, h3, h, t0⟩ := Pr.bind_ok h
  rw [t0]; clear t0
  obtain ⟨⟨i2, v2⟩, h4, h, t0⟩ := Pr.bind_ok h
  rw [t0]; clear t0
  obtain ⟨⟨i3, v3⟩, h5, h, t0⟩ := Pr.bind_ok h
  rw [t0]; clear t0
  obtain ⟨_, -, h, t0⟩ := Pr.bind_ok h
  rw [t0]; clear t0
  obtain ⟨j, h6, h, t0⟩ := Pr.bind_ok h
  rw [t0]; clear t0
  obtain ⟨valid, h7, h, t0⟩ := Pr.bind_ok h
  rw [t0]; clear t0
  obtain ⟨dc, h8, h, t0⟩ := Pr.bind_ok h
  rw [t0]; clear t0
  obtain ⟨its, i, n1, n2, n3, n4, n5, n6, n7, n8, n9, n10⟩ := newtonLoopP_rows _ _ h2
  simp only [Pr.text_lift, Pr.text_sayIf, List.nil_append]
  rw [Pr.res_lift] at h1 h3 h4 h5
  obtain ⟨b, w, g1, g2, rfl⟩ := target_parts h1
  have hfin : st'.x = nr.x ∧ o ≠ some .predictor ∧ (o = some .accepted → nr.success = true) ∧
      (o = none → st'.nPre = 0 ∧ st'.z = dc.z + 1) := by
    clear h2 h3 h4 h5 h7 h6 h8
    split at h
    · next hv =>
      obtain ⟨⟨a2, w⟩, -, h, -⟩ := Pr.bind_ok h
      rw [Bool.and_eq_true] at hv
      cases h
      exact ⟨rfl, by simp, fun _ => hv.2, by simp⟩
    · split at h
      · obtain ⟨_, -, h, -⟩ := Pr.bind_ok h
        cases h; exact ⟨rfl, by simp, by simp, by simp⟩
      · split at h
        · obtain ⟨_, -, h, -⟩ := Pr.bind_ok h
          cases h; exact ⟨rfl, by simp, by simp, by simp⟩
        · obtain ⟨_, -, h, -⟩ := Pr.bind_ok h
          cases h; exact ⟨rfl, by simp, by simp, fun _ => ⟨rfl, rfl⟩⟩
  obtain ⟨q1, q2, q3, q4⟩ := hfin
  have hlast : ((its ++ [i]).map fun i => Flt.vnorm i.fx).getLast? = some nr.fnorm := by
    rw [List.map_append, List.map_singleton, List.getLast?_concat, n3]
  refine ⟨⟨st.z + 1, st.nPre, st.j, st.dxmax, (its ++ [i]).map (·.x), (its ++ [i]).map fun i => Flt.vnorm i.fx,
    (i1, v1, i2, v2, i3, v3), (nextWidthP cfg rc st j nr).text, o⟩, ?_, ?_, rfl, rfl, rfl, rfl, ?_, q2, ?_⟩
  · unfold Cycle.text
    simp only [hlast, Option.getD_some]
    have hn : ((((its ++ [i]).map fun i => Flt.vnorm i.fx).length : Int) + st.nPre) = nr.n + st.nPre := by
      rw [n5]; simp
    rw [hn, iterRows_eq, ← n10]
    simp only [List.append_assoc, newtonP, List.append_cancel_left_eq]
    clear h2 h3 h4 h5 h7 h6 h8 n10
    split at h
    · next hv =>
      rw [if_pos hv]
      obtain ⟨⟨a2, w⟩, -, h, t0⟩ := Pr.bind_ok h
      rw [t0]; cases h; rfl
    · next hv =>
      rw [if_neg hv]
      split at h
      · next hz =>
        rw [if_pos hz]
        obtain ⟨_, -, h, t0⟩ := Pr.bind_ok h
        rw [t0]; cases h; rfl
      · next hz =>
        rw [if_neg hz]
        split at h
        · next hj =>
          rw [if_pos hj]
          obtain ⟨_, -, h, t0⟩ := Pr.bind_ok h
          rw [t0]; cases h; rfl
        · next hj =>
          rw [if_neg hj]
          obtain ⟨_, -, h, t0⟩ := Pr.bind_ok h
          rw [t0]; cases h; rfl
  · constructor
    · simp
    · simp
    · refine ⟨b, w, g1, g2, fun k x f hx hf => ?_⟩
      rw [List.getElem?_map] at hx hf
      cases hk : (its ++ [i])[k]? with
      | none => rw [hk] at hx; cases hx
      | some it =>
        rw [hk] at hx hf
        cases hx
        cases hf
        obtain ⟨s1, s2, he⟩ := n1.eval it (List.mem_of_getElem? hk)
        exact extF_norm he
    · intro x hx
      rw [List.map_append, List.map_singleton, List.getLast?_concat] at hx
      cases hx
      simp only [n2] at h3 h4 h5
      exact biggest_of hs h3 h4 h5
    · simp only [List.length_map, List.length_append, List.length_singleton]
      push_cast
      omega
    · intro ho
      refine ⟨_, hlast, ?_⟩
      have := q3 ho
      rw [n8] at this
      unfold Iter.converged at this
      rw [Bool.and_eq_true] at this
      rw [n3]
      exact this.1
    · intro l hl
      obtain ⟨w1, w2⟩ := nextWidthP_every cfg rc st j nr l hl
      exact ⟨w2, w1⟩
  · rw [List.map_append, List.map_singleton, List.getLast?_concat, q1, n2]
  · intro ho
    obtain ⟨r1, r2⟩ := q4 ho
    refine ⟨r1, ?_⟩
    rcases nextWidthP_z h8 with hz | ⟨hz1, hz2, hz3⟩
    · exact .inl (by omega)
    · exact .inr ⟨hz1, hz2, by omega⟩

theorem recycleP_cycles {env : Env F} (hs : env.Sorts) {verbose : Int} {P : Problem F} {cfg : PFCfg F} {rc : RCtx F} :
    ∀ (k : Nat) {st st' : RState F} {o : Outcome}, (recycleP verbose env P cfg rc k st).res = .ok (st', o) →
      ∃ (c : Cycle F) (cs : List (Cycle F)), (recycleP verbose env P cfg rc k st).text = (c :: cs).flatMap (Cycle.text verbose) ∧
        (∀ c' ∈ c :: cs, c'.IsTrue P cfg rc.x0) ∧ (c :: cs).IsChain (Cycle.Next cfg) ∧ c.number = st.z + 1 ∧
        c.before = st.nPre ∧ c.width = st.dxmax ∧ o ≠ .predictor ∧
        ∃ c', (c :: cs).getLast? = some c' ∧ c'.out = some o ∧ c'.iterates.getLast? = some st'.x
  | 0, _, _, _, h => by cases h
  | k + 1, st, st', o, h => by
    unfold recycleP at h ⊢
    obtain ⟨⟨st1, o1⟩, h1, h, t⟩ := Pr.bind_ok h
    rw [t]; clear t
    obtain ⟨c, e1, e2, e3, e4, e5, e6, e7, e8, e9⟩ := attemptP_cycle hs h1
    cases o1 with
    | some o1 =>
      cases h
      refine ⟨c, [], ?_, ?_, ?_, e3, e4, e5, fun h => e8 (by rw [h]), c, rfl, e6, e7⟩
      · simp [e1]
      · intro c' hc; cases List.mem_singleton.1 hc; exact e2
      · exact List.IsChain.singleton c
    | none =>
      simp only at h ⊢
      obtain ⟨c2, cs, f1, f2, f3, f4, f5, f6, f7, c', f8, f9, f10⟩ := recycleP_cycles hs k h
      obtain ⟨r1, r2⟩ := e9 rfl
      refine ⟨c, c2 :: cs, ?_, ?_, ?_, e3, e4, e5, f7, c', ?_, f9, f10⟩
      · rw [e1, f1]; rfl
      · intro c' hc
        rcases List.mem_cons.1 hc with rfl | hc
        · exact e2
        · exact f2 c' hc
      · refine List.IsChain.cons_cons ⟨e6, ?_, ?_⟩ f3
        · rcases r2 with r2 | ⟨r2, r3, r4⟩
          · exact .inl (by omega)
          · exact .inr ⟨r2, by omega, by omega⟩
        · rw [f5]; exact r1
      · rw [List.getLast?_cons_cons]; exact f8

theorem predictorP_row {env : Env F} (hs : env.Sorts) {verbose : Int} {P : Problem F} {cfg : PFCfg F} {s : PState F}
    {pre : PreOut F} (h : (predictorP verbose env P cfg s).res = .ok pre) :
    (∀ l ∈ (predictorP verbose env P cfg s).text, PredictorRow P s.x s.dxmax l) ∧
      (predictorP verbose env P cfg s).text.length ≤ 1 ∧
      (1 < verbose → pre.nPre = (predictorP verbose env P cfg s).text.length) := by
  unfold predictorP at h ⊢
  by_cases hp : s.jPre ≠ 0 ∧ cfg.jFixed = false
  · rw [if_pos hp] at h ⊢
    obtain ⟨xmax, h1, h, t⟩ := Pr.bind_ok h
    rw [t]; clear t
    obtain ⟨⟨a, nr⟩, h2, h, t⟩ := Pr.bind_ok h
    rw [t]; clear t
    obtain ⟨⟨i1, v1⟩, h3, h, t⟩ := Pr.bind_ok h
    rw [t]; clear t
    obtain ⟨j, h4, h, t⟩ := Pr.bind_ok h
    rw [t]; clear t
    obtain ⟨_, -, h, t⟩ := Pr.bind_ok h
    rw [t]; clear t
    obtain ⟨its, i, n1, n2, n3, n4, n5, n6, n7, n8, n9, n10⟩ := newtonLoopP_rows _ _ h2
    have n10 : (newtonP 0 (extF P s.x s.j xmax false) (extDf P s.j) env.spsolve s.a s.x 1 cfg.ftol cfg.xtol).text = [] := n10
    simp only [Pr.text_lift, Pr.text_sayIf, List.nil_append, n10, Pr.text_pure, List.append_nil]
    cases h
    have hlen : its.length = 0 := by
      have : its.length + 1 ≤ (1 : Int).toNat := n6
      simpa using this
    have hn : nr.n = 1 := by rw [n5, hlen]; rfl
    rw [Pr.res_lift] at h1 h3
    obtain ⟨b, w, g1, g2, rfl⟩ := target_parts h1
    refine ⟨?_, ?_, ?_⟩
    · intro l hl
      split at hl
      · cases List.mem_singleton.1 hl
        refine ⟨rfl, by rw [hn]; rfl, b, w, nr.x, g1, g2, ?_, bigComp_first hs h3⟩
        obtain ⟨s1, s2, he⟩ := n1.eval i (by simp)
        rw [n3, n2]
        exact extF_norm he
      · cases hl
    · split <;> simp
    · intro hv
      rw [if_pos hv]
      exact hn
  · rw [if_neg hp] at h ⊢
    cases h
    simp

/-- The table of an increment. -/
theorem incrementP_table {env : Env F} (hs : env.Sorts) {verbose : Int} {P : Problem F} {cfg : PFCfg F} {dxmax0 : List F}
    {fuel i : Nat} {s s' : PState F} {o : Outcome}
    (h : (incrementP verbose env P cfg dxmax0 fuel i s).res = .ok (s', o)) :
    ∃ (T : List (Line F)) (lpf : F), IncTable verbose P cfg s.x ⟨s'.x, s'.a, o⟩ T ∧ (∀ l ∈ T, l.isInner = true) ∧
      (incrementP verbose env P cfg dxmax0 fuel i s).text = (if 0 < verbose then [.incHead i] else []) ++ T ++
        (if 0 < verbose then [.finalLpf lpf] else []) := by
  have hin : ∀ T : List (Line F), ∀ lpf, (incrementP verbose env P cfg dxmax0 fuel i s).text =
      (if 0 < verbose then [.incHead i] else []) ++ T ++ (if 0 < verbose then [.finalLpf lpf] else []) →
      ∀ l ∈ T, l.isInner = true := by
    intro T lpf hT
    obtain ⟨T', lpf', e1, -, -, -, e5⟩ := incrementP_text h
    rw [hT] at e5
    split at e5
    · rw [List.append_assoc, List.append_assoc, List.append_cancel_left_eq, List.append_eq_append_iff] at e5
      have : T = T' := by
        rcases e5 with ⟨as, r1, r2⟩ | ⟨as, r1, r2⟩
        · have := congrArg List.length r2
          cases as with
          | nil => simpa using r1.symm
          | cons _ _ => simp at this
        · have := congrArg List.length r2
          cases as with
          | nil => simpa using r1
          | cons _ _ => simp at this
      rw [this]
      exact fun l hl => (e1 l hl).1
    · simp only [List.nil_append, List.append_nil] at e5
      rw [e5]
      exact fun l hl => (e1 l hl).1
  suffices hk : ∃ (T : List (Line F)) (lpf : F), IncTable verbose P cfg s.x ⟨s'.x, s'.a, o⟩ T ∧
      (incrementP verbose env P cfg dxmax0 fuel i s).text = (if 0 < verbose then [.incHead i] else []) ++ T ++
        (if 0 < verbose then [.finalLpf lpf] else []) by
    obtain ⟨T, lpf, k1, k2⟩ := hk
    exact ⟨T, lpf, k1, hin T lpf k2, k2⟩
  clear hin
  unfold incrementP at h ⊢
  obtain ⟨⟨jp, st, o'⟩, h1, h, t⟩ := Pr.bind_ok h
  rw [t]; clear t
  cases hl : st.x.getLast? with
  | none => simp only [hl] at h; cases h
  | some lpf =>
    simp only [hl] at h ⊢
    obtain ⟨_, -, h, t⟩ := Pr.bind_ok h
    rw [t]; clear t
    cases h
    simp only [Pr.text_sayIf, Pr.text_pure, List.append_nil]
    unfold solveIncP at h1 ⊢
    obtain ⟨_, -, h1, t⟩ := Pr.bind_ok h1
    rw [t]; clear t
    obtain ⟨_, -, h1, t⟩ := Pr.bind_ok h1
    rw [t]; clear t
    obtain ⟨pre, h2, h1, t⟩ := Pr.bind_ok h1
    rw [t]; clear t
    simp only [Pr.text_sayIf]
    obtain ⟨p1, p2, p3⟩ := predictorP_row hs h2
    cases hsu : pre.success with
    | true =>
      simp only [hsu, if_true] at h1 ⊢
      cases h1
      refine ⟨(if 1 < verbose then [Line.tableHead] else []) ++ (predictorP verbose env P cfg s).text, lpf, ⟨_, s.dxmax, [], ?_, p1, p2, ?_, ?_, ?_, ?_⟩, ?_⟩
      · simp
      · simp
      · exact List.IsChain.nil
      · simp
      · rw [if_pos rfl]; exact ⟨rfl, rfl⟩
      · simp
    | false =>
      simp only [hsu] at h1 ⊢
      rw [if_neg (show ¬ (false = true) by simp)] at h1 ⊢
      obtain ⟨⟨st2, o2⟩, h3, h1, t⟩ := Pr.bind_ok h1
      rw [t]; clear t
      cases h1
      obtain ⟨c, cs, f1, f2, f3, f4, f5, f6, f7, c', f8, f9, f10⟩ := recycleP_cycles hs fuel h3
      refine ⟨(if 1 < verbose then [Line.tableHead] else []) ++ (predictorP verbose env P cfg s).text ++
        (recycleP verbose env P cfg ⟨s.x, dxmax0, pre.jPre, pre.DxPre, pre.vPre⟩ fuel
          ⟨s.x, 0, pre.nPre, s.dxmax, pre.j, s.b, pre.a⟩).text, lpf,
        ⟨_, s.dxmax, c :: cs, by rw [f1], p1, p2, f2, f3, ?_, ?_⟩, ?_⟩
      · intro c0 hc
        cases hc
        exact ⟨f4, f6, fun hv => by rw [f5]; exact p3 hv⟩
      · rw [if_neg f7]
        exact ⟨c', f8, f9, f10⟩
      · simp

/-! ## Steps -/

/-- The text of the increment loop. -/
theorem incrLoopP_body {env : Env F} (hs : env.Sorts) {verbose : Int} {P : Problem F} {cfg : PFCfg F} {dxmax0 : List F}
    {fuel : Nat} : ∀ (k i : Nat) {s s' : PState F} {recs : List (Rec F)},
      (incrLoopP verbose env P cfg dxmax0 fuel k i s).res = .ok (s', recs) →
      ∃ (es : List (F × List (Line F))) (ex : Bool),
        (incrLoopP verbose env P cfg dxmax0 fuel k i s).text = incsText verbose i es ++ (if ex then [.exit1] else []) ∧
        es.map (fun e => some e.1) = recs.map (·.a.lpf) ∧
        (∀ (n : Nat) prev r e, (s.x :: recs.map (·.x))[n]? = some prev → recs[n]? = some r → es[n]? = some e →
          IncTable verbose P cfg prev r e.2) ∧
        (ex = true ↔ ∃ r, recs.getLast? = some r ∧ r.out.isStop = false ∧ ExceedsLimit r.x cfg.xlimit)
  | 0, i, s, s', recs, h => by
    cases h
    exact ⟨[], false, rfl, rfl, by simp, by simp⟩
  | k + 1, i, s, s', recs, h => by
    unfold incrLoopP at h ⊢
    obtain ⟨⟨s1, o⟩, h1, h, t⟩ := Pr.bind_ok h
    rw [t]; clear t
    obtain ⟨T, lpf, e1, e2, e3⟩ := incrementP_table hs h1
    have hl : s1.a.lpf = some lpf ∨ ¬ 0 < verbose := by
      obtain ⟨T', lpf', -, -, f3, -, f5⟩ := incrementP_text h1
      by_cases hv : 0 < verbose
      · rw [e3] at f5
        simp only [if_pos hv] at f5
        have := congrArg List.getLast? f5
        simp only [List.append_assoc, List.getLast?_append, List.getLast?_singleton, Option.some_or, Option.some.injEq,
          Line.finalLpf.injEq] at this
        rw [this]
        exact .inl f3
      · exact .inr hv
    have hl' : ∃ l, s1.a.lpf = some l ∧ (0 < verbose → l = lpf) := by
      obtain ⟨T', lpf', -, -, f3, -, f5⟩ := incrementP_text h1
      refine ⟨lpf', f3, fun hv => ?_⟩
      rcases hl with hl | hl
      · rw [f3] at hl; cases hl; rfl
      · exact absurd hv hl
    obtain ⟨l, hl1, hl2⟩ := hl'
    have e3 : (incrementP verbose env P cfg dxmax0 fuel i s).text = (if 0 < verbose then [.incHead i] else []) ++ T ++
        (if 0 < verbose then [.finalLpf l] else []) := by
      rw [e3]
      split
      · next hv => rw [hl2 hv]
      · rfl
    rw [e3]
    simp only at h ⊢
    cases ho : o.isStop with
    | true =>
      simp only [ho, if_true] at h ⊢
      cases h
      refine ⟨[(l, T)], false, ?_, ?_, ?_, ?_⟩
      · simp [incsText]
      · simp [hl1]
      · intro n prev r e g1 g2 g3
        cases n with
        | zero => cases g1; cases g2; cases g3; exact e1
        | succ n => simp at g2
      · simp [ho]
    | false =>
      simp only [ho] at h ⊢
      rw [if_neg (show ¬ (false = true) by simp)] at h ⊢
      obtain ⟨lim, h2, h, t⟩ := Pr.bind_ok h
      rw [t]; clear t
      rw [Pr.text_lift, List.nil_append]
      cases lim with
      | true =>
        rw [if_pos rfl] at h ⊢
        obtain ⟨_, -, h, t⟩ := Pr.bind_ok h
        rw [t]; clear t
        cases h
        refine ⟨[(l, T)], true, ?_, ?_, ?_, ?_⟩
        · simp [incsText]
        · simp [hl1]
        · intro n prev r e g1 g2 g3
          cases n with
          | zero => cases g1; cases g2; cases g3; exact e1
          | succ n => simp at g2
        · refine ⟨fun _ => ⟨_, rfl, ho, limitReached_true h2⟩, fun _ => rfl⟩
      | false =>
        rw [if_neg (show ¬ (false = true) by simp)] at h ⊢
        obtain ⟨⟨s2, rest⟩, h3, h, t⟩ := Pr.bind_ok h
        rw [t]; clear t
        cases h
        obtain ⟨es, ex, f1, f2, f3, f4⟩ := incrLoopP_body hs k (i + 1) h3
        refine ⟨(l, T) :: es, ex, ?_, ?_, ?_, ?_⟩
        · rw [f1]
          simp [incsText]
        · simp [hl1, f2]
        · intro n prev r e g1 g2 g3
          cases n with
          | zero => cases g1; cases g2; cases g3; exact e1
          | succ n =>
            simp only [List.map_cons, List.getElem?_cons_succ] at g1 g2 g3
            exact f3 n prev r e g1 g2 g3
        · rw [f4]
          cases rest with
          | nil =>
            have hn := limitReached_false h2
            constructor
            · rintro ⟨r, hr, _⟩; cases hr
            · rintro ⟨r, hr, _, hx⟩; cases hr; exact absurd hx hn
          | cons r rest => rw [List.getLast?_cons_cons]

theorem pathfollowP_body {env : Env F} (hs : env.Sorts) {verbose : Int} {P : Problem F} {cfg : PFCfg F} {fuel : Nat}
    {x : List F} {a : Analysis F} {o : PFOut F} (h : (pathfollowP verbose env P cfg fuel x a).res = .ok o) :
    o.startA = a ∧ ∃ (es : List (F × List (Line F))) (ex : Bool),
      (pathfollowP verbose env P cfg fuel x a).text = incsText verbose 1 es ++ (if ex then [.exit1] else []) ∧
      es.map (fun e => some e.1) = o.recs.map (·.a.lpf) ∧
      (∀ (n : Nat) prev r e, o.resX[n]? = some prev → o.recs[n]? = some r → es[n]? = some e →
        IncTable verbose P cfg prev r e.2) ∧
      (ex = true ↔ ∃ r, o.recs.getLast? = some r ∧ (r.out = .accepted ∨ r.out = .predictor) ∧ ExceedsLimit r.x cfg.xlimit) := by
  unfold pathfollowP at h ⊢
  obtain ⟨j, h1, h, t⟩ := Pr.bind_ok h
  rw [t]; clear t
  rw [Pr.text_lift, List.nil_append]
  by_cases hd : (initDxmax (x ++ [0]) cfg.dxmax).length ≠ (x ++ [0]).length ∧ cfg.incs ≠ 0
  · simp only [if_pos hd] at h; cases h
  · simp only [if_neg hd] at h ⊢
    obtain ⟨⟨s, recs⟩, h2, h, t⟩ := Pr.bind_ok h
    rw [t]; clear t
    cases h
    rw [Pr.text_pure, List.append_nil]
    obtain ⟨es, ex, f1, f2, f3, f4⟩ := incrLoopP_body hs _ _ h2
    refine ⟨rfl, es, ex, f1, f2, f3, ?_⟩
    rw [f4]
    have e2 : ∀ o : Outcome, o.isStop = false ↔ (o = .accepted ∨ o = .predictor) := by
      intro o; cases o <;> simp [Outcome.isStop]
    simp only [e2]

theorem writeText_eq (n : Nat) : ∀ (i : Nat) (es : List (F × List (Line F))) (as : List (Analysis F)),
    es.map (fun e => some e.1) = as.map (·.lpf) →
    writeText n i as = es.mapIdx fun k e => .writeResult (i + k) n e.1
  | _, [], [], _ => rfl
  | _, [], _ :: _, h => by simp at h
  | _, _ :: _, [], h => by simp at h
  | i, e :: es, a :: as, h => by
    simp only [List.map_cons, List.cons.injEq] at h
    rw [writeText, writeText_eq n (i + 1) es as h.2, List.mapIdx_cons, ← h.1]
    simp only [Option.getD_some, Nat.add_zero, List.cons.injEq, true_and]
    congr 1
    funext k e
    congr 1
    omega

theorem runStepP_report {env : Env F} (hs : env.Sorts) {fuel : Nat} {c : Ctx F} {s : Settings F} {rows : List (List F)}
    {a : Analysis F} {res : Results F} {st' : Analysis F × Results F} {k : Nat}
    (h : (runStepP env fuel c s rows (a, res) k).res = .ok st') :
    ∃ incs xl a1 o p, stepIncs s k = .ok incs ∧ stepXlimit s k = .ok xl ∧ setStep rows res.stepLpfEnd k a = .ok a1 ∧
      (pathfollowP s.log env (modelProblem c) (stepCfg s incs xl) fuel a1.Ured a1).res = .ok o ∧
      StepReport.IsTrue s.log c s k o p ∧ (runStepP env fuel c s rows (a, res) k).text = p.text s.log k := by
  obtain ⟨incs, xl, a1, fc, o, f1, f2, f3, f4, f5, f6⟩ := runStepP_text h
  obtain ⟨e0, es, ex, e1, e2, e3, e4⟩ := pathfollowP_body hs f5
  have ha : ∃ ef, a1.extForces = some ef ∧ fc = ef.forcesConst ∧ a1.Vred = a.Vred := by
    have f4 := f4
    unfold setStep at f4
    rw [f3] at f4
    obtain ⟨fc', g1, g⟩ := py_bind_eq_ok.1 f4
    cases g1
    obtain ⟨f0, g2, g⟩ := py_bind_eq_ok.1 g
    cases g
    exact ⟨_, rfl, rfl, rfl⟩
  obtain ⟨ef, ha1, ha2, ha3⟩ := ha
  refine ⟨incs, xl, a1, o, ⟨fc, a.Vred, es, ex⟩, f1, f2, f4, f5, ⟨e2, ⟨_, .of f1 f2, e3, e4⟩, ?_, ?_⟩, ?_⟩
  · rw [e0]; exact ⟨ef, ha1, ha2⟩
  · rw [e0, ha3]
  · rw [f6, e1]
    unfold StepReport.text
    have hlen : es.length = o.recs.length := by
      have := congrArg List.length e2
      simpa using this
    have hw : writeText o.recs.length 1 (o.recs.map (·.a)) =
        es.mapIdx fun i e => (.writeResult (i + 1) es.length e.1 : Line F) := by
      rw [writeText_eq _ 1 es (o.recs.map (·.a)) (by rw [e2, List.map_map]; rfl), hlen]
      congr 1
      funext i e
      rw [Nat.add_comm]
    rw [hw]

/-- The texts of the steps, the first one has number `k + 1`. -/
def stepsText (log : Int) : Nat → List (StepReport F) → List (Line F)
  | _, [] => []
  | k, p :: ps => p.text log k ++ stepsText log (k + 1) ps

theorem stepsText_eq (log : Int) (k : Nat) (ps : List (StepReport F)) :
    stepsText log k ps = (ps.mapIdx fun i p => p.text log (k + i)).flatten := by
  induction ps generalizing k with
  | nil => rfl
  | cons p ps ih =>
    rw [stepsText, ih, List.mapIdx_cons, List.flatten_cons]
    congr 3
    funext i p
    congr 1
    omega

theorem stepsText_snoc (log : Int) (k : Nat) (ps : List (StepReport F)) (p : StepReport F) :
    stepsText log k (ps ++ [p]) = stepsText log k ps ++ p.text log (k + ps.length) := by
  induction ps generalizing k with
  | nil => simp [stepsText]
  | cons q ps ih =>
    rw [List.cons_append, stepsText, ih, stepsText, List.append_assoc, List.length_cons]
    congr 3
    omega

/-- The steps `outs` with true reports `ps`. -/
def TrueReports (log : Int) (c : Ctx F) (s : Settings F) (outs : List (PFOut F)) (ps : List (StepReport F)) : Prop :=
  ps.length = outs.length ∧ ∀ k o p, outs[k]? = some o → ps[k]? = some p → StepReport.IsTrue log c s k o p

theorem TrueReports.snoc {log : Int} {c : Ctx F} {s : Settings F} {outs : List (PFOut F)} {ps : List (StepReport F)}
    (h : TrueReports log c s outs ps) {o : PFOut F} {p : StepReport F} (hp : StepReport.IsTrue log c s outs.length o p) :
    TrueReports log c s (outs ++ [o]) (ps ++ [p]) := by
  refine ⟨by simp [h.1], fun k o' p' h1 h2 => ?_⟩
  rcases Nat.lt_or_ge k outs.length with hk | hk
  · rw [List.getElem?_append_left hk] at h1
    rw [List.getElem?_append_left (by rw [h.1]; exact hk)] at h2
    exact h.2 k o' p' h1 h2
  · rw [List.getElem?_append_right hk] at h1
    rw [List.getElem?_append_right (by rw [h.1]; exact hk)] at h2
    have hk : k = outs.length := by
      have := (List.getElem?_eq_some_iff.1 h1).1
      simp at this
      omega
    subst hk
    rw [h.1] at h2
    simp at h1 h2
    subst h1 h2
    exact hp

theorem stepsP_full {env : Env F} (hs : env.Sorts) {fuel : Nat} {c : Ctx F} {s : Settings F}
    (hc : s.stepcontrol = true → Flt.eq s.reduce 0 = false) {rows : List (List F)} {a0 : Analysis F} {r0 : Results F} :
    ∀ (n : Nat) {a : Analysis F} {res : Results F}, n ≤ s.nsteps →
      (stepsP env fuel c s rows (List.range n) (a0, r0)).res = .ok (a, res) →
      ∃ outs ps a1 R le, outs.length = n ∧ Steps env fuel c s rows a0 r0 outs a1 ⟨R, le⟩ ∧ TrueReports s.log c s outs ps ∧
        (stepsP env fuel c s rows (List.range n) (a0, r0)).text = stepsText s.log 0 ps ∧
        (n < s.nsteps ∨ n = 0 → a = a1 ∧ res = ⟨R, le⟩) ∧ (0 < n → n = s.nsteps → res = ⟨R.dropLast, le⟩)
  | 0, a, res, _, h => by
    cases h
    exact ⟨[], [], a0, r0.R, r0.stepLpfEnd, rfl, .nil, ⟨rfl, by simp⟩, rfl, fun _ => ⟨rfl, rfl⟩, fun h => absurd h (by omega)⟩
  | n + 1, a, res, hn, h => by
    rw [List.range_succ, stepsP_append] at h ⊢
    obtain ⟨⟨a1, res1⟩, h1, h, t⟩ := Pr.bind_ok h
    rw [t]; clear t
    obtain ⟨outs, ps, a1', R1, le1, hl, hst, hrep, ht, hlt, -⟩ := stepsP_full hs hc n (by omega) h1
    obtain ⟨rfl, rfl⟩ := hlt (.inl (by omega))
    obtain ⟨incs', xl', a1', o', p, f1, f2, f4, f5, f6, f7⟩ := runStepP_report hs h
    rw [f7, ht]
    rw [runStepP_res hs.ranks fuel c hc] at h
    obtain ⟨incs, xl, a1'', o, R, l, g1, g2, g3, g4, g5, g6, g7⟩ := runStep_ok h
    rw [f1] at g1; cases g1
    rw [f2] at g2; cases g2
    rw [f4] at g3; cases g3
    have hpr : (stepCfg s incs' xl').Prints := hc
    rw [pathfollowP_res hs.ranks _ _ hpr, g4] at f5
    cases f5
    rw [← hl] at f1 f2 f4 f6 ⊢
    refine ⟨outs ++ [o'], ps ++ [p], _, _, _, by simp, .snoc hst f1 f2 f4 g4 g5 g6, hrep.snoc f6, ?_, ?_, ?_⟩
    · rw [stepsText_snoc, hrep.1, Nat.zero_add]
    · intro hlt
      rw [if_pos (by omega)] at g7
      exact g7
    · intro _ he
      rw [if_neg (by omega)] at g7
      exact g7.2

theorem paramsP_text {s : Settings F} (h : (paramsP s).res = .ok ()) : (paramsP s).text = paramText s := by
  unfold paramsP at h ⊢
  unfold paramText
  by_cases hl : 1 < s.log
  · rw [if_pos hl] at h ⊢
    rw [if_pos hl]
    obtain ⟨_, -, h, t⟩ := Pr.bind_ok h
    rw [t]; clear t
    obtain ⟨_, h2, h, t⟩ := Pr.bind_ok h
    rw [t]; clear t
    obtain ⟨_, -, h, t⟩ := Pr.bind_ok h
    rw [t]; clear t
    have hj : (j0P s.j0 : Pr F Unit).text = [.param "j0" .lpf] := by
      unfold j0P at h2 ⊢
      split at h2
      · rfl
      · cases h2
    rw [hj]
    by_cases hc : s.stepcontrol = true
    · rw [if_pos hc] at h ⊢
      rw [if_pos hc]
      obtain ⟨_, -, h, t⟩ := Pr.bind_ok h
      rw [t]; clear t
      obtain ⟨v, h3, h, t⟩ := Pr.bind_ok h
      rw [t]; clear t
      rw [Pr.res_lift] at h3
      unfold pyInv at h3
      split at h3
      · cases h3
      · cases h3
        simp [hc]
    · rw [if_neg hc] at h ⊢
      rw [if_neg hc]
      rfl
  · rw [if_neg hl, if_neg hl]
    rfl

/-- The complete text of a returning `run`. -/
theorem runP_full {env : Env F} (hs : env.Sorts) {fuel : Nat} {t : Times F} {m m' : Model F}
    (hc : m.settings.stepcontrol = true → Flt.eq m.settings.reduce 0 = false) (h : (m.runP env fuel t).res = .ok m') :
    ∃ c a res ft r0 rest, m.ctx = some c ∧ m.analysis = some a ∧ m.results = some res ∧ m.forces = some ft ∧
      res.R = r0 :: rest ∧
      ∃ outs ps a1 R le, outs.length = m.settings.nsteps ∧
        Steps env fuel c m.settings ft.forces.rows { a with Vred := a.Ured ++ [0], lpf := some 0 }
          ⟨r0 :: r0 :: rest, res.stepLpfEnd⟩ outs a1 ⟨R, le⟩ ∧
        (0 < m.settings.nsteps → m'.results = some ⟨R.dropLast, le⟩) ∧
        TrueReports m.settings.log c m.settings outs ps ∧
        (m.runP env fuel t).text = paramText m.settings ++ stepsText m.settings.log 0 ps ++ durationText m.settings.log t := by
  unfold Model.runP at h ⊢
  obtain ⟨_, h0, h, t0⟩ := Pr.bind_ok h
  rw [t0]; clear t0
  split at h
  case h_2 => cases h
  next c a res ft h1 h2 h3 h4 =>
  simp only [h1, h2, h3, h4] at h ⊢
  obtain ⟨R, h5, h, t0⟩ := Pr.bind_ok h
  rw [t0]; clear t0
  have hR : ∃ r0 rest, res.R = r0 :: rest ∧ R = r0 :: r0 :: rest := by
    rw [Pr.res_lift] at h5
    unfold dupFirst at h5
    split at h5
    · cases h5
    · next r0 rest he => cases h5; exact ⟨r0, rest, he, by rw [he]⟩
  obtain ⟨r0, rest, e1, rfl⟩ := hR
  obtain ⟨⟨a2, res2⟩, h6, h, t0⟩ := Pr.bind_ok h
  rw [t0]; clear t0
  obtain ⟨_, -, h, t0⟩ := Pr.bind_ok h
  rw [t0]; clear t0
  cases h
  obtain ⟨outs, ps, a1, R, le, k1, k2, k3, k4, k5, k6⟩ := stepsP_full hs hc _ (le_refl _) h6
  refine ⟨c, a, res, ft, r0, rest, rfl, rfl, rfl, rfl, e1, outs, ps, a1, R, le, k1, k2, fun hp => ?_, k3, ?_⟩
  · rw [k6 hp rfl]
  · rw [k4, paramsP_text h0]
    simp only [Pr.text_lift, Pr.text_sayIf, Pr.text_pure, List.append_nil, List.nil_append, List.append_assoc]
    rfl

end TrussPy
