import Verif.Lemmas.Frame
import Verif.Spec.Mechanics
import Mathlib.Tactic.Ring
import Mathlib.Tactic.Linarith
import Mathlib.Tactic.FieldSimp
/-!
# Element loop in exact arithmetic: sums over bars
-/

namespace TrussPy

theorem len_eq (v : V3 ℝ) : Flt.sqrt (dot3 v v) = len v := by
  show Real.sqrt _ = _
  unfold len dot3
  congr 1
  ring

/-- The output of the element function as a bar result. -/
def TrussOut.res (o : TrussOut ℝ) : BarRes := ⟨o.lam, o.stress, o.dsde, o.A, o.N⟩

theorem axis_eq (b : Bar ℝ) (U : List ℝ) :
    (fun i => (b.XE i - b.XA i) + (row3 U b.iE i - row3 U b.iA i)) = b.axis U := by
  funext i
  unfold Bar.axis
  ring

theorem eval_real {b : Bar ℝ} {U U0 : List ℝ} {sv : Option (List ℝ)} {o : TrussOut ℝ}
    (h : b.eval U U0 sv = .ok o) :
    b.Result U sv o.res ∧ o.n = b.dir U ∧ o.L = len b.ref ∧ o.l = len (b.axis U) := by
  unfold Bar.eval trussCore at h
  simp only [axis_eq, len_eq] at h
  obtain ⟨out, h1, h⟩ := py_bind_eq_ok.1 h
  obtain ⟨A, h2, h⟩ := py_bind_eq_ok.1 h
  cases h
  refine ⟨⟨rfl, ⟨_, out, h1, rfl, rfl⟩, ?_, rfl⟩, ?_, rfl, rfl⟩
  · exact pyGet_ok_nat.1 h2
  · funext i
    show _ / _ = _
    rw [congrFun (axis_eq b U) i]
    rfl

theorem addBar_get {r : List (V3 ℝ)} {b : Bar ℝ} {o : TrussOut ℝ} (hne : b.iA ≠ b.iE) {U : List ℝ}
    (hn : o.n = b.dir U) {i : Nat} {v : V3 ℝ} (hi : r[i]? = some v) :
    (addBar r (b, o))[i]? = some fun c => v c + b.sgn i * (o.N * b.dir U c) := by
  have hlt : i < r.length := (List.getElem?_eq_some_iff.1 hi).1
  have hd : r.getD i (fun _ => 0) = v := by rw [List.getD_eq_getElem?_getD, hi]; rfl
  unfold addBar Bar.sgn
  simp only
  by_cases hE : i = b.iE
  · subst hE
    have hA : ¬ b.iE = b.iA := fun h => hne h.symm
    rw [List.getElem?_set_self (by simpa using hlt), hd, hn]
    congr 1
    funext c
    simp [hA]
  · rw [List.getElem?_set_ne (fun h => hE h.symm)]
    by_cases hA : i = b.iA
    · subst hA
      rw [List.getElem?_set_self hlt, hd, hn]
      congr 1
      funext c
      simp [hE]
    · rw [List.getElem?_set_ne (fun h => hA h.symm), hi]
      simp [hE, hA]

theorem addBars_get {U : List ℝ} : ∀ (bs : List (Bar ℝ)) (outs : List (TrussOut ℝ)) (r : List (V3 ℝ)),
    (∀ b ∈ bs, b.iA ≠ b.iE) → (∀ p ∈ bs.zip outs, p.2.n = p.1.dir U) → ∀ {i : Nat} {v : V3 ℝ}, r[i]? = some v →
    ((bs.zip outs).foldl addBar r)[i]? = some fun c => v c + nodeForce bs (outs.map (·.res)) U i c := by
  intro bs
  induction bs with
  | nil => intro outs r _ _ i v hi; simp [nodeForce, hi]
  | cons b bs ih =>
    intro outs r h1 h2 i v hi
    cases outs with
    | nil => simp [nodeForce, hi]
    | cons o outs =>
      rw [List.zip_cons_cons, List.foldl_cons]
      rw [ih outs _ (fun b hb => h1 b (by simp [hb])) (fun p hp => h2 p (by simp [hp]))
        (addBar_get (h1 b (by simp)) (h2 (b, o) (by simp)) hi)]
      congr 1
      funext c
      simp only [nodeForce, List.map_cons, List.zip_cons_cons, List.sum_cons]
      unfold TrussOut.res
      ring

theorem zeroR_get {n i : Nat} (h : i < n) : (zeroR n : List (V3 ℝ))[i]? = some fun _ => 0 := by
  unfold zeroR
  rw [List.getElem?_replicate, if_pos h]

/-- Block `(i,j)`. -/
def getK (K : List (List (M3 ℝ))) (i j : Nat) : Option (M3 ℝ) := K[i]?.bind (·[j]?)

theorem getK_addBlock (K : List (List (M3 ℝ))) (p q : Nat) (m : M3 ℝ) (i j : Nat) :
    getK (addBlock K p q m) i j =
      (getK K i j).map fun x => if p = i ∧ q = j then fun c d => x c d + m c d else x := by
  unfold getK addBlock
  rw [List.getElem?_modify]
  cases K[i]? with
  | none => rfl
  | some row =>
    simp only [Option.map_eq_map, Option.map_some, Option.bind_some]
    by_cases hp : p = i
    · simp only [hp, if_true, true_and]
      rw [List.getElem?_modify]
      cases row[j]? with
      | none => rfl
      | some x =>
        simp only [Option.map_eq_map, Option.map_some]
    · simp [hp]

theorem trussK_eq {b : Bar ℝ} {U U0 : List ℝ} {sv : Option (List ℝ)} {o : TrussOut ℝ}
    (h : b.eval U U0 sv = .ok o) : trussK o = b.tangent U o.res := by
  obtain ⟨-, h1, h2, h3⟩ := eval_real h
  funext c d
  unfold trussK Bar.tangent outer3 eye3 TrussOut.res
  rw [h1, h2, h3]

theorem addBarK_get {K : List (List (M3 ℝ))} {b : Bar ℝ} {o : TrussOut ℝ} (hne : b.iA ≠ b.iE) {i j : Nat} {m : M3 ℝ}
    (hi : getK K i j = some m) :
    getK (addBarK K (b, o)) i j = some fun c d => m c d + b.sgn i * b.sgn j * trussK o c d := by
  unfold addBarK
  simp only [getK_addBlock, hi, Option.map_some]
  congr 1
  funext c d
  unfold Bar.sgn
  by_cases h1 : b.iA = i
  · subst h1
    by_cases h2 : b.iA = j
    · subst h2
      simp [hne, hne.symm]
    · by_cases h3 : b.iE = j
      · subst h3
        simp [hne, hne.symm]
      · simp [hne, hne.symm, h2, h3, Ne.symm h2, Ne.symm h3]
  · by_cases h4 : b.iE = i
    · subst h4
      by_cases h2 : b.iA = j
      · subst h2
        simp [hne, hne.symm]
      · by_cases h3 : b.iE = j
        · subst h3
          simp [hne, hne.symm]
        · simp [hne, hne.symm, h2, h3, Ne.symm h2, Ne.symm h3]
    · simp [h1, h4, Ne.symm h1, Ne.symm h4]

theorem addBarsK_get {U : List ℝ} : ∀ (bs : List (Bar ℝ)) (outs : List (TrussOut ℝ)) (K : List (List (M3 ℝ))),
    (∀ b ∈ bs, b.iA ≠ b.iE) → (∀ p ∈ bs.zip outs, trussK p.2 = p.1.tangent U p.2.res) →
    ∀ {i j : Nat} {m : M3 ℝ}, getK K i j = some m →
    getK ((bs.zip outs).foldl addBarK K) i j =
      some fun c d => m c d + nodeStiffness bs (outs.map (·.res)) U i j c d := by
  intro bs
  induction bs with
  | nil => intro outs r _ _ i j v hi; simp [nodeStiffness, hi]
  | cons b bs ih =>
    intro outs r h1 h2 i j v hi
    cases outs with
    | nil => simp [nodeStiffness, hi]
    | cons o outs =>
      rw [List.zip_cons_cons, List.foldl_cons]
      rw [ih outs _ (fun b hb => h1 b (by simp [hb])) (fun p hp => h2 p (by simp [hp]))
        (addBarK_get (h1 b (by simp)) hi)]
      congr 1
      funext c d
      simp only [nodeStiffness, List.map_cons, List.zip_cons_cons, List.sum_cons, h2 (b, o) (by simp)]
      ring

theorem zeroK_get {n i j : Nat} (h : i < n) (h' : j < n) : getK (zeroK n) i j = some fun _ _ => 0 := by
  unfold getK zeroK
  rw [List.getElem?_replicate, if_pos h, Option.bind_some, List.getElem?_replicate, if_pos h']

/-! ## Results of an evaluation -/

theorem evalAll_res {c : Ctx ℝ} {U U0 : List ℝ} {sv : Option (List (List ℝ))} {bars : List (Bar ℝ)}
    {outs : List (TrussOut ℝ)} (h : evalAll c U U0 sv bars 0 = .ok outs) :
    Results.Of c bars U sv (outs.map (·.res)) ∧ (∀ p ∈ bars.zip outs, p.2.n = p.1.dir U) ∧
      ∀ p ∈ bars.zip outs, trussK p.2 = p.1.tangent U p.2.res := by
  have hlen := evalAll_length h
  have key : ∀ p ∈ bars.zip outs, ∃ sv', p.1.eval U U0 sv' = .ok p.2 := by
    intro p hp
    obtain ⟨k, hk⟩ := List.getElem?_of_mem hp
    rw [List.getElem?_zip_eq_some] at hk
    obtain ⟨o, ho, he⟩ := evalAll_get h hk.1
    rw [hk.2] at ho
    cases ho
    exact ⟨_, he⟩
  refine ⟨⟨by simpa using hlen, ?_⟩, ?_, ?_⟩
  · intro k b x hb hx
    obtain ⟨o, ho, he⟩ := evalAll_get h hb
    rw [List.getElem?_map, ho] at hx
    cases hx
    rw [Nat.zero_add] at he
    exact (eval_real he).1
  · intro p hp
    obtain ⟨sv', he⟩ := key p hp
    exact (eval_real he).2.1
  · intro p hp
    obtain ⟨sv', he⟩ := key p hp
    exact trussK_eq he

theorem Ctx.Bars.ne {c : Ctx ℝ} {bars : List (Bar ℝ)} (hB : c.Bars bars) : ∀ b ∈ bars, b.iA ≠ b.iE := by
  intro b hb
  obtain ⟨k, hk⟩ := List.getElem?_of_mem hb
  exact (hB.bar k b hk).ne

theorem Ctx.Bars.lt {c : Ctx ℝ} {bars : List (Bar ℝ)} (hB : c.Bars bars) :
    ∀ b ∈ bars, b.iA < c.nnodes ∧ b.iE < c.nnodes := by
  intro b hb
  obtain ⟨k, hk⟩ := List.getElem?_of_mem hb
  obtain ⟨NA, NE, -, h1, h2⟩ := (hB.bar k b hk).conn
  rw [hB.nnodes]
  exact ⟨(List.getElem?_eq_some_iff.1 h1).1, (List.getElem?_eq_some_iff.1 h2).1⟩

end TrussPy
