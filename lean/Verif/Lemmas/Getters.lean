import Verif.Spec.Results
import Verif.Lemmas.Run
import Verif.Lemmas.Rebuild
/-!
# Getters and the result handler: helper lemmas
-/

set_option linter.unusedSectionVars false

namespace TrussPy

variable {F : Type} [Zero F] [One F] [Add F] [Sub F] [Mul F] [Div F] [Neg F] [Flt F]

theorem tableRows_flatten (n : Nat) : ∀ U : List F, U.length = 3 * n → (tableRows n U).flatten = U := by
  induction n with
  | zero => intro U h; exact (List.eq_nil_of_length_eq_zero (by omega)) ▸ rfl
  | succ n ih =>
    intro U h
    have hrows : tableRows (n + 1) U = U.take 3 :: tableRows n (U.drop 3) := by
      unfold tableRows
      rw [List.range_succ_eq_map, List.map_cons, List.map_map]
      congr 1
      refine List.map_congr_left fun i _ => ?_
      simp only [Function.comp, List.drop_drop]
      congr 2
      omega
    rw [hrows, List.flatten_cons, ih (U.drop 3) (by rw [List.length_drop]; omega), List.take_append_drop]

theorem tableRows_width {n : Nat} {U : List F} (h : U.length = 3 * n) : ∀ row ∈ tableRows n U, row.length = 3 := by
  intro row hr
  obtain ⟨i, hi, rfl⟩ := List.mem_map.1 hr
  have := List.mem_range.1 hi
  rw [List.length_take, List.length_drop]
  omega

/-- No increment touches `rred`. -/
theorem Steps.rred {env : Env F} {fuel : Nat} {c : Ctx F} {s : Settings F} {rows : List (List F)}
    {a0 : Analysis F} {r0 : Results F} {outs : List (PFOut F)} {a : Analysis F} {res : Results F}
    (h : Steps env fuel c s rows a0 r0 outs a res) : ∀ r ∈ a0 :: (recorded outs).map (·.a), r.rred = a0.rred := by
  refine h.forall (fun r => r.rred = a0.rred) (fun p q hc hp => hc.rred.trans hp) ?_ rfl
  intro cfg d0 t t' o hi h1 h2 h3 hI
  rcases hi.model with ⟨-, hx, b, lpf, hb, hlx, ha⟩ | ⟨-, ⟨b, b', g, dV, lpf, hb, hev, hlx, ha⟩⟩
  · rw [ha]; exact hb.rred.trans hI
  · rw [ha]; exact ((equilibrium_frame hev).1.rred.trans hb.rred).trans hI

/-- The results of a run are the undeformed one and the recorded ones. -/
theorem run_result_cases {argsort : List Int → List Nat} {env : Env F} {fuel : Nat} {m m1 m2 : Model F}
    (hb : m.build argsort = .ok m1) (hr : m1.run env fuel = .ok m2) :
    ∃ c d res, m1.ctx = some c ∧ m1.dims = some d ∧ m2.results = some res ∧ c.nnodes = d.nnodes ∧
      d.dof1.length = c.ndof1 ∧ ∀ a ∈ res.R, Inv d c a := by
  obtain ⟨c, d, r0, outs, h1, h2, h3, h4, h5, h6, h7, h8, h9, h10, res, h11, h12⟩ := run_summary hb hr
  refine ⟨c, d, res, h1, h2, h11, h3, h4, ?_⟩
  intro a ha
  have hm : a ∈ r0 :: (recorded outs).map (·.a) := by
    rcases h12 with ⟨-, e1, e2⟩ | ⟨-, e⟩
    · rw [e2] at ha
      rcases List.mem_cons.1 ha with rfl | ha
      · exact List.mem_cons_self ..
      · rw [List.mem_singleton.1 ha]; exact List.mem_cons_self ..
    · rwa [e] at ha
  rcases List.mem_cons.1 hm with rfl | hm
  · exact h7
  · obtain ⟨r, hr, rfl⟩ := List.mem_map.1 hm
    obtain ⟨k, hk⟩ := List.getElem?_of_mem hr
    have hl : k < (r0 :: (recorded outs).map (·.a)).length := by
      have := (List.getElem?_eq_some_iff.1 hk).1
      simp; omega
    exact (h8 k _ r (List.getElem?_eq_getElem hl) hk).next

theorem resOp_ok {R R' : List (Analysis F)} {op : ResOp} : resOp R op = .ok R' → ∃ a t i, R = a :: t ∧ R = i ++ [R.getLastD a] ∧
    R' = (match op with | .copy => R ++ [R.getLastD a] | .removeLast => i | .dupFirst => a :: R) := by
  intro h
  cases R with
  | nil => cases op <;> cases h
  | cons a t =>
    have hl : (a :: t).getLast? = some ((a :: t).getLastD a) := by
      rw [List.getLastD_eq_getLast?]; simp [List.getLast?_cons]
    have hd : (a :: t) = (a :: t).dropLast ++ [(a :: t).getLastD a] := by
      conv_lhs => rw [← List.dropLast_concat_getLast (List.cons_ne_nil a t)]
      rw [List.getLast?_eq_getLast_of_ne_nil (List.cons_ne_nil a t)] at hl
      rw [Option.some.inj hl]
    refine ⟨a, t, (a :: t).dropLast, rfl, hd, ?_⟩
    cases op with
    | copy =>
      unfold resOp at h
      rw [hl] at h
      exact (Except.ok.inj h).symm
    | removeLast =>
      unfold resOp at h
      rw [hl] at h
      exact (Except.ok.inj h).symm
    | dupFirst => exact (Except.ok.inj h).symm

theorem resOp_total {R : List (Analysis F)} (op : ResOp) (h : R ≠ []) : ∃ R', resOp R op = .ok R' := by
  cases R with
  | nil => exact absurd rfl h
  | cons a t =>
    have hl : ∃ z, (a :: t).getLast? = some z := ⟨_, List.getLast?_eq_getLast_of_ne_nil h⟩
    obtain ⟨z, hz⟩ := hl
    cases op <;> simp only [resOp, hz] <;> exact ⟨_, rfl⟩

theorem resOps_nil (R : List (Analysis F)) : resOps R [] = .ok R := rfl

theorem resOps_cons (R : List (Analysis F)) (op : ResOp) (ops : List ResOp) :
    resOps R (op :: ops) = (resOp R op).bind fun R' => resOps R' ops := rfl

theorem resOp_length {R R' : List (Analysis F)} {op : ResOp} (h : resOp R op = .ok R') :
    (R'.length : Int) = R.length + op.net ∧ 0 < R.length := by
  obtain ⟨a, t, i, h1, h2, rfl⟩ := resOp_ok h
  have h3 : R.length = i.length + 1 := by rw [h2]; simp
  cases op <;> simp [ResOp.net, h3]

theorem resOp_empty (op : ResOp) : resOp ([] : List (Analysis F)) op = .error .indexError := by cases op <;> rfl

theorem pyGet_natCast {α : Type} (l : List α) (i : Nat) :
    pyGet l (i : Int) = match l[i]? with | some a => .ok a | none => .error .indexError := by
  unfold pyGet
  simp only [Int.natCast_nonneg, if_true]
  rw [if_neg (by omega), Int.toNat_natCast]
  cases l[i]? <;> rfl

end TrussPy
