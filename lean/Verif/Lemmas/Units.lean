import Verif.Spec.Units
import Verif.Lemmas.Mechanics
import Verif.Lemmas.Plasticity
/-!
# Lemmas: evaluation in other units
-/

namespace TrussPy

theorem sign_scaled {e : ℝ} (he : 0 < e) (x : ℝ) : (npSign (e * x) : ℝ) = npSign x := by
  rw [npSign_real, npSign_real]
  rcases lt_trichotomy x 0 with h | h | h
  · rw [Real.sign_of_neg h, Real.sign_of_neg (mul_neg_of_pos_of_neg he h)]
  · rw [h, mul_zero]
  · rw [Real.sign_of_pos h, Real.sign_of_pos (mul_pos he h)]

theorem pyGet_map {α β : Type} (f : α → β) (l : List α) (i : Int) : pyGet (l.map f) i = (pyGet l i).map f := by
  unfold pyGet
  simp only [List.length_map, List.getElem?_map]
  generalize (if 0 ≤ i then i else i + (l.length : Int)) = j
  by_cases hj : j < 0
  · simp only [hj, if_true]; rfl
  · simp only [hj, if_false]
    cases l[j.toNat]? <;> rfl

/-- Output of a material law in other units. -/
def UmatOut.conv (t : Units) (o : UmatOut ℝ) : UmatOut ℝ :=
  ⟨t.e * o.s, t.e * o.dsde, o.dsdt, o.statev.map (convRow t)⟩

/-- What `umat_elplast_iso` returns (materials/material_definition.py:21-67), as a term. -/
noncomputable def plastOut (e E K Y p : ℝ) (more : List ℝ) : UmatOut ℝ :=
  if Flt.le (Flt.abs (E * (e - p)) - Y) 0 = true then ⟨E * (e - p), E, 0, some ((Y + K * 0) :: p :: more)⟩
  else
    let g := (Flt.abs (E * (e - p)) - Y) / (E + K)
    ⟨(1 - g * E / Flt.abs (E * (e - p))) * (E * (e - p)), E * K / (E + K), 0,
      some ((Y + K * g) :: (p + g * npSign (E * (e - p))) :: more)⟩

theorem plast_call {e de E K Sy y p : ℝ} {mp more : List ℝ} (h0 : pyGet mp 0 = .ok E) (h1 : pyGet mp 1 = .ok K)
    (h2 : pyGet mp 2 = .ok Sy) : umatElplastIso e de mp (some (y :: p :: more)) =
      .ok (plastOut e E K (if Flt.eq y 0 then Sy else y) p more) := by
  have s0 : pyGet (y :: p :: more) 0 = .ok y := rfl
  have s1 : pyGet (y :: p :: more) 1 = .ok p := pyGet_ok_nat (i := 1).2 rfl
  unfold umatElplastIso plastOut
  rw [h0, py_bind_ok, h1, py_bind_ok, h2, py_bind_ok]
  simp only [s0, s1, py_bind_ok]
  generalize (if Flt.eq y 0 = true then Sy else y) = Y
  split <;> rfl

theorem plastOut_conv (t : Units) (e E K Y p : ℝ) (more : List ℝ) :
    plastOut e (t.e * E) (t.e * K) (t.e * Y) p more = (plastOut e E K Y p more).conv t := by
  have he := t.he
  have he' : t.e ≠ 0 := he.ne'
  unfold plastOut
  have hT : t.e * E * (e - p) = t.e * (E * (e - p)) := mul_assoc _ _ _
  rw [hT]
  generalize E * (e - p) = T
  have hA : (Flt.abs (t.e * T) : ℝ) = t.e * Flt.abs T := by
    show |_| = _ * |_|
    rw [abs_mul, abs_of_pos he]
  rw [hA, ← mul_sub]
  have hle : (Flt.le (t.e * (Flt.abs T - Y)) 0 : Bool) = Flt.le (Flt.abs T - Y) 0 := by
    show decide _ = decide _
    rw [decide_eq_decide]
    constructor
    · intro h
      by_contra hn
      exact absurd h (not_le.2 (mul_pos he (not_le.1 hn)))
    · intro h
      exact mul_nonpos_of_nonneg_of_nonpos he.le h
  rw [hle, sign_scaled he]
  generalize Flt.abs T - Y = f
  have hg : t.e * f / (t.e * E + t.e * K) = f / (E + K) := by
    rw [← mul_add, mul_div_mul_left _ _ he']
  have hk : t.e * E * (t.e * K) / (t.e * E + t.e * K) = t.e * (E * K / (E + K)) := by
    rw [← mul_add, mul_assoc, mul_div_mul_left _ _ he', mul_left_comm, mul_div_assoc]
  have hq : ∀ g : ℝ, g * (t.e * E) / (t.e * Flt.abs T) = g * E / Flt.abs T := by
    intro g
    rw [mul_left_comm, mul_div_mul_left _ _ he']
  simp only [hg, hk, hq]
  split
  · simp only [UmatOut.conv, Option.map_some, convRow, mul_zero, add_zero]
  · simp only [UmatOut.conv, Option.map_some, convRow]
    congr 1
    · ring
    · congr 2
      ring

theorem umat_conv (t : Units) {law : Umat} {e de : ℝ} {mp : List ℝ} {sv : Option (List ℝ)} {o : UmatOut ℝ}
    (h : law.call e de mp sv = .ok o) : law.call e de (mp.map (t.e * ·)) (sv.map (convRow t)) = .ok (o.conv t) := by
  have he := t.he
  have he' : t.e ≠ 0 := he.ne'
  cases law with
  | el =>
    unfold Umat.call umatEl at h ⊢
    obtain ⟨E, h1, h⟩ := py_bind_eq_ok.1 h
    cases h
    simp only [pyGet_map, h1]
    show Except.ok _ = Except.ok _
    simp only [UmatOut.conv, mul_assoc]
  | elplast =>
    unfold Umat.call at h ⊢
    have hh := h
    unfold umatElplastIso at h
    obtain ⟨E, h1, h⟩ := py_bind_eq_ok.1 h
    obtain ⟨K, h2, h⟩ := py_bind_eq_ok.1 h
    obtain ⟨Sy, h3, h⟩ := py_bind_eq_ok.1 h
    cases sv with
    | none => cases h
    | some sv =>
      obtain ⟨p, h4, h⟩ := py_bind_eq_ok.1 h
      obtain ⟨y, h5, h⟩ := py_bind_eq_ok.1 h
      match sv, h4, h5 with
      | [], h4, h5 => cases h5
      | [_], h4, h5 => cases h4
      | y' :: p' :: more, h4, h5 =>
        rw [plast_call h1 h2 h3] at hh
        have hh := Except.ok.inj hh
        subst hh
        have hm : ∀ (i : Int) x, pyGet mp i = .ok x → pyGet (mp.map (t.e * ·)) i = .ok (t.e * x) := by
          intro i x hx
          rw [pyGet_map, hx]
          rfl
        rw [← plastOut_conv]
        simp only [Option.map_some, convRow]
        rw [plast_call (hm _ _ h1) (hm _ _ h2) (hm _ _ h3)]
        congr 2
        have : (Flt.eq (t.e * y') 0 : Bool) = Flt.eq y' 0 := by
          show decide _ = decide _
          simp [he']
        rw [this]
        split <;> rfl

/-- Output of the element function in other units. -/
def TrussOut.conv (t : Units) (o : TrussOut ℝ) : TrussOut ℝ :=
  ⟨o.n, t.s * o.L, t.s * o.l, o.lam, t.e * o.stress, t.e * o.dsde, t.a * o.A, t.force * o.N, o.statev.map (convRow t)⟩

theorem row3_map {U : List ℝ} {s : ℝ} (i : Nat) (d : Fin 3) : row3 (U.map (s * ·)) i d = s * row3 U i d := by
  unfold row3
  rw [List.getD_eq_getElem?_getD, List.getD_eq_getElem?_getD, List.getElem?_map]
  cases U[3 * i + d.val]? <;> simp

theorem len_scaled {s : ℝ} (hs : 0 < s) (v : V3 ℝ) : len (fun d => s * v d) = s * len v := by
  unfold len
  rw [show (s * v 0) ^ 2 + (s * v 1) ^ 2 + (s * v 2) ^ 2 = s ^ 2 * (v 0 ^ 2 + v 1 ^ 2 + v 2 ^ 2) by ring,
    Real.sqrt_mul (sq_nonneg s), Real.sqrt_sq hs.le]

theorem eval_conv {t : Units} {b b' : Bar ℝ} (hb : b.Converted t b') {U U0 : List ℝ} {sv : Option (List ℝ)} {o : TrussOut ℝ}
    (h : b.eval U U0 sv = .ok o) :
    b'.eval (U.map (t.s * ·)) (U0.map (t.s * ·)) (sv.map (convRow t)) = .ok (o.conv t) := by
  have hs := t.hs
  have hs' : t.s ≠ 0 := hs.ne'
  have hdX : (fun i => b'.XE i - b'.XA i) = fun i => t.s * (b.XE i - b.XA i) := by
    funext i; rw [hb.XE, hb.XA]; ring
  have hdx : ∀ W : List ℝ, (fun i => (b'.XE i - b'.XA i) + (row3 (W.map (t.s * ·)) b'.iE i - row3 (W.map (t.s * ·)) b'.iA i)) =
      fun i => t.s * ((b.XE i - b.XA i) + (row3 W b.iE i - row3 W b.iA i)) := by
    intro W
    funext i; rw [hb.XE, hb.XA, hb.iE, hb.iA, row3_map, row3_map]; ring
  unfold Bar.eval trussCore at h ⊢
  obtain ⟨out, h1, h⟩ := py_bind_eq_ok.1 h
  obtain ⟨A, h2, h⟩ := py_bind_eq_ok.1 h
  have h := Except.ok.inj h
  subst h
  simp only [hdx, hdX, len_eq, len_scaled hs, mul_div_mul_left _ _ hs'] at h1 ⊢
  rw [hb.law, hb.mat, umat_conv t h1, py_bind_ok, hb.geo, pyGet_map, h2]
  show Except.ok _ = Except.ok _
  congr 1
  simp only [TrussOut.conv, UmatOut.conv]
  congr 1
  · funext i
    rw [congrFun (hdx U) i, mul_div_mul_left _ _ hs']
  · unfold Units.force
    ring

theorem stateRow_conv {t : Units} {c c' : Ctx ℝ} (hn : c'.nstatev = c.nstatev) (sv : Option (List (List ℝ))) (k : Nat) :
    stateRow c' (sv.map (·.map (convRow t))) k = (stateRow c sv k).map (convRow t) := by
  unfold stateRow
  rw [hn]
  split
  · cases sv with
    | none => rfl
    | some sv => simp
  · rfl

theorem evalAll_conv {t : Units} {c c' : Ctx ℝ} (hn : c'.nstatev = c.nstatev) {U U0 : List ℝ} {sv : Option (List (List ℝ))} :
    ∀ {bars bars' : List (Bar ℝ)} {k : Nat} {outs : List (TrussOut ℝ)}, bars'.length = bars.length →
    (∀ (k : Nat) b b', bars[k]? = some b → bars'[k]? = some b' → b.Converted t b') →
    evalAll c U U0 sv bars k = .ok outs →
    evalAll c' (U.map (t.s * ·)) (U0.map (t.s * ·)) (sv.map (·.map (convRow t))) bars' k = .ok (outs.map (·.conv t)) := by
  intro bars
  induction bars with
  | nil =>
    intro bars' k outs hl _ h
    cases h
    rw [List.length_eq_zero_iff.1 hl]
    rfl
  | cons b bars ih =>
    intro bars' k outs hl hb h
    match bars', hl with
    | b' :: bars', hl =>
      unfold evalAll at h ⊢
      obtain ⟨o, h1, h⟩ := py_bind_eq_ok.1 h
      obtain ⟨os, h2, h⟩ := py_bind_eq_ok.1 h
      cases h
      rw [stateRow_conv hn, eval_conv (hb 0 b b' rfl rfl) h1, py_bind_ok,
        ih (by simpa using hl) (fun i x x' h h' => hb (i + 1) x x' h h') h2]
      rfl

theorem list_map_set {α β : Type} (f : α → β) (l : List α) (i : Nat) (x : α) : (l.set i x).map f = (l.map f).set i (f x) := by
  simp

theorem getD_scaled (q : ℝ) (r : List (V3 ℝ)) (i : Nat) :
    (r.map fun v d => q * v d).getD i (fun _ => 0) = fun d => q * (r.getD i (fun _ => 0)) d := by
  rw [List.getD_eq_getElem?_getD, List.getD_eq_getElem?_getD, List.getElem?_map]
  cases r[i]? <;> simp

theorem addBars_conv {t : Units} : ∀ {bars bars' : List (Bar ℝ)} {outs : List (TrussOut ℝ)} (r : List (V3 ℝ)),
    bars'.length = bars.length → (∀ (k : Nat) b b', bars[k]? = some b → bars'[k]? = some b' → b.Converted t b') →
    (bars'.zip (outs.map (·.conv t))).foldl addBar (r.map fun v d => t.force * v d) =
      ((bars.zip outs).foldl addBar r).map fun v d => t.force * v d := by
  intro bars
  induction bars with
  | nil =>
    intro bars' outs r hl _
    rw [List.length_eq_zero_iff.1 hl]
    rfl
  | cons b bars ih =>
    intro bars' outs r hl hb
    match bars', outs, hl with
    | b' :: bars', [], hl => rfl
    | b' :: bars', o :: outs, hl =>
      have hc := hb 0 b b' rfl rfl
      rw [List.map_cons, List.zip_cons_cons, List.zip_cons_cons, List.foldl_cons, List.foldl_cons,
        ← ih _ (by simpa using hl) (fun i x x' h h' => hb (i + 1) x x' h h')]
      congr 1
      unfold addBar
      simp only [hc.iA, hc.iE, getD_scaled, List.map_set]
      congr 1
      · congr 1
        funext d
        simp only [TrussOut.conv]
        ring
      · funext d
        simp only [TrussOut.conv]
        ring

/-- Factor of stiffnesses. -/
noncomputable def Units.stiff (t : Units) : ℝ := t.force / t.s

theorem trussK_conv (t : Units) (o : TrussOut ℝ) (i k : Fin 3) : trussK (o.conv t) i k = t.stiff * trussK o i k := by
  have hs : t.s ≠ 0 := t.hs.ne'
  unfold trussK
  simp only [TrussOut.conv, Units.stiff, Units.force]
  have h1 : t.e * o.dsde * (t.a * o.A) / (t.s * o.L) = t.a * t.e / t.s * (o.dsde * o.A / o.L) := by
    rw [div_mul_div_comm]; ring
  have h2 : t.a * t.e * o.N / (t.s * o.l) = t.a * t.e / t.s * (o.N / o.l) := by
    rw [div_mul_div_comm]
  rw [h1, h2]
  ring

theorem addBlock_scaled (q : ℝ) (K : List (List (M3 ℝ))) (a b : Nat) (blk : M3 ℝ) :
    addBlock (K.map (·.map fun m i k => q * m i k)) a b (fun i k => q * blk i k) =
      (addBlock K a b blk).map (·.map fun m i k => q * m i k) := by
  unfold addBlock
  apply List.ext_getElem?
  intro n
  simp only [List.getElem?_modify, List.getElem?_map]
  cases K[n]? with
  | none => rfl
  | some row =>
    by_cases h : a = n
    · simp only [h, if_true, Option.map_some, Option.map_eq_map, Option.some.injEq]
      apply List.ext_getElem?
      intro l
      simp only [List.getElem?_modify, List.getElem?_map]
      cases row[l]? with
      | none => rfl
      | some m =>
        by_cases h : b = l
        · simp only [h, if_true, Option.map_some, Option.map_eq_map, Option.some.injEq]
          funext i k
          ring
        · simp only [h, if_false]
          rfl
    · simp only [h, if_false]
      rfl

theorem addBarsK_conv {t : Units} : ∀ {bars bars' : List (Bar ℝ)} {outs : List (TrussOut ℝ)} (K : List (List (M3 ℝ))),
    bars'.length = bars.length → (∀ (k : Nat) b b', bars[k]? = some b → bars'[k]? = some b' → b.Converted t b') →
    (bars'.zip (outs.map (·.conv t))).foldl addBarK (K.map (·.map fun m i k => t.stiff * m i k)) =
      ((bars.zip outs).foldl addBarK K).map (·.map fun m i k => t.stiff * m i k) := by
  intro bars
  induction bars with
  | nil =>
    intro bars' outs r hl _
    rw [List.length_eq_zero_iff.1 hl]
    rfl
  | cons b bars ih =>
    intro bars' outs K hl hb
    match bars', outs, hl with
    | b' :: bars', [], hl => rfl
    | b' :: bars', o :: outs, hl =>
      have hc := hb 0 b b' rfl rfl
      rw [List.map_cons, List.zip_cons_cons, List.zip_cons_cons, List.foldl_cons, List.foldl_cons,
        ← ih _ (by simpa using hl) (fun i x x' h h' => hb (i + 1) x x' h h')]
      congr 1
      unfold addBarK
      have h1 : trussK (o.conv t) = fun i k => t.stiff * trussK o i k := by
        funext i k; exact trussK_conv t o i k
      have h2 : (fun i k => -(trussK (o.conv t) i k)) = fun i k => t.stiff * -(trussK o i k) := by
        funext i k; rw [trussK_conv]; ring
      simp only [hc.iA, hc.iE, h2]
      rw [h1]
      simp only [addBlock_scaled]

theorem kOut_scaled (q : ℝ) (K : List (List (M3 ℝ))) (p r : Nat) :
    kOut (K.map (·.map fun m i k => q * m i k)) p r = q * kOut K p r := by
  unfold kOut
  rw [List.getElem?_map]
  cases K[p / 3]? with
  | none => simp
  | some row =>
    simp only [Option.map_some, List.getElem?_map]
    cases row[r / 3]? with
    | none => simp
    | some m => rfl

theorem flat3_scaled (q : ℝ) (r : List (V3 ℝ)) : flat3 (r.map fun v d => q * v d) = (flat3 r).map (q * ·) := by
  unfold flat3
  rw [List.map_flatten, List.map_map, List.map_map]
  rfl

theorem residual_scaled {q : ℝ} {r : List (V3 ℝ)} {fc f g : List ℝ} {l : ℝ} (h : residual r fc f l = .ok g) :
    residual (r.map fun v d => q * v d) (fc.map (q * ·)) (f.map (q * ·)) l = .ok (g.map (q * ·)) := by
  unfold residual at h ⊢
  simp only [flat3_scaled, List.length_map] at h ⊢
  split at h
  case isFalse => cases h
  next hl =>
  rw [if_pos hl]
  cases h
  congr 1
  apply List.ext_getElem?
  intro i
  simp only [List.getElem?_zipWith, List.getElem?_map]
  cases (flat3 r)[i]? with
  | none => rfl
  | some x =>
    cases fc[i]? with
    | none => rfl
    | some y =>
      cases f[i]? with
      | none => rfl
      | some z =>
        simp only [Option.map_some, Option.some.injEq]
        ring

theorem npTake_map_ok {α β : Type} (f : α → β) {l : List α} : ∀ {idx : List Nat} {r : List α}, npTake l idx = .ok r →
    npTake (l.map f) idx = .ok (r.map f)
  | [], r, h => by cases h; rfl
  | i :: is, r, h => by
    simp only [npTake] at h
    cases hi : l[i]? with
    | none => rw [hi] at h; cases h
    | some a =>
      rw [hi] at h
      cases hr : npTake l is with
      | error e => rw [hr] at h; cases h
      | ok rs =>
        rw [hr] at h
        cases h
        simp only [npTake, List.getElem?_map, hi, Option.map_some, npTake_map_ok f hr, List.map_cons]

theorem scatter_map {α : ℝ} {u v w : List ℝ} {idx : List Nat} (h : scatter u idx v = .ok w) :
    scatter (u.map (α * ·)) idx (v.map (α * ·)) = .ok (w.map (α * ·)) := by
  have key : ∀ (ps : List (Nat × ℝ)) (u : List ℝ),
      (ps.map fun p => (p.1, α * p.2)).foldl (fun acc p => acc.set p.1 p.2) (u.map (α * ·)) =
        (ps.foldl (fun acc p => acc.set p.1 p.2) u).map (α * ·) := by
    intro ps
    induction ps with
    | nil => intro u; rfl
    | cons p ps ih =>
      intro u
      rw [List.map_cons, List.foldl_cons, List.foldl_cons, ← ih, List.map_set]
  unfold scatter at h ⊢
  rw [List.length_map]
  split at h
  · next hl =>
    rw [if_pos hl]
    cases h
    have := key (idx.zip v) u
    rw [← this]
    congr 2
    rw [List.zip_map_right]
    rfl
  · next hl =>
    rw [if_neg hl]
    split at h
    · next x =>
      cases h
      simp only [List.map_cons, List.map_nil]
      congr 1
      have : ∀ (idx : List Nat) (u : List ℝ) (x : ℝ), setAll (u.map (α * ·)) idx (α * x) = (setAll u idx x).map (α * ·) := by
        intro idx
        unfold setAll
        induction idx with
        | nil => intro u x; rfl
        | cons i is ih => intro u x; rw [List.foldl_cons, List.foldl_cons, ← ih, List.map_set]
      exact this _ _ _
    · cases h

theorem splitV_conv {t : Units} {c c' : Ctx ℝ} (hn : c'.ndof1 = c.ndof1) {a b : Analysis ℝ} (hl : b.lpf = a.lpf)
    {V V0 : List ℝ} (hV : V0.length = V.length) {lpf : ℝ} {u u0 : List ℝ} (h : splitV c a V V0 = .ok (lpf, u, u0)) :
    splitV c' b (convV t c.ndof1 V) (convV t c.ndof1 V0) = .ok (lpf, u.map (t.s * ·), u0.map (t.s * ·)) := by
  have hlen : ∀ W : List ℝ, (convV t c.ndof1 W).length = W.length := by
    intro W
    unfold convV
    simp only [List.length_append, List.length_map, List.length_take, List.length_drop]
    omega
  have htake : ∀ W : List ℝ, (convV t c.ndof1 W).take c.ndof1 = (W.take c.ndof1).map (t.s * ·) := by
    intro W
    unfold convV
    rw [List.take_append, List.length_map, List.length_take, ← List.map_take, List.take_take, Nat.min_self]
    by_cases h : c.ndof1 ≤ W.length
    · rw [Nat.min_eq_left h, Nat.sub_self, List.take_zero, List.append_nil]
    · rw [List.drop_eq_nil_of_le (by omega), List.take_nil, List.append_nil]
  unfold splitV at h ⊢
  rw [hlen, hn, htake, htake, hl]
  split at h
  · next hlt =>
    rw [if_pos hlt]
    have : (convV t c.ndof1 V).getLast? = V.getLast? := by
      unfold convV
      have hne : V.drop c.ndof1 ≠ [] := by
        intro h0
        have := congrArg List.length h0
        rw [List.length_drop, List.length_nil] at this
        omega
      rw [List.getLast?_append_of_ne_nil _ hne]
      conv_rhs => rw [← List.take_append_drop c.ndof1 V, List.getLast?_append_of_ne_nil _ hne]
    rw [this]
    split at h
    · cases h; rfl
    · cases h
  · next hlt =>
    rw [if_neg hlt]
    split at h
    · cases h
      have hall : ∀ W : List ℝ, W.length ≤ c.ndof1 → convV t c.ndof1 W = W.map (t.s * ·) := by
        intro W hW
        unfold convV
        rw [List.take_of_length_le hW, List.drop_eq_nil_of_le hW, List.append_nil]
      rw [hall _ (by omega), hall _ (by omega)]
    · cases h

end TrussPy
