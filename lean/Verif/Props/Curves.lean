import Verif.Props.Plot
/-!
# C80: names of plotted quantities which are not accepted
-/

set_option linter.unusedSectionVars false

namespace TrussPy

variable {F : Type} [Zero F] [One F] [Add F] [Sub F] [Mul F] [Div F] [Neg F] [Flt F]

/-- `hasSub` is Python's `in`: the text `p` is a contiguous part of `s`. -/
theorem hasSub_iff {p s : List Char} : hasSub p s = true ↔ p <:+: s := by
  induction s with
  | nil => simp [hasSub]
  | cons c s ih =>
    unfold hasSub
    rw [Bool.or_eq_true, ih, List.isPrefixOf_iff_prefix, List.infix_cons_iff]

/-- Kinds of curves (`plot_utilities.py:214-222`). -/
inductive Kind where
  | displacement
  | factor
  | reaction
  | state
  | nothing
  deriving DecidableEq

/-- What a quantity name asks for: the first of the four words, in this order, which it contains. -/
inductive Asks (Y : List Char) : Kind → Prop where
  | disp : "Displacement".toList <:+: Y → Asks Y .displacement
  | lpf : ¬ "Displacement".toList <:+: Y → "LPF".toList <:+: Y → Asks Y .factor
  | force : ¬ "Displacement".toList <:+: Y → ¬ "LPF".toList <:+: Y → "Force".toList <:+: Y → Asks Y .reaction
  | state : ¬ "Displacement".toList <:+: Y → ¬ "LPF".toList <:+: Y → ¬ "Force".toList <:+: Y →
      "State Variable".toList <:+: Y → Asks Y .state
  | nothing : ¬ "Displacement".toList <:+: Y → ¬ "LPF".toList <:+: Y → ¬ "Force".toList <:+: Y →
      ¬ "State Variable".toList <:+: Y → Asks Y .nothing

/-- Every name asks for exactly one thing. -/
theorem Asks.exists_unique (Y : List Char) : ∃! w, Asks Y w := by
  by_cases h1 : "Displacement".toList <:+: Y
  · exact ⟨_, .disp h1, fun w hw => by cases hw <;> first | rfl | contradiction⟩
  by_cases h2 : "LPF".toList <:+: Y
  · exact ⟨_, .lpf h1 h2, fun w hw => by cases hw <;> first | rfl | contradiction⟩
  by_cases h3 : "Force".toList <:+: Y
  · exact ⟨_, .force h1 h2 h3, fun w hw => by cases hw <;> first | rfl | contradiction⟩
  by_cases h4 : "State Variable".toList <:+: Y
  · exact ⟨_, .state h1 h2 h3 h4, fun w hw => by cases hw <;> first | rfl | contradiction⟩
  · exact ⟨_, .nothing h1 h2 h3 h4, fun w hw => by cases hw <;> first | rfl | contradiction⟩

/-- The exception a name leads to, if the node exists: no direction letter at the end (`KeyError`), no digit at the end
(`ValueError`), no state variables (`TypeError`). -/
inductive Rejected (Y : List Char) (hasState : Bool) : Err → Prop where
  | letter {w : Kind} {c : Char} : Asks Y w → w = .displacement ∨ w = .reaction → Y.getLast? = some c → c ≠ 'X' → c ≠ 'Y' →
      c ≠ 'Z' → Rejected Y hasState .keyError
  | digit {c : Char} : Asks Y .state → Y.getLast? = some c → c.isDigit = false → Rejected Y hasState .valueError
  | noState {c : Char} : Asks Y .state → Y.getLast? = some c → c.isDigit = true → hasState = false →
      Rejected Y hasState .typeError

theorem not_hasSub {p s : List Char} (h : ¬ p <:+: s) : ¬ hasSub p s = true := fun h' => h (hasSub_iff.1 h')

theorem quantity_rejected {labels : List Int} (hnd : labels.Nodup) {i : Nat} {node : Int} (hi : labels[i]? = some node)
    {Y : List Char} {r : Analysis F} (hU : 3 * i + 3 ≤ r.U.length) (hr : i < r.r.length) {e : Err}
    (he : Rejected Y r.statev.isSome e) (prev : F) : quantity labels node Y r prev = .error e := by
  have hw : whereEq labels node = [i] := whereEq_of_idx hnd hi
  have hrr : r.r[i]? = some (r.r[i]'hr) := List.getElem?_eq_getElem _
  have hUr : ((List.range (r.U.length / 3)).map (row3 r.U))[i]? = some (row3 r.U i) := by
    rw [List.getElem?_map, List.getElem?_range (by omega)]; rfl
  have hdir : ∀ c : Char, Y.getLast? = some c → c ≠ 'X' → c ≠ 'Y' → c ≠ 'Z' → dirIndex Y = .error .keyError := by
    intro c hc h1 h2 h3
    unfold dirIndex
    rw [hc]
    split
    · next h => cases h; exact absurd rfl h1
    · next h => cases h; exact absurd rfl h2
    · next h => cases h; exact absurd rfl h3
    · rfl
    · next h => cases h
  cases he with
  | letter hask hword hc h1 h2 h3 =>
    have hd := hdir _ hc h1 h2 h3
    rcases hword with rfl | rfl
    · cases hask with
      | disp h =>
        unfold quantity
        rw [if_pos (hasSub_iff.2 h), hw, npFirst_single hUr, py_bind_ok, hd]
        rfl
    · cases hask with
      | force a b c =>
        unfold quantity
        rw [if_neg (not_hasSub a), if_neg (not_hasSub b), if_pos (hasSub_iff.2 c), hw, npFirst_single hrr, py_bind_ok, hd]
        rfl
  | digit hask hc h1 =>
    cases hask with
    | state a b c d =>
      unfold quantity
      rw [if_neg (not_hasSub a), if_neg (not_hasSub b), if_neg (not_hasSub c), if_pos (hasSub_iff.2 d)]
      unfold lastDigit
      rw [hc]
      simp only [h1]
      rfl
  | noState hask hc h1 hs =>
    cases hask with
    | state a b c d =>
      unfold quantity
      rw [if_neg (not_hasSub a), if_neg (not_hasSub b), if_neg (not_hasSub c), if_pos (hasSub_iff.2 d)]
      unfold lastDigit
      rw [hc]
      simp only [h1, if_true, py_bind_ok]
      cases hsv : r.statev with
      | none => rfl
      | some sv => rw [hsv] at hs; cases hs

section
variable {argsort : List Int → List Nat} (has : IsArgsort argsort) {env : Env F} {fuel : Nat} {m m1 m2 : Model F}
  (hb : m.build argsort = .ok m1) (hr : m1.run env fuel = .ok m2) {res : Results F} (hres : m2.results = some res)
  {nt : NodeTab F} (hnt : m1.nodes = some nt) (hnd : nt.labels.Nodup)
include has hb hr hres hnt hnd

/-- **C80** A malformed name is not drawn: the path raises the exception of `Rejected`. -/
theorem C80_path_rejects {Y : List Char} {inc : Int} {k : Nat} (hk : NamesResult res.R.length inc k) {r : Analysis F}
    (hrk : res.R[k]? = some r) {e : Err} (he : Rejected Y r.statev.isSome e) {n : Int} {path : List Int} (hn : n ∈ nt.labels) :
    pPath m2 (n :: path) inc Y = .error e := by
  obtain ⟨c, d', h1, h2, h3, h4⟩ := run_sizes hb hr hres
  have hlen := build_nodes_length has hb hnt h2
  obtain ⟨_, _, _, _, _, _, -, -, -, -, -, -, hn', -⟩ := run_ok hr
  have hget : pyGet res.R inc = .ok r := by
    rcases hk.2 with q2 | q2
    · rw [q2, pyGet_ok_nat]; exact hrk
    · have := hk.1
      rw [pyGet_neg (by omega) (by omega), q2, show ((k : Int) - res.R.length + res.R.length).toNat = k by omega]
      exact hrk
  obtain ⟨f, l, hl⟩ := h4 _ (List.mem_of_getElem? hrk)
  obtain ⟨i, hi⟩ := List.getElem?_of_mem hn
  have hil := (List.getElem?_eq_some_iff.1 hi).1
  unfold pPath
  rw [hres, hn', hnt]
  simp only
  rw [hget, py_bind_ok]
  unfold pathLoop
  rw [quantity_rejected hnd hi (by rw [f.U, h3]; omega) (by rw [f.r, h3]; omega) he]
  rfl

/-- **C80** A malformed name on the ordinate of a history raises the same exception. -/
theorem C80_history_rejects {X : String} (hX : X ∈ nodalQuantities) {Y : List Char} {r : Analysis F}
    (hr0 : res.R.head? = some r) {e : Err} (he : Rejected Y r.statev.isSome e) {n0 n1 : Int} (h0 : n0 ∈ nt.labels)
    (h1 : n1 ∈ nt.labels) : pHistory m2 n0 n1 X.toList Y = .error e := by
  obtain ⟨c, d', e1, e2, e3, e4⟩ := run_sizes hb hr hres
  have hlen := build_nodes_length has hb hnt e2
  obtain ⟨_, _, _, _, _, _, -, -, -, -, -, -, hn', -⟩ := run_ok hr
  obtain ⟨i, hi⟩ := List.getElem?_of_mem h0
  obtain ⟨j, hj⟩ := List.getElem?_of_mem h1
  have hil := (List.getElem?_eq_some_iff.1 hi).1
  have hjl := (List.getElem?_eq_some_iff.1 hj).1
  unfold pHistory
  rw [hres, hn', hnt]
  simp only
  cases hR : res.R with
  | nil => rw [hR] at hr0; cases hr0
  | cons q R =>
    rw [hR] at hr0; cases hr0
    obtain ⟨f, l, hl⟩ := e4 r (by rw [hR]; simp)
    obtain ⟨x', k1, -⟩ := quantity_shows hnd hi hX (r := r) (by rw [f.U, e3]; omega) (by rw [f.r, e3]; omega) hl Flt.nan
    unfold histLoop
    rw [k1, py_bind_ok, quantity_rejected hnd hj (by rw [f.U, e3]; omega) (by rw [f.r, e3]; omega) he]
    rfl

/-- **C80** A malformed name on the abscissa of a history raises the same exception, whatever the ordinate is. -/
theorem C80_history_rejects_x {X Y : List Char} {r : Analysis F} (hr0 : res.R.head? = some r) {e : Err}
    (he : Rejected X r.statev.isSome e) {n0 n1 : Int} (h0 : n0 ∈ nt.labels) : pHistory m2 n0 n1 X Y = .error e := by
  obtain ⟨c, d', e1, e2, e3, e4⟩ := run_sizes hb hr hres
  have hlen := build_nodes_length has hb hnt e2
  obtain ⟨_, _, _, _, _, _, -, -, -, -, -, -, hn', -⟩ := run_ok hr
  obtain ⟨i, hi⟩ := List.getElem?_of_mem h0
  have hil := (List.getElem?_eq_some_iff.1 hi).1
  unfold pHistory
  rw [hres, hn', hnt]
  simp only
  cases hR : res.R with
  | nil => rw [hR] at hr0; cases hr0
  | cons q R =>
    rw [hR] at hr0; cases hr0
    obtain ⟨f, l, hl⟩ := e4 r (by rw [hR]; simp)
    unfold histLoop
    rw [quantity_rejected hnd hi (by rw [f.U, e3]; omega) (by rw [f.r, e3]; omega) he]
    rfl

end

theorem quantity_unknown {Y : List Char} (hY : Asks Y .nothing) (labels : List Int) (node : Int) (r : Analysis F) (prev : F) :
    quantity labels node Y r prev = .ok prev := by
  cases hY with
  | nothing a b c d =>
    unfold quantity
    rw [if_neg (not_hasSub a), if_neg (not_hasSub b), if_neg (not_hasSub c), if_neg (not_hasSub d)]

theorem histLoop_unknown {X Y : List Char} (hX : Asks X .nothing) (hY : Asks Y .nothing) (labels : List Int) (n0 n1 : Int)
    (R : List (Analysis F)) (x y : F) : histLoop labels n0 n1 X Y R x y = .ok (List.replicate R.length (x, y)) := by
  induction R with
  | nil => rfl
  | cons r R ih =>
    unfold histLoop
    rw [quantity_unknown hX, py_bind_ok, quantity_unknown hY, py_bind_ok, ih]
    rfl

theorem pathLoop_unknown {Y : List Char} (hY : Asks Y .nothing) (labels : List Int) (r : Analysis F) (ns : List Int) (y : F) :
    pathLoop labels Y r ns y = .ok (List.replicate ns.length y) := by
  induction ns with
  | nil => rfl
  | cons n ns ih =>
    unfold pathLoop
    rw [quantity_unknown hY, py_bind_ok, ih]
    rfl

/-- **C80** (silently accepted) A misspelt name is no error: the curve has the right number of points, all of them NaN. -/
theorem C80_unknown_name_is_nan {m : Model F} {res : Results F} {nt : NodeTab F} (hres : m.results = some res)
    (hnt : m.nodes = some nt) {Y : List Char} (hY : Asks Y .nothing) (hi : ¬ "Increments".toList <:+: Y) :
    (∀ n0 n1, pHistory m n0 n1 Y Y = .ok (0 :: List.replicate res.R.length Flt.nan, 0 :: List.replicate res.R.length Flt.nan)) ∧
      ∀ (path : List Int) (inc : Int) (k : Nat), path ≠ [] → NamesResult res.R.length inc k →
        pPath m path inc Y = .ok (List.replicate path.length Flt.nan) := by
  constructor
  · intro n0 n1
    unfold pHistory
    rw [hres, hnt]
    simp only
    rw [histLoop_unknown hY hY, py_bind_ok, if_neg (not_hasSub hi), if_neg (not_hasSub hi), List.map_replicate, List.map_replicate]
    rfl
  · intro path inc k hne hk
    have hrk : res.R[k]? = some (res.R[k]'hk.1) := List.getElem?_eq_getElem _
    have hget : pyGet res.R inc = .ok (res.R[k]'hk.1) := by
      have hk' := hk.2
      generalize res.R[k]'hk.1 = r at hrk
      rcases hk' with q2 | q2
      · rw [q2, pyGet_ok_nat]; exact hrk
      · have := hk.1
        rw [pyGet_neg (by omega) (by omega), q2, show ((k : Int) - res.R.length + res.R.length).toNat = k by omega]
        exact hrk
    unfold pPath
    rw [hres, hnt]
    simp only
    rw [hget, py_bind_ok, pathLoop_unknown hY, py_bind_ok, if_neg (by simpa using hne)]
    rfl

/-- Names and what becomes of them; `Displacement x` is rejected and `displacement X` is drawn as NaN. -/
example : Rejected "Displacement x".toList true .keyError ∧ Rejected "Force".toList true .keyError ∧
    Rejected "State Variable a".toList true .valueError ∧ Rejected "State Variable 1".toList false .typeError ∧
    Asks "displacement X".toList .nothing ∧ Asks "Force over Displacement X".toList .displacement := by
  have no : ∀ p s : List Char, hasSub p s = false → ¬ p <:+: s := by
    intro p s h h'
    rw [hasSub_iff.2 h'] at h
    cases h
  refine ⟨.letter (c := 'x') (.disp (hasSub_iff.1 (by decide))) (.inl rfl) (by decide) (by decide) (by decide) (by decide),
    .letter (c := 'e') (.force (no _ _ (by decide)) (no _ _ (by decide)) (hasSub_iff.1 (by decide))) (.inr rfl) (by decide)
      (by decide) (by decide) (by decide),
    .digit (c := 'a') (.state (no _ _ (by decide)) (no _ _ (by decide)) (no _ _ (by decide)) (hasSub_iff.1 (by decide)))
      (by decide) (by decide),
    .noState (c := '1') (.state (no _ _ (by decide)) (no _ _ (by decide)) (no _ _ (by decide)) (hasSub_iff.1 (by decide)))
      (by decide) (by decide) rfl,
    .nothing (no _ _ (by decide)) (no _ _ (by decide)) (no _ _ (by decide)) (no _ _ (by decide)),
    .disp (hasSub_iff.1 (by decide))⟩

/-- In the example. -/
example :
    (do let m ← buildRun 1 (exBarModel 1 [1])
        pHistory m 2 2 "LPF".toList "Displacement x".toList) = .error .keyError ∧
    (do let m ← buildRun 1 (exBarModel 1 [1])
        pPath m [2, 1] (-1) "State Variable 1".toList) = .error .typeError := by decide +kernel

end TrussPy
