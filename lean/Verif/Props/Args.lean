import Verif.Spec.Args
import Verif.Examples
/-!
# C115: the forms in which properties can be given to `Element`
-/

set_option linter.unusedSectionVars false

namespace TrussPy

variable {F : Type} [Flt F]

theorem differs_of {e : Py Bool} {h : Lists F} {d : Nat} (hd : h[d]? = some [Entry.npnan]) {a : Option (PArg F)}
    (hc : ∀ x, a = some x → Comparable x) :
    ∃ b, (a.getD (.list d)).differs e h = .ok b ∧ (b = true ↔ IsGiven h a) := by
  cases a with
  | none => exact ⟨false, by simp [PArg.differs, List.getD, hd], by simp [IsGiven]⟩
  | some x =>
    cases x with
    | list r =>
      simp only [Option.getD_some, PArg.differs, IsGiven]
      rw [List.getD_eq_getElem?_getD]
      cases hr : h[r]? with
      | none => exact ⟨true, rfl, by simp⟩
      | some l =>
        simp only [Option.getD_some, ne_eq, Option.some.injEq]
        split
        · exact ⟨false, rfl, by simp⟩
        · next hn => exact ⟨true, rfl, by simpa using hn⟩
    | tuple l => exact ⟨true, rfl, by simp [IsGiven]⟩
    | array r =>
      have h1 : r.vals.length = 1 := hc _ rfl
      obtain ⟨v, hv⟩ := List.length_eq_one_iff.1 h1
      exact ⟨true, by simp [PArg.differs, hv], by simp [IsGiven]⟩

theorem rowOf_isTable (l : List (Entry F)) : IsTable l (rowOf l) := by
  refine ⟨by simp [rowOf], fun i b v hi => by simp [rowOf, hi, Entry.val], fun i hi => by simp [rowOf, hi, Entry.val], ?_⟩
  simp only [rowOf, Bool.and_eq_true, Bool.not_eq_true', List.isEmpty_eq_false_iff, List.all_eq_true]
  refine and_congr Iff.rfl (forall₂_congr fun x _ => ?_)
  cases x with
  | npnan => simp [Entry.int]
  | num b v => cases b <;> simp [Entry.int]

theorem read_holds (h : Lists F) (a : Option (PArg F)) : Holds h a ((a.map (PArg.read h)).getD ⟨false, [Flt.nan]⟩) := by
  match a with
  | none => rfl
  | some (.list r) => intro l hl; simpa [PArg.read, List.getD_eq_getElem?_getD, hl] using rowOf_isTable l
  | some (.tuple l) => exact rowOf_isTable l
  | some (.array r) => rfl

theorem mkElemObj_forms {e : Py Bool} {h : Lists F} (hd : DefaultsIntact h) (label : Int) (conn : List Int)
    (ety mty : Int) {mp gp mprop gprop : Option (PArg F)} (hm : ∀ x, mp = some x → Comparable x)
    (hg : ∀ x, gp = some x → Comparable x) :
    (mkElemObj e h label conn ety mty mp gp mprop gprop = .error .typeError ↔
      (IsGiven h mp ∧ mprop.isSome) ∨ (IsGiven h gp ∧ gprop.isSome)) ∧
    (¬ (IsGiven h mp ∧ mprop.isSome) → ¬ (IsGiven h gp ∧ gprop.isSome) →
      ∃ E, mkElemObj e h label conn ety mty mp gp mprop gprop = .ok E ∧
        E.entered h = ⟨label, conn, ety, mty, ((mprop.or mp).map (PArg.read h)).getD ⟨false, [Flt.nan]⟩,
          ((gprop.or gp).map (PArg.read h)).getD ⟨false, [Flt.nan]⟩⟩) := by
  obtain ⟨b, hb, hbg⟩ := differs_of (e := e) hd.1 hm
  obtain ⟨b', hb', hbg'⟩ := differs_of (e := e) hd.2 hg
  have h0 : (PArg.list 0 : PArg F).read h = ⟨false, [Flt.nan]⟩ := by
    simp [PArg.read, List.getD_eq_getElem?_getD, hd.1, rowOf, Entry.int, Entry.val]
  have h1 : (PArg.list 1 : PArg F).read h = ⟨false, [Flt.nan]⟩ := by
    simp [PArg.read, List.getD_eq_getElem?_getD, hd.2, rowOf, Entry.int, Entry.val]
  rw [← hbg, ← hbg']
  simp only [mkElemObj, hb, hb', ElemObj.entered]
  cases b <;> cases b' <;> cases mprop <;> cases gprop <;> cases mp <;> cases gp <;>
    simp_all [bind, Except.bind, pure, Except.pure]

/-- **C115** As long as nobody has edited the default lists, `Element(...)` takes every form of argument (lists, tuples,
arrays) under the short names, and lists, tuples and arrays with one entry under the long names.  It raises `TypeError` iff
a property is given under both names, and otherwise the object is entered with what the given
arguments hold.  Missing: arrays with two or more
entries under the long names, which the documentation ("array_like") allows; see `C115_array_rejected`. -/
theorem C115_property_forms_partial {e : Py Bool} {h : Lists F} (hd : DefaultsIntact h) (label : Int) (conn : List Int)
    (ety mty : Int) {mp gp mprop gprop : Option (PArg F)} (hm : ∀ x, mp = some x → Comparable x)
    (hg : ∀ x, gp = some x → Comparable x) :
    (mkElemObj e h label conn ety mty mp gp mprop gprop = .error .typeError ↔
      (IsGiven h mp ∧ mprop.isSome) ∨ (IsGiven h gp ∧ gprop.isSome)) ∧
    (¬ (IsGiven h mp ∧ mprop.isSome) → ¬ (IsGiven h gp ∧ gprop.isSome) →
      ∃ E, mkElemObj e h label conn ety mty mp gp mprop gprop = .ok E ∧
        (E.entered h).label = label ∧ (E.entered h).conn = conn ∧ (E.entered h).etype = ety ∧ (E.entered h).mtype = mty ∧
        Holds h (mprop.or mp) (E.entered h).mprop ∧ Holds h (gprop.or gp) (E.entered h).gprop) := by
  refine ⟨(mkElemObj_forms hd label conn ety mty hm hg).1, fun h1 h2 => ?_⟩
  obtain ⟨E, hE, he⟩ := (mkElemObj_forms (e := e) hd label conn ety mty hm hg).2 h1 h2
  exact ⟨E, hE, by rw [he], by rw [he], by rw [he], by rw [he], by rw [he]; exact read_holds h _,
    by rw [he]; exact read_holds h _⟩

/-- **C115** In particular properties given under the short names arrive in every form. -/
theorem C115_short_names {e : Py Bool} {h : Lists F} (hd : DefaultsIntact h) (label : Int) (conn : List Int)
    (ety mty : Int) (m g : PArg F) :
    ∃ E, mkElemObj e h label conn ety mty none none (some m) (some g) = .ok E ∧
      (E.entered h).label = label ∧ (E.entered h).conn = conn ∧ (E.entered h).etype = ety ∧ (E.entered h).mtype = mty ∧
      Holds h (some m) (E.entered h).mprop ∧ Holds h (some g) (E.entered h).gprop :=
  (C115_property_forms_partial hd label conn ety mty (mp := none) (gp := none) (by simp) (by simp)).2
    (fun h => h.1) (fun h => h.1)

/-- **C115** The full claim is false: an array with two or more entries under the name `material_properties` is rejected
with `ValueError` whatever the other arguments are; under the name `geometric_properties` no element is made either. -/
theorem C115_array_rejected (e : Py Bool) (h : Lists F) (label : Int) (conn : List Int) (ety mty : Int)
    (mp gp mprop gprop : Option (PArg F)) {r : PRow F} (hr : 2 ≤ r.vals.length) :
    mkElemObj e h label conn ety mty (some (.array r)) gp mprop gprop = .error .valueError ∧
    (∀ E, mkElemObj e h label conn ety mty mp (some (.array r)) mprop gprop ≠ .ok E) := by
  have hd : (PArg.array r : PArg F).differs e h = .error .valueError := by
    match hv : r.vals with
    | [] => simp [hv] at hr
    | [_] => simp [hv] at hr
    | _ :: _ :: _ => simp [PArg.differs, hv]
  constructor
  · simp [mkElemObj, hd, bind, Except.bind]
  · intro E
    simp only [mkElemObj, Option.getD_some, hd]
    cases (mp.getD (.list 0)).differs e h with
    | error => simp [bind, Except.bind]
    | ok b => cases b <;> cases mprop <;> simp [bind, Except.bind]

/-- **C115** The default lists stay intact as long as the program edits only lists of its own. -/
theorem C115_defaults_kept (ops : List (ListOp F)) (hops : ∀ r l, ListOp.edit r l ∈ ops → 2 ≤ r) :
    DefaultsIntact (ops.foldl Lists.step Lists.init) := by
  suffices H : ∀ (ops : List (ListOp F)) (h : Lists F), (∀ r l, ListOp.edit r l ∈ ops → 2 ≤ r) → DefaultsIntact h →
      DefaultsIntact (ops.foldl Lists.step h) from H ops _ hops ⟨rfl, rfl⟩
  intro ops
  induction ops with
  | nil => intro h _ hd; exact hd
  | cons op ops ih =>
    intro h hops hd
    refine ih _ (fun r l hm => hops r l (List.mem_cons_of_mem _ hm)) ?_
    cases op with
    | make l =>
      refine ⟨?_, ?_⟩
      · rw [Lists.step, List.getElem?_append_left (List.getElem?_eq_some_iff.1 hd.1).1]; exact hd.1
      · rw [Lists.step, List.getElem?_append_left (List.getElem?_eq_some_iff.1 hd.2).1]; exact hd.2
    | edit r l =>
      have := hops r l List.mem_cons_self
      exact ⟨by rw [Lists.step, List.getElem?_set_ne (by omega)]; exact hd.1,
        by rw [Lists.step, List.getElem?_set_ne (by omega)]; exact hd.2⟩

/-- **C115** An element made without `material_properties` refers to the default list itself.  After this list has been
edited through the element, every later element without material properties has the edited ones, and one whose properties
are given as `mprop` is rejected with `TypeError` although `material_properties` was not given. -/
theorem C115_edited_default {e : Py Bool} {h : Lists F} (hd : DefaultsIntact h) (label : Int) (conn : List Int)
    (ety mty : Int) (gprop : Option (PArg F)) :
    ∃ E ref, mkElemObj e h label conn ety mty none none none gprop = .ok E ∧ E.mprop = .list ref ∧
      ∀ l, l ≠ [.npnan] → ∀ (label' : Int) (conn' : List Int) (ety' mty' : Int) (gprop' : Option (PArg F)),
        (∃ E', mkElemObj e (h.step (.edit ref l)) label' conn' ety' mty' none none none gprop' = .ok E' ∧
          IsTable l (E'.entered (h.step (.edit ref l))).mprop) ∧
        ∀ m, mkElemObj e (h.step (.edit ref l)) label' conn' ety' mty' none none (some m) gprop' = .error .typeError := by
  have hlt := (List.getElem?_eq_some_iff.1 hd.1).1
  obtain ⟨b', hb', hbg'⟩ := differs_of (e := e) (a := none) hd.2 (by simp)
  cases b' with
  | true => simp [IsGiven] at hbg'
  | false =>
  obtain ⟨b, hb, hbg⟩ := differs_of (e := e) (a := none) hd.1 (by simp)
  cases b with
  | true => simp [IsGiven] at hbg
  | false =>
  simp only [Option.getD_none] at hb hb'
  refine ⟨⟨label, conn, ety, mty, .list 0, gprop.getD (.list 1)⟩, 0, ?_, rfl, ?_⟩
  · simp [mkElemObj, hb, hb', bind, Except.bind, pure, Except.pure]
  intro l hl label' conn' ety' mty' gprop'
  have hr : ((h.step (.edit 0 l)).getD 0 []) = l := by
    simp [Lists.step, List.getD_eq_getElem?_getD, hlt]
  have hd1 : (h.step (.edit 0 l))[1]? = some [.npnan] := by
    rw [Lists.step, List.getElem?_set_ne (by omega)]; exact hd.2
  have k1 : (PArg.list 1 : PArg F).differs e (h.step (.edit 0 l)) = .ok false := by
    simp [PArg.differs, List.getD_eq_getElem?_getD, hd1]
  have k0 : (PArg.list 0 : PArg F).differs e (h.step (.edit 0 l)) = .ok true := by
    simp only [PArg.differs, hr]
  refine ⟨⟨⟨label', conn', ety', mty', .list 0, gprop'.getD (.list 1)⟩, ?_, ?_⟩, fun m => ?_⟩
  · simp [mkElemObj, k0, k1, bind, Except.bind, pure, Except.pure]
  · simp only [ElemObj.entered, PArg.read, hr]; exact rowOf_isTable l
  · simp [mkElemObj, k0, bind, Except.bind]

/-! ## Concrete cases -/

/-- `Element(7, [1, 2], mprop=np.array([3, 5]), gprop=(2,))` and the same with lists under the long names. -/
example : (mkElemObj (F := ℚ) (.ok false) .init 7 [1, 2] 1 1 none none (some (.array ⟨true, [3, 5]⟩))
      (some (.tuple [.num true 2]))).map (·.entered .init) = .ok ⟨7, [1, 2], 1, 1, ⟨true, [3, 5]⟩, ⟨true, [2]⟩⟩ ∧
    (mkElemObj (F := ℚ) (.ok false) [[.npnan], [.npnan], [.num true 3, .num true 5], [.num true 2]] 7 [1, 2] 1 1
      (some (.list 2)) (some (.list 3)) none none).map
        (·.entered [[.npnan], [.npnan], [.num true 3, .num true 5], [.num true 2]]) =
      .ok ⟨7, [1, 2], 1, 1, ⟨true, [3, 5]⟩, ⟨true, [2]⟩⟩ := by decide +kernel

/-- A list of integers gives an integer row, one float makes all entries floats, an empty list gives a float row. -/
example : IsTable [.num true 3, .num true 5] (⟨true, [3, 5]⟩ : PRow ℚ) ∧
    IsTable [.num true 3, .num false (5/2)] (⟨false, [3, 5/2]⟩ : PRow ℚ) ∧ IsTable [] (⟨false, []⟩ : PRow ℚ) :=
  ⟨rowOf_isTable _, rowOf_isTable _, rowOf_isTable _⟩

/-- `Element(7, [1, 2], material_properties=np.array([3, 5]))`. -/
example : mkElemObj (F := ℚ) (.ok false) .init 7 [1, 2] 1 1 (some (.array ⟨true, [3, 5]⟩)) none none none =
    .error .valueError := by decide +kernel

/-- `e = Element(1, [1, 2]); e.material_properties[0] = 9`, then `Element(2, [2, 3], mprop=[4])`. -/
example : DefaultsIntact (F := ℚ) .init ∧
    mkElemObj (F := ℚ) (.ok false) (Lists.step .init (.edit 0 [.num true 9])) 2 [2, 3] 1 1 none none
      (some (.tuple [.num true 4])) none = .error .typeError := ⟨⟨rfl, rfl⟩, by decide +kernel⟩

end TrussPy
