import Verif.Args
/-!
# Specification: property arguments of `Element`
-/

namespace TrussPy

variable {F : Type}

/-- The default lists are as they were created. -/
def DefaultsIntact (h : Lists F) : Prop := h[0]? = some [Entry.npnan] ∧ h[1]? = some [Entry.npnan]

/-- An argument under a long name that works: a list, a tuple, or an array with one entry. -/
def Comparable : PArg F → Prop
  | .array r => r.vals.length = 1
  | _ => True

/-- The argument is not the placeholder `[np.nan]`. -/
def IsGiven (h : Lists F) : Option (PArg F) → Prop
  | none => False
  | some (.list r) => h[r]? ≠ some [.npnan]
  | some _ => True

/-- The row holds the numbers of the list, with NaN for `np.nan`; its type is integer iff the list is not empty and has only
Python integers. -/
def IsTable [Flt F] (l : List (Entry F)) (row : PRow F) : Prop :=
  row.vals.length = l.length ∧
  (∀ (i : Nat) b v, l[i]? = some (Entry.num b v) → row.vals[i]? = some v) ∧
  (∀ i : Nat, l[i]? = some Entry.npnan → row.vals[i]? = some Flt.nan) ∧
  (row.isInt = true ↔ l ≠ [] ∧ ∀ x ∈ l, ∃ v, x = .num true v)

/-- The row is what the argument holds: NaN if it is not given, the numbers of a list (at the time of entry) or tuple, an
array as it is. -/
def Holds [Flt F] (h : Lists F) : Option (PArg F) → PRow F → Prop
  | none, row => row = ⟨false, [Flt.nan]⟩
  | some (.list r), row => ∀ l, h[r]? = some l → IsTable l row
  | some (.tuple l), row => IsTable l row
  | some (.array r), row => row = r

end TrussPy
