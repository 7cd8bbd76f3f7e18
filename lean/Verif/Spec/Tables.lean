/-!
# Specification of label-indexed tables

What a user expects from a sequence of `add` and `del` calls: a list of objects to which `add` appends
and from which `del l` removes everything labelled `l`.  Independent of the model.
-/

namespace TrussPy

/-- A call on a handler. -/
inductive TabOp (α : Type) where
  | add (a : α)
  | del (l : Int)

/-- The objects a user expects to be stored after the calls. -/
def stored {α : Type} (key : α → Int) : List α → List (TabOp α) → List α
  | s, [] => s
  | s, .add a :: ops => stored key (s ++ [a]) ops
  | s, .del l :: ops => stored key (s.filter fun a => key a ≠ l) ops

/-- A row filled up with zeros to width `w`. -/
def padTo {F : Type} [Zero F] (w : Nat) (r : List F) : List F := r ++ List.replicate (w - r.length) 0

end TrussPy
