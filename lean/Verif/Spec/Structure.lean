import Verif.Equil
/-!
# Specification: the structure described by the tables

A `Bar` is what the tables say about one element, read off directly: the positions of its two nodes in
the node table, their coordinates, its properties and its material law.
-/

namespace TrussPy

/-- One element as data. -/
structure Bar (F : Type) where
  /-- position of the begin node in the node table -/
  iA : Nat
  /-- position of the end node in the node table -/
  iE : Nat
  XA : V3 F
  XE : V3 F
  mat : List F
  geo : List F
  law : Umat

section
variable {F : Type}

/-- A coordinate row of the node table with three components. -/
def CoordRow (c : Ctx F) (i : Nat) (X : V3 F) : Prop := c.nodes.coords.rows[i]? = some [X 0, X 1, X 2]

/-- The element at position `k` of the element table is the bar `b`. -/
structure Ctx.IsBar (c : Ctx F) (k : Nat) (b : Bar F) : Prop where
  conn : ∃ NA NE, c.elems.conns.rows[k]? = some [NA, NE] ∧ c.nodes.labels[b.iA]? = some NA ∧
    c.nodes.labels[b.iE]? = some NE
  coordA : CoordRow c b.iA b.XA
  coordE : CoordRow c b.iE b.XE
  mat : c.elems.mprop.rows[k]? = some b.mat
  geo : c.elems.gprop.rows[k]? = some b.geo
  law : (c.elems.mtype[k]? = some 1 ∧ b.law = .el) ∨ (c.elems.mtype[k]? = some 2 ∧ b.law = .elplast)
  ne : b.iA ≠ b.iE

/-- The tables describe the list of bars `bars` (in table order); labels are distinct. -/
structure Ctx.Bars (c : Ctx F) (bars : List (Bar F)) : Prop where
  nodes : c.nodes.labels.Nodup
  elems : c.elems.labels.Nodup
  length : bars.length = c.elems.labels.length
  bar : ∀ k b, bars[k]? = some b → c.IsBar k b
  nnodes : c.nnodes = c.nodes.labels.length

/-- The analysis object has the sizes of the structure. -/
structure Analysis.Fits (a : Analysis F) (c : Ctx F) : Prop where
  U : a.U.length = 3 * c.nnodes
  U0 : a.U0.length = 3 * c.nnodes
  r : a.r.length = c.nnodes
  K : a.K.length = c.nnodes
  Krow : ∀ row ∈ a.K, row.length = c.nnodes
  stretch : a.stretch.length = c.elems.labels.length
  force : a.elementForce.length = c.elems.labels.length
  stress : a.elementStress.length = c.elems.labels.length
  statev : 0 < c.nstatev → ∃ sv, a.statev = some sv ∧ sv.length = c.elems.labels.length
  dof : ∀ i ∈ a.DOF1, i < 3 * c.nnodes
  dofNodup : a.DOF1.Nodup

/-- State variables of the element at position `k` (none, if the model has no state variables). -/
def stateRow (c : Ctx F) (sv : Option (List (List F))) (k : Nat) : Option (List F) :=
  if 0 < c.nstatev then sv.bind (·[k]?) else none

end

end TrussPy
