import Verif.Model.Swiping
/-
Model of the connections between the states of the cells in pybrain/structure/networks/multidimensional.py (MultiDimensionalLSTM).

A hidden module is given by its unit and its swipe.
-/
namespace Verif.MdNet
open Verif.Mesh Verif.Swiping

abbrev Hid := List Nat × Nat

/-- the connections between hidden modules, in the order in which they are added, swiping.py:93-118 -/
def hiddenLinks (dims : List Nat) : List (Hid × Hid) :=
  (Enum.iterCombinations dims).flatMap fun unit => (List.range (2 ^ dims.length)).flatMap fun swipe => (List.range dims.length).flatMap fun dim =>
    match previous unit swipe dim (dims.getD dim 0) with
    | none => []
    | some p => [((p, swipe), (unit, swipe))]

/-- an identity connection from the states of `src` to the block `slot` of the incoming states of `tgt` -/
structure StateLink where
  src : Hid
  tgt : Hid
  slot : Nat
deriving DecidableEq, Repr

/-- the loop of multidimensional.py:42-52; `modules` are the hidden modules in the order of the set `self.modules`. Among the connections of a hidden module, those to other hidden
modules are counted by `index`. -/
def stateLinks (dims : List Nat) (modules : List Hid) : List StateLink :=
  modules.flatMap fun m => (((hiddenLinks dims).filter fun a => decide (a.1 = m)).zipIdx).map fun p => { src := m, tgt := p.1.2, slot := p.2 }

/-- `MultiDimensionalLSTM(dims)`, multidimensional.py:18-54, as far as the hidden mesh is concerned: it has four swipes (line 34), and `_verifyDimensions` (swiping.py:45-52) compares them with `swipes` -/
def multiDimensionalLSTM (dims : List Nat) (modules : List Hid) : Except MErr (List StateLink) :=
  if 4 ≠ 2 ^ dims.length then .error .assertion
  else if ¬ ∀ d ∈ dims, 1 < d then .error .assertion
  else .ok (stateLinks dims modules)

end Verif.MdNet
