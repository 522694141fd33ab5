import Verif.Model.MdNet
import Verif.Spec.Swiping
/-
Specification of the connections between the states of the cells in a two-dimensional grid.
-/
namespace Verif.MdNet.Spec
open Verif.Swiping.Spec

/-- swipe `s` goes on from coordinate `x` of dimension `d`, which has `N` units -/
def More (s d x N : Nat) : Prop := if Up s d then x + 1 < N else 0 < x
instance (s d x N : Nat) : Decidable (More s d x N) := by unfold More; exact inferInstance

/-- `modules` are all hidden modules of an n × m grid with four swipes, each once -/
def All (n m : Nat) (modules : List Hid) : Prop := modules.Nodup ∧ ∀ h : Hid, h ∈ modules ↔ ∃ i < n, ∃ j < m, ∃ s < 4, h = ([i, j], s)

/-- what the states `st` of all modules contribute to block `slot` of the incoming states of `tgt` -/
def incoming (ls : List StateLink) (st : Hid → ℝ) (tgt : Hid) (slot : Nat) : ℝ := ((ls.filter fun l => decide (l.tgt = tgt ∧ l.slot = slot)).map fun l => st l.src).sum

/-- the dimension in which a unit's next unit comes first, row by row -/
def lead (s : Nat) : Nat := if Up s 0 then 1 else 0

end Verif.MdNet.Spec
