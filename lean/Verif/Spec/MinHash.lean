import Verif.Model.MinHash
/-
What was stored, and how alike two arrays are, independently of the hash structure.
-/
namespace Verif.MinHash.Spec

/-- The accepted `put` calls of a history, in order: the item as a 0/1 array and its satellite. -/
def stored {S : Type} (dim : Nat) : List (Op S) → List (List Int × S)
  | [] => []
  | .put item sat :: ops => if item.length = dim then (asBool item, sat) :: stored dim ops else stored dim ops
  | .knn _ _ :: ops => stored dim ops

/-- An array in Hamming space. -/
def Binary (item : List Int) : Prop := ∀ x ∈ item, x = 0 ∨ x = 1

end Verif.MinHash.Spec
