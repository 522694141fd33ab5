import Verif.Model.LinearFAAgent
/-
Vocabulary for the agent of the learners with linear function approximation.
-/
namespace Verif.LinFAAgent

variable {O R : Type}

/-- the update for the transition from step `x` to step `y` -/
def link (c : Cfg) (x y : O × Nat × R) : LCall O R := .update x.1 (some x.2.1) (some x.2.2) y.1 (if c.passNextAction then some y.2.1 else none)

/-- the updates for the transitions of an episode -/
def links (c : Cfg) : List (O × Nat × R) → List (LCall O R)
  | x :: y :: xs => link c x y :: links c (y :: xs)
  | _ => []

end Verif.LinFAAgent
