import Mathlib.Data.Real.Basic
import Mathlib.Order.Lattice
/-!
What importance mixing is to return, for densities `old` and `new`.
-/

namespace Verif.Mixing

variable {X : Type}

/-- The positions (counted from `i`) of the old points whose draw passes the reuse test. -/
noncomputable def Passing (fr : ℝ) (old new : X → ℝ) (r : Nat → ℝ) [DecidableLT ℝ] : List X → Nat → List Nat
  | [], _ => []
  | x :: xs, i => if r i < (1 - fr) * new x / old x then i :: Passing fr old new r xs (i + 1) else Passing fr old new r xs (i + 1)

/-- The drawn points that are accepted as new points. -/
noncomputable def Accepted (fr : ℝ) (old new : X → ℝ) [DecidableLT ℝ] (draws : List (ℝ × X)) : List X :=
  (draws.filter (fun d => decide (d.1 < max fr (1 - old d.2 / new d.2)))).map Prod.snd

end Verif.Mixing
