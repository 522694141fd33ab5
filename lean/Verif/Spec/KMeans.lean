import Verif.Model.KMeans
/-!
Specification of the seeding: the cost of a choice of centers is the sum of the squared distances from the points to their nearest centers.
-/

namespace Verif.KMeans
open Verif.NES

variable {n d : Nat}

/-- the squared distance from `x` to the nearest of the centers -/
def nearest (x : Vec d) : List (Vec d) → ℝ
  | [] => 0
  | [c] => sqDist x c
  | c :: cs => min (sqDist x c) (nearest x cs)

/-- the cost of the centers -/
noncomputable def cost (X : Fin n → Vec d) (centers : List (Vec d)) : ℝ := ∑ j, nearest (X j) centers

end Verif.KMeans
