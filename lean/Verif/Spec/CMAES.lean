import Verif.Model.CMAES
/-!
Specification of CMA-ES: what `numpy.linalg.eig` is to return, and the state in shifted coordinates.
-/

namespace Verif.CMA
open Matrix Verif.NES

variable {n : Nat}

/-- an eigenvalue routine: orthonormal eigenvectors (the columns of the second result) of symmetric matrices -/
def EigSpec (eig : Matrix (Fin n) (Fin n) ℝ → Vec n × Matrix (Fin n) (Fin n) ℝ) : Prop :=
  ∀ M : Matrix (Fin n) (Fin n) ℝ, M.IsSymm → (eig M).2 * (eig M).2ᵀ = 1 ∧ M = (eig M).2 * diagonal (eig M).1 * (eig M).2ᵀ

/-- the state in shifted coordinates -/
def Cma.shift (t : Vec n) (s : Cma n) : Cma n := { s with center := s.center + t }

/-- `best` lists the positions of the fitnesses from the best (smallest) to the worst -/
def BestFirst (fits : List ℝ) (best : List Nat) : Prop :=
  best.Perm (List.range fits.length) ∧ (best.filterMap (fun i => fits[i]?)).Pairwise (· ≤ ·)

end Verif.CMA
