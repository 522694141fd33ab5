import Verif.Model.PCA
import Verif.Spec.CMAES
/-!
Specification of principal components: orthonormal directions, the variance of the data along a direction, and subspaces.
-/

namespace Verif.PCA
open Matrix Verif.NES

variable {n d : Nat}

/-- pairwise orthogonal vectors of length 1 -/
def Orthonormal (l : List (Vec d)) : Prop := (∀ v ∈ l, v ⬝ᵥ v = 1) ∧ l.Pairwise fun v w => v ⬝ᵥ w = 0

/-- the mean point -/
noncomputable def meanPoint (X : Matrix (Fin n) (Fin d) ℝ) : Vec d := (1 / (n : ℝ)) • ∑ i, X i

/-- the sample variance of the data along the direction `v` -/
noncomputable def variance (X : Matrix (Fin n) (Fin d) ℝ) (v : Vec d) : ℝ := (∑ i, (v ⬝ᵥ (X i - meanPoint X)) ^ 2) / ((n : ℝ) - 1)

/-- the sample covariance of the coordinates of the data along `v` and `w` -/
noncomputable def covariance (X : Matrix (Fin n) (Fin d) ℝ) (v w : Vec d) : ℝ :=
  (∑ i, (v ⬝ᵥ (X i - meanPoint X)) * (w ⬝ᵥ (X i - meanPoint X))) / ((n : ℝ) - 1)

/-- the point of the affine subspace through the mean, with directions `l`, that has the coordinates of `x` -/
noncomputable def reconstruct (X : Matrix (Fin n) (Fin d) ℝ) (l : List (Vec d)) (x : Vec d) : Vec d :=
  meanPoint X + (l.map fun v => (v ⬝ᵥ (x - meanPoint X)) • v).sum

/-- the summed squared distance between the points and their reconstructions -/
noncomputable def loss (X : Matrix (Fin n) (Fin d) ℝ) (l : List (Vec d)) : ℝ :=
  ∑ i, (X i - reconstruct X l (X i)) ⬝ᵥ (X i - reconstruct X l (X i))

/-- the scatter matrix -/
noncomputable def scatter (X : Matrix (Fin n) (Fin d) ℝ) : Matrix (Fin d) (Fin d) ℝ := ∑ i, vecMulVec (X i - meanPoint X) (X i - meanPoint X)

end Verif.PCA
