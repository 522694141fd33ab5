import Verif.Model.NES
/-
Specification of Gaussian process regression with a noise variance for each sample.
-/
namespace Verif.GaussP
open Verif.NES

variable {d : Nat}

/-- A function is the posterior mean for the prior mean `m` and the samples (input, target, noise variance): it is `m` plus a combination of the kernels at the inputs with coefficients `a`, and at every input it differs from
the target by the noise variance times the coefficient. -/
def IsPosteriorWith (k : Vec d → Vec d → ℝ) (m : ℝ) (data : List (Vec d × ℝ × ℝ)) (f : Vec d → ℝ) : Prop :=
  ∃ a : List ℝ, a.length = data.length ∧ (∀ x, f x = m + ((data.zip a).map fun t => t.2 * k t.1.1 x).sum) ∧ ∀ t ∈ data.zip a, f t.1.1 + t.1.2.2 * t.2 = t.1.2.1

/-- The noise of a sample in one dimension: that of all samples, and the differences from the targets of the samples within reach, discounted with the distance. -/
noncomputable def noiseOf (reach : ℝ) (data : List (Vec 1 × ℝ)) (p : Vec 1 × ℝ) : ℝ :=
  0.001 + (data.map fun q => if |p.1 0 - q.1 0| ≤ reach then |p.2 - q.2| / Real.exp |p.1 0 - q.1 0| else 0).sum

/-- the samples with their noise -/
noncomputable def withNoise (reach : ℝ) (data : List (Vec 1 × ℝ)) : List (Vec 1 × ℝ × ℝ) := data.map fun p => (p.1, p.2, noiseOf reach data p)

/-- the reach of a sample: the difference between the last and the first input (in the order in which they were given), divided by the number of steps between them -/
noncomputable def reachOf (data : List (Vec 1 × ℝ)) : ℝ := ((data.getLast?.map fun p => p.1 0).getD 0 - (data.head?.map fun p => p.1 0).getD 0) / ((data.length : ℝ) - 1)

/-- the average distance of neighbours in a list of numbers -/
noncomputable def averageGap (xs : List ℝ) : ℝ := ((xs.zip xs.tail).map fun p => |p.2 - p.1|).sum / ((xs.length : ℝ) - 1)

end Verif.GaussP
