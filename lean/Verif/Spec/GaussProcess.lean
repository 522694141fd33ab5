import Verif.Model.GaussProcess
/-!
Specification of Gaussian process regression with noise variance 0.001.
-/

namespace Verif.GaussP
open Matrix Verif.NES

variable {d : Nat}

/-- the training samples after a call -/
def samples (data : List (Vec d × ℝ)) : Op d → List (Vec d × ℝ)
  | .reset => []
  | .trainOnDataset ds => ds
  | .addDataset ds => data ++ ds
  | .addSample x y => data ++ [(x, y)]
  | _ => data

/-- the training samples after a history of calls on a new Gaussian process -/
def samplesOf (ops : List (Op d)) : List (Vec d × ℝ) := ops.foldl samples []

/-- A function is the posterior mean for the prior mean `m` and the data: it is `m` plus a combination of the kernels at the inputs, and at
every input it differs from the target by 0.001 times the coefficient of that input. `w` lists inputs, targets and coefficients. -/
def IsPosterior (k : Vec d → Vec d → ℝ) (m : ℝ) (data : List (Vec d × ℝ)) (f : Vec d → ℝ) : Prop :=
  ∃ w : List (Vec d × ℝ × ℝ), (w.map fun t => (t.1, t.2.1)) = data ∧ (∀ x, f x = m + (w.map fun t => t.2.2 * k t.1 x).sum) ∧
    ∀ t ∈ w, f t.1 + 0.001 * t.2.2 = t.2.1

/-- The posterior covariance between `x` and `x'` is `c`: the prior covariance minus what the posterior mean at `x` would be if the targets were
the prior covariances with `x'`. -/
def IsPosteriorCov (k : Vec d → Vec d → ℝ) (data : List (Vec d × ℝ)) (x x' : Vec d) (c : ℝ) : Prop :=
  ∃ f, IsPosterior k 0 (data.map fun p => (p.1, k p.1 x')) f ∧ c = k x x' - f x

end Verif.GaussP
