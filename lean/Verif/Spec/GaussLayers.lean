import Mathlib.Analysis.SpecialFunctions.Log.Basic
import Mathlib.Analysis.SpecialFunctions.Pow.Real
import Mathlib.Analysis.Real.Pi.Bounds
/-
Specification for C125 and C126.
-/
namespace Verif.GaussLayers.Spec
open Finset

/-- The density of the normal distribution with mean `u` and variance `v` -/
noncomputable def density (u v x : ℝ) : ℝ := Real.exp (-(x - u) ^ 2 / (2 * v)) / Real.sqrt (2 * Real.pi * v)

/-- The log-likelihood of `x` under independent normal distributions -/
noncomputable def logLik {n : ℕ} (u v x : Fin n → ℝ) : ℝ := ∑ j, Real.log (density (u j) (v j) (x j))

/-- The mixture density with coefficients `c`, standard deviations `s`, means `m` (`K` Gaussians in `d` dimensions) -/
noncomputable def mixture (K d : ℕ) (c s : ℕ → ℝ) (m : ℕ → ℕ → ℝ) (x : ℕ → ℝ) : ℝ :=
  ∑ k ∈ range K, c k * ∏ i ∈ range d, density (m k i) (s k ^ 2) (x i)

end Verif.GaussLayers.Spec
