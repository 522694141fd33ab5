import Mathlib.LinearAlgebra.Matrix.NonsingularInverse
import Mathlib.Analysis.SpecialFunctions.Log.Basic
import Mathlib.Analysis.Real.Pi.Bounds
/-
What C137 refers to: the density of the normal distribution, and expectations of polynomials of degree four of standard normal noise.
-/
namespace Verif.VES.Spec
open Matrix

variable {n : ℕ}

/-- The logarithm of the density of the normal distribution with mean `mu` and covariance `cov` -/
noncomputable def logDensity (cov : Matrix (Fin n) (Fin n) ℝ) (mu x : Fin n → ℝ) : ℝ :=
  -(1 / 2) * ((x - mu) ⬝ᵥ (cov⁻¹ *ᵥ (x - mu))) - 1 / 2 * Real.log cov.det - n / 2 * Real.log (2 * Real.pi)

/-- `E` has the moments up to degree four (as far as they are needed) of `n` independent standard normal variables -/
structure StandardNormal (E : ((Fin n → ℝ) → ℝ) →ₗ[ℝ] ℝ) : Prop where
  one : E (fun _ => 1) = 1
  two : ∀ a b, E (fun s => s a * s b) = if a = b then 1 else 0
  four : ∀ a b c d, E (fun s => s a * s b * s c * s d) =
    (if a = b then 1 else 0) * (if c = d then 1 else 0) + (if a = c then 1 else 0) * (if b = d then 1 else 0) + (if a = d then 1 else 0) * (if b = c then 1 else 0)

end Verif.VES.Spec
