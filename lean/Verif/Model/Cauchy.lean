import Mathlib.Analysis.SpecialFunctions.Trigonometric.Basic
import Mathlib.Data.Matrix.Mul
/-
Model of the sampling of Cauchy distributions (`multivariateCauchy` in pybrain/tools/functions.py). The random numbers are an argument, and so is the singular value decomposition. Vectors are functions on `Fin n`; numbers are real.
-/
namespace Verif.Cauchy
open Matrix

variable {n : Nat}

/-- `tan(pi * (r - 0.5))`, functions.py:138 -/
noncomputable def tangents (r : Fin n → ℝ) : Fin n → ℝ := fun i => Real.tan (Real.pi * (r i - 1 / 2))

/-- `multivariateCauchy(mu, sigma)`, functions.py:130-141 with `onlyDiagonal`; `r` is the result of `rand` -/
noncomputable def sampleDiagonal (mu : Fin n → ℝ) (sigma : Matrix (Fin n) (Fin n) ℝ) (r : Fin n → ℝ) : Fin n → ℝ := fun i => sigma i i * tangents r i + mu i

/-- `multivariateCauchy(mu, sigma, False)`, functions.py:130-141; `u`, `s`, `d` are the result of `svd(sigma)` -/
noncomputable def sampleFull (mu : Fin n → ℝ) (u : Matrix (Fin n) (Fin n) ℝ) (s : Fin n → ℝ) (d : Matrix (Fin n) (Fin n) ℝ) (r : Fin n → ℝ) : Fin n → ℝ :=
  let res : Fin n → ℝ := fun i => √(s i) * tangents r i
  d *ᵥ (res ᵥ* u) + mu

end Verif.Cauchy
