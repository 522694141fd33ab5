import Mathlib.Data.Real.Basic
/-
Specification for the benchmark functions: "a n-to-1 mapping function to be with a single minimum of value
zero, at xopt" (function.py:12).
-/
namespace Verif.Benchmark

/-- `f` has a minimum of value zero at `p`. -/
def HasZeroMin {n : ℕ} (f : (Fin n → ℝ) → ℝ) (p : Fin n → ℝ) : Prop := (∀ x, 0 ≤ f x) ∧ f p = 0

/-- `f` has a single minimum of value zero, at `p`. -/
def SingleZeroMin {n : ℕ} (f : (Fin n → ℝ) → ℝ) (p : Fin n → ℝ) : Prop :=
  (∀ x, 0 ≤ f x) ∧ (∀ x, f x = 0 ↔ x = p)

end Verif.Benchmark
