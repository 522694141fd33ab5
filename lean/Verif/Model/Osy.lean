import Verif.Model.MultiBench
/-
Model of the benchmark function `ConstOsy` (pybrain/rl/environments/functions/multiobjective.py), over the reals.
-/
namespace Verif.MultiBench

/-- `ConstOsy.f`, multiobjective.py:197-203 -/
def osy (x : Fin 6 → ℝ) : Fin 2 → ℝ :=
  ![-(-(25 * (x 0 - 2) ^ 2 + (x 1 - 2) ^ 2 + (x 2 - 1) ^ 2 + (x 3 - 4) ^ 2 + (x 4 - 1) ^ 2)), -(x 0 ^ 2 + x 1 ^ 2 + x 2 ^ 2 + x 3 ^ 2 + x 4 ^ 2 + x 5 ^ 2)]

/-- `ConstOsy.g`, multiobjective.py:187-196 -/
noncomputable def osyG (x : Fin 6 → ℝ) : Bool × List ℝ :=
  checked [x 0 + x 1 - 2, 6 - x 0 - x 1, 2 - x 1 + x 0, 1 - x 0 + 3 * x 1, 4 - (x 2 - 3) ^ 2 - x 3, (x 4 - 3) ^ 2 + x 5 - 4]

/-- `xbound` of `ConstOsy`, multiobjective.py:178-184 -/
def osyBound (x : Fin 6 → ℝ) : Prop := (0 ≤ x 0 ∧ x 0 ≤ 10) ∧ (0 ≤ x 1 ∧ x 1 ≤ 10) ∧ (1 ≤ x 2 ∧ x 2 ≤ 5) ∧ (0 ≤ x 3 ∧ x 3 ≤ 6) ∧ (1 ≤ x 4 ∧ x 4 ≤ 5) ∧ 0 ≤ x 5 ∧ x 5 ≤ 10

end Verif.MultiBench
