import Mathlib.Analysis.InnerProductSpace.PiL2
/-
Specification for C123 and C124.
-/
namespace Verif.MultiBench.Spec

variable {X : Type}

/-- The values `b` are not worse than `a` in any objective, and better in one (larger is better). -/
def Dominates {m : ℕ} (b a : Fin m → ℝ) : Prop := (∀ k, a k ≤ b k) ∧ ∃ k, a k < b k

/-- Pareto optimal points of a domain (larger is better) -/
def Optimal {m : ℕ} (domain : X → Prop) (f : X → Fin m → ℝ) (x : X) : Prop := domain x ∧ ∀ y, domain y → ¬ Dominates (f y) (f x)

/-- The function takes arbitrarily small values. -/
def Unbounded (f : X → ℝ) : Prop := ∀ b : ℝ, ∃ x, f x < b

/-- Places of atoms -/
abbrev Place := EuclideanSpace ℝ (Fin 3)

/-- The Lennard-Jones potential of two atoms with distance `r`, in units where the best distance is `2 ^ (1/6)` and has energy -1 -/
noncomputable def potential (r : ℝ) : ℝ := 4 * ((r ^ 12)⁻¹ - (r ^ 6)⁻¹)

/-- The energy of a cluster: the sum over all pairs -/
noncomputable def energy {N : ℕ} (atoms : Fin N → Place) : ℝ := ∑ i, ∑ j, if i < j then potential (dist (atoms i) (atoms j)) else 0

end Verif.MultiBench.Spec
