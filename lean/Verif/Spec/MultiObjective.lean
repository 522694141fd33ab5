import Mathlib.Order.Defs.LinearOrder
/-
Specification for C122: what a user expects of the points reported by a multi-objective optimizer.
-/
namespace Verif.MOGA.Spec

variable {K α : Type} [LinearOrder K]

/-- The values `y` are better than the values `x` in each of the `dim` objectives, when the user wants to minimise or to maximise. -/
def Beats (minimize : Bool) (dim : Nat) (y x : Nat → K) : Prop := ∀ k < dim, if minimize then y k < x k else x k < y k

/-- `R` holds exactly those candidates that no candidate beats in each objective. -/
def ParetoFront (minimize : Bool) (dim : Nat) (f : α → Nat → K) (candidates R : List α) : Prop :=
  R.Nodup ∧ ∀ x, x ∈ R ↔ x ∈ candidates ∧ ∀ y ∈ candidates, ¬ Beats minimize dim (f y) (f x)

end Verif.MOGA.Spec
