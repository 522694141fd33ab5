import Mathlib.Data.Real.Basic
/-
Specification for the options of fitness expectation-maximization (C180).
-/
namespace Verif.Spec

/-- `b` is one of the evaluations (points with fitnesses) of the list, and none of them is better -/
def BestOf {X : Type} (l : List (X × ℝ)) (b : X × ℝ) : Prop := b ∈ l ∧ ∀ e ∈ l, e.2 ≤ b.2

/-- `v` has position `k` if the list is sorted: it is in the list, at most `k` elements are smaller, and more than `k` are not larger -/
def Position (l : List ℝ) (k : Nat) (v : ℝ) : Prop := v ∈ l ∧ l.countP (fun x => decide (x < v)) ≤ k ∧ k < l.countP (fun x => decide (x ≤ v))

end Verif.Spec
