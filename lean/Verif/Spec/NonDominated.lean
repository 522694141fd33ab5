import Mathlib.Order.Defs.LinearOrder
/-
Specification for C21-C23: domination and fronts. Smaller objective values are better.
-/
namespace Verif.NonDom.Spec

variable {α K : Type} [LinearOrder K]

/-- `x` is better than `y` in every objective -/
def Better (dim : Nat) (x y : Nat → K) : Prop := ∀ k, k < dim → x k < y k

/-- `x` is at least as good as `y` in every objective -/
def AtLeast (dim : Nat) (x y : Nat → K) : Prop := ∀ k, k < dim → x k ≤ y k

/-- `R` is a front of `items` for the relation `dom`: it consists of items, none of which dominates another, and every
other item is dominated by one of them. -/
structure IsFront (dom : α → α → Prop) (items R : List α) : Prop where
  nodup : R.Nodup
  sub : ∀ x ∈ R, x ∈ items
  indep : ∀ a ∈ R, ∀ b ∈ R, a ≠ b → ¬ dom a b
  covers : ∀ x ∈ items, x ∉ R → ∃ y ∈ R, dom y x

end Verif.NonDom.Spec
