import Mathlib.Order.Defs.LinearOrder
/-
Specification of "best so far" for optimizers.
-/
namespace Verif.Opt.Spec

variable {X K : Type} [LinearOrder K]

/-- `a` is at least as good as `b` -/
def AsGood (minimize : Bool) (a b : K) : Prop := if minimize then a ≤ b else b ≤ a

/-- `a` is strictly better than `b` -/
def Better (minimize : Bool) (a b : K) : Prop := if minimize then a < b else b < a

/-- In a log of evaluations (point, value), oldest first, `(x, b)` is the best: nothing before it is better, and everything
after it is worse (of equally good evaluations the latest counts). -/
def BestOf (minimize : Bool) (log : List (X × K)) (x : X) (b : K) : Prop :=
  ∃ pre post, log = pre ++ (x, b) :: post ∧ (∀ p ∈ pre, AsGood minimize b p.2) ∧ (∀ p ∈ post, Better minimize b p.2)

/-- The log records evaluations of `f`, numbered from `n`. -/
def LogOf (f : Nat → X → Option K) (n : Nat) (log : List (X × K)) : Prop :=
  ∀ (i : Nat) (x : X) (r : K), log[i]? = some (x, r) → f (n + i) x = some r

end Verif.Opt.Spec
