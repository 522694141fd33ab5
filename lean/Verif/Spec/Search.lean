import Mathlib.Logic.Relation
import Mathlib.Data.Finset.Basic
/-
Specification for C19: reachability in the graph given by a step function.
-/
namespace Verif.Search.Spec

variable {V : Type}

/-- One step that stays inside the full set (if there is one). -/
def Step (step : V → List V) (full : Option (Finset V)) (a b : V) : Prop := b ∈ step a ∧ ∀ f, full = some f → b ∈ f

/-- `x` is linked to some element of `init` inside the full set. -/
def Linked (step : V → List V) (full : Option (Finset V)) (init : Finset V) (x : V) : Prop :=
  ∃ s ∈ init, (∀ f, full = some f → s ∈ f) ∧ Relation.ReflTransGen (Step step full) s x

/-- Walks of `k` steps from `S` that stop at the first element of `D` they meet. -/
inductive Walk (step : V → List V) (D S : V → Prop) : Nat → V → Prop
  | start (s : V) : S s → Walk step D S 0 s
  | next (k : Nat) (a b : V) : Walk step D S k a → ¬ D a → b ∈ step a → Walk step D S (k + 1) b

/-- The length of the shortest such walk to `x` is `k`. -/
def Dist (step : V → List V) (D S : V → Prop) (x : V) (k : Nat) : Prop :=
  Walk step D S k x ∧ ∀ j, j < k → ¬ Walk step D S j x

end Verif.Search.Spec
