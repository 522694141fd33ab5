import Verif.Model.DataSet
import Mathlib.Data.Matrix.Mul
import Mathlib.Data.Real.Basic
import Mathlib.Algebra.Order.Floor.Ring
import Mathlib.Data.Real.Archimedean
import Mathlib.Data.List.FinRange
/-
Model of pybrain/rl/learners/modelbased/policyiteration.py and of `all_argmax` (pybrain/utilities.py:693-696).

`n` states, `k` actions; arrays are functions on the indices, numbers are reals, `dot` is the matrix product.
-/
namespace Verif.Policy
open Verif.DataSet (Err)
open Matrix

variable {n k : Nat}

/-- a transition matrix, or a policy -/
abbrev Mat (n m : Nat) := Matrix (Fin n) (Fin m) ℝ
abbrev Vec (n : Nat) := Fin n → ℝ

/-- the loop of `trueValues`, policyiteration.py:46-48, with the number of passes left -/
noncomputable def tvLoop (T : Mat n n) (R : Vec n) (gamma : ℝ) : Nat → Nat → Mat n n → Vec n → Vec n
  | 0, _, _, res => res
  | c + 1, i, distr, res =>
    let distr := distr * T
    tvLoop T R gamma c (i + 1) distr (res + (gamma ^ i) • (distr *ᵥ R))

/-- `int(10 / (1. - discountFactor))` -/
noncomputable def horizon (gamma : ℝ) : Nat := ⌊10 / (1 - gamma)⌋.toNat

/-- `trueValues`, policyiteration.py:40-49 -/
noncomputable def trueValues (T : Mat n n) (R : Vec n) (gamma : ℝ) : Except Err (Vec n) :=
  if gamma < 1 then .ok (tvLoop T R gamma (horizon gamma - 1) 1 T (T *ᵥ R)) else .error .assertion

/-- `collapsedTransitions`, policyiteration.py:66-73 -/
noncomputable def collapsed (Ts : Fin k → Mat n n) (policy : Mat n k) : Mat n n :=
  (List.finRange k).foldl (fun res ai => fun s s' => res s s' + Ts ai s s' * policy s ai) (fun _ _ => 0)

/-- `trueQValues`, policyiteration.py:52-63 -/
noncomputable def trueQValues (Ts : Fin k → Mat n n) (R : Vec n) (gamma : ℝ) (policy : Mat n k) : Except Err (Mat n k) :=
  match trueValues (collapsed Ts policy) R gamma with
  | .error e => .error e
  | .ok V => .ok (fun s a => Ts a s ⬝ᵥ (gamma • V + R))

open Classical in
/-- `all_argmax`, utilities.py:693-696: all indices whose value is the maximum. (`max` of no values raises ValueError.) -/
noncomputable def allArgmax (x : Fin k → ℝ) : List (Fin k) :=
  (List.finRange k).filter (fun i => decide (∀ j, x j ≤ x i))

open Classical in
/-- `greedyQPolicy`, policyiteration.py:90-100, for at least one action -/
noncomputable def greedyQPolicy (Qs : Mat n k) : Mat n k :=
  fun s a => if a ∈ allArgmax (Qs s) then 1 / ((allArgmax (Qs s)).length : ℝ) else 0

/-- the action values of `greedyPolicy`, policyiteration.py:81 and 84 -/
noncomputable def lookahead (Ts : Fin k → Mat n n) (R : Vec n) (gamma : ℝ) (V : Vec n) : Mat n k :=
  fun s a => Ts a s ⬝ᵥ (gamma • V + R)

/-- `greedyPolicy`, policyiteration.py:76-87, for at least one action -/
noncomputable def greedyPolicy (Ts : Fin k → Mat n n) (R : Vec n) (gamma : ℝ) (V : Vec n) : Mat n k × Mat n n :=
  let policy := greedyQPolicy (lookahead Ts R gamma V)
  (policy, collapsed Ts policy)

/-- `randomPolicy`, policyiteration.py:103-107 -/
noncomputable def randomPolicy (Ts : Fin k → Mat n n) : Mat n k × Mat n n :=
  (fun _ _ => 1 / (k : ℝ), fun s s' => (∑ a, Ts a s s') / (k : ℝ))

open Classical in
/-- the loop of `policyIteration`, policyiteration.py:135-143 -/
noncomputable def piLoop (Ts : Fin k → Mat n n) (R : Vec n) (gamma : ℝ) (eval : Mat n n → Vec n) : Nat → Mat n k → Mat n n → Mat n k × Mat n n
  | 0, policy, T => (policy, T)
  | maxIters + 1, policy, T =>
    let r := greedyPolicy Ts R gamma (eval T)
    if (∑ s, ∑ a, |r.1 s a - policy s a|) < 1 / 1000 then (policy, r.2)
    else piLoop Ts R gamma eval maxIters r.1 r.2

/-- `policyIteration`, policyiteration.py:121-143 -/
noncomputable def policyIteration (Ts : Fin k → Mat n n) (R : Vec n) (gamma : ℝ) (eval : Mat n n → Vec n) (init : Option (Mat n k)) (maxIters : Nat) :
    Mat n k × Mat n n :=
  match init with
  | none => piLoop Ts R gamma eval maxIters (randomPolicy Ts).1 (randomPolicy Ts).2
  | some p => piLoop Ts R gamma eval maxIters p (collapsed Ts p)

end Verif.Policy
