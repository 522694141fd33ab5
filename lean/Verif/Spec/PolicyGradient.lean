import Verif.Model.PolicyGradient
/-
Specification for policy gradients: the likelihood of an action, what a lawful module is, the episodes of a history of calls, and the REINFORCE
estimate with its baseline.
-/
namespace Verif.PolicyGrad.Spec
open Verif.PolicyGrad Verif.Net

variable {n k : Nat} {Obs : Type}

/-- The backward pass of the module multiplies with the transposed derivative of its output. -/
def Smooth (P : Policy Obs n k) : Prop :=
  ∀ theta obs err j, HasDerivAt (fun t => ∑ i, err i * P.out (Function.update theta j t) obs i) (P.back theta obs err j) (theta j)

/-- The logarithm of the normal density with mean `u` and standard deviation `sd`, without the constant. -/
noncomputable def logNormal (u sd a : ℝ) : ℝ := -(a - u) ^ 2 / (2 * sd ^ 2) - Real.log sd

/-- One interaction as it is stored: the reward and the row of log-likelihood derivatives. -/
abbrev Step (N : Nat) := ℝ × (Fin N → ℝ)

/-- The episodes, last one open, after adding a step, and after the call `newEpisode`. -/
def addStep {N : Nat} (E : List (List (Step N))) (x : Step N) : List (List (Step N)) := E.dropLast ++ [E.getLastD [] ++ [x]]
def openEpisode {N : Nat} (E : List (List (Step N))) : List (List (Step N)) := if E.getLastD [] = [] then E else E ++ [[]]

/-- The REINFORCE estimate of one gradient component from pairs of a log-likelihood derivative and a return, one per episode, and its baseline. -/
noncomputable def baseline (pairs : List (ℝ × ℝ)) : ℝ := (pairs.map fun p => p.1 ^ 2 * p.2).sum / (pairs.map fun p => p.1 ^ 2).sum
noncomputable def estimate (b : ℝ) (pairs : List (ℝ × ℝ)) : ℝ := (pairs.map fun p => p.1 * (p.2 - b)).sum / pairs.length

/-- the pair of an episode for component `j` -/
def pair {N : Nat} (j : Fin N) (e : List (Step N)) : ℝ × ℝ := ((e.map fun x => x.2 j).sum, (e.map Prod.fst).sum)

end Verif.PolicyGrad.Spec
