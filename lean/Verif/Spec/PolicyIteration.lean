import Verif.Model.PolicyIteration
/-
Markov decision processes: stochastic matrices, policies and their values.
-/
namespace Verif.Policy.Spec
open Verif.Policy
open Matrix

variable {n k : Nat}

/-- rows of probabilities -/
def Stochastic {m : Nat} (P : Mat n m) : Prop := (∀ s a, 0 ≤ P s a) ∧ ∀ s, ∑ a, P s a = 1

/-- the dynamics under a policy: the action is drawn according to the policy, then the next state according to the action -/
def Dynamics (Ts : Fin k → Mat n n) (policy : Mat n k) (s s' : Fin n) : ℝ := ∑ a, policy s a * Ts a s s'

/-- `V` is the value function of the dynamics `T`: the expected reward on entering the next state, plus the discounted value there -/
def IsValue (T : Mat n n) (R : Vec n) (gamma : ℝ) (V : Vec n) : Prop := ∀ s, V s = ∑ s', T s s' * (R s' + gamma * V s')

/-- the value of taking action `a` in state `s` and being worth `V` afterwards -/
def actionValue (Ts : Fin k → Mat n n) (R : Vec n) (gamma : ℝ) (V : Vec n) (s : Fin n) (a : Fin k) : ℝ := ∑ s', Ts a s s' * (R s' + gamma * V s')

/-- `a` is among the best actions -/
def Best (x : Fin k → ℝ) (a : Fin k) : Prop := ∀ b, x b ≤ x a

end Verif.Policy.Spec
