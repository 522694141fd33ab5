import Verif.Model.NFQ
/-
Vocabulary for neuro-fitted Q-learning.
-/
namespace Verif.NFQ

variable {K : Type} [Field K] [LinearOrder K]

/-- the unit vector of an action -/
def unit (n a : Nat) : List K := (List.range n).map fun i => if i = a then 1 else 0

/-- the value of an action according to the network -/
def Q (m : Net K) (state : List K) (a : Nat) : K := m.network (state ++ unit m.numActions a)

/-- `v` is the value of the best action -/
def IsBest (m : Net K) (state : List K) (v : K) : Prop := (∃ a, a < m.numActions ∧ Q m state a = v) ∧ ∀ a, a < m.numActions → Q m state a ≤ v

/-- the transitions of a sequence: each experience with the state that follows -/
def steps : List (Exp K) → List (Exp K × List K)
  | x :: y :: xs => (x, y.state) :: steps (y :: xs)
  | _ => []

end Verif.NFQ
