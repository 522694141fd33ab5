import Verif.Model.LinearFA
import Verif.Model.ValueBased
/-
Vocabulary for the learners with linear function approximation.
-/
namespace Verif.LinFA
open Matrix Verif.NES

variable {m n : Nat}

/-- the value of an action in a state -/
def Q (theta : Weights m n) (state : Vec n) (action : Fin (m + 1)) : ℝ := theta action ⬝ᵥ state

/-- the features of state number `s` in a problem with `n` states, one per state -/
def oneHot (s : Fin n) : Vec n := fun i => if i = s then 1 else 0

/-- A table holds the values that the weights give to the states. -/
def Agrees (t : ValueBased.Table ℝ) (theta : Weights m n) : Prop :=
  t.rows = n ∧ t.cols = m + 1 ∧ ∀ (s : Fin n) (a : Fin (m + 1)), t.q s a = theta a s

/-- one step of an episode in a problem with `n` states: the state, the action taken in it, and the reward; `pick` decides ties -/
structure Visit (m n : Nat) where
  state : Fin n
  action : Fin (m + 1)
  reward : ℝ
  pick : Nat

/-- the step as a sample for the table based learners -/
def Visit.sample (v : Visit m n) : ValueBased.Sample ℝ := ⟨v.state, v.action, v.reward, v.pick⟩

/-- the transition between two steps -/
def Visit.to (v w : Visit m n) : Tr m n := ⟨oneHot v.state, v.action, v.reward, oneHot w.state, w.action⟩

/-- the transitions of an episode -/
def transitions : List (Visit m n) → List (Tr m n)
  | v :: w :: vs => v.to w :: transitions (w :: vs)
  | _ => []

/-- the features of a pair of action and state, as a single vector -/
def features (action : Fin (m + 1)) (state : Vec n) : Pair m n → ℝ := fun p => if p.1 = action then state p.2 else 0

/-- the matrix of the least-squares temporal difference equation: the sum of `φ (φ - γ φ')ᵀ` -/
def lsMatrix (gamma : ℝ) (ts : List (Tr m n)) : Matrix (Pair m n) (Pair m n) ℝ :=
  (ts.map fun t => vecMulVec (features t.action t.state) (features t.action t.state - gamma • features t.next t.nextState)).sum

/-- what can happen to a learner -/
inductive Ev (m n : Nat)
  | step (t : Tr m n)
  | newEpisode

/-- the value of a state under a policy -/
def V (pi : Vec n → Vec (m + 1)) (theta : Weights m n) (state : Vec n) : ℝ := ∑ a, pi state a * Q theta state a

/-- each transition with the discounted sum of the features visited so far in its episode; `e` is the sum before the first event -/
def eligible (gamma lambda : ℝ) : Weights m n → List (Ev m n) → List (Tr m n × Weights m n)
  | _, [] => []
  | _, .newEpisode :: evs => eligible gamma lambda (fun _ _ => 0) evs
  | e, .step t :: evs =>
    let e' : Weights m n := fun a i => gamma * lambda * e a i + features t.action t.state (a, i)
    (t, e') :: eligible gamma lambda e' evs

/-- one event for LSTDQ(lambda) -/
noncomputable def Lstd.apply (decay gamma lambda : ℝ) (policy : Weights m n → Vec n → Vec (m + 1))
    (pinv : Matrix (Pair m n) (Pair m n) ℝ → Matrix (Pair m n) (Pair m n) ℝ) (s : Lstd m n) : Ev m n → Lstd m n
  | .step t => s.update gamma lambda policy pinv t
  | .newEpisode => { s with lin := s.lin.newEpisode decay }

/-- the matrix of LSTDQ(lambda) -/
def lstdMatrix (gamma : ℝ) (pi : Vec n → Vec (m + 1)) (xs : List (Tr m n × Weights m n)) : Matrix (Pair m n) (Pair m n) ℝ :=
  (xs.map fun x => vecMulVec (ravel x.2) (fun p => features x.1.action x.1.state p - gamma * ravel (outerPolicy (pi x.1.nextState) x.1.nextState) p)).sum

end Verif.LinFA
