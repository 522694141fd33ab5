import Verif.Model.DataSet
import Mathlib.Analysis.SpecialFunctions.Exp
/-
Model of pybrain/rl/learners/directsearch/rwr.py (reward-weighted regression).

The episodes of a batch (observation, index of the drawn action and reward of every step) are given: they come from task and network (rwr.py:139-154). Real numbers stand for floats. Messages, plots and the training of the network on
the data set (`trainUntilConvergence`, see Model/Trainer) are left out. The three averages that are stored for feedback (rwr.py:181-183) are `avgReward`, `avgLen`, `avgR0`.
-/
namespace Verif.RWR
open Verif.DataSet (Err)

variable {O : Type} {n : Nat}

/-- one step of an episode: observation, chosen action, reward -/
structure Step (O : Type) (n : Nat) where
  obs : O
  chosen : Fin n
  reward : ℝ

/-- rwr.py:151-152: `y = zeros(len(act)); y[chosen] = 1` -/
def action (chosen : Fin n) : Fin n → ℝ := fun i => if i = chosen then 1 else 0

/-- the body of the loop rwr.py:160-163: `current` and the list `returns` -/
def back (discount : ℝ) (st : ℝ × List ℝ) (r : ℝ) : ℝ × List ℝ :=
  let current := st.1 * discount + r
  (current, st.2 ++ [current])

/-- rwr.py:158-164 -/
def returns (discount : ℝ) (rewards : List ℝ) : List ℝ := (rewards.reverse.foldl (back discount) (0, [])).2.reverse

/-- rwr.py:81-82 -/
noncomputable def shaping (tau R : ℝ) : ℝ := Real.exp (tau * R)

/-- rwr.py:84-85. `none`: the divisor is 0, so that the result is infinite (numpy's division of floats). -/
noncomputable def updateTau (minReward : ℝ) (R U : List ℝ) : Option ℝ :=
  let d := (List.zipWith (fun r u => (r - minReward) * u) R U).sum
  if d = 0 then none else some (U.sum / d)

/-- python's `max` of a list of numbers -/
noncomputable def maxOf : List ℝ → Except Err ℝ
  | [] => .error .emptySequence
  | x :: xs => .ok (xs.foldl max x)

/-- one episode of a batch, rwr.py:155-169: its mean reward, the sequence of samples for `rawDs` (observation, action, return), its first return and its length -/
noncomputable def episode (discount : ℝ) (e : List (Step O n)) : Except Err (ℝ × List (O × (Fin n → ℝ) × ℝ) × ℝ × Nat) := do
  let rewards := e.map (·.reward)
  if rewards.length = 0 then throw .zeroDivision
  let rets := returns discount rewards
  match rets with
  | [] => throw .indexError
  | r0 :: _ => return (rewards.sum / rewards.length, List.zipWith (fun s r => (s.obs, action s.chosen, r)) e rets, r0, rets.length)

/-- what a batch leaves: the data sets `weightedDs` (observation, action, importance) and `valueDs` (observation, return) as lists of sequences, the new `tau`, and the averages -/
structure Result (O : Type) (n : Nat) where
  weighted : List (List (O × (Fin n → ℝ) × (Fin n → ℝ)))
  values : List (List (O × ℝ))
  tau : Option ℝ
  avgReward : ℝ
  avgLen : ℝ
  avgR0 : ℝ

/-- `learnOneBatch`, rwr.py:133-197, from cleared data sets. The scalar importance is written to all components of the field (numpy's broadcasting), rwr.py:197 and importance.py:34. -/
noncomputable def learnOneBatch (discount minReward tau : ℝ) (batch : List (List (Step O n))) : Except Err (Result O n) := do
  let es ← batch.mapM (episode discount)
  let raw := es.map (·.2.1)
  let r0s := es.map (·.2.2.1)
  let lens := es.map (·.2.2.2)
  if batch.length = 0 then throw .zeroDivision
  let shaped := r0s.map (shaping tau)
  let tau' := updateTau minReward r0s shaped
  let m ← maxOf shaped
  let shaped := shaped.map (· / m)
  return { weighted := List.zipWith (fun seq w => seq.map fun (obs, act, _) => (obs, act, fun _ => w)) raw shaped
           values := raw.map (·.map fun (obs, _, ret) => (obs, ret))
           tau := tau'
           avgReward := (es.map (·.1)).sum / batch.length
           avgLen := (lens.sum : Nat) / (batch.length : ℝ)
           avgR0 := r0s.sum / r0s.length }

/-- the settings of the gradient descent of a trainer (gradientdescent.py:14-25) -/
structure Descent where
  alpha : ℝ
  momentum : ℝ
  alphadecay : ℝ

/-- backprop.py:18-48: the parameters in the order of the signature, of which the learning rate, its decay and the momentum are used for the descent -/
def trainer (learningrate : ℝ) (lrdecay : ℝ := 1) (momentum : ℝ := 0) : Descent := { alpha := learningrate, momentum := momentum, alphadecay := lrdecay }

/-- rwr.py:67-69: learning rate and momentum are given as the third and fourth positional argument -/
def bp (learningRate momentum : ℝ) : Descent := trainer learningRate momentum

/-- the attributes of a BackpropTrainer: trainer.py:12-16, 20; backprop.py:37-43 and its methods; utilities.py:131-136, 197-224 -/
def trainerAttributes : List String :=
  ["ds", "module", "setData", "trainOnDataset", "trainEpochs", "train", "verbose", "batchlearning", "weightdecay", "epoch", "totalepochs", "descent", "_calcDerivs", "_checkGradient", "testOnData", "testOnClassData",
   "trainUntilConvergence", "argdict", "setArgs", "_nameIds", "getName", "setName", "_getName", "_setName", "_name", "name", "_generateName"]

/-- errors of `learn` -/
inductive Fail
  | attributeError
  | other (e : Err)
  deriving DecidableEq

/-- `reset`, rwr.py:87-95, after the data sets have been cleared: `self.bp.momentumvector *= 0.0` reads the attribute first -/
def reset : Except Fail Unit := if "momentumvector" ∈ trainerAttributes then .ok () else .error .attributeError

/-- `learn`, rwr.py:111-131: `oneBatch` stands for the rest of the loop (a batch and the greedy episodes) -/
def learn {S : Type} (oneBatch : S → Except Fail S) : Nat → S → Except Fail S
  | 0, s => .ok s
  | b + 1, s => do
    reset
    let s ← oneBatch s
    learn oneBatch b s

/-- the learner over several batches with a temperature that is a number, as it would be without the failing `reset` -/
noncomputable def batches (discount minReward : ℝ) : ℝ → List (List (List (Step O n))) → Except Err (Option ℝ)
  | tau, [] => .ok (some tau)
  | tau, b :: bs => do
    let r ← learnOneBatch discount minReward tau b
    match r.tau with
    | none => return none
    | some t => batches discount minReward t bs

end Verif.RWR
