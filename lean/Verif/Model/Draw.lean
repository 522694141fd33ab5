import Verif.Model.DataSet
import Verif.Model.Layers
/-
Model of pybrain/utilities.py:35-75 (drawIndex, drawGibbs) and of the explorers of pybrain/rl/explorers
(epsilon-greedy, Boltzmann, normal, state-dependent).

Random numbers are arguments: `r` is the result of `random()`, `ch n` the index drawn by `choice` from a list of length `n`.
Arrays are lists of real numbers.
-/
namespace Verif.Draw
open Verif.DataSet (Err)
open Verif.Net (expln explnPrime)

/-- the loop of utilities.py:46-51: `s` is the sum so far -/
noncomputable def drawLoop (r : ℝ) : List ℝ → Nat → ℝ → Option Nat
  | [], _, _ => none
  | p :: ps, i, s => if s + p > r then some i else drawLoop r ps (i + 1) (s + p)

/-- utilities.py:44-52: draw with `r`; if the sums never exceed `r`, any index is chosen (an IndexError if there is none). -/
noncomputable def drawFrom (ch : Nat → Nat) (r : ℝ) (probs : List ℝ) : Except Err Nat :=
  match drawLoop r probs 0 0 with
  | some i => .ok i
  | none => if probs.length = 0 then .error .indexError else .ok (ch probs.length)

/-- `drawIndex(probs, tolerant)`, utilities.py:35-52. Returns the index and the caller's array afterwards (`probs /= sum(probs)` works in
place). A sum of zero is divided by as in Lean (Python would get NaNs and choose any index). -/
noncomputable def drawIndex (ch : Nat → Nat) (r : ℝ) (probs : List ℝ) (tolerant : Bool) : Except Err Nat × List ℝ :=
  if ¬ probs.sum < 1.00001 ∨ ¬ probs.sum > 0.99999 then
    if tolerant then
      let probs := probs.map fun p => p / probs.sum
      (drawFrom ch r probs, probs)
    else (.error .valueError, probs)
  else (drawFrom ch r probs, probs)

/-- the indices of the largest value, utilities.py:57-62 -/
noncomputable def bestIndices (vals : List ℝ) (m : ℝ) : List Nat := (List.range vals.length).filter fun i => vals.getD i 0 = m

/-- the probabilities computed in utilities.py:65-74; `m` is the maximum of the scaled values -/
noncomputable def gibbsWeights (vals : List ℝ) (temperature : ℝ) : List ℝ :=
  let temp := vals.map fun v => v / temperature
  let m := temp.foldr max (temp.headD 0)
  let temp := temp.map fun v => v + (20 - m)
  let temp := temp.map fun v => if v < -20 then -20 else v
  let temp := temp.map Real.exp
  temp.map fun v => v / temp.sum

/-- `drawGibbs(vals, temperature)`, utilities.py:55-75. `max` of an empty array is a ValueError. -/
noncomputable def drawGibbs (ch : Nat → Nat) (r : ℝ) (vals : List ℝ) (temperature : ℝ) : Except Err Nat :=
  if vals = [] then .error .valueError
  else if temperature = 0 then
    let best := bestIndices vals (vals.foldr max (vals.headD 0))
    .ok (best.getD (ch best.length) 0)
  else (drawIndex ch r (gibbsWeights vals temperature) false).1

/-- `EpsilonGreedyExplorer.activate`, egreedy.py:24-37: `r` is `random.random()`, `k` is `random.randint(numActions)`. Returns the executed
action and the new epsilon. -/
noncomputable def epsGreedy (decay : ℝ) (epsilon r : ℝ) (k action : Nat) : Nat × ℝ :=
  (if r < epsilon then k else action, epsilon * decay)

/-- A sequence of activations; each with its random numbers and the action proposed by the module. -/
noncomputable def epsGreedyRun (decay : ℝ) : ℝ → List (ℝ × Nat × Nat) → List Nat × ℝ
  | e, [] => ([], e)
  | e, (r, k, a) :: xs =>
    let (b, e) := epsGreedy decay e r k a
    let (bs, e) := epsGreedyRun decay e xs
    (b :: bs, e)

/-- `BoltzmannExplorer.activate`, boltzmann.py:22-43: the proposed action is not used. Returns the executed action and the new tau. -/
noncomputable def boltzmann (ch : Nat → Nat) (decay : ℝ) (tau r : ℝ) (values : List ℝ) : Except Err Nat × ℝ :=
  (drawGibbs ch r values tau, tau * decay)

/-- `NormalExplorer._backwardImplementation`, normal.py:44-47, one coordinate: `u` the mean (input), `a` the executed action (output), `p` the
parameter. Returns what is added to the derivative, and the input error. -/
noncomputable def normalBackward (p u a : ℝ) : ℝ × ℝ :=
  (((a - u) ^ 2 - expln p ^ 2) / expln p * explnPrime p, a - u)

/-- `StateDependentExplorer._backwardImplementation`, sde.py:62-77. The parameters (one per action, sde.py:29) are reshaped to
(actions, states): a ValueError when the sizes do not fit. Returns the derivatives (assigned, not added) and the input error. -/
noncomputable def sdeBackward (params state u a : List ℝ) : Except Err (List ℝ × List ℝ) :=
  if params.length = a.length * state.length then
    .ok ((List.range a.length).flatMap (fun j =>
        let row := (List.range state.length).map fun i => expln (params.getD (j * state.length + i) 0)
        let sigma2 := ((List.range state.length).map fun i => state.getD i 0 ^ 2 * row.getD i 0 ^ 2).sum
        (List.range state.length).map fun i =>
          ((a.getD j 0 - u.getD j 0) ^ 2 - sigma2) / sigma2 * state.getD i 0 ^ 2 * row.getD i 0 * explnPrime (params.getD (j * state.length + i) 0)),
      (List.range a.length).map fun j => a.getD j 0 - u.getD j 0)
  else .error .valueError

end Verif.Draw
