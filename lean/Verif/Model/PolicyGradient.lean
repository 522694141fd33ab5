import Verif.Model.Draw
import Verif.Model.GradientDescent
import Verif.Spec.Pinv
import Mathlib.Data.Fin.Tuple.Basic
/-
Model of pybrain/rl/learners/directsearch/policygradient.py (PolicyGradientLearner with the default NormalExplorer), reinforce.py and enac.py,
with the parts of LearningAgent (rl/agents/learning.py), LoggingAgent and ReinforcementDataSet that feed them.

The acting module is a record: its output and what its backward pass adds to its derivatives. The flat parameter vector of the combined
network is the module's parameters followed by the explorer's (policygradient.py:80-90, network.py `_containerIterator`). Random numbers are
arguments, `pinv` too. The dataset is reduced to its rewards and its sequence index (its behaviour as a dataset is C05 and C43).
-/
namespace Verif.PolicyGrad
open Verif.DataSet (Err)
open Verif.Net (expln)
open Verif.Descent

variable {n k : Nat} {Obs : Type}

/-- the acting module with `n` parameters and `k` outputs -/
structure Policy (Obs : Type) (n k : Nat) where
  /-- the output for given parameters and observation -/
  out : (Fin n → ℝ) → Obs → Fin k → ℝ
  /-- what back-propagating an output error adds to the derivatives -/
  back : (Fin n → ℝ) → Obs → (Fin k → ℝ) → Fin n → ℝ

/-- the state of agent, learner and network -/
structure State (n k : Nat) where
  theta : Fin n → ℝ
  sigma : Fin k → ℝ
  derivs : Fin (n + k) → ℝ
  loglh : List (Fin (n + k) → ℝ)
  rewards : List ℝ
  seqidx : List Nat
  gd : Momentum ℝ (n + k)

/-- the constructors: policygradient.py:29-39, 49-58, 80-94 (all derivatives are 0), reinforcement.py:24-26 -/
noncomputable def State.init (theta : Fin n → ℝ) (sigma : Fin k → ℝ) (alpha : ℝ) : State n k :=
  { theta := theta, sigma := sigma, derivs := fun _ => 0, loglh := [], rewards := [], seqidx := [0],
    gd := Momentum.init (Fin.append theta sigma) alpha }

/-- `NormalExplorer._forwardImplementation`, normal.py:41-42, for standard normal numbers `xi` -/
noncomputable def perturb (sigma : Fin k → ℝ) (u xi : Fin k → ℝ) : Fin k → ℝ := fun i => u i + expln (sigma i) * xi i

/-- what `self.network.backward()` adds to the derivatives of the network, policygradient.py:121: the explorer's part (normal.py:44-47) and,
through the identity connection, the module's. (The error of the network's output is 0 and is not used by the explorer.) -/
noncomputable def backward (P : Policy Obs n k) (theta : Fin n → ℝ) (sigma : Fin k → ℝ) (obs : Obs) (a : Fin k → ℝ) : Fin (n + k) → ℝ :=
  let u := P.out theta obs
  Fin.append (P.back theta obs fun i => (Draw.normalBackward (sigma i) (u i) (a i)).2) (fun i => (Draw.normalBackward (sigma i) (u i) (a i)).1)

/-- `LearningAgent.getAction` (learning.py:50-55) with `PolicyGradientLearner.explore` (policygradient.py:116-124), then `giveReward`
(logging.py:51-62): one interaction. The second component is the executed action. -/
noncomputable def interact (P : Policy Obs n k) (s : State n k) (obs : Obs) (xi : Fin k → ℝ) (reward : ℝ) : State n k × (Fin k → ℝ) :=
  let a := perturb s.sigma (P.out s.theta obs) xi
  let derivs := fun j => s.derivs j + backward P s.theta s.sigma obs a j
  ({ s with derivs := derivs, loglh := s.loglh ++ [derivs], rewards := s.rewards ++ [reward] }, a)

/-- `LearningAgent.newEpisode`, learning.py:58-68, as far as the dataset is concerned: sequential.py:28-37 -/
def newEpisode (s : State n k) : Except Err (State n k) :=
  if s.rewards.length ≠ 0 then
    if s.seqidx.getLastD 0 = s.rewards.length then .error .emptySequence
    else .ok { s with seqidx := s.seqidx ++ [s.rewards.length] }
  else .ok s

/-- `LearningAgent.reset`, learning.py:70-75: the dataset (sequential.py:160-163) and the log-likelihoods (policygradient.py:126-127) are
cleared. The derivatives of the network are not. -/
def reset (s : State n k) : State n k := { s with loglh := [], rewards := [], seqidx := [0] }

/-- the rows `[seqidx[i], seqidx[i + 1])`, for the last sequence up to the end: reinforcement.py:42-46 with sequential.py:39-49,
reinforce.py:22-24, enac.py:25-32 -/
def sequences {α : Type} (seqidx : List Nat) (rows : List α) : List (List α) :=
  (List.range seqidx.length).map fun i =>
    if i + 1 = seqidx.length then rows.drop (seqidx.getD i 0)
    else (rows.drop (seqidx.getD i 0)).take (seqidx.getD (i + 1) 0 - seqidx.getD i 0)

/-- the sum of rows -/
def sumRows {N : Nat} (rows : List (Fin N → ℝ)) : Fin N → ℝ := fun j => (rows.map fun r => r j).sum

/-- `scipy.mean` of a column -/
noncomputable def mean (l : List ℝ) : ℝ := l.sum / l.length

/-- `Reinforce.calculateGradient`, reinforce.py:14-33, one component: `ls` the summed log-likelihoods per sequence and `rs` the returns -/
noncomputable def reinforceComponent (ls rs : List ℝ) : ℝ :=
  let baseline := mean (List.zipWith (fun l r => l ^ 2 * r) ls rs) / mean (ls.map fun l => l ^ 2);
  -mean (List.zipWith (fun l r => l * (r - baseline)) ls rs)
noncomputable def reinforce {N : Nat} (seqidx : List Nat) (rewards : List ℝ) (loglh : List (Fin N → ℝ)) : Fin N → ℝ :=
  let returns := (sequences seqidx rewards).map List.sum
  let loglhs := (sequences seqidx loglh).map sumRows
  fun j => reinforceComponent (loglhs.map fun l => l j) returns

/-- `ENAC.calculateGradient`, enac.py:15-38: the rows of `X` are the summed log-likelihoods and a 1 -/
noncomputable def enacMatrix {N : Nat} (loglhs : List (Fin N → ℝ)) : Matrix (Fin loglhs.length) (Fin (N + 1)) ℝ :=
  Matrix.of fun i => Fin.snoc (α := fun _ => ℝ) loglhs[i] 1
noncomputable def enac {N : Nat} (pinv : ∀ {m : Nat}, Matrix (Fin m) (Fin (N + 1)) ℝ → Matrix (Fin (N + 1)) (Fin m) ℝ)
    (seqidx : List Nat) (rewards : List ℝ) (loglh : List (Fin N → ℝ)) : Fin N → ℝ :=
  let loglhs := (sequences seqidx loglh).map sumRows
  let returns := (sequences seqidx rewards).map List.sum
  let beta := (pinv (enacMatrix loglhs)).mulVec fun i => returns.getD i 0
  fun j => beta j.castSucc

/-- the largest component; `max` of an empty array is an error, but there is at least one parameter (the explorer's) -/
noncomputable def largest {N : Nat} (g : Fin (N + 1) → ℝ) : ℝ := Finset.univ.sup' Finset.univ_nonempty g

/-- policygradient.py:105-107 -/
noncomputable def rescale {N : Nat} (g : Fin (N + 1) → ℝ) : Fin (N + 1) → ℝ :=
  if largest g > 1000 then fun j => g j / largest g * 1000 else g

/-- `learn`, policygradient.py:96-112, with the gradient of the subclass; `k + 1` actions -/
noncomputable def learn (c : Settings ℝ) (gradient : List Nat → List ℝ → List (Fin (n + (k + 1)) → ℝ) → Fin (n + (k + 1)) → ℝ) (s : State n (k + 1)) :
    State n (k + 1) :=
  let g := rescale (N := n + k) (gradient s.seqidx s.rewards s.loglh)
  let gd := Momentum.call c s.gd g
  { s with gd := gd, theta := fun i => gd.values (Fin.castAdd _ i), sigma := fun i => gd.values (Fin.natAdd _ i) }

/-- `newEpisode` when the caller survives the EmptySequenceError -/
def tryNewEpisode (s : State n k) : State n k :=
  match newEpisode s with
  | .ok s => s
  | .error _ => s

/-- calls on agent and learner -/
inductive Event (Obs : Type) (k : Nat) where
  | interact (obs : Obs) (xi : Fin k → ℝ) (reward : ℝ)
  | newEpisode
  | reset
  | learn

/-- a history of calls; an EmptySequenceError is survived -/
noncomputable def run (P : Policy Obs n (k + 1)) (c : Settings ℝ)
    (gradient : List Nat → List ℝ → List (Fin (n + (k + 1)) → ℝ) → Fin (n + (k + 1)) → ℝ) : List (Event Obs (k + 1)) → State n (k + 1) → State n (k + 1)
  | [], s => s
  | .interact obs xi r :: es, s => run P c gradient es (interact P s obs xi r).1
  | .newEpisode :: es, s => run P c gradient es (tryNewEpisode s)
  | .reset :: es, s => run P c gradient es (reset s)
  | .learn :: es, s => run P c gradient es (learn c gradient s)

end Verif.PolicyGrad
