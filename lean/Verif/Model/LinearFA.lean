import Verif.Model.NES
import Verif.Spec.Pinv
/-!
Model of the learners with linear function approximation, rl/learners/valuebased/linearfa.py.

Numbers are reals. There are `m + 1` actions (with none, `max` raises ValueError) and `n` features. Random numbers are arguments: the initial weights, and
`pick`, which decides the random choice among the best actions. `pinv2` is an argument as well; the theorems assume of it the Penrose conditions. Vectors
over pairs of an action and a feature (`ravel`) are functions of the pair.
-/

namespace Verif.LinFA
open Matrix Verif.NES

variable {m n : Nat}

/-- `_theta`: one row of weights per action -/
abbrev Weights (m n : Nat) := Fin (m + 1) → Fin n → ℝ

/-- `_qValues`, linearfa.py:59-62 -/
def qValues (theta : Weights m n) (state : Vec n) : Vec (m + 1) := fun a => theta a ⬝ᵥ state

/-- `max` of the values of all actions -/
noncomputable def maxValue (v : Vec (m + 1)) : ℝ := Finset.univ.sup' Finset.univ_nonempty v

/-- `maxbidders`, utilities.py:689-690 -/
noncomputable def maxbidders (v : Vec (m + 1)) : List (Fin (m + 1)) := (List.finRange (m + 1)).filter fun a => v a = maxValue v

/-- `r_argmax`, utilities.py:685-691: `choice` takes the entry number `pick`; there is always one -/
noncomputable def rArgmax (pick : Nat) (v : Vec (m + 1)) : Fin (m + 1) :=
  if m + 1 = 1 then 0 else (maxbidders v).getD (pick % (maxbidders v).length) 0

/-- `_greedyPolicy`, linearfa.py:64-70 -/
noncomputable def greedyPolicy (pick : Nat) (theta : Weights m n) (state : Vec n) : Vec (m + 1) :=
  fun a => if a = rArgmax pick (qValues theta state) then 1 else 0

/-- `_boltzmannProbs`, linearfa.py:76-85 -/
noncomputable def boltzmannProbs (pick : Nat) (qvalues : Vec (m + 1)) (temperature : ℝ) : Vec (m + 1) :=
  let tmp : Vec (m + 1) :=
    if temperature = 0 then fun a => if a = rArgmax pick qvalues then 1 else 0
    else
      let tmp : Vec (m + 1) := fun a => qvalues a / temperature
      fun a => Real.exp (max (-20) (min 0 (tmp a - maxValue tmp)))
  fun a => tmp a / ∑ b, tmp b

/-- `_boltzmannPolicy`, linearfa.py:72-74 -/
noncomputable def boltzmannPolicy (pick : Nat) (theta : Weights m n) (temperature : ℝ) (state : Vec n) : Vec (m + 1) :=
  boltzmannProbs pick (qValues theta state) temperature

/-! ### The learning rate -/

/-- the attributes shared by the learners; `etraces` exists for those with eligibility traces, linearfa.py:116-119 -/
structure Lin (m n : Nat) where
  theta : Weights m n
  etraces : Weights m n
  learningRate : ℝ
  callcount : Nat

/-- `newEpisode`, linearfa.py:92-96 and 116-119; `decay` is `learningRateDecay` -/
noncomputable def Lin.newEpisode (decay : ℝ) (l : Lin m n) : Lin m n :=
  let callcount := l.callcount + 1
  { l with
    callcount := callcount
    learningRate := l.learningRate * ((decay + callcount) / (decay + callcount + 1))
    etraces := fun _ _ => 0 }

/-- `reset`, linearfa.py:87-90: the weights and the learning rate are kept -/
noncomputable def Lin.reset (decay : ℝ) (l : Lin m n) : Lin m n := Lin.newEpisode decay { l with callcount := 0 }

/-- the constructor, linearfa.py:42-54; `theta` is random or zero -/
noncomputable def Lin.init (decay learningRate : ℝ) (theta : Weights m n) : Lin m n :=
  Lin.reset decay { theta := theta, etraces := fun _ _ => 0, learningRate := learningRate, callcount := 0 }

/-! ### Q, Q(lambda) and SARSA(lambda) -/

/-- a transition: `next` is the next action, used by SARSA and LSPI -/
structure Tr (m n : Nat) where
  state : Vec n
  action : Fin (m + 1)
  reward : ℝ
  nextState : Vec n
  next : Fin (m + 1)

/-- the temporal difference error of linearfa.py:104 and 128 -/
noncomputable def tdQ (gamma : ℝ) (theta : Weights m n) (t : Tr m n) : ℝ :=
  t.reward + gamma * maxValue (qValues theta t.nextState) - theta t.action ⬝ᵥ t.state

/-- that of linearfa.py:138 -/
def tdSarsa (gamma : ℝ) (theta : Weights m n) (t : Tr m n) : ℝ :=
  t.reward + gamma * (theta t.next ⬝ᵥ t.nextState) - theta t.action ⬝ᵥ t.state

/-- `phi`: the features in the row of the action, linearfa.py:159-160, 196-198, 246-247 -/
def phi (action : Fin (m + 1)) (state : Vec n) : Weights m n := fun a i => if a = action then state i else 0

/-- `Q_LinFA._updateWeights`, linearfa.py:102-108 -/
noncomputable def qUpdate (gamma : ℝ) (l : Lin m n) (t : Tr m n) : Lin m n :=
  { l with theta := fun a i => if a = t.action then l.theta a i + l.learningRate * tdQ gamma l.theta t * t.state i else l.theta a i }

/-- `_updateEtraces`, linearfa.py:121-123 -/
def updateEtraces (gamma lambda responsibility : ℝ) (e : Weights m n) (t : Tr m n) : Weights m n :=
  fun a i => if a = t.action then e a i * (gamma * lambda * responsibility) + t.state i else e a i * (gamma * lambda * responsibility)

/-- `QLambda_LinFA._updateWeights`, linearfa.py:125-129 -/
noncomputable def qlUpdate (gamma lambda : ℝ) (l : Lin m n) (t : Tr m n) : Lin m n :=
  let e := updateEtraces gamma lambda 1 l.etraces t
  let td := tdQ gamma l.theta t
  { l with etraces := e, theta := fun a i => l.theta a i + l.learningRate * td * e a i }

/-- `SARSALambda_LinFA._updateWeights`, linearfa.py:136-140 -/
noncomputable def sarsaUpdate (gamma lambda : ℝ) (l : Lin m n) (t : Tr m n) : Lin m n :=
  let td := tdSarsa gamma l.theta t
  let e := updateEtraces gamma lambda 1 l.etraces t
  { l with etraces := e, theta := fun a i => l.theta a i + l.learningRate * td * e a i }

/-! ### Least squares -/

/-- pairs of an action and a feature, in the order of `ravel` -/
abbrev Pair (m n : Nat) := Fin (m + 1) × Fin n

/-- `ravel` -/
def ravel (w : Weights m n) : Pair m n → ℝ := fun p => w p.1 p.2

/-- `reshape` -/
def unravel (v : Pair m n → ℝ) : Weights m n := fun a i => v (a, i)

/-- the state of LSTDQLambda, linearfa.py:146-149 -/
structure Lstd (m n : Nat) where
  lin : Lin m n
  A : Matrix (Pair m n) (Pair m n) ℝ
  b : Pair m n → ℝ

/-- the constructor, linearfa.py:52, 146-149: `_additionalInit` runs before `reset` -/
noncomputable def Lstd.init (decay learningRate : ℝ) (theta : Weights m n) : Lstd m n :=
  { lin := Lin.init decay learningRate theta, A := 0, b := 0 }

/-- `phi_n`, linearfa.py:161 -/
def outerPolicy (p : Vec (m + 1)) (state : Vec n) : Weights m n := fun a i => p a * state i

/-- `LSTDQLambda._updateWeights`, linearfa.py:151-166; `policy` is the learned policy for given weights (by default the greedy one) -/
noncomputable def Lstd.update (gamma lambda : ℝ) (policy : Weights m n → Vec n → Vec (m + 1))
    (pinv : Matrix (Pair m n) (Pair m n) ℝ → Matrix (Pair m n) (Pair m n) ℝ) (s : Lstd m n) (t : Tr m n) : Lstd m n :=
  let e := updateEtraces gamma lambda 1 s.lin.etraces t
  let phiN := outerPolicy (policy s.lin.theta t.nextState) t.nextState
  let A := s.A + vecMulVec (ravel e) (fun p => ravel (phi t.action t.state) p - gamma * ravel phiN p)
  let b := fun p => s.b p + t.reward * ravel e p
  { lin := { s.lin with etraces := e, theta := unravel (pinv A *ᵥ b) }, A := A, b := b }

/-- the state of LSPI, linearfa.py:184-193 -/
structure Lspi (m n : Nat) where
  theta : Weights m n
  A : Matrix (Pair m n) (Pair m n) ℝ
  b : Pair m n → ℝ
  untouched : Pair m n → Bool
  count : Nat

/-- the constructor, linearfa.py:184-193; `A` and `b` are random or zero -/
def Lspi.init (theta : Weights m n) (A : Matrix (Pair m n) (Pair m n) ℝ) (b : Pair m n → ℝ) : Lspi m n :=
  { theta := theta, A := A, b := b, untouched := fun _ => true, count := 0 }

/-- `LSPI._updateWeights`, linearfa.py:195-217; `lazy` is `lazyInversions` (0 raises ZeroDivisionError, the theorems exclude it), `bonus` is
`explorationReward` when `exploring` is set -/
noncomputable def Lspi.update (gamma : ℝ) (lazy : Option Nat) (bonus : Option ℝ)
    (pinv : Matrix (Pair m n) (Pair m n) ℝ → Matrix (Pair m n) (Pair m n) ℝ) (s : Lspi m n) (t : Tr m n) : Lspi m n :=
  let f := ravel (phi t.action t.state)
  let fn := ravel (phi t.next t.nextState)
  let A := s.A + vecMulVec f (fun p => f p - gamma * fn p)
  let b := fun p => s.b p + t.reward * f p
  let s := { s with A := A, b := b }
  let s := if lazy = none ∨ ∃ k, lazy = some k ∧ s.count % k = 0 then
      match bonus with
      | some r =>
        let untouched := fun p => s.untouched p && decide (f p = 0)
        { s with untouched := untouched, theta := unravel (pinv A *ᵥ fun p => b p + r * (if untouched p then 1 else 0)) }
      | none => { s with theta := unravel (pinv A *ᵥ b) }
    else s
  { s with count := s.count + 1 }

/-! ### GQ(lambda) -/

/-- the state of GQLambda, linearfa.py:225-226 -/
structure Gq (m n : Nat) where
  lin : Lin m n
  sec : Weights m n

/-- `rv_dot`, linearfa.py:17-18 -/
def rvDot (x y : Weights m n) : ℝ := ∑ a, ∑ i, x a i * y a i

/-- `GQLambda._updateWeights`, linearfa.py:228-249, for the policies `learned` and `behavior`, with `outcome_reward` -/
noncomputable def Gq.update (gamma lambda secRate : ℝ) (learned behavior : Vec n → Vec (m + 1)) (outcome : Option ℝ) (s : Gq m n) (t : Tr m n) : Gq m n :=
  let responsibility := learned t.state t.action / behavior t.state t.action
  let e := updateEtraces gamma lambda responsibility s.lin.etraces t
  let phiBar := outerPolicy (learned t.nextState) t.nextState
  let td := t.reward + gamma * rvDot s.lin.theta phiBar - s.lin.theta t.action ⬝ᵥ t.state
  let td := match outcome with
    | none => td
    | some o => td + (1 - gamma) * o
  let theta := fun a i => s.lin.theta a i + s.lin.learningRate * (td * e a i - gamma * (1 - lambda) * rvDot s.sec e * phiBar a i)
  let f := phi t.action t.state
  { lin := { s.lin with etraces := e, theta := theta },
    sec := fun a i => s.sec a i + s.lin.learningRate * secRate * (td * e a i - rvDot s.sec f * f a i) }

end Verif.LinFA
