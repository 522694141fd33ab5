import Mathlib.Algebra.Order.Field.Basic
/-!
Model of rl/learners/valuebased/nfq.py and of ActionValueNetwork in rl/learners/valuebased/interface.py.

The network is a function from its input to its single output. Actions are natural numbers (the dataset stores them as floats, used as indices); `none` stands
for the IndexError of an action that does not exist, and for the ValueError of `max` and `argmax` without actions. The training that follows is the subject of
other properties (C44, C82).
-/

namespace Verif.NFQ

variable {K : Type} [Field K] [LinearOrder K]

/-- `one_to_n`, utilities.py:382-386 -/
def oneToN (val maxval : Nat) : Option (List K) := if val < maxval then some ((List.replicate maxval 0).set val 1) else none

/-- `ActionValueNetwork`, interface.py:66-76 -/
structure Net (K : Type) where
  network : List K → K
  numActions : Nat

/-- `getValue`, interface.py:93-94 -/
def Net.getValue (m : Net K) (state : List K) (action : Nat) : Option K := (oneToN action m.numActions).map fun e => m.network (state ++ e)

/-- `getActionValues`, interface.py:88-91 -/
def Net.getActionValues (m : Net K) (state : List K) : List K := (List.range m.numActions).filterMap fun a => m.getValue state a

/-- the first index of the largest entry, for `argmax`; `none` for no entries -/
def argmax : List K → Option Nat
  | [] => none
  | x :: xs =>
    match argmax xs with
    | none => some 0
    | some i => if (xs.getD i 0) ≤ x then some 0 else some (i + 1)

/-- `getMaxAction`, interface.py:84-86 -/
def Net.getMaxAction (m : Net K) (state : List K) : Option Nat := argmax (m.getActionValues state)

/-- a stored sample: state, action, reward -/
structure Exp (K : Type) where
  state : List K
  action : Nat
  reward : K

/-- the supervised sample for an experience followed by `state`, nfq.py:30-37 -/
def target (gamma : K) (m : Net K) (last : Exp K) (state : List K) : Option (List K × K) :=
  match m.getValue last.state last.action, oneToN last.action m.numActions, (m.getActionValues state).max? with
  | some q, some e, some best => some (last.state ++ e, q + (1 / 2) * (last.reward + gamma * best - q))
  | _, _, _ => none

/-- the loop over a sequence, nfq.py:23-40 -/
def convertSeq (gamma : K) (m : Net K) : Option (Exp K) → List (Exp K) → List (List K × K) → Option (List (List K × K))
  | _, [], acc => some acc
  | none, x :: xs, acc => convertSeq gamma m (some x) xs acc
  | some last, x :: xs, acc =>
    match target gamma m last x.state with
    | none => none
    | some p => convertSeq gamma m (some x) xs (acc ++ [p])

/-- the loop over the sequences, nfq.py:19-40: the supervised dataset -/
def convert (gamma : K) (m : Net K) : List (List (Exp K)) → List (List K × K) → Option (List (List K × K))
  | [], acc => some acc
  | seq :: seqs, acc =>
    match convertSeq gamma m none seq acc with
    | none => none
    | some acc => convert gamma m seqs acc

end Verif.NFQ
