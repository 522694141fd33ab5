import Mathlib.Data.List.Basic
/-
Model of how agents, learners, modules and explorers are put together: pybrain/rl/learners/valuebased/valuebased.py (ValueBasedLearner), pybrain/rl/learners/directsearch/policygradient.py (PolicyGradientLearner, the part that ties
module and explorer together), pybrain/rl/learners/learner.py (learnOnDataset), pybrain/rl/explorers/discrete/discrete.py (module) and pybrain/rl/agents/learning.py (LearningAgent).

Modules, explorers and data sets are objects with identities. An object with parameters has as many elements as parameters (parametercontainer.py:48-49), so that `if module` is false for a module whose number of parameters is 0;
objects of classes without parameters are true. The numerical work is in the models of the explorers, the value-based learners and the policy gradients.
-/
namespace Verif.Assembly

inductive AErr where
  | assertion | attribute
deriving DecidableEq, Repr

/-- the number of parameters of a module, or `none` for a class without parameters -/
abbrev Dims := Nat → Option Nat

/-- truth value of a module, parametercontainer.py:48-49 -/
def truth (d : Dims) (m : Nat) : Bool := d m ≠ some 0

/-- a value-based learner, and the modules its explorers know, valuebased.py:18-21 and discrete.py:12-27 -/
structure Value where
  module : Option Nat
  explorer : Option Nat
  known : Nat → Option Nat

/-- `__init__`, valuebased.py:19-21: explorer number 0 is the default one -/
def Value.init : Value := ⟨none, some 0, fun _ => none⟩

def tell (f : Nat → Option Nat) (e m : Nat) : Nat → Option Nat := fun e' => if e' = e then some m else f e'

/-- `_setModule`, valuebased.py:23-27; explorers of discrete actions have no parameters and are true, the others have some -/
def Value.setModule (l : Value) (m : Nat) : Value :=
  match l.explorer with
  | some e => { l with module := some m, known := tell l.known e m }
  | none => { l with module := some m }

/-- `_setExplorer`, valuebased.py:35-39: `None` has no attribute `module`, but it is stored before -/
def Value.setExplorer (d : Dims) (l : Value) (e : Option Nat) : Value × Option AErr :=
  match l.module with
  | none => ({ l with explorer := e }, none)
  | some m =>
    if truth d m then
      match e with
      | some e => ({ l with explorer := some e, known := tell l.known e m }, none)
      | none => ({ l with explorer := none }, some .attribute)
    else ({ l with explorer := e }, none)

inductive VOp where
  | module (m : Nat)
  | explorer (e : Option Nat)

/-- an assignment; `LearningAgent(module, learner)` assigns the module, learning.py:24-26 -/
def Value.step (d : Dims) (l : Value) : VOp → Value
  | .module m => l.setModule m
  | .explorer e => (l.setExplorer d e).1

/-- an explorer of a policy gradient learner: one made by the learner, or one of the user -/
inductive Ex where
  | default (k : Nat)
  | user (e : Nat)
deriving DecidableEq

/-- a policy gradient learner with an agent: the combined network consists of a module and an explorer; the numbers of stored log-likelihoods and of samples in the history of the agent -/
structure Pg where
  module : Option Nat
  explorer : Option Ex
  network : Option (Nat × Ex)
  made : Nat
  loglh : Nat
  samples : Nat
  dataset : Option Nat
deriving DecidableEq

/-- `__init__`, policygradient.py:29-41 -/
def Pg.init : Pg := ⟨none, none, none, 0, 0, 0, none⟩

/-- `_setModule` and `_initializeNetwork`, policygradient.py:52-61 and 85-99 -/
def Pg.setModule (l : Pg) (m : Nat) : Pg :=
  { l with module := some m, explorer := some (.default l.made), network := some (m, .default l.made), made := l.made + 1, loglh := 0 }

/-- `_setExplorer`, policygradient.py:68-77 -/
def Pg.setExplorer (d : Dims) (l : Pg) (e : Nat) : Pg × Option AErr :=
  match l.module with
  | none => (l, some .assertion)
  | some m => if truth d m then ({ l with explorer := some (.user e), network := some (m, .user e), loglh := 0 }, none) else (l, some .assertion)

inductive POp where
  | attach (m history : Nat)
  | module (m : Nat)
  | explorer (e : Nat)
  | interact (learning logging : Bool)
  | reset (learning : Bool)
  | learnOn (ds : Nat)

/-- `LearningAgent.__init__`, learning.py:12-27 (its history is empty); assignments; an interaction of the agent (learning.py:45-55 with policygradient.py:120-128, logging.py:51-62); `LearningAgent.reset`, learning.py:70-75;
`learnOnDataset`, learner.py:64-67, as far as the data set is concerned -/
def Pg.step (d : Dims) (l : Pg) : POp → Pg
  | .attach m h => { l.setModule m with dataset := some h, samples := 0 }
  | .module m => l.setModule m
  | .explorer e => (l.setExplorer d e).1
  | .interact learning logging => { l with loglh := l.loglh + learning.toNat, samples := l.samples + logging.toNat }
  | .reset learning => { l with loglh := if learning then 0 else l.loglh, samples := 0 }
  | .learnOn ds => { l with dataset := some ds }

end Verif.Assembly
