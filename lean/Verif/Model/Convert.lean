import Verif.Model.Builder
import Verif.Model.Params
/-
Model of `NeuronDecomposableNetwork.convertNormalNetwork` (pybrain/structure/networks/neurondecomposable.py:89-109), on the network structures of Verif.Model.Builder. The parameter info built by the last `sortModules`
is part of Verif.Model.Decomposable; here it is assumed that it can be built.
-/
namespace Verif.Builder

open Verif.Py Verif.Topo

section
variable {V M X : Type} [DecidableEq V] [DecidableEq M]

/-- The calls made for the new network, neurondecomposable.py:92-106. `it` is the order in which the set `n.modules` is iterated over; only recurrent networks have recurrent connections. -/
def convertOps (recurrent : Bool) (it : List V) (n : Net V M X) : List (Op V M X) :=
  (if recurrent then n.recurrentConns.map .recurrent else []) ++ n.inmodules.map .input ++ n.outmodules.map .output ++ it.map .module ++ (allConns n).map .connection

/-- AssertionError, or what `sortModules` raises -/
inductive CErr where
  | assertion | sort (e : TErr)
deriving DecidableEq, Repr

/-- `convertNormalNetwork`, neurondecomposable.py:89-109. `layer` tells which modules are instances of NeuronLayer (line 25), `order` is the iteration order of sets of modules. -/
def convert (A : Attr V M) (order : List V → List V) (layer : V → Bool) (recurrent : Bool) (n : Net V M X) : Except CErr (Net V M X) :=
  if (n.inmodules ++ n.outmodules ++ n.modules).all layer then
    let r := run A order empty (convertOps recurrent (order n.modules) n)
    match sortModules A (order r.modules) r with
    | .error e => .error (.sort e)
    | .ok n' => .ok n'
  else .error .assertion

/-- a component with parameters -/
inductive Part (V M X : Type) where
  | module (m : V) | conn (c : Conn V M X) | mother (m : M) | recurrent (c : Conn V M X)
deriving DecidableEq

/-- a module followed by its own connections without a mother, network.py:85-90 -/
def ownParts (n : Net V M X) (m : V) : List (Part V M X) :=
  Part.module m :: (((dget n.connections m).getD []).filter fun c : Conn V M X => c.mother.isNone).map Part.conn

/-- `_containerIterator`, network.py:80-93 and recurrent.py:29-34; `size` is `paramdim` -/
def containers (size : Part V M X → Nat) (n : Net V M X) : List (Part V M X) :=
  (n.modulesSorted.flatMap (ownParts n) ++ n.motherconnections.map Part.mother ++
    (n.recurrentConns.filter fun c : Conn V M X => c.mother.isNone).map Part.recurrent).filter fun p => size p ≠ 0

/-- the parameter vector, network.py:226-232 -/
def vector {K : Type} (size : Part V M X → Nat) (values : Part V M X → List K) (n : Net V M X) : List K := (containers size n).flatMap values

/-- Adding a component with parameters makes the network `me` its owner: network.py:105-106, 136-141, recurrent.py:39-44. Module slices and connections are those of Verif.Model.Builder. -/
def setOwner {N : Type} [DecidableEq X] (size : Part V M X → Nat) (me : N) (n : Net V M X) (own : Part V M X → N) : Op V M X → Part V M X → N
  | .module m | .input m | .output m => if 0 < size (.module m) then fun p => if p = .module m then me else own p else own
  | .connection c =>
    match c.mother with
    | some q => if q ∈ n.motherconnections then own else fun p => if p = .mother q then me else own p
    | none => if 0 < size (.conn c) then fun p => if p = .conn c then me else own p else own
  | .recurrent c =>
    match c.mother with
    | some q => if q ∈ n.motherconnections then own else fun p => if p = .mother q then me else own p
    | none => if 0 < size (.recurrent c) then fun p => if p = .recurrent c then me else own p else own
  | .sort => own

/-- the owners after a sequence of calls -/
def owners {N : Type} [DecidableEq X] (A : Attr V M) (order : List V → List V) (size : Part V M X → Nat) (me : N) : Net V M X → (Part V M X → N) → List (Op V M X) → Part V M X → N
  | _, own, [] => own
  | n, own, op :: ops => owners A order size me (step A order n op) (setOwner size me n own op) ops

/-- Whether `_setParameters` of the network `me` raises, network.py:152-158 with parametercontainer.py:57-62: some component belongs to another network. (No component of a network belongs to itself.) -/
def refusesParams {N : Type} [DecidableEq N] (me : N) (own : Part V M X → N) (parts : List (Part V M X)) : Bool := parts.any fun p => own p ≠ me

end

end Verif.Builder
