import Verif.Model.Py
import Verif.Model.TopoSort
import Mathlib.Data.List.Sort
/-
Model of the construction interface of networks:
  pybrain/structure/networks/network.py    (addModule, addInputModule, addOutputModule, addConnection, __getitem__, sortModules)
  pybrain/structure/networks/recurrent.py  (addRecurrentConnection, sortModules)

`V` is the type of module objects, `M` that of mother connections, `X` whatever else a connection carries.
Module slices are taken to be replaced by their base module already (network.py:100-101, 117, 125-126).
Parameter arrays and buffers are modelled in `Verif.Model.Params` and `Verif.Model.Network`.
-/
namespace Verif.Builder

open Verif.Py Verif.Topo

/-- A connection (connection.py:18-65, shared.py:28-41): end points, name, and the mother of a shared connection. -/
structure Conn (V M X : Type) where
  inmod : V
  outmod : V
  name : String
  mother : Option M
  ext : X
deriving DecidableEq

/-- The attributes of a network that construction touches (network.py:38-54, recurrent.py:18-21). `modules` is a
set, kept in insertion order. -/
structure Net (V M X : Type) where
  modules : List V
  modulesSorted : List V
  connections : List (V × List (Conn V M X))
  inmodules : List V
  outmodules : List V
  motherconnections : List M
  recurrentConns : List (Conn V M X)
  indim : Nat
  outdim : Nat
  sorted : Bool
deriving DecidableEq

/-- What the code reads off modules and mothers: names and dimensions. -/
structure Attr (V M : Type) where
  name : V → String
  indim : V → Nat
  outdim : V → Nat
  motherName : M → String

section
variable {V M X : Type} [DecidableEq V] [DecidableEq M]

/-- `Network()` (network.py:36-54). -/
def empty : Net V M X := ⟨[], [], [], [], [], [], [], 0, 0, false⟩

/-- `__getitem__` (network.py:72-77): a module with the given name, else `None`. -/
def getitem (A : Attr V M) (n : Net V M X) (name : String) : Option V := n.modules.find? (fun m => decide (A.name m = name))

/-- `addModule` (network.py:98-112). -/
def addModule (n : Net V M X) (m : V) : Net V M X :=
  { n with
    modules := if m ∈ n.modules then n.modules else n.modules ++ [m]
    connections := if (dget n.connections m).isSome then n.connections else dset n.connections m []
    sorted := false }

/-- `addInputModule` (network.py:114-120). -/
def addInputModule (n : Net V M X) (m : V) : Net V M X :=
  addModule { n with inmodules := if m ∈ n.inmodules then n.inmodules else n.inmodules ++ [m] } m

/-- `addOutputModule` (network.py:122-129). -/
def addOutputModule (n : Net V M X) (m : V) : Net V M X :=
  addModule { n with outmodules := if m ∈ n.outmodules then n.outmodules else n.outmodules ++ [m] } m

/-- The treatment of mothers in `addConnection` and `addRecurrentConnection` (network.py:136-139, recurrent.py:39-42). -/
def addMother (ms : List M) : Option M → List M
  | none => ms
  | some m => if m ∈ ms then ms else ms ++ [m]

/-- `addConnection` (network.py:131-142). -/
def addConnection (n : Net V M X) (c : Conn V M X) : Net V M X :=
  let conns := if (dget n.connections c.inmod).isSome then n.connections else dset n.connections c.inmod []
  { n with
    connections := dset conns c.inmod ((dget conns c.inmod).getD [] ++ [c])
    motherconnections := addMother n.motherconnections c.mother
    sorted := false }

/-- `addRecurrentConnection` (recurrent.py:37-46). -/
def addRecurrentConnection (n : Net V M X) (c : Conn V M X) : Net V M X :=
  { n with
    recurrentConns := n.recurrentConns ++ [c]
    motherconnections := addMother n.motherconnections c.mother
    sorted := false }

/-- The connections in the order of `chain(*self.connections.values())`. -/
def allConns (n : Net V M X) : List (Conn V M X) := n.connections.flatMap Prod.snd

/-- A stable sort by name. -/
def byName {α : Type} (name : α → String) (l : List α) : List α := l.insertionSort (fun a b => name a ≤ name b)

/-- `self.connections[m].sort(key=lambda x: x.name)` for all modules (network.py:223-224). -/
def sortConns (conns : List (V × List (Conn V M X))) : List V → Except TErr (List (V × List (Conn V M X)))
  | [] => .ok conns
  | m :: ms =>
    match dget conns m with
    | none => .error .keyError
    | some cs => sortConns (dset conns m (byName (fun c => c.name) cs)) ms

/-- `sortModules` (network.py:215-262, recurrent.py:128-130), without parameters and buffers. `it` is the order in which
the set of modules is iterated over. The recurrent connections are sorted in any case. -/
def sortModules (A : Attr V M) (it : List V) (n : Net V M X) : Except TErr (Net V M X) :=
  let n := { n with recurrentConns := byName (fun c => c.name) n.recurrentConns }
  if n.sorted then .ok n
  else
    match topologicalSort it ((allConns n).map (fun c => (c.inmod, c.outmod))) A.name with
    | .error e => .error e
    | .ok l =>
      match sortConns n.connections it with
      | .error e => .error e
      | .ok conns =>
        .ok { n with
          modulesSorted := l
          connections := conns
          motherconnections := byName A.motherName n.motherconnections
          indim := (n.inmodules.map A.indim).sum
          outdim := (n.outmodules.map A.outdim).sum
          sorted := true }

/-- A call of the construction interface. -/
inductive Op (V M X : Type) where
  | module (m : V) | input (m : V) | output (m : V) | connection (c : Conn V M X) | recurrent (c : Conn V M X) | sort
deriving DecidableEq

/-- The effect of a call. `order` gives the iteration order of the set of modules. A failing `sortModules` leaves the
flag unset; what it leaves in `modulesSorted` is not modelled (the list is rebuilt before it is used). -/
def step (A : Attr V M) (order : List V → List V) (n : Net V M X) : Op V M X → Net V M X
  | .module m => addModule n m
  | .input m => addInputModule n m
  | .output m => addOutputModule n m
  | .connection c => addConnection n c
  | .recurrent c => addRecurrentConnection n c
  | .sort =>
    match sortModules A (order n.modules) n with
    | .ok n' => n'
    | .error _ => { n with recurrentConns := byName (fun c => c.name) n.recurrentConns, modulesSorted := [] }

def run (A : Attr V M) (order : List V → List V) (n : Net V M X) (ops : List (Op V M X)) : Net V M X :=
  ops.foldl (step A order) n

end

end Verif.Builder
