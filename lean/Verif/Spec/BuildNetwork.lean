import Verif.Model.BuildNetwork
import Verif.Spec.TopoSort
/-
Specification of the network that `buildNetwork` is documented to build: a chain of layers.
-/
namespace Verif.BuildNetwork.Spec

open Verif.Builder Verif.BuildNetwork

/-- Layer number `i` of the layers `0, ..., k`: 'in' is linear, 'out' has the output class, the others are 'hidden0',
'hidden1', ... of the hidden class. -/
def layer (o : Opt) (sizes : List Nat) (i : Nat) : Layer :=
  let k := sizes.length - 1
  if i = 0 then ⟨"in", linearLayer, sizes.getD 0 0, false⟩
  else if i = k then ⟨"out", o.outclass, sizes.getD k 0, false⟩
  else ⟨"hidden" ++ (i - 1).repr, o.hiddenclass, sizes.getD i 0, o.hiddenclass.lstm && o.peepholes⟩

/-- the bias unit -/
def biasLayer : Layer := ⟨"bias", biasUnit, 1, false⟩

/-- a full connection -/
def link (nm : Layer → Layer → String) (a b : Layer) : Conn Layer Unit Unit := ⟨a, b, nm a b, none, ()⟩

/-- All layers, and the bias unit if there is one. -/
def modules (o : Opt) (sizes : List Nat) : List Layer :=
  (List.range sizes.length).map (layer o sizes) ++ (if o.bias then [biasLayer] else [])

/-- Every layer is connected to the next; the bias to every hidden layer, and to the output if wanted. -/
def connections (nm : Layer → Layer → String) (o : Opt) (sizes : List Nat) : List (Conn Layer Unit Unit) :=
  let k := sizes.length - 1
  (List.range k).map (fun i => link nm (layer o sizes i) (layer o sizes (i + 1))) ++
  (if o.bias then (List.range (k - 1)).map (fun i => link nm biasLayer (layer o sizes (i + 1))) ++
    (if o.outputbias then [link nm biasLayer (layer o sizes k)] else []) else [])

/-- The network is the documented one, ready for use. -/
structure IsChain (nm : Layer → Layer → String) (o : Opt) (sizes : List Nat) (n : BNet) : Prop where
  modules : n.modules.Perm (modules o sizes)
  inputs : n.inmodules = [layer o sizes 0]
  outputs : n.outmodules = [layer o sizes (sizes.length - 1)]
  conns : (allConns n).Perm (connections nm o sizes)
  recs : n.recurrentConns = if o.hiddenclass.lstm then [link nm (layer o sizes 1) (layer o sizes 1)] else []
  order : Topo.Spec.IsTopoOrder n.modules ((allConns n).map fun c => (c.inmod, c.outmod)) n.modulesSorted
  sorted : n.sorted = true
  indim : n.indim = sizes.getD 0 0
  outdim : n.outdim = o.outclass.outPer * sizes.getD (sizes.length - 1) 0

end Verif.BuildNetwork.Spec
