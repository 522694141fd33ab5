import Verif.Model.Decomposable
/-!
Specification for neuron-decomposable networks: which parameter connects which neurons, and which neuron it belongs to.
-/

namespace Verif.Decomp.Spec
open Verif.Decomp

variable {M : Type} [DecidableEq M]

/-- Parameter `w` of the network leads from neuron `a` to neuron `b`: it is the entry in row `j` and column `i` of the weight matrix of a full
connection between their layers, where `i` is an output of `a` and `j` an input of `b` (numbered from the beginning of the connection's slices), or
it is the own parameter of the neuron `a = b`. -/
inductive Connects (n : Net M) : Nat → Neuron M → Neuron M → Prop
  | full (pre post : List (Container M)) (inmod outmod : M) (inFrom indim outFrom outdim i j : Nat)
      (at_ : n.containers = pre ++ .full inmod outmod inFrom indim outFrom outdim :: post) (hi : i < indim) (hj : j < outdim) :
      Connects n ((pre.map Container.paramdim).sum + (j * indim + i)) (inmod, n.layers.outNeuron inmod (inFrom + i))
        (outmod, n.layers.inNeuron outmod (outFrom + j))
  | layer (pre post : List (Container M)) (m : M) (paramdim i : Nat) (at_ : n.containers = pre ++ .layer m paramdim :: post) (hi : i < paramdim) :
      Connects n ((pre.map Container.paramdim).sum + i) (m, i) (m, i)

/-- A parameter belongs to the neuron it leads to, or, with the decomposition of ESP, to the neuron it comes from if it leads to an output. -/
def Belongs (n : Net M) (a b k : Neuron M) : Prop := if n.espStyle = true ∧ b.1 ∈ n.outmodules then k = a else k = b

/-- a neuron of the network -/
def IsNeuron (n : Net M) (k : Neuron M) : Prop := k.1 ∈ n.modules ∧ k.2 < n.layers.dim k.1

/-- The connection uses the whole output of its first layer and the input of its second layer from the beginning. -/
def Unsliced (L : Layers M) : Container M → Prop
  | .full inmod _ inFrom indim outFrom _ => inFrom = 0 ∧ indim = L.outdim inmod ∧ outFrom = 0
  | _ => True

end Verif.Decomp.Spec
