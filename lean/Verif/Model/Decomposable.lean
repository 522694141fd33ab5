/-!
Model of neuron-decomposable networks: `structure/networks/neurondecomposable.py`, with the parts of `connections/full.py`,
`connections/connection.py` and `modules/neuronlayer.py` it uses.

Simplifications. A layer is an arbitrary value with its `dim`, `outdim` and the two halves of `whichNeuron`. The set `self.modules` is iterated in
a fixed order that is part of the network. `self._containerIterator()` (network.py:80-93, recurrent.py:29-34) is given by its list of containers
that have parameters. `self.params` is a function on indices below `paramdim`; that writing it writes the parameters of the components is C11 and
C75's business. `convertNormalNetwork` is in Verif.Model.Convert. A bare `raise` outside of a handler is a RuntimeError.
-/

namespace Verif.Decomp

variable {M K : Type} [DecidableEq M]

inductive Err | keyError | indexError | runtimeError
  deriving DecidableEq, Repr

/-- What the decomposition uses of the layers: `dim`, `outdim`, `whichNeuron(inputIndex=)` and `whichNeuron(outputIndex=)`
(neuronlayer.py:11-23, lstm.py:145-149). -/
structure Layers (M : Type) where
  dim : M → Nat
  outdim : M → Nat
  inNeuron : M → Nat → Nat
  outNeuron : M → Nat → Nat

/-- A component with parameters. A full connection has its slices `inSliceFrom`, `indim`, `outSliceFrom`, `outdim` (connection.py:16-51). -/
inductive Container (M : Type)
  | full (inmod outmod : M) (inFrom indim outFrom outdim : Nat)
  | layer (m : M) (paramdim : Nat)
  | other (paramdim : Nat)

/-- `x.paramdim` (full.py:16) -/
def Container.paramdim : Container M → Nat
  | .full _ _ _ indim _ outdim => indim * outdim
  | .layer _ n => n
  | .other n => n

/-- a layer and a number -/
abbrev Neuron (M : Type) := M × Nat

structure Net (M : Type) where
  layers : Layers M
  modules : List M
  outmodules : List M
  containers : List (Container M)
  espStyle : Bool

/-- `self.paramdim` (network.py:230-232) -/
def Net.paramdim (n : Net M) : Nat := (n.containers.map Container.paramdim).sum

/-- full.py:26-29, `inmod.outdim` is the argument -/
def whichBuffers (outdim w : Nat) : Nat × Nat := (w % outdim, w / outdim)

/-- neurondecomposable.py:41-44 -/
def neuronIterator (n : Net M) : List (Neuron M) := n.modules.flatMap fun m => (List.range (n.layers.dim m)).map fun i => (m, i)

/-- the entries of one container, neurondecomposable.py:54-63 -/
def containerInfo (L : Layers M) : Container M → Except Err (List (Neuron M × Neuron M))
  | .full inmod outmod inFrom indim outFrom outdim =>
    .ok ((List.range (Container.full inmod outmod inFrom indim outFrom outdim).paramdim).map fun w =>
      let b := whichBuffers (L.outdim inmod) w
      ((inmod, L.outNeuron inmod b.1), (outmod, L.inNeuron outmod b.2)))
  | .layer m paramdim => .ok ((List.range paramdim).map fun n => ((m, n), (m, n)))
  | .other _ => .error .runtimeError

/-- `_constructParameterInfo`, neurondecomposable.py:46-64: the entries of the containers one after the other -/
def parameterInfo (L : Layers M) : List (Container M) → Except Err (List (Neuron M × Neuron M))
  | [] => .ok []
  | x :: xs =>
    match containerInfo L x with
    | .error e => .error e
    | .ok l =>
      match parameterInfo L xs with
      | .error e => .error e
      | .ok l' => .ok (l ++ l')

/-- the dictionary `decompositionIndices` in order of insertion -/
abbrev Indices (M : Type) := List (Neuron M × List Nat)

/-- `decompositionIndices[k].append(w)` -/
def appendAt (D : Indices M) (k : Neuron M) (w : Nat) : Except Err (Indices M) :=
  if k ∈ D.map Prod.fst then .ok (D.map fun e => if e.1 = k then (e.1, e.2 ++ [w]) else e) else .error .keyError

/-- neurondecomposable.py:35-39: the neuron a parameter is given to -/
def owner (n : Net M) (info : Neuron M × Neuron M) : Neuron M :=
  if n.espStyle && info.2.1 ∈ n.outmodules then info.1 else info.2

/-- the loop over the parameters, neurondecomposable.py:34-39, from parameter `w` on -/
def fill (n : Net M) : List (Neuron M × Neuron M) → Nat → Indices M → Except Err (Indices M)
  | [], _, D => .ok D
  | i :: is, w, D =>
    match appendAt D (owner n i) w with
    | .error e => .error e
    | .ok D' => fill n is (w + 1) D'

/-- `sortModules` after the sorting itself, neurondecomposable.py:28-39 -/
def sortModules (n : Net M) : Except Err (Indices M) :=
  match parameterInfo n.layers n.containers with
  | .error e => .error e
  | .ok info => fill n info 0 ((neuronIterator n).map fun k => (k, []))

/-- `self.decompositionIndices[neuron]` -/
def lookup (D : Indices M) (k : Neuron M) : Option (List Nat) := (D.find? fun e => e.1 = k).map Prod.snd

/-- `getDecomposition`, neurondecomposable.py:66-76 -/
def getDecomposition (n : Net M) (D : Indices M) (params : Nat → K) : Except Err (List (List K)) :=
  go (neuronIterator n)
where
  /-- the loop over the neurons -/
  go : List (Neuron M) → Except Err (List (List K))
    | [] => .ok []
    | k :: ks =>
      match lookup D k with
      | none => .error .keyError
      | some nIndices =>
        match go ks with
        | .error e => .error e
        | .ok res => .ok (if nIndices.length > 0 then nIndices.map params :: res else res)

/-- the inner loop, neurondecomposable.py:85-86, from position `i` on; `row` is `decomposedParams[nindex]` -/
def setRow (row : List K) : List Nat → Nat → (Nat → K) → Except Err (Nat → K)
  | [], _, params => .ok params
  | ni :: nis, i, params =>
    match row[i]? with
    | none => .error .indexError
    | some v => setRow row nis (i + 1) (fun j => if j = ni then v else params j)

/-- the loop of `setDecomposition`, neurondecomposable.py:82-87 -/
def setLoop (D : Indices M) (d : List (List K)) : List (Neuron M) → Nat → (Nat → K) → Except Err (Nat → K)
  | [], _, params => .ok params
  | k :: ks, nindex, params =>
    match lookup D k with
    | none => .error .keyError
    | some nIndices =>
      if nIndices.length > 0 then
        match d[nindex]? with
        | none => .error .indexError
        | some row =>
          match setRow row nIndices 0 params with
          | .error e => .error e
          | .ok params' => setLoop D d ks (nindex + 1) params'
      else setLoop D d ks nindex params

/-- `setDecomposition`, neurondecomposable.py:78-87 -/
def setDecomposition (n : Net M) (D : Indices M) (d : List (List K)) (params : Nat → K) : Except Err (Nat → K) :=
  setLoop D d (neuronIterator n) 0 params

end Verif.Decomp
