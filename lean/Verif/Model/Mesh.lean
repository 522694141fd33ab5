import Verif.Model.Connections
import Verif.Model.Layers
import Verif.Model.Enumerate
import Verif.Model.TopoSort
/-
Model of slices and meshes of modules, and of networks assembled from them:
pybrain/structure/moduleslice.py (ModuleSlice), pybrain/structure/modulemesh.py (ModuleMesh), the slices of
pybrain/structure/connections/connection.py (Connection.__init__), shared full connections.

`V` is the type of module objects. Names of slices and meshes are not modelled.
-/
namespace Verif.Mesh
open Verif.Net Verif.Topo

inductive MErr where
  | assertion | attributeError | valueError | sort (e : TErr)
deriving DecidableEq, Repr

/-- what connections use of a module or of a slice of one: the base module, the offsets and the dimensions -/
structure Ref (V : Type) where
  base : V
  isSlice : Bool
  inOff : Int
  outOff : Int
  indim : Int
  outdim : Int
deriving DecidableEq, Repr

/-- a module itself -/
def whole {V : Type} (v : V) (indim outdim : Nat) : Ref V := { base := v, isSlice := false, inOff := 0, outOff := 0, indim := indim, outdim := outdim }

/-- `ModuleSlice(base, inSliceFrom, inSliceTo, outSliceFrom, outSliceTo)`, moduleslice.py:11-38. A slice has no attribute `inSliceFrom`,
which lines 16-21 read when `base` is a slice. -/
def moduleSlice {V : Type} (base : Ref V) (inFrom : Int) (inTo : Option Int) (outFrom : Int) (outTo : Option Int) : Except MErr (Ref V) :=
  if base.isSlice then .error .attributeError
  else
    let inTo := inTo.getD base.indim
    let outTo := outTo.getD base.outdim
    if ¬ (0 ≤ inFrom ∧ 0 ≤ outFrom) then .error .assertion
    else if ¬ (inTo - inFrom + (outTo - outFrom) < base.indim + base.outdim) then .error .assertion
    else .ok { base := base.base, isSlice := true, inOff := inFrom, outOff := outFrom, indim := inTo - inFrom, outdim := outTo - outFrom }

/-- the components of a ModuleMesh, by coordinates, modulemesh.py:12-27 -/
abbrev Grid (V : Type) := List (List Nat × Ref V)

/-- the calls of the constructor for all coordinates, modulemesh.py:20-23, where the constructor is the generator of slices of `viewOnFlatLayer`,
modulemesh.py:40-46: `index` counts its calls -/
def slicer {V : Type} (layer : Ref V) (insize outsize : Int) : Nat → List (List Nat) → Except MErr (Grid V)
  | _, [] => .ok []
  | index, coord :: rest =>
    match moduleSlice layer (insize * index) (some (insize * (index + 1))) (outsize * index) (some (outsize * (index + 1))) with
    | .error e => .error e
    | .ok s => match slicer layer insize outsize (index + 1) rest with
      | .error e => .error e
      | .ok g => .ok ((coord, s) :: g)

/-- `ModuleMesh.viewOnFlatLayer(layer, dimensions)`, modulemesh.py:36-47; a dimension 0 leaves the variable `tmp` unset or divides by zero (value error here) -/
def viewOnFlatLayer {V : Type} (layer : Ref V) (dims : List Nat) : Except MErr (Grid V) :=
  if dims = [] ∨ 0 ∈ dims then .error .valueError
  else if ¬ ∃ d ∈ dims, 1 < d then .error .assertion
  else slicer layer (layer.indim / (dims.prod : Nat)) (layer.outdim / (dims.prod : Nat)) 0 (Enum.iterCombinations dims)

/-- `mesh[coord]`, modulemesh.py:53-54; `d` where the key is missing -/
def Grid.at {V : Type} (g : Grid V) (coord : List Nat) (d : Ref V) : Ref V := (g.lookup coord).getD d

/-- `SharedFullConnection(mother, inmod, outmod)`, shared.py:65-69, with the slices of connection.py:30-51: the module it leaves, and the connection -/
noncomputable def sharedFull {V P : Type} (mother : P) (inmod outmod : Ref V) : V × Conn V P ℝ :=
  (inmod.base, fullConnection outmod.base mother inmod.outOff.toNat (inmod.outOff + inmod.outdim).toNat outmod.inOff.toNat (outmod.inOff + outmod.indim).toNat)

/-- the same with `outSliceFrom` and `outSliceTo` given -/
noncomputable def sharedFullTo {V P : Type} (mother : P) (inmod outmod : Ref V) (outFrom outTo : Nat) : V × Conn V P ℝ :=
  (inmod.base, fullConnection outmod.base mother inmod.outOff.toNat (inmod.outOff + inmod.outdim).toNat (outmod.inOff + outFrom).toNat (outmod.inOff + outTo).toNat)

/-- what a network contains before it is sorted: the modules and connections added to it -/
structure Plan (V P : Type) where
  modules : List V
  mod : V → Mod P ℝ
  links : List (V × Conn V P ℝ)
  inmods : List V
  outmods : List V

section
variable {V P : Type} [DecidableEq V]

/-- `connections[m]`, network.py:128-137 -/
def Plan.conns (p : Plan V P) (m : V) : List (Conn V P ℝ) := (p.links.filter (fun a => decide (a.1 = m))).map (·.2)

/-- the network with the modules in the order `sorted` -/
def Plan.net (p : Plan V P) (sorted : List V) : Net.Net V P ℝ :=
  { mod := p.mod, sorted := sorted, inmods := p.inmods, outmods := p.outmods, conns := p.conns }

/-- `sortModules`, network.py:213-230. (The connections of a module are also sorted by name: the result of an activation does not depend on it, C12.) -/
def Plan.sort (p : Plan V P) (name : V → String) : Except MErr (Net.Net V P ℝ) :=
  match topologicalSort p.modules (p.modules.flatMap fun m => (p.conns m).map fun c => (m, c.outmod)) name with
  | .error e => .error (.sort e)
  | .ok l => .ok (p.net l)

end

/-- a layer whose units are computed one by one (neuronlayer.py) with the transfer function `f`; only its forward pass is used here -/
def pointwise {P : Type} (pc : P) (n : Nat) (f : ℝ → ℝ) : Mod P ℝ where
  indim := n
  outdim := n
  pc := pc
  fwd := fun _ inbuf _ j => f (inbuf j)
  bwdErr := fun _ outerr _ _ _ => outerr
  bwdPar := fun _ _ _ _ _ => 0

end Verif.Mesh
