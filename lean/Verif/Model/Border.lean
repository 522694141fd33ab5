import Verif.Model.Swiping
/-
Model of pybrain/structure/networks/borderswiping.py (BorderSwipingNetwork) and pybrain/structure/networks/custom/capturegame.py (CaptureGameNetwork): swiping networks with weights for the
places where a swipe enters the grid. Hidden layers have no parameters (not MDLSTM), and there are no predefined connections. The weights of borders that
`_extrapolateBorderAt` gives to networks made by `resizedTo` are modelled by `extrapolate`.
-/
namespace Verif.Border
open Verif.Net Verif.Mesh Verif.Swiping

inductive BErr where
  | mesh (e : MErr)
  | notImplemented
  | typeError
  | attributeError
deriving DecidableEq, Repr

/-- `_canonicForm(tup, dim)`, borderswiping.py:82-91; `tupleRemoveItem` is `eraseIdx` (utilities.py:242-245) -/
def canonic (c : Cfg) (t : List Nat) (dim : Nat) : List Nat :=
  if c.symmetricdimensions then List.zipWith (fun maxval x => min (maxval - 1 - x) x) (c.dims.eraseIdx dim) t else t

/-- the entries added to `tmp`, borderswiping.py:48-60 -/
def addEntries (c : Cfg) (dim : Nat) (start : List (List Nat × Mother)) : List (List Nat × Mother) :=
  let start := if c.dims.length = 1 ∧ start.lookup [] = none then start ++ [([], .bord dim [])] else start
  (Enum.iterCombinations (c.dims.eraseIdx dim)).foldl
    (fun tmp t => if t = canonic c t dim ∧ tmp.lookup t = none then tmp ++ [(t, .bord dim t)] else tmp) start

/-- `predefined['bordconns'][dim]`, borderswiping.py:40-61 -/
def table (c : Cfg) (dim : Nat) : List (List Nat × Mother) :=
  if 0 < dim ∧ c.symmetricdimensions = true then addEntries c dim (addEntries c 0 []) else addEntries c dim []

/-- `bconn`, borderswiping.py:66-70. (A KeyError where `own` is; it does not occur.) -/
def bconn (c : Cfg) (simple : Bool) (dim : Nat) (unit : List Nat) : Mother :=
  if simple then .border else ((table c dim).lookup (canonic c (unit.eraseIdx dim) dim)).getD .own

/-- `hunits`: the swipes, borderswiping.py:71-79 -/
def hunits (c : Cfg) (dim : Nat) (unit : List Nat) : List Nat :=
  (if unit.getD dim 0 = 0 then (List.range c.swipes).filter (fun swipe => decide ((swipe / 2 ^ dim) % 2 = 0)) else []) ++
  (if unit.getD dim 0 = c.dims.getD dim 0 - 1 then (List.range c.swipes).filter (fun swipe => decide ((swipe / 2 ^ dim) % 2 = 1)) else [])

/-- the connections of the borders, borderswiping.py:63-81 -/
noncomputable def borderLinks (c : Cfg) (simple : Bool) : List (Node × Conn Node Mother ℝ) :=
  (List.range c.dims.length).flatMap fun dim => (Enum.iterCombinations c.dims).flatMap fun unit =>
    (hunits c dim unit).map fun swipe => sharedFull (bconn c simple dim unit) (whole .bias 0 1) (hidRef c unit swipe)

/-- `BorderSwipingNetwork(inmesh, hiddenmesh, outmesh, …)`, borderswiping.py:21-81, with the meshes of flat layers that CaptureGameNetwork uses (capturegame.py:56-68).
The check in line 22 reads the attribute of the class, because the arguments are assigned only later, by ParameterContainer.__init__ (swiping.py:31, network.py:38);
`classSymmetric` is its value there: true, except in subclasses that change it. -/
noncomputable def borderNetwork (c : Cfg) (simple : Bool) (classSymmetric : Bool := true) : Except BErr (Plan Node Mother) :=
  if classSymmetric = false then .error .notImplemented
  else match multiDimensionalRNN c with
    | .error e => .error (.mesh e)
    | .ok p => .ok { p with modules := p.modules ++ [.bias], links := p.links ++ borderLinks c simple }

/-- `CaptureGameNetwork(size = …, hsize = …, directlink = …, combinputs = …)`, capturegame.py:37-103. `MotherConnection(n, 'inconn')` in line 97 has a positional
argument too much (shared.py:21); the LinearLayer `cin` of line 92 has no `componentOutdim` (only meshes have). -/
noncomputable def captureGameNetwork (c : Cfg) (size : Nat) (directlink : Bool) (combinputs : Nat) : Except BErr (Plan Node Mother) :=
  if size ≤ 1 then .error (.mesh .assertion)
  else match borderNetwork { c with dims := [size, size] } false with
    | .error e => .error e
    | .ok p => if directlink then .error .typeError else if 0 < combinputs then .error .attributeError else .ok p

/-- `_extrapolateBorderAt`, borderswiping.py:93-105: `closest` are the places found with their distances (`reachable`, see C62), `params` their weights -/
noncomputable def extrapolate (closest : List (List Nat × Nat)) (params : List Nat → Nat → ℝ) : Option (Nat → ℝ) :=
  if closest = [] then none
  else some fun j => (closest.map fun q => params q.1 j / (q.2 : ℝ)).sum / (closest.map fun q => 1 / (q.2 : ℝ)).sum

end Verif.Border
