import Verif.Model.Mesh
/-
Model of pybrain/structure/networks/swiping.py (SwipingNetwork) as built by pybrain/structure/networks/multidimensional.py
(MultiDimensionalRNN) with hidden layers without parameters (not MDLSTM), and without predefined connections.

Hidden and output layers are given by their transfer functions.
-/
namespace Verif.Swiping
open Verif.Net Verif.Mesh

/-- the modules: the flat input and output layers, and the hidden layer of each unit and swipe; and the bias unit of networks with borders (`Verif.Model.Border`) -/
inductive Node where
  | inp | out | hid (unit : List Nat) (swipe : Nat) | bias
deriving DecidableEq, Repr

/-- the MotherConnections in `predefined`; `hd dim plus` is `hconns[(dim, dir)]`. (`own` stands for the empty parameter container of layers.)
`border` and `bord dim t` are those of the borders (`Verif.Model.Border`): `borderconn`, and the one made for the place `t` in dimension `dim`. -/
inductive Mother where
  | own | inconn | outconn | h (dim : Nat) | hd (dim : Nat) (plus : Bool) | border | bord (dim : Nat) (t : List Nat)
deriving DecidableEq, Repr

structure Cfg where
  dims : List Nat
  insize : Nat
  outputs : Nat
  hsize : Nat
  symmetricdimensions : Bool
  symmetricdirections : Bool
  f : ℝ → ℝ
  g : ℝ → ℝ

/-- `swipes`, swiping.py:39 -/
def Cfg.swipes (c : Cfg) : Nat := 2 ^ c.dims.length

/-- `previousunit` and `dir`, swiping.py:99-109, and the test of lines 116-117; without the last entry of `hunit`, the swipe, which is not changed -/
def previous (unit : List Nat) (swipe dim maxval : Nat) : Option (List Nat) :=
  let coord : Int := if (swipe / 2 ^ dim) % 2 = 0 then (unit.getD dim 0 : Int) - 1 else (unit.getD dim 0 : Int) + 1
  if 0 ≤ coord ∧ coord < maxval then some (unit.set dim coord.toNat) else none

/-- the `dir` of lines 104 and 107 is '+' -/
def plus (swipe dim : Nat) : Bool := decide ((swipe / 2 ^ dim) % 2 = 0)

/-- `hconn`, swiping.py:111-114, with the sharing of lines 72-89 -/
def hconn (c : Cfg) (swipe dim : Nat) : Mother :=
  if c.symmetricdirections then .h (if 0 < dim ∧ c.symmetricdimensions = true then 0 else dim)
  else .hd (if 0 < dim ∧ c.symmetricdimensions = true then 0 else dim) (plus swipe dim)

/-- a component of the hidden mesh -/
def hidRef (c : Cfg) (unit : List Nat) (swipe : Nat) : Ref Node := whole (.hid unit swipe) c.hsize c.hsize

/-- the connections into or out of one hidden unit, swiping.py:93-118 -/
noncomputable def unitLinks (c : Cfg) (inmesh outmesh : Grid Node) (unit : List Nat) (swipe : Nat) : List (Node × Conn Node Mother ℝ) :=
  [sharedFull .inconn (inmesh.at unit (whole .inp 0 0)) (hidRef c unit swipe),
   sharedFull .outconn (hidRef c unit swipe) (outmesh.at unit (whole .out 0 0))] ++
  (List.range c.dims.length).flatMap fun dim =>
    match previous unit swipe dim (c.dims.getD dim 0) with
    | none => []
    | some p => [sharedFull (hconn c swipe dim) (hidRef c p swipe) (hidRef c unit swipe)]

/-- `_buildSwipingStructure`, swiping.py:52-118: the connections -/
noncomputable def links (c : Cfg) (inmesh outmesh : Grid Node) : List (Node × Conn Node Mother ℝ) :=
  (Enum.iterCombinations c.dims).flatMap fun unit => (List.range c.swipes).flatMap fun swipe => unitLinks c inmesh outmesh unit swipe

/-- the modules themselves -/
def module (c : Cfg) : Node → Mod Mother ℝ
  | .inp => linearLayer .own (c.insize * c.dims.prod)
  | .out => pointwise .own (c.outputs * c.dims.prod) c.g
  | .hid _ _ => pointwise .own c.hsize c.f
  | .bias => biasUnit .own

/-- `MultiDimensionalRNN(dims)`, multidimensional.py:18-39, up to `sortModules`; `dims` is a tuple. The checks are those of `viewOnFlatLayer`,
`_verifyDimensions` (swiping.py:45-52) and of the MotherConnections (shared.py:22). -/
noncomputable def multiDimensionalRNN (c : Cfg) : Except MErr (Plan Node Mother) :=
  match viewOnFlatLayer (whole .inp (c.insize * c.dims.prod) (c.insize * c.dims.prod)) c.dims with
  | .error e => .error e
  | .ok inmesh => match viewOnFlatLayer (whole .out (c.outputs * c.dims.prod) (c.outputs * c.dims.prod)) c.dims with
    | .error e => .error e
    | .ok outmesh =>
      if ¬ ∀ d ∈ c.dims, 1 < d then .error .assertion
      else if c.insize * c.hsize = 0 ∨ c.outputs * c.hsize = 0 ∨ c.hsize * c.hsize = 0 then .error .assertion
      else .ok {
        modules := [.inp, .out] ++ (Enum.iterCombinations c.dims).flatMap fun unit => (List.range c.swipes).map fun swipe => Node.hid unit swipe
        mod := module c
        links := links c inmesh outmesh
        inmods := [.inp]
        outmods := [.out] }

end Verif.Swiping
