import Verif.Model.Mesh
/-
Model of pybrain/structure/networks/convolutional.py (SimpleConvolutionalNetwork) and pybrain/structure/networks/custom/convboard.py
(ConvolutionalBoardNetwork).

The hidden (tanh) and output (sigmoid) layers are given by their transfer functions `f` and `g`.
-/
namespace Verif.Conv
open Verif.Net Verif.Mesh

/-- the modules: `pad` and `bias` in ConvolutionalBoardNetwork only -/
inductive Node where
  | inp | pad | bias | hid | out
deriving DecidableEq, Repr

/-- the MotherConnections (`own` stands for the empty parameter container of other modules and of IdentityConnections) -/
inductive Mother where
  | own | conv (k : Nat) | outc | padding
deriving DecidableEq, Repr

/-- the results of a loop that adds connections, which an exception ends -/
def collect {α : Type} : List (Except MErr (List α)) → Except MErr (List α)
  | [] => .ok []
  | .error e :: _ => .error e
  | .ok l :: rest => match collect rest with
    | .error e => .error e
    | .ok ls => .ok (l ++ ls)

/-- `outdim`, convolutional.py:29 -/
def outdim (insize convSize : Nat) : Int := (insize : Int) - convSize + 1

/-- the hidden layer, convolutional.py:30, and the output layer, convolutional.py:33 -/
def hidRef (insize convSize maps : Nat) : Ref Node :=
  whole .hid (outdim insize convSize * outdim insize convSize * maps).toNat (outdim insize convSize * outdim insize convSize * maps).toNat
def outRef (insize convSize : Nat) : Ref Node :=
  whole .out (outdim insize convSize * outdim insize convSize).toNat (outdim insize convSize * outdim insize convSize).toNat

/-- the body of the loop over `k`, convolutional.py:50-53 -/
noncomputable def convLink (inputdim insize convSize : Nat) (inlayer : Ref Node) (outmod : Ref Node) (i j k : Nat) : Except MErr (List (Node × Conn Node Mother ℝ)) :=
  match moduleSlice inlayer 0 none ((insize * (i + k) + j : Nat) * (inputdim : Int)) (some ((insize * (i + k) + j : Nat) * (inputdim : Int) + convSize * inputdim)) with
  | .error e => .error e
  | .ok inmod => .ok [sharedFull (.conv k) inmod outmod]

/-- the body of the loops over `i` and `j`, convolutional.py:44-53 -/
noncomputable def cellLinks (inputdim insize convSize maps : Nat) (inlayer : Ref Node) (i j : Nat) : Except MErr (List (Node × Conn Node Mother ℝ)) :=
  let offset : Int := i * outdim insize convSize + j
  match moduleSlice (hidRef insize convSize maps) (offset * maps) (some ((offset + 1) * maps)) (offset * maps) (some ((offset + 1) * maps)) with
  | .error e => .error e
  | .ok outmod => match collect ((List.range convSize).map (convLink inputdim insize convSize inlayer outmod i j)) with
    | .error e => .error e
    | .ok ls => .ok (sharedFullTo .outc outmod (outRef insize convSize) offset.toNat (offset + 1).toNat :: ls)

/-- `_buildStructure`, convolutional.py:27-53: the connections; MotherConnections need at least one parameter (shared.py:22) -/
noncomputable def buildStructure (inputdim insize convSize maps : Nat) (inlayer : Ref Node) : Except MErr (List (Node × Conn Node Mother ℝ)) :=
  if 0 < convSize ∧ convSize * maps * inputdim = 0 then .error .assertion
  else if maps = 0 then .error .assertion
  else collect ((List.range (outdim insize convSize).toNat).map fun i =>
    collect ((List.range (outdim insize convSize).toNat).map fun j => cellLinks inputdim insize convSize maps inlayer i j))

/-- the modules -/
def module (f g : ℝ → ℝ) (insize convSize maps inp pad : Nat) : Node → Mod Mother ℝ
  | .inp => linearLayer .own inp
  | .pad => linearLayer .own pad
  | .bias => biasUnit .own
  | .hid => pointwise .own (outdim insize convSize * outdim insize convSize * maps).toNat f
  | .out => pointwise .own (outdim insize convSize * outdim insize convSize).toNat g

/-- `SimpleConvolutionalNetwork(inputdim, insize, convSize, numFeatureMaps)`, convolutional.py:19-24, up to `sortModules` -/
noncomputable def simpleConv (f g : ℝ → ℝ) (inputdim insize convSize maps : Nat) : Except MErr (Plan Node Mother) :=
  match buildStructure inputdim insize convSize maps (whole .inp (inputdim * insize * insize) (inputdim * insize * insize)) with
  | .error e => .error e
  | .ok links => .ok {
      modules := [.inp, .hid, .out]
      mod := module f g insize convSize maps (inputdim * insize * insize) 0
      links := links
      inmods := [.inp]
      outmods := [.out] }

/-- `insize`, convboard.py:25-28 -/
def paddedSize (boardSize convSize : Nat) : Nat := if convSize % 2 = 0 then boardSize + 2 * (convSize / 2) - 1 else boardSize + 2 * (convSize / 2)

/-- `xs`, convboard.py:38-41 -/
def margin (boardSize convSize : Nat) : List Nat :=
  List.range (convSize / 2) ++
    (if convSize % 2 = 0 then (List.range (convSize / 2 - 1)).map (paddedSize boardSize convSize - convSize / 2 + 1 + ·)
     else (List.range (convSize / 2)).map (paddedSize boardSize convSize - convSize / 2 + ·))

/-- `paddable`, convboard.py:37-43; an empty `xs` raises the TypeError of `reduce` (crossproduct, C18) -/
def paddable (boardSize convSize : Nat) : Except DataSet.Err (List (List Nat)) :=
  match Enum.crossproduct [List.range (paddedSize boardSize convSize), margin boardSize convSize] [] with
  | .error e => .error e
  | .ok a => match Enum.crossproduct [margin boardSize convSize, (List.range boardSize).map (convSize / 2 + ·)] [] with
    | .error e => .error e
    | .ok b => .ok (a ++ b)

/-- the bias connections, convboard.py:45-48 -/
noncomputable def biasLink (boardSize convSize : Nat) (padded : Ref Node) (p : List Nat) : Node × Conn Node Mother ℝ :=
  sharedFullTo .padding (whole .bias 0 1) padded ((p.getD 0 0 * paddedSize boardSize convSize + p.getD 1 0) * 2) ((p.getD 0 0 * paddedSize boardSize convSize + p.getD 1 0 + 1) * 2)

/-- the connection of row `i` of the board, convboard.py:50-55; the dimensions agree, as IdentityConnection (identity.py:10-14) requires -/
noncomputable def rowLink (boardSize convSize : Nat) (inlayer padded : Ref Node) (i : Nat) : Except MErr (List (Node × Conn Node Mother ℝ)) :=
  let n := paddedSize boardSize convSize
  let x := convSize / 2
  match moduleSlice inlayer 0 none ((i * boardSize * 2 : Nat) : Int) (some (((i + 1) * boardSize * 2 : Nat) : Int)) with
  | .error e => .error e
  | .ok inmod => match moduleSlice padded ((((i + x) * n + x) * 2 : Nat) : Int) (some ((((i + x) * n + x + boardSize) * 2 : Nat) : Int)) 0 none with
    | .error e => .error e
    | .ok outmod =>
      if inmod.outdim ≠ outmod.indim then .error .assertion
      else .ok [(inmod.base, identityConnection outmod.base .own inmod.outOff.toNat (inmod.outOff + inmod.outdim).toNat outmod.inOff.toNat (outmod.inOff + outmod.indim).toNat)]

/-- exceptions: the TypeError of `crossproduct`, or one of those above -/
inductive BErr where
  | py (e : DataSet.Err) | mesh (e : MErr)
deriving DecidableEq, Repr

/-- `ConvolutionalBoardNetwork(boardSize, convSize, numFeatureMaps)`, convboard.py:18-58, up to `sortModules`; `convSize` at least 1 -/
noncomputable def boardNetwork (f g : ℝ → ℝ) (boardSize convSize maps : Nat) : Except BErr (Plan Node Mother) :=
  let n := paddedSize boardSize convSize
  let inlayer : Ref Node := whole .inp (2 * boardSize * boardSize) (2 * boardSize * boardSize)
  let padded : Ref Node := whole .pad (2 * n * n) (2 * n * n)
  match paddable boardSize convSize with
  | .error e => .error (.py e)
  | .ok ps => match collect ((List.range boardSize).map (rowLink boardSize convSize inlayer padded)) with
    | .error e => .error (.mesh e)
    | .ok rows => match buildStructure 2 n convSize maps padded with
      | .error e => .error (.mesh e)
      | .ok links => .ok {
          modules := [.inp, .pad, .bias, .hid, .out]
          mod := module f g n convSize maps (2 * boardSize * boardSize) (2 * n * n)
          links := ps.map (biasLink boardSize convSize padded) ++ rows ++ links
          inmods := [.inp]
          outmods := [.out] }

end Verif.Conv
