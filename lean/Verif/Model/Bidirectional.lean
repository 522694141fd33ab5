import Verif.Model.Mesh
/-
Model of pybrain/structure/networks/bidirectional.py (BidirectionalNetwork), without predefined connections (the argument is stored and not used).

Hidden and output layers are given by their transfer functions.
-/
namespace Verif.Bidir
open Verif.Net Verif.Mesh

/-- the modules; `hid true i` is `hiddenmesh[(0, i)]`, the forward one, `hid false i` is `hiddenmesh[(1, i)]` -/
inductive Node where
  | inp | out | hid (fwd : Bool) (i : Nat)
deriving DecidableEq, Repr

/-- the MotherConnections (`own` stands for the empty parameter container of layers) -/
inductive Mother where
  | own | inc (fwd : Bool) | outc (fwd : Bool) | recc (fwd : Bool)
deriving DecidableEq, Repr

structure Cfg where
  seqlen : Option Nat
  inputsize : Nat
  outputsize : Nat
  hiddensize : Nat
  symmetric : Bool
  f : ℝ → ℝ
  g : ℝ → ℝ

/-- which of the two containers: with `symmetric` the backward ones are the forward ones, bidirectional.py:65-76 -/
def side (c : Cfg) (fwd : Bool) : Bool := if c.symmetric then true else fwd

def hidRef (c : Cfg) (fwd : Bool) (i : Nat) : Ref Node := whole (.hid fwd i) c.hiddensize c.hiddensize

/-- the connections of one time step, bidirectional.py:80-91 -/
noncomputable def stepLinks (c : Cfg) (T : Nat) (inmesh outmesh : Grid Node) (i : Nat) : List (Node × Conn Node Mother ℝ) :=
  [sharedFull (.inc (side c true)) (inmesh.at [i] (whole .inp 0 0)) (hidRef c true i),
   sharedFull (.inc (side c false)) (inmesh.at [i] (whole .inp 0 0)) (hidRef c false i),
   sharedFull (.outc (side c true)) (hidRef c true i) (outmesh.at [i] (whole .out 0 0)),
   sharedFull (.outc (side c false)) (hidRef c false i) (outmesh.at [i] (whole .out 0 0))] ++
  (if 0 < i then [sharedFull (.recc (side c true)) (hidRef c true (i - 1)) (hidRef c true i)] else []) ++
  (if i + 1 < T then [sharedFull (.recc (side c false)) (hidRef c false (i + 1)) (hidRef c false i)] else [])

/-- the modules themselves -/
def module (c : Cfg) (T : Nat) : Node → Mod Mother ℝ
  | .inp => linearLayer .own (c.inputsize * T)
  | .out => pointwise .own (c.outputsize * T) c.g
  | .hid _ _ => pointwise .own c.hiddensize c.f

/-- `BidirectionalNetwork(seqlen = ..., ...)`, bidirectional.py:35-93, up to `sortModules` -/
noncomputable def bidirectional (c : Cfg) : Except MErr (Plan Node Mother) :=
  match c.seqlen with
  | none => .error .assertion
  | some T => match viewOnFlatLayer (whole .inp (c.inputsize * T) (c.inputsize * T)) [T] with
    | .error e => .error e
    | .ok inmesh => match viewOnFlatLayer (whole .out (c.outputsize * T) (c.outputsize * T)) [T] with
      | .error e => .error e
      | .ok outmesh =>
        if c.inputsize * c.hiddensize = 0 ∨ c.outputsize * c.hiddensize = 0 ∨ c.hiddensize * c.hiddensize = 0 then .error .assertion
        else .ok {
          modules := [.inp, .out] ++ (List.range T).map (Node.hid true) ++ (List.range T).map (Node.hid false)
          mod := module c T
          links := (List.range T).flatMap (stepLinks c T inmesh outmesh)
          inmods := [.inp]
          outmods := [.out] }

end Verif.Bidir
