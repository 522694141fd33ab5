import Verif.Model.Builder
/-
Model of `buildNetwork` (pybrain/tools/shortcuts.py:21-109) on top of the construction interface of networks.
-/
namespace Verif.BuildNetwork

open Verif.Py Verif.Topo Verif.Builder

/-- What `buildNetwork` uses of a layer class: its name, whether it is a subclass of `LSTMLayer`, its `sequential`
flag, and the buffer sizes per neuron (module.py, neuronlayer.py:13-15, lstm.py:59: LSTM cells have four inputs). -/
structure LayerClass where
  label : String
  lstm : Bool
  sequential : Bool
  inPer : Nat
  outPer : Nat
deriving DecidableEq, Repr

def linearLayer : LayerClass := ⟨"LinearLayer", false, false, 1, 1⟩
def sigmoidLayer : LayerClass := ⟨"SigmoidLayer", false, false, 1, 1⟩
def lstmLayer : LayerClass := ⟨"LSTMLayer", true, true, 4, 1⟩
/-- `BiasUnit` (biasunit.py:13-14): no input, one output. -/
def biasUnit : LayerClass := ⟨"BiasUnit", false, false, 0, 1⟩

/-- A layer object; names identify the objects here. -/
structure Layer where
  name : String
  cls : LayerClass
  size : Nat
  peepholes : Bool
deriving DecidableEq, Repr

/-- names and dimensions; there are no mother connections -/
def attr : Attr Layer Unit := ⟨Layer.name, fun m => m.cls.inPer * m.size, fun m => m.cls.outPer * m.size, fun _ => ""⟩

abbrev BNet := Net Layer Unit Unit

/-- A keyword argument. -/
inductive Arg where
  | bias (b : Bool) | hiddenclass (c : LayerClass) | outclass (c : LayerClass) | outputbias (b : Bool)
  | peepholes (b : Bool) | recurrent (b : Bool) | fast (b : Bool) | other (key : String)
deriving DecidableEq, Repr

/-- The dictionary `opt` with its defaults (shortcuts.py:38-45). -/
structure Opt where
  bias : Bool := true
  hiddenclass : LayerClass := sigmoidLayer
  outclass : LayerClass := linearLayer
  outputbias : Bool := true
  peepholes : Bool := false
  recurrent : Bool := false
  fast : Bool := false
deriving DecidableEq, Repr

inductive BErr where
  | networkError | attributeError | systemExit | sort (e : TErr)
deriving DecidableEq, Repr

/-- The loop over the options (shortcuts.py:46-49). -/
def readOptions (o : Opt) : List Arg → Except BErr Opt
  | [] => .ok o
  | .bias b :: r => readOptions { o with bias := b } r
  | .hiddenclass c :: r => readOptions { o with hiddenclass := c } r
  | .outclass c :: r => readOptions { o with outclass := c } r
  | .outputbias b :: r => readOptions { o with outputbias := b } r
  | .peepholes b :: r => readOptions { o with peepholes := b } r
  | .recurrent b :: r => readOptions { o with recurrent := b } r
  | .fast b :: r => readOptions { o with fast := b } r
  | .other _ :: _ => .error .networkError

def hiddenName (i : Nat) : String := "hidden" ++ i.repr

/-- `FullConnection(n[a], n[b])`: on an absent module `None` has no dimensions (connection.py:36-43). `nm` gives the
generated names of connections. -/
def full (nm : Layer → Layer → String) (n : BNet) (a b : String) : Except BErr (Conn Layer Unit Unit) :=
  match getitem attr n a, getitem attr n b with
  | some x, some y => .ok ⟨x, y, nm x y, none, ()⟩
  | _, _ => .error .attributeError

/-- `n.addConnection(FullConnection(n[a], n[b]))` -/
def connect (nm : Layer → Layer → String) (n : BNet) (a b : String) : Except BErr BNet :=
  match full nm n a b with
  | .ok c => .ok (addConnection n c)
  | .error e => .error e

/-- The hidden layers (shortcuts.py:81-89). -/
def addHidden (nm : Layer → Layer → String) (o : Opt) : Nat → List Nat → BNet → Except BErr BNet
  | _, [], n => .ok n
  | i, num :: rest, n =>
    let n1 := addModule n ⟨hiddenName i, o.hiddenclass, num, o.hiddenclass.lstm && o.peepholes⟩
    if o.bias then
      match connect nm n1 "bias" (hiddenName i) with
      | .ok n2 => addHidden nm o (i + 1) rest n2
      | .error e => .error e
    else addHidden nm o (i + 1) rest n1

/-- Connections between hidden layers (shortcuts.py:91-92). -/
def chainHidden (nm : Layer → Layer → String) : List Nat → BNet → Except BErr BNet
  | [], n => .ok n
  | i :: is, n =>
    match connect nm n (hiddenName i) (hiddenName (i + 1)) with
    | .ok n1 => chainHidden nm is n1
    | .error e => .error e

/-- The bias module and its connection to the output (shortcuts.py:75-79). -/
def addBias (nm : Layer → Layer → String) (o : Opt) (n : BNet) : Except BErr BNet :=
  if o.bias then
    let n1 := addModule n ⟨"bias", biasUnit, 1, false⟩
    if o.outputbias then connect nm n1 "bias" "out" else .ok n1
  else .ok n

/-- The remaining connections (shortcuts.py:94-100). -/
def addOther (nm : Layer → Layer → String) (len : Nat) (n : BNet) : Except BErr BNet :=
  if len = 2 then connect nm n "in" "out"
  else
    match connect nm n "in" (hiddenName 0) with
    | .ok n1 => connect nm n1 (hiddenName (len - 3)) "out"
    | .error e => .error e

/-- The recurrent connection of LSTM networks (shortcuts.py:103-106). -/
def addLoop (nm : Layer → Layer → String) (o : Opt) (recurrent : Bool) (len : Nat) (n : BNet) : Except BErr BNet :=
  if o.hiddenclass.lstm then
    if len > 3 then .error .systemExit
    else
      match full nm n (hiddenName 0) (hiddenName 0) with
      | .ok c => if recurrent then .ok (addRecurrentConnection n c) else .error .attributeError
      | .error e => .error e
  else .ok n

/-- `buildNetwork(*layers, **options)` (shortcuts.py:21-109): the network and whether it is a recurrent one. `arac` says
whether the compiled networks could be imported, `order` is the iteration order of sets. -/
def buildNetwork (arac : Bool) (nm : Layer → Layer → String) (order : List Layer → List Layer) (layers : List Nat) (options : List Arg) :
    Except BErr (BNet × Bool) :=
  match readOptions {} options with
  | .error e => .error e
  | .ok o =>
    if layers.length < 2 then .error .networkError
    else if !arac && o.fast then .error .networkError
    else
      let recurrent := o.recurrent || (o.hiddenclass.sequential || o.outclass.sequential)
      let n0 := addOutputModule (addInputModule empty ⟨"in", linearLayer, layers.headD 0, false⟩)
        ⟨"out", o.outclass, layers.getLastD 0, false⟩
      match addBias nm o n0 with
      | .error e => .error e
      | .ok n1 =>
        match addHidden nm o 0 (slice layers 1 (-1)) n1 with
        | .error e => .error e
        | .ok n2 =>
          match chainHidden nm (List.range (layers.length - 3)) n2 with
          | .error e => .error e
          | .ok n3 =>
            match addOther nm layers.length n3 with
            | .error e => .error e
            | .ok n4 =>
              match addLoop nm o recurrent layers.length n4 with
              | .error e => .error e
              | .ok n5 =>
                match sortModules attr (order n5.modules) n5 with
                | .error e => .error (.sort e)
                | .ok n6 => .ok (n6, recurrent)

end Verif.BuildNetwork
