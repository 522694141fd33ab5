import Verif.Model.Py
import Mathlib.Algebra.Field.Rat
/-
Model of pybrain/supervised/trainers/svmtrainer.py (SVMTrainer) and pybrain/structure/modules/svmunit.py (SVMUnit). The searches are in Verif.Model.SvmSearch.

LIBSVM is an oracle: `fit` trains a model from targets, inputs and parameters, `readFile` loads one. Values of parameters have any type `P`, with `2 ** x` and `len(x)`.
-/
namespace Verif.Svm
open Verif.Py

/-- values of parameters -/
structure Vals (P : Type) where
  pow2 : P → P
  len : P → P
  rbf : P

/-- keyword arguments: no key occurs twice -/
abbrev KW (P : Type) := List (String × P)

/-- `if name in kwargs: params[key] = f(kwargs[name])` -/
def translate {P : Type} (name key : String) (f : P → P) (kw : KW P) (params : KW P) : KW P :=
  match dget kw name with
  | some v => dset params key (f v)
  | none => params

/-- `kwargs.pop(name)`, if it is there -/
def pop {P : Type} (name : String) (kw : KW P) : KW P := kw.filter fun p => p.1 ≠ name

/-- `params.update(kwargs)` -/
def update {P : Type} (params kw : KW P) : KW P := kw.foldl (fun d p => dset d p.1 p.2) params

/-- `setParams`, svmtrainer.py:80-97, without the name of the log file: only that it is taken out of the arguments -/
def setParams {P : Type} (W : Vals P) (kw : KW P) (params : KW P) : KW P :=
  let params := translate "weight" "nr_weight" W.len kw params
  let params := translate "log2C" "C" W.pow2 kw params
  let params := translate "log2g" "gamma" W.pow2 (pop "log2C" kw) params
  update params (pop "searchlog" (pop "log2g" (pop "log2C" kw)))

/-- the trainer and its unit: parameters, the targets at construction, the data set (inputs and targets), the model of the unit -/
structure State (P I T Mo : Type) where
  params : KW P
  svmtarget : List T
  data : List (I × T)
  model : Mo

/-- LIBSVM -/
structure Lib (P I T Mo : Type) where
  fit : List T → List I → KW P → Mo
  readFile : String → Mo

/-- `__init__`, svmtrainer.py:21-44 -/
def init {P I T Mo : Type} (W : Vals P) (L : Lib P I T Mo) (data : List (I × T)) (unit : Mo) (modelfile : Option String) : State P I T Mo :=
  { params := [("kernel_type", W.rbf)], svmtarget := data.map Prod.snd, data := data, model := (modelfile.map L.readFile).getD unit }

/-- what a program does with the trainer: set parameters, train without a search, load a model, change the data set -/
inductive Op (P I T : Type) where
  | params (kw : KW P) | train (kw : KW P) | load (file : String) | data (d : List (I × T))

/-- svmtrainer.py:47-68 (train), 76-78 (load), 80-97 (setParams) -/
def step {P I T Mo : Type} (W : Vals P) (L : Lib P I T Mo) (s : State P I T Mo) : Op P I T → State P I T Mo
  | .params kw => { s with params := setParams W kw s.params }
  | .train kw =>
    let params := setParams W kw s.params
    { s with params := params, model := L.fit (s.data.map Prod.snd) (s.data.map Prod.fst) params }
  | .load file => { s with model := L.readFile file }
  | .data d => { s with data := d }

def run {P I T Mo : Type} (W : Vals P) (L : Lib P I T Mo) (s : State P I T Mo) (ops : List (Op P I T)) : State P I T Mo := ops.foldl (step W L) s

/-- `a == b` for arrays; arrays of different sizes, none of them 1, are not comparable: numpy gives the single value False (before 1.25, `none` here) -/
def compare {T : Type} [DecidableEq T] (a b : List T) : Option (List Bool) :=
  if a.length = b.length then some (List.zipWith (fun x y => decide (x = y)) a b)
  else
    match a, b with
    | [x], b => some (b.map fun y => decide (x = y))
    | a, [y] => some (a.map fun x => decide (x = y))
    | _, _ => none

/-- the score of a candidate in the searches, svmtrainer.py:169-171 and 330-332: `where(cvresult == self.targets)`, divided by the number of targets -/
def score {T : Type} [DecidableEq T] (cvresult targets : List T) : ℚ :=
  match compare cvresult targets with
  | none => 0
  | some l => (l.count true : ℚ) / (targets.length : ℚ)

/-- a Python value given as `values` -/
inductive Flag where
  | bool (b : Bool) | num (q : ℚ) | str (s : String) | none
deriving DecidableEq

/-- `v == False` and `v == True`: numbers are compared too -/
def Flag.isFalse : Flag → Bool
  | .bool b => !b
  | .num q => decide (q = 0)
  | _ => false

def Flag.isTrue : Flag → Bool
  | .bool b => b
  | .num q => decide (q = 1)
  | _ => false

/-- the three kinds of output of a LIBSVM model -/
inductive Out (C R Q : Type) where
  | cls (c : C) | raw (r : R) | prob (q : Q)
deriving DecidableEq

/-- a model: class, decision values and probabilities for an input -/
structure Predictor (I C R Q : Type) where
  predict : I → C
  values : I → R
  probability : I → Q

/-- `forwardPass`, svmunit.py:45-63 -/
def forwardPass {I C R Q : Type} (m : Predictor I C R Q) (input : I) (values : Flag) : Out C R Q :=
  if values = .str "class" ∨ values.isFalse then .cls (m.predict input)
  else if values = .str "raw" ∨ values.isTrue then .raw (m.values input)
  else .prob (m.probability input)

/-- the unit's buffers -/
structure Buf (I C R Q : Type) where
  input : Option I
  output : Option (Out C R Q)

/-- `activateOnDataset`, svmunit.py:65-78, with the buffers it leaves -/
def activateOnDataset {I C R Q : Type} (m : Predictor I C R Q) (values : Flag) : Buf I C R Q → List I → List (Out C R Q) × Buf I C R Q
  | b, [] => ([], b)
  | _, x :: xs =>
    let o := forwardPass m x values
    let r := activateOnDataset m values ⟨some x, some o⟩ xs
    (o :: r.1, r.2)

end Verif.Svm
