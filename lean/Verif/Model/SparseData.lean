import Verif.Model.DataSet
import Mathlib.Data.List.Basic
/-
Model of ClassificationDataSet.load_libsvm (pybrain/datasets/classification.py) and of SVMData (pybrain/tools/svmdata.py).

A file is a list of lines. A line is given by its tokens: the label and the pairs index:value; `none` is a blank line. Numbers are read exactly.
-/
namespace Verif.Sparse
open Verif.DataSet (Err)

variable {K : Type} [Zero K]

/-- a line of a LIBSVM file: label and features -/
structure Line (L K : Type) where
  label : L
  feats : List (Int × K)

/-- the loop over the features, classification.py:65-75 and svmdata.py:81-88: the list of values and `nextidx` -/
def expand : Int → List (Int × K) → List K × Int
  | next, [] => ([], next)
  | next, (idx, val) :: r =>
    let (rest, last) := expand (idx + 1) r
    (List.replicate (idx - next).toNat 0 ++ val :: rest, last)

/-- the number of features that the first pass finds in a line, classification.py:51: that before the colon in the last token, which is the label if there
are no features -/
def lastIndex (l : Line Int K) : Int :=
  match l.feats.getLast? with
  | some p => p.1
  | none => l.label

/-- `nFeat`, classification.py:48-53 -/
def nFeat (ls : List (Line Int K)) : Int := ls.foldl (fun n l => if lastIndex l > n then lastIndex l else n) 0

/-- the row of a line, classification.py:62-77 -/
def row (n : Int) (l : Line Int K) : List K :=
  let (feat, next) := expand 1 l.feats
  feat ++ List.replicate (n + 1 - next).toNat 0

/-- the array made of rows; rows of different lengths do not give a two-dimensional array (ValueError) -/
def toArray (rows : List (List K)) : Except Err (List (List K)) :=
  match rows with
  | [] => .ok []
  | r :: rs => if ∀ r' ∈ rs, r'.length = r.length then .ok (r :: rs) else .error .valueError

/-- `load_libsvm`, classification.py:44-81: inputs and labels. For a blank line `line.split()[-1]` is an IndexError. -/
def loadLibsvm (file : List (Option (Line Int K))) : Except Err (List (List K) × List Int) :=
  match file.mapM id with
  | none => .error .indexError
  | some ls => (toArray (ls.map (row (nFeat ls)))).map fun rows => (rows, ls.map Line.label)

/-- the attributes of SVMData: the fields, `nSamples`, `nCls`, `classHist`, svmdata.py:9-17 -/
structure SVM (L K : Type) where
  input : List (List K)
  target : List L
  nSamples : Nat
  nCls : Nat
  classHist : List (L × Nat)

/-- `SVMData()` -/
def newSVM {L : Type} : SVM L K := { input := [], target := [], nSamples := 0, nCls := 0, classHist := [] }

section
variable {L : Type} [DecidableEq L]

/-- `self.classHist[class_] = n` -/
def setHist (h : List (L × Nat)) (c : L) (n : Nat) : List (L × Nat) :=
  if h.any (fun e => decide (e.1 = c)) then h.map fun e => if e.1 = c then (c, n) else e else h ++ [(c, n)]

/-- `self.classHist[class_]`: `none` is a KeyError -/
def getHist (h : List (L × Nat)) (c : L) : Option Nat := (h.find? fun e => decide (e.1 = c)).map Prod.snd

/-- `_setDataFields`, svmdata.py:32-43; `order` is the order in which the set of labels is listed -/
def setDataFields (order : List L → List L) (s : SVM L K) (x : List (List K)) (y : List L) : Except Err (SVM L K) :=
  if x = [] then .error .valueError
  else
    match toArray x with
    | .error e => .error e
    | .ok x => .ok { s with input := x, target := y, classHist := (order y).foldl (fun h c => setHist h c (y.count c)) s.classHist }

/-- the rows of svmdata.py:70-98 -/
def svmRows (ls : List (Line L K)) : List (List K) :=
  let x := ls.map fun l => (expand 1 l.feats).1
  let m := x.foldl (fun n xi => if n < xi.length then xi.length else n) 0
  x.map fun xi => xi ++ List.replicate (m - xi.length) 0

/-- `loadSVMdata`, svmdata.py:64-100: a blank line is an IndexError. -/
def loadSVM (order : List L → List L) (s : SVM L K) (file : List (Option (Line L K))) : Except Err (SVM L K) :=
  match file.mapM id with
  | none => .error .indexError
  | some ls => setDataFields order { s with nSamples := s.nSamples + ls.length } (svmRows ls) (ls.map Line.label)

end

/-- `label`, svmdata.py:112-115: the index of the first entry that is not zero, otherwise the variable keeps its value (`none`: not yet set) -/
def rawLabel (prev : Option Nat) (targ : List Int) : Option Nat :=
  match targ.findIdx? (fun v => decide (v ≠ 0)) with
  | some i => some i
  | none => prev

/-- the loop of `loadRawData`, svmdata.py:109-119: an unset variable is an error. If the file of targets has fewer lines, `readline` gives empty ones. -/
def rawLabels : Option Nat → Nat → List (List Int) → Except Err (List Nat)
  | _, 0, _ => .ok []
  | prev, n + 1, targs =>
    match rawLabel prev (targs.headD []) with
    | none => .error .keyError
    | some l => (rawLabels (some l) n targs.tail).map (l :: ·)

/-- `loadRawData`, svmdata.py:103-122; without any line `targline` is not set -/
def loadRaw (order : List Nat → List Nat) (s : SVM Nat K) (data : List (List K)) (targs : List (List Int)) : Except Err (SVM Nat K) :=
  match rawLabels none data.length targs with
  | .error e => .error e
  | .ok labels =>
    if data = [] then .error .keyError
    else setDataFields order { s with nSamples := s.nSamples + data.length, nCls := (targs.getD (data.length - 1) []).length } data labels

end Verif.Sparse
