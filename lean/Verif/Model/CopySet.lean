import Verif.Model.DataSet
/-
Model of `copy`, `save_pickle` and `__reduce__` of the data sets: pybrain/datasets/{dataset,supervised,unsupervised,sequential,classification,importance,
reinforcement}.py, and of the classes derived from them in pybrain/tools/{benchmark,svmdata}.py, pybrain/rl/learners/directsearch/policygradient.py and
examples/supervised/backprop/datasets.

Unlike Verif.Model.DataSet, arrays are objects here: an array shows the first rows of a buffer, and several arrays may show the same buffer (slices of an
array are views). `copy.deepcopy` and pickle call the constructor with the arguments given by `__reduce__` and then set the attributes given there; each array
*object* is copied once, with the rows it shows.

Simplifications: labels are not the empty string; `astype` is the identity; element types are not modelled; the arrays of a file that was
read are put into the same memory as those of the data set written; compacting leaves the dimensions as they are (SupervisedDataSet.setField reads them from
the same columns).
-/
namespace Verif.CopySet
open Verif.Py
open Verif.DataSet (Err broadcast)

/-- buffers, and the number of array objects made so far -/
structure Mem (K : Type) where
  bufs : List (List (List K))
  objs : Nat

/-- `data[label]`: the array object `obj`, showing the first `len` rows of the buffer `buf`; `fin` is `endmarker[label]` -/
structure Fld where
  obj : Nat
  buf : Nat
  dim : Nat
  len : Nat
  fin : Nat
deriving DecidableEq

/-- `vectorformat`, dataset.py:57-76 -/
inductive Fmt
  | none | d1 | d2 | list
deriving DecidableEq

inductive Cls
  | dataSet | benchmark | loglh | unsupervised | supervised | sequential | importance | reinforcement | classification | seqClass | svmData | xor | parity
deriving DecidableEq

/-- the attributes besides fields, links, cursor and format. `dims`: `dim`, `indim` and `outdim`, `statedim` and `actiondim`;
`hist`: whether there is an attribute `classHist` (classification.py:104-111) -/
structure Attrs where
  dims : List Nat
  nClasses : Nat
  labels : List String
  hist : Bool
  currentSeq : Nat
deriving DecidableEq

structure DSet where
  cls : Cls
  fields : List (String × Fld)
  link : List String
  index : Int
  fmt : Fmt
  attrs : Attrs

variable {K : Type}

/-- the rows the array shows -/
def content (m : Mem K) (f : Fld) : List (List K) := (m.bufs.getD f.buf []).take f.len

/-- `getField(label)`, dataset.py:240-251 -/
def rows (m : Mem K) (f : Fld) : List (List K) := (content m f).take f.fin

/-! ### Copying -/

/-- the creator of DataSet.__reduce__ is a local function, dataset.py:314-317; the other classes use the class itself -/
def localCreator : Cls → Bool
  | .dataSet => true
  | .benchmark => true
  | .loglh => true
  | _ => false

/-- how many arguments `__reduce__` hands to the constructor: dataset.py:315, unsupervised.py:28, supervised.py:43, reinforcement.py:53, classification.py:159 -/
def reduceArgs : Cls → Nat
  | .dataSet => 0
  | .benchmark => 0
  | .loglh => 0
  | .unsupervised => 1
  | .classification => 4
  | .seqClass => 4
  | _ => 2

/-- the least and the largest number of arguments of the constructors: dataset.py:25, benchmark.py:9, policygradient.py:14, unsupervised.py:13,
supervised.py:17, sequential.py:21, importance.py:18, reinforcement.py:9, classification.py:12, classification.py:202, svmdata.py:9,
examples/supervised/backprop/datasets/xor.py:9, parity.py:8 -/
def ctorArgs : Cls → Nat × Nat
  | .dataSet => (0, 0)
  | .benchmark => (0, 0)
  | .loglh => (1, 1)
  | .unsupervised => (1, 1)
  | .supervised => (2, 2)
  | .sequential => (2, 2)
  | .importance => (2, 2)
  | .reinforcement => (2, 2)
  | .classification => (1, 4)
  | .seqClass => (2, 4)
  | .svmData => (0, 1)
  | .xor => (0, 0)
  | .parity => (0, 0)

/-- an array is copied, unless it was copied before -/
def copyArr (m : Mem K) (memo : List (Nat × Fld)) (f : Fld) : Mem K × List (Nat × Fld) × Fld :=
  match dget memo f.obj with
  | some g => (m, memo, { g with fin := f.fin })
  | none =>
    let g : Fld := { obj := m.objs, buf := m.bufs.length, dim := f.dim, len := f.len, fin := f.fin }
    ({ bufs := m.bufs ++ [content m f], objs := m.objs + 1 }, (f.obj, g) :: memo, g)

/-- the dictionaries `data` and `endmarker` are copied -/
def copyFields (m : Mem K) (memo : List (Nat × Fld)) : List (String × Fld) → Mem K × List (String × Fld)
  | [] => (m, [])
  | (l, f) :: fs =>
    let c := copyArr m memo f
    let r := copyFields c.1 c.2.1 fs
    (r.1, (l, c.2.2) :: r.2)

/-- exceptions: wrong number of arguments; "Can't pickle local object" -/
inductive CErr
  | typeError | cannotPickle
deriving DecidableEq, Repr

/-- `copy.deepcopy` by means of `__reduce__`: dataset.py:313-324, supervised.py:40-44, unsupervised.py:25-29, classification.py:156-160,
reinforcement.py:48-54. The constructor's fields and links are replaced by the state; cursor, format, `currentSeq` and `classHist` are the constructor's,
except that the creator of DataSet sets the format. -/
def reconstruct (m : Mem K) (d : DSet) : Except CErr (Mem K × DSet) :=
  if (ctorArgs d.cls).1 ≤ reduceArgs d.cls ∧ reduceArgs d.cls ≤ (ctorArgs d.cls).2 then
    let c := copyFields m [] d.fields
    .ok (c.1, { cls := d.cls, fields := c.2, link := d.link, index := 0, fmt := if localCreator d.cls then d.fmt else .none,
                attrs := { d.attrs with hist := false, currentSeq := 0 } })
  else .error .typeError

/-- `copy`, dataset.py:326-329 -/
def copy (m : Mem K) (d : DSet) : Except CErr (Mem K × DSet) := reconstruct m d

/-- `d[field][0:endmarker[field]+1, :]` set as the field, dataset.py:306-310: `d[field]` ends at the end marker already -/
def compactFields : Nat → List (String × Fld) → List (String × Fld)
  | _, [] => []
  | k, (l, f) :: fs => (l, { f with obj := k, len := f.fin }) :: compactFields (k + 1) fs

/-- the data set after the compaction; in the format 'list' a field is a list, for which the index is a TypeError -/
def compacted (m : Mem K) (d : DSet) : Except CErr (Mem K × DSet) :=
  if d.fmt = .list ∧ d.fields ≠ [] then .error .typeError
  else .ok ({ m with objs := m.objs + d.fields.length }, { d with fields := compactFields m.objs d.fields })

/-- `save_pickle`, dataset.py:304-311, and `load_pickle`, utilities.py:192-197: the data set written, as it is afterwards, and the one read -/
def saveLoad (m : Mem K) (d : DSet) (compact : Bool) : Except CErr (Mem K × DSet × DSet) :=
  match (if compact then compacted m d else .ok (m, d)) with
  | .error e => .error e
  | .ok (m, d) =>
    if localCreator d.cls then .error .cannotPickle
    else match reconstruct m d with
      | .error e => .error e
      | .ok (m', d') => .ok (m', d, d')

/-! ### Operations -/

def DSet.get (d : DSet) (l : String) : Option Fld := dget d.fields l
def DSet.put (d : DSet) (l : String) (f : Fld) : DSet := { d with fields := dset d.fields l f }

/-- `a[k] = r` for an array on buffer `b` -/
def poke (m : Mem K) (b k : Nat) (r : List K) : Mem K := { m with bufs := m.bufs.set b ((m.bufs.getD b []).set k r) }

/-- a field becomes a new array -/
def alloc (m : Mem K) (d : DSet) (l : String) (dim : Nat) (c : List (List K)) (fin : Nat) : Mem K × DSet :=
  ({ bufs := m.bufs ++ [c], objs := m.objs + 1 }, d.put l { obj := m.objs, buf := m.bufs.length, dim := dim, len := c.length, fin := fin })

/-- `_resizeArray`, dataset.py:183-188: numpy's `resize` repeats the rows, or makes zeros -/
def grown [Zero K] (dim : Nat) (c : List (List K)) : List (List K) :=
  (List.range ((c.length + 1) * 2)).map (fun i => (c[i % c.length]?).getD (List.replicate dim 0))

/-- `_appendUnlinked`, dataset.py:190-199 -/
def appendUnlinked [Zero K] (m : Mem K) (d : DSet) (l : String) (row : List K) : (Mem K × DSet) × Option Err :=
  match d.get l with
  | none => ((m, d), some .keyError)
  | some f0 =>
    let s := if f0.len ≤ f0.fin then alloc m d l f0.dim (grown f0.dim (content m f0)) f0.fin else (m, d)
    match s.2.get l with
    | none => (s, some .keyError)
    | some f =>
      match broadcast f.dim row with
      | none => (s, some .valueError)
      | some r => ((poke s.1 f.buf f.fin r, s.2.put l { f with fin := f.fin + 1 }), none)

/-- the loop of `appendLinked`, dataset.py:215-216 -/
def appendAll [Zero K] : Mem K × DSet → List (String × List K) → (Mem K × DSet) × Option Err
  | s, [] => (s, none)
  | s, x :: xs =>
    match appendUnlinked s.1 s.2 x.1 x.2 with
    | (s', some e) => (s', some e)
    | (s', none) => appendAll s' xs

/-- what a program does with a data set: `d.append(l, row)`, `d.appendLinked(*rows)` (also `addSample`), `d.setField(l, <new array>)`,
`d.setField(l, d[l'])`, `d[l][i] = row`, `d.unlinkFields()`, `d.clear()` -/
inductive Op (K : Type)
  | append (l : String) (row : List K)
  | appendLinked (rows : List (List K))
  | setNew (l : String) (dim : Nat) (rows : List (List K))
  | setView (l l' : String)
  | write (l : String) (i : Nat) (row : List K)
  | unlink
  | clear

/-- the fields set to zero rows by `clear`, dataset.py:288-294 -/
def clearAll : Mem K × DSet → List String → Mem K × DSet
  | s, [] => s
  | s, l :: ls =>
    match s.2.get l with
    | none => clearAll s ls
    | some f => clearAll (alloc s.1 s.2 l f.dim [] 0) ls

/-- the operations: dataset.py:201-216, dataset.py:115-119, dataset.py:240-251 followed by an assignment, dataset.py:142-143, dataset.py:276-294.
In the format 'list', `d[l]` is a list: assigning to it changes nothing, and `setField` makes a new array of it. -/
def step [Zero K] (m : Mem K) (d : DSet) : Op K → (Mem K × DSet) × Option Err
  | .append l row => if l ∈ d.link then ((m, d), some .outOfSync) else appendUnlinked m d l row
  | .appendLinked rs => if rs.length = d.link.length then appendAll (m, d) (d.link.zip rs) else ((m, d), some .assertion)
  | .setNew l dim rs => if rs.all (fun r => r.length = dim) then (alloc m d l dim rs rs.length, none) else ((m, d), some .valueError)
  | .setView l l' =>
    match d.get l' with
    | none => ((m, d), some .keyError)
    | some f =>
      if d.fmt = .list then (alloc m d l f.dim (rows m f) (rows m f).length, none)
      else (({ m with objs := m.objs + 1 }, d.put l { obj := m.objs, buf := f.buf, dim := f.dim, len := f.fin, fin := f.fin }), none)
  | .write l i row =>
    match d.get l with
    | none => ((m, d), some .keyError)
    | some f =>
      if i < f.fin then
        if d.fmt = .list then ((m, d), none)
        else match broadcast f.dim row with
          | none => ((m, d), some .valueError)
          | some r => ((poke m f.buf i r, d), none)
      else ((m, d), some .indexError)
  | .unlink => ((m, { d with link := [] }), none)
  | .clear => (clearAll (m, { d with index := 0 }) (if d.link = [] then d.fields.map Prod.fst else d.link), none)

/-- a program: the errors of the operations are observed, it goes on -/
def run [Zero K] : Mem K × DSet → List (Op K) → (Mem K × DSet) × List (Option Err)
  | s, [] => (s, [])
  | s, o :: os =>
    let r := step s.1 s.2 o
    let q := run r.1 os
    (q.1, r.2 :: q.2)

/-- `ClassificationDataSet(inp, target)` with arrays of one row per sample, classification.py:12-32, supervised.py:17-38: `convertField` makes a new array of
the targets, `class` is a view of it -/
def classification (m : Mem K) (indim : Nat) (inp targets : List (List K)) (nClasses : Nat) (labels : List String) : Mem K × DSet :=
  let n := m.bufs.length
  ({ bufs := m.bufs ++ [inp, targets], objs := m.objs + 3 },
   { cls := .classification, link := ["input", "target"], index := 0, fmt := .none,
     fields := [("input", { obj := m.objs, buf := n, dim := indim, len := inp.length, fin := inp.length }),
                ("target", { obj := m.objs + 1, buf := n + 1, dim := 1, len := targets.length, fin := targets.length }),
                ("class", { obj := m.objs + 2, buf := n + 1, dim := 1, len := targets.length, fin := targets.length })],
     attrs := { dims := [indim, 1], nClasses := nClasses, labels := labels, hist := decide (0 < inp.length), currentSeq := 0 } })

end Verif.CopySet
