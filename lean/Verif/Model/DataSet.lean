import Verif.Model.Py
/-
Model of pybrain/datasets/dataset.py (class DataSet).

Simplifications: a row is a list of numbers (numpy rows flattened to one dimension); element types
(`astype`) are not modelled; `vectorformat` conversion is the identity.
-/
namespace Verif.DataSet
open Verif.Py

/-- Exceptions raised by the dataset classes (dataset.py:16-24, sequential.py:11, builtins). -/
inductive Err where
  | outOfSync | noLinkedFields | indexError | keyError | assertion | valueError | emptySequence
  | zeroDivision | typeError
deriving DecidableEq, Repr

/-- One field: `self.data[label]` (a 2-d array of `dim` columns, `buf` its rows, including the
over-allocated padding) and `self.endmarker[label]` (`fin`). dataset.py:107-119. -/
structure Field (K : Type) where
  dim : Nat
  buf : List (List K)
  fin : Nat
deriving DecidableEq, Repr

/-- The rows a user sees: `self.data[label][:self.endmarker[label]]`, dataset.py:240-252
(`getField`). -/
def Field.rows {K : Type} (f : Field K) : List (List K) := f.buf.take f.fin

/-- `_resizeArray`, dataset.py:183-188: new number of rows `(n+1)*2`; numpy's `resize` fills the
new rows by repeating the old ones cyclically, and with zeros if there were none. -/
def Field.grow {K : Type} [Zero K] (f : Field K) : Field K :=
  let newRow (i : Nat) : List K := (f.buf[i % f.buf.length]?).getD (List.replicate f.dim 0)
  { f with buf := (List.range ((f.buf.length + 1) * 2)).map newRow }

/-- numpy assignment `a[i, :] = row` for an array with `dim` columns: the row must have `dim`
entries or be broadcast from a single entry; otherwise ValueError (`none`). -/
def broadcast {K : Type} (dim : Nat) (row : List K) : Option (List K) :=
  if row.length = dim then some row
  else match row with
    | [x] => some (List.replicate dim x)
    | _ => none

/-- State of a DataSet, dataset.py:21-35. `fields` is the insertion-ordered dictionary `data`
together with `endmarker` (both always have the same keys), `index` the cursor. -/
structure DS (K : Type) where
  fields : List (String × Field K)
  link : List String
  index : Int
deriving DecidableEq, Repr

/-- `__init__`, dataset.py:21-35. -/
def DS.empty {K : Type} : DS K := { fields := [], link := [], index := 0 }

def DS.get {K : Type} (d : DS K) (l : String) : Option (Field K) := dget d.fields l

def DS.put {K : Type} (d : DS K) (l : String) (f : Field K) : DS K :=
  { d with fields := dset d.fields l f }

/-- `addField`, dataset.py:107-113. -/
def DS.addField {K : Type} (d : DS K) (l : String) (dim : Nat) : DS K :=
  d.put l { dim := dim, buf := [], fin := 0 }

/-- `setField`, dataset.py:115-119, for a rectangular 2-d array with `dim` columns.
A ragged argument is not an array and is treated as raising ValueError without effect. -/
def DS.setField {K : Type} (d : DS K) (l : String) (dim : Nat) (rows : List (List K)) :
    DS K × Option Err :=
  if rows.all (fun r => r.length = dim) then
    (d.put l { dim := dim, buf := rows, fin := rows.length }, none)
  else (d, some .valueError)

/-- The number of rows of `self[l]` (`getField(l).shape[0]`); KeyError if there is no such field. -/
def DS.fieldLen {K : Type} (d : DS K) (l : String) : Option Nat := (d.get l).map (fun f => f.rows.length)

/-- `linkFields`, dataset.py:121-128. `linklist[0]` raises IndexError on an empty list. -/
def DS.linkFields {K : Type} (d : DS K) (ls : List String) : DS K × Option Err :=
  match ls with
  | [] => (d, some .indexError)
  | l0 :: _ =>
    match d.fieldLen l0 with
    | none => (d, some .keyError)
    | some n => loop d n ls ls
where
  /-- the `for l in linklist` loop -/
  loop (d : DS K) (n : Nat) (whole : List String) : List String → DS K × Option Err
    | [] => ({ d with link := whole }, none)
    | l :: rest =>
      match d.fieldLen l with
      | none => (d, some .keyError)
      | some m => if m ≠ n then (d, some .outOfSync) else loop d n whole rest

/-- `unlinkFields`, dataset.py:130-143 (`link.remove(l)` removes the first occurrence). -/
def DS.unlinkFields {K : Type} (d : DS K) (ls : Option (List String)) : DS K :=
  match ls with
  | none => { d with link := [] }
  | some ls => { d with link := ls.foldl (fun lk l => if l ∈ lk then lk.erase l else lk) d.link }

/-- Python's `max` over the dictionary keys: the alphabetically largest label. -/
def maxLabel : List String → Option String
  | [] => none
  | l :: rest => some (rest.foldl (fun m x => if m < x then x else m) l)

/-- `getLength`, dataset.py:158-171. With no linked fields it is the length of the field with the
alphabetically largest NAME (`endmarker[max(endmarker)]`). A linked label without field: KeyError
(`none`). -/
def DS.getLength {K : Type} (d : DS K) : Option Nat :=
  match d.link with
  | [] =>
    match maxLabel (d.fields.map Prod.fst) with
    | none => some 0
    | some m => (d.get m).map Field.fin
  | l :: _ => (d.get l).map Field.fin

/-- `_resize`, dataset.py:173-181. `if label:` is false for the empty string, which then falls
through to the linked fields or, if nothing is linked, to all fields. -/
def DS.resize {K : Type} [Zero K] (d : DS K) (l : String) : DS K :=
  let which : String → Bool :=
    if l ≠ "" then (fun k => k = l)
    else if d.link ≠ [] then (fun k => k ∈ d.link)
    else (fun _ => true)
  { d with fields := d.fields.map (fun p => (p.1, if which p.1 then p.2.grow else p.2)) }

/-- `_appendUnlinked`, dataset.py:190-199. -/
def DS.appendUnlinked {K : Type} [Zero K] (d : DS K) (l : String) (row : List K) :
    DS K × Option Err :=
  match d.get l with
  | none => (d, some .keyError)
  | some f0 =>
    let d1 := if f0.buf.length ≤ f0.fin then d.resize l else d
    match d1.get l with
    | none => (d1, some .keyError)
    | some f =>
      if f.fin < f.buf.length then
        match broadcast f.dim row with
        | none => (d1, some .valueError)
        | some r => (d1.put l { f with buf := f.buf.set f.fin r, fin := f.fin + 1 }, none)
      else (d1, some .indexError)

/-- `append`, dataset.py:201-210. -/
def DS.append {K : Type} [Zero K] (d : DS K) (l : String) (row : List K) : DS K × Option Err :=
  if l ∈ d.link then (d, some .outOfSync) else d.appendUnlinked l row

/-- the loop of `appendLinked`, dataset.py:215-216: stops at the first exception, keeping the
effects of the earlier iterations. -/
def DS.appendAll {K : Type} [Zero K] (d : DS K) : List (String × List K) → DS K × Option Err
  | [] => (d, none)
  | (l, row) :: rest =>
    match d.appendUnlinked l row with
    | (d1, none) => d1.appendAll rest
    | (d1, some e) => (d1, some e)

/-- `appendLinked`, dataset.py:212-216. -/
def DS.appendLinked {K : Type} [Zero K] (d : DS K) (args : List (List K)) : DS K × Option Err :=
  if args.length = d.link.length then d.appendAll (d.link.zip args) else (d, some .assertion)

/-- `getLinked`, dataset.py:218-238. The cursor moves before the bounds check. Only the upper bound
is checked; the row is then read from the *buffer*, with Python's negative index rule. -/
def DS.getLinked {K : Type} (d : DS K) (idx : Option Int) : DS K × Except Err (List (List K)) :=
  if d.link = [] then (d, .error .noLinkedFields)
  else
    let i := idx.getD d.index
    let d1 := { d with index := i + 1 }
    match d.getLength with
    | none => (d1, .error .keyError)
    | some n =>
      if i ≥ n then (d1, .error .indexError)
      else (d1, read d i d.link)
where
  /-- the list comprehension of line 238 -/
  read (d : DS K) (i : Int) : List String → Except Err (List (List K))
    | [] => .ok []
    | l :: rest =>
      match d.get l with
      | none => .error .keyError
      | some f =>
        match getIdx f.buf i with
        | none => .error .indexError
        | some r =>
          match read d i rest with
          | .ok rs => .ok (r :: rs)
          | .error e => .error e

/-- `getField`, dataset.py:240-252. -/
def DS.getField {K : Type} (d : DS K) (l : String) : Option (List (List K)) :=
  (d.get l).map Field.rows

/-- `convertField`, dataset.py:261-266: `setField(label, self.data[label].astype(t))`, i.e. the end
marker becomes the number of rows of the whole *buffer*. The type change is not modelled. -/
def DS.convertField {K : Type} (d : DS K) (l : String) : DS K × Option Err :=
  match d.get l with
  | none => (d, some .keyError)
  | some f => (d.put l { f with fin := f.buf.length }, none)

/-- `endOfData`, dataset.py:268-270. -/
def DS.endOfData {K : Type} (d : DS K) : Option Bool := d.getLength.map (fun (n : Nat) => decide (d.index = (n : Int)))

/-- `reset`, dataset.py:272-274. -/
def DS.reset {K : Type} (d : DS K) : DS K := { d with index := 0 }

/-- `clear`, dataset.py:276-294 (linked labels without a field would raise KeyError; labels in
`link` always have a field, see `linkFields`). -/
def DS.clear {K : Type} (d : DS K) (unlinked : Bool) : DS K :=
  { d with
    index := 0
    fields := d.fields.map (fun p =>
      (p.1, if (d.link = [] ∨ unlinked) ∨ p.1 ∈ d.link then { p.2 with buf := [], fin := 0 } else p.2)) }

/-- `save_pickle(compact=True)`, dataset.py:304-311: `setField(f, self[f][0:endmarker+1])` for every
field (the pickling itself is not modelled). -/
def DS.compact {K : Type} (d : DS K) : DS K :=
  { d with fields := d.fields.map (fun p =>
      (p.1, { p.2 with buf := p.2.rows.take (p.2.fin + 1), fin := (p.2.rows.take (p.2.fin + 1)).length })) }

/-- `__iter__`, dataset.py:50-53 (after the initial `reset`): `while not self.endOfData(): yield
self.getLinked()`, run to exhaustion. `fuel` bounds the number of loop tests; `none` if it runs out or
an exception is raised. -/
def DS.drain {K : Type} : Nat → DS K → Option (List (List (List K)) × DS K)
  | 0, _ => none
  | fuel + 1, d =>
    match d.endOfData with
    | none => none
    | some true => some ([], d)
    | some false =>
      match d.getLinked none with
      | (_, .error _) => none
      | (d1, .ok r) =>
        match drain fuel d1 with
        | none => none
        | some (rs, d2) => some (r :: rs, d2)

/-- Public operations of a DataSet (those that can change the state). -/
inductive Op (K : Type) where
  | addField (l : String) (dim : Nat)
  | setField (l : String) (dim : Nat) (rows : List (List K))
  | linkFields (ls : List String)
  | unlinkFields (ls : Option (List String))
  | append (l : String) (row : List K)
  | appendLinked (args : List (List K))
  | getLinked (i : Option Int)
  | convertField (l : String)
  | reset
  | clear (unlinked : Bool)
  | compact
deriving Repr

/-- One call: the state afterwards and the exception, if any. -/
def step {K : Type} [Zero K] (d : DS K) : Op K → DS K × Option Err
  | .addField l n => (d.addField l n, none)
  | .setField l n rows => d.setField l n rows
  | .linkFields ls => d.linkFields ls
  | .unlinkFields ls => (d.unlinkFields ls, none)
  | .append l r => d.append l r
  | .appendLinked args => d.appendLinked args
  | .getLinked i => match d.getLinked i with
    | (d1, .ok _) => (d1, none)
    | (d1, .error e) => (d1, some e)
  | .convertField l => d.convertField l
  | .reset => (d.reset, none)
  | .clear u => (d.clear u, none)
  | .compact => (d.compact, none)

/-- A history of calls; exceptions are caught by the caller and the history goes on. -/
def run {K : Type} [Zero K] (d : DS K) : List (Op K) → DS K
  | [] => d
  | op :: ops => run (step d op).1 ops

/-- Start/stop index pairs of `batches`, dataset.py:331-356 (for `n ≥ 1`; `divmod(_, 0)` raises
ZeroDivisionError, modelled in `batches`). -/
def batchBounds (len n : Nat) : List (Nat × Nat) :=
  let full := len / n
  let rest := len % n
  let number := if rest = 0 then full else full + 1
  let starts := (List.range number).map (· * n)
  let stops := (List.range (number - 1)).map (fun i => (i + 1) * n) ++ [len]
  starts.zip stops

/-- `batches(label, n, permutation)`, dataset.py:331-358. Slices are taken from the buffer. A
permutation entry outside the batch range raises IndexError. -/
def DS.batches {K : Type} (d : DS K) (l : String) (n : Nat) (perm : Option (List Nat)) :
    Except Err (List (List (List K))) :=
  match d.getLength with
  | none => .error .keyError
  | some len =>
    if n = 0 then .error .zeroDivision
    else
      let idx := batchBounds len n
      match d.get l with
      | none => .error .keyError
      | some f =>
        match perm with
        | none => .ok (idx.map (fun p => slice f.buf p.1 p.2))
        | some π =>
          match π.mapM (fun i => idx[i]?) with
          | none => .error .indexError
          | some idx' => .ok (idx'.map (fun p => slice f.buf p.1 p.2))

/-- `randomBatches`, dataset.py:360-363. `random.shuffle` returns `None`, so `batches` is called
with `permutation=None` whatever the random choice was. -/
def DS.randomBatches {K : Type} (d : DS K) (l : String) (n : Nat) : Except Err (List (List (List K))) :=
  d.batches l n none

end Verif.DataSet

namespace Verif.DataSet
open Verif.Py

/-- Python's `int(x)` for a (rational) number: truncation towards zero. -/
def pyInt (x : Rat) : Int := if 0 ≤ x then x.floor else x.ceil

/-- `SupervisedDataSet(inp=A, target=B)`, supervised.py:17-38, for two arrays: sets both fields and links
them (OutOfSyncError if the lengths differ). -/
def mkSupervised {K : Type} (indim outdim : Nat) (inp target : List (List K)) : Except Err (DS K) :=
  match (DS.empty : DS K).setField "input" indim inp with
  | (_, some e) => .error e
  | (d1, none) =>
    match d1.setField "target" outdim target with
    | (_, some e) => .error e
    | (d2, none) =>
      match d2.linkFields ["input", "target"] with
      | (_, some e) => .error e
      | (d3, none) => .ok d3

/-- numpy fancy indexing `rows[indices]` for a list of row numbers (IndexError outside the range). -/
def fancy {α : Type} (rows : List α) (idx : List Nat) : Option (List α) := idx.mapM (fun i => rows[i]?)

/-- `splitWithProportion`, supervised.py:105-118; `perm` is the outcome of
`random.permutation(len(self))`. -/
def DS.splitWithProportion {K : Type} (d : DS K) (perm : List Nat) (proportion : Rat) :
    Except Err (DS K × DS K) :=
  match d.getLength, d.get "input", d.get "target" with
  | some n, some fi, some ft =>
    let sep := pyInt ((n : Rat) * proportion)
    let left := sliceTo perm sep
    let right := sliceFrom perm sep
    match fancy fi.rows left, fancy ft.rows left, fancy fi.rows right, fancy ft.rows right with
    | some li, some lt, some ri, some rt =>
      match mkSupervised fi.dim ft.dim li lt, mkSupervised fi.dim ft.dim ri rt with
      | .ok l, .ok r => .ok (l, r)
      | .error e, _ => .error e
      | _, .error e => .error e
    | _, _, _, _ => .error .indexError
  | _, _, _ => .error .keyError

end Verif.DataSet
