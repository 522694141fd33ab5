import Verif.Model.DataSet
/-
Model of pybrain/datasets/classification.py (class ClassificationDataSet) and of
Validator/ClassificationHelper in pybrain/tools/validation.py:90-98.

Fields are tables of rows (the buffer with over-allocation is modelled in `Verif.Model.DataSet`;
`Verif.Props.C02_refines_tables_partial` shows that it behaves as a table). `input` rows are abstract.
Values of target/class arrays are rationals; labels are the integers among them.
-/
namespace Verif.Classification
open Verif.Py Verif.DataSet

/-- `input`, `target` (rows of width `outdim`), `class` (one column) and `nClasses`. `input` and `target`
are the linked fields; `class` is not linked (classification.py:20-34). -/
structure CDS (I : Type) where
  input : List I
  outdim : Nat
  target : List (List Rat)
  cls : List Rat
  nClasses : Int
deriving DecidableEq, Repr

/-- `ClassificationDataSet(inp, 1, nb_classes)` for a number `inp`, classification.py:12-34. -/
def CDS.fresh {I : Type} (nbClasses : Int) : CDS I :=
  { input := [], outdim := 1, target := [], cls := [], nClasses := nbClasses }

/-- the first column of the target field, `ravel(self['target'])` when `outdim = 1` -/
def CDS.targetCol {I : Type} (d : CDS I) : List Rat := d.target.map (fun r => r.headD 0)

/-- `len(set(l))` -/
def distinctCount (l : List Rat) : Nat := l.eraseDups.length

/-- `assignClasses`, classification.py:100-112. `astype(int)` truncates. -/
def CDS.assignClasses {I : Type} (d : CDS I) : CDS I × Option Err :=
  if d.cls.length < d.target.length ∧ d.outdim > 1 then (d, some .indexError)
  else
    let d1 := if d.cls.length < d.target.length then
        { d with cls := d.targetCol.map (fun v => ((pyInt v : Int) : Rat)) } else d
    if d1.nClasses ≤ 0 then ({ d1 with nClasses := distinctCount d1.cls }, none) else (d1, none)

/-- constructor with data, classification.py:12-34: `ClassificationDataSet(inputs, labels, nb_classes)`.
`calculateStatistics` runs first (it finds the class field empty, so it copies the targets), then `class`
is set to the targets. -/
def CDS.ofData {I : Type} (rows : List (I × Rat)) (nbClasses : Int) : CDS I :=
  let d : CDS I := CDS.mk (rows.map Prod.fst) 1 (rows.map (fun r => [r.2])) [] nbClasses
  let d1 := if rows.length > 0 then d.assignClasses.1 else d
  { d1 with target := d1.target.map (fun r => r.map (fun v => ((pyInt v : Int) : Rat))),
            cls := d1.targetCol.map (fun v => ((pyInt v : Int) : Rat)) }

/-- `addSample(inp, [label])` = appendLinked on input and target, supervised.py:75-76, for a target row of
the right width (else ValueError, after the input row has been stored, see `C01_negation_appendLinked`). -/
def CDS.addSample {I : Type} (d : CDS I) (x : I) (t : List Rat) : CDS I × Option Err :=
  if t.length = d.outdim then ({ d with input := d.input ++ [x], target := d.target ++ [t] }, none)
  else ({ d with input := d.input ++ [x] }, some .valueError)

/-- `calculateStatistics`, classification.py:114-122: the class histogram as a list over
`range(nClasses)`. -/
def CDS.calculateStatistics {I : Type} (d : CDS I) : CDS I × Except Err (List Nat) :=
  match d.assignClasses with
  | (d1, some e) => (d1, .error e)
  | (d1, none) => (d1, .ok ((List.range d1.nClasses.toNat).map (fun (c : Nat) => d1.cls.count (c : Rat))))

/-- A Python number given as a bound: an `int` or a `float`. -/
inductive Num where
  | int (n : Int)
  | float (q : Rat)
deriving DecidableEq, Repr

def Num.val : Num → Rat
  | .int n => n
  | .float q => q

/-- value stored by `arr[i, j] = v` in an integer (`lo` an int) or float array -/
def stored (lo v : Num) : Rat :=
  match lo with
  | .int _ => ((pyInt v.val : Int) : Rat)
  | .float _ => v.val

/-- One row of `newtarg`: `zeros(nClasses) + lo`, then `row[int(label)] = hi` (classification.py:139-141),
with Python's rule for negative indices. -/
def oneOfManyRow (n : Nat) (lo hi : Num) (label : Rat) : Option (List Rat) :=
  (normIdx n (pyInt label)).map (fun j => (List.replicate n lo.val).set j (stored lo hi))

/-- `_convertToOneOfMany`, classification.py:130-145. (`dtype='Int32'` is read as a 32-bit integer array;
overflow is not modelled.) -/
def CDS.toOneOfMany {I : Type} (d : CDS I) (lo hi : Num) : CDS I × Option Err :=
  if d.outdim ≠ 1 then (d, none)
  else
    let r := if d.nClasses ≤ 0 then d.assignClasses else (d, none)
    match r with
    | (d1, some e) => (d1, some e)
    | (d1, none) =>
      match d1.targetCol.mapM (oneOfManyRow d1.nClasses.toNat lo hi) with
      | none => (d1, some .indexError)
      | some newtarg => ({ d1 with outdim := d1.nClasses.toNat, target := newtarg, cls := d1.targetCol }, none)

/-- `_convertToClassNb`, classification.py:151-154. -/
def CDS.toClassNb {I : Type} (d : CDS I) : CDS I :=
  { d with outdim := 1, target := d.cls.map (fun v => [v]) }

/-- `where(self['class'] == c)` / `!= c`: positions. -/
def wherePos (l : List Rat) (p : Rat → Bool) : List Nat :=
  (l.zipIdx.filter (fun x => p x.1)).map Prod.snd

/-- the part of the dataset with the rows `idx` (classification.py:169-181). -/
def CDS.part {I : Type} (d : CDS I) (idx : List Nat) : Option (CDS I) :=
  match fancy d.input idx, fancy d.target idx, fancy d.cls idx with
  | some i, some t, some c => some { d with input := i, target := t, cls := c }
  | _, _, _ => none

/-- `splitByClass`, classification.py:162-184 (the fields importance and aux are not modelled). -/
def CDS.splitByClass {I : Type} (d : CDS I) (c : Rat) : Except Err (CDS I × CDS I) :=
  match d.part (wherePos d.cls (fun v => decide (v = c))), d.part (wherePos d.cls (fun v => !decide (v = c))) with
  | some l, some r =>
    match l.assignClasses, r.assignClasses with
    | (l1, none), (r1, none) => .ok (l1, r1)
    | _, _ => .error .indexError
  | _, _ => .error .indexError

/-- `__add__`, classification.py:80-98 (type and input width checks are not modelled). -/
def CDS.add {I : Type} (a b : CDS I) : Except Err (CDS I) :=
  if a.outdim ≠ 1 ∨ b.outdim ≠ 1 then .error .typeError
  else if a.nClasses ≠ b.nClasses then .error .indexError
  else
    let res := (b.input.zip b.target).foldl (fun d p => (d.addSample p.1 p.2).1) a
    match res.assignClasses with
    | (d, none) => .ok d
    | (_, some e) => .error e

/-- numpy `argmax`: the first position of the largest entry. -/
def argmax (l : List Rat) : Nat := l.idxOf (l.foldl max (l.headD 0))

/-- `oneOfManyToClasses`, validation.py:90-98. -/
def oneOfManyToClasses (rows : List (List Rat)) : List Nat := rows.map argmax

end Verif.Classification
