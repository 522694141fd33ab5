import Verif.Model.SequenceClass
/-!
Model of `SequenceClassificationDataSet` (datasets/classification.py:198-282) in the 1-of-k representation made by `_convertToOneOfMany` (classification.py:130-154), for at least two classes, on top of the model with class numbers
(`Verif.Model.SequenceClass`). The type of the array of targets is taken to be integer, and so are the bounds.
-/

namespace Verif.SeqClass
open Verif.Py Verif.DataSet

variable {I : Type}

/-- a dataset in 1-of-k representation, `width = outdim > 1` -/
structure KC (I : Type) where
  input : List I
  rows : List (List Int)
  cls : List Int
  starts : List Nat
  nClasses : Int
  width : Nat
  classLinked : Bool
  deriving DecidableEq, Repr

/-- one row of `newtarg`, classification.py:142-144 -/
def kRow (n : Nat) (lo hi : Int) (t : Int) : Except Err (List Int) :=
  match normIdx n t with
  | none => .error .indexError
  | some j => .ok ((List.replicate n lo).set j hi)

/-- `_convertToOneOfMany`, classification.py:136-146, for one column of targets; `calculateStatistics` assigns classes (line 116) -/
def SC.toOneOfMany (d : SC I) (lo hi : Int) : Except Err (KC I) :=
  let d1 := if d.nClasses ≤ 0 then d.assignClasses else d
  match d1.target.mapM (kRow d1.nClasses.toNat lo hi) with
  | .error e => .error e
  | .ok rows => .ok { input := d1.input, rows := rows, cls := d1.target, starts := d1.starts, nClasses := d1.nClasses, width := d1.nClasses.toNat, classLinked := d1.classLinked }

/-- `_convertToClassNb`, classification.py:151-154 -/
def KC.toClassNb (k : KC I) : SC I := { input := k.input, target := k.cls, cls := k.cls, starts := k.starts, nClasses := k.nClasses, classLinked := k.classLinked }

/-- `addSample`: a row of one element fills the whole row of the array (dataset.py:190-199), other lengths than the width are refused by numpy -/
def KC.addSample (k : KC I) (x : I) (row : List Int) : KC I × Option Err :=
  if k.classLinked then (k, some .assertion)
  else if row.length = k.width then ({ k with input := k.input ++ [x], rows := k.rows ++ [row] }, none)
  else
    match row with
    | [v] => ({ k with input := k.input ++ [x], rows := k.rows ++ [List.replicate k.width v] }, none)
    | _ => (k, some .valueError)

/-- `assignClasses`, classification.py:100-112, for several columns of targets; the number of classes is positive -/
def KC.assignClasses (k : KC I) : Option Err := if k.cls.length < k.rows.length then some .indexError else none

/-- `getSequenceClass(index)`, classification.py:263-275: does not look at the targets -/
def KC.getSequenceClass (k : KC I) (index : Int) : Except Err Int := k.toClassNb.getSequenceClass index

/-- `getSequenceClass()` -/
def KC.getSequenceClasses (k : KC I) : Except Err (List Int) := k.toClassNb.getSequenceClasses

def KC.clear (k : KC I) : KC I := { k with input := [], rows := [], cls := [], starts := [0] }

/-- `SequentialDataSet.removeSequence` with the three fields linked, sequential.py:110-157 -/
def KC.cutSequence (k : KC I) (index : Nat) : KC I × Option Err :=
  match k.starts[index]? with
  | none => (k, some .indexError)
  | some seqstart =>
    let lastSeqDeleted := index = k.starts.length - 1
    let seqend := if lastSeqDeleted then k.input.length else k.starts.getD (index + 1) 0
    let k1 : KC I := { k with
      input := k.input.take seqstart ++ k.input.drop seqend
      rows := k.rows.take seqstart ++ k.rows.drop seqend
      cls := k.cls.take seqstart ++ k.cls.drop seqend
      starts := (k.starts.map fun v => if v > seqstart then v - (seqend - seqstart) else v).eraseIdx index }
    if lastSeqDeleted ∧ k1.input.length = 0 then (k1.clear, none) else (k1, none)

/-- `removeSequence`, classification.py:277-282 -/
def KC.removeSequence (k : KC I) (index : Nat) : KC I × Option Err :=
  match k.assignClasses with
  | some e => (k, some e)
  | none =>
    if k.input.length ≠ k.rows.length ∨ k.input.length ≠ k.cls.length then (k, some .outOfSync)
    else
      match KC.cutSequence { k with classLinked := true } index with
      | (k2, some e) => (k2, some e)
      | (k2, none) => ({ k2 with classLinked := false }, none)

/-- The body of the loop over the classes in `stratifiedSplit`, classification.py:245-257, for sets with several columns of targets. The sequences are moved as in the other representation (every target is `c` in all columns, of which one is kept
here), but `assignClasses` refuses sets that have got samples. -/
def splitClassK (d : SC I) (testfrac evalfrac : Rat) (classes : List Int) (c : Nat) (perm : List Nat) (s : Parts I) : Except Err (Parts I) :=
  let idx := (classes.zipIdx.filter fun e => e.1 = (c : Int)).map Prod.snd
  let nCls : Rat := (idx.length : Rat)
  let nTst := pyInt (testfrac * nCls)
  let nVal := pyInt (evalfrac * nCls)
  match moveSeqs d idx c nTst.toNat perm s.tst with
  | .error e => .error e
  | .ok (perm1, tst) =>
    if tst.cls.length < tst.target.length then .error .indexError
    else
      match moveSeqs d idx c nVal.toNat perm1 s.val with
      | .error e => .error e
      | .ok (perm2, val) =>
        if val.cls.length < val.target.length then .error .indexError
        else
          match moveSeqs d idx c ((idx.length : Int) - nTst - nVal).toNat perm2 s.trn with
          | .error e => .error e
          | .ok (perm3, trn) =>
            if trn.cls.length < trn.target.length then .error .indexError
            else if perm3 = [] then .ok ⟨trn, tst, val⟩ else .error .assertion

/-- `for c in range(self.nClasses)` -/
def splitLoopK (d : SC I) (testfrac evalfrac : Rat) (classes : List Int) (perms : Nat → List Nat) : List Nat → Parts I → Except Err (Parts I)
  | [], s => .ok s
  | c :: cs, s =>
    match splitClassK d testfrac evalfrac classes c (perms c) s with
    | .error e => .error e
    | .ok s1 => splitLoopK d testfrac evalfrac classes perms cs s1

/-- `stratifiedSplit` in 1-of-k representation, classification.py:225-261 -/
def KC.stratifiedSplit (k : KC I) (testfrac evalfrac : Rat) (perms : Nat → List Nat) : Except Err (Parts I) :=
  match ((k.starts.drop 1).map fun (s : Nat) => (s : Int) - 1).mapM (pyGet k.cls) with
  | .error e => .error e
  | .ok classes => splitLoopK k.toClassNb testfrac evalfrac classes perms (List.range k.nClasses.toNat) ⟨k.toClassNb.clear, k.toClassNb.clear, k.toClassNb.clear⟩

end Verif.SeqClass
