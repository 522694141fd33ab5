import Verif.Model.DataSet
/-!
Model of `SequenceClassificationDataSet`, datasets/classification.py:198-282, with the methods it inherits from `SequentialDataSet`
(sequential.py) and `ClassificationDataSet` (classification.py:100-112).

Simplifications. The fields are tables of rows (see C02), input rows are abstract, targets and classes are integers in one column (`outdim = 1`);
`sequence_index` is a list of natural numbers; the marker is left out. Negative arguments of `removeSequence` are left out (see C06). Drawing a
permutation is an argument. `save_netcdf` and `calculateStatistics` are not modelled; the 1-of-k representation is in `Verif.Model.SeqOneOfK`.
-/

namespace Verif.SeqClass
open Verif.Py Verif.DataSet

variable {I : Type}

structure SC (I : Type) where
  input : List I
  target : List Int
  cls : List Int
  /-- `sequence_index` -/
  starts : List Nat
  nClasses : Int
  /-- Is `class` in `self.link`, beside `input` and `target`? -/
  classLinked : Bool
  deriving DecidableEq, Repr

/-- classification.py:202-219 for a number `inp` and one target column -/
def SC.init (nbClasses : Int) : SC I := { input := [], target := [], cls := [], starts := [0], nClasses := nbClasses, classLinked := false }

/-- `addSample`, supervised.py:75-76 and dataset.py:212-216: two arguments for the linked fields -/
def SC.addSample (d : SC I) (x : I) (t : Int) : SC I × Option Err :=
  if d.classLinked then (d, some .assertion) else ({ d with input := d.input ++ [x], target := d.target ++ [t] }, none)

/-- `newSequence`, sequential.py:28-37; the length is that of the first linked field, `input` -/
def SC.newSequence (d : SC I) : SC I × Option Err :=
  if d.input.length ≠ 0 then
    match d.starts.getLast? with
    | none => (d, some .indexError)
    | some last => if last = d.input.length then (d, some .emptySequence) else ({ d with starts := d.starts ++ [d.input.length] }, none)
  else (d, none)

/-- `assignClasses`, classification.py:100-112; the targets are integers already -/
def SC.assignClasses (d : SC I) : SC I :=
  let d1 := if d.cls.length < d.target.length then { d with cls := d.target } else d
  if d1.nClasses ≤ 0 then { d1 with nClasses := d1.cls.eraseDups.length } else d1

/-- `clear`, sequential.py:160-163 and dataset.py:276-293 -/
def SC.clear (d : SC I) : SC I := { d with input := [], target := [], cls := [], starts := [0] }

/-- the rows of one field in the sequence `index`, sequential.py:39-49 -/
def SC.sequenceField {α : Type} (d : SC I) (field : List α) (index : Nat) : Except Err (List α) :=
  match d.starts[index]? with
  | none => .error .indexError
  | some s =>
    if d.starts.length = index + 1 then .ok (field.drop s)
    else
      match d.starts[index + 1]? with
      | none => .error .indexError
      | some e => .ok ((field.take e).drop s)

/-- Python indexing of an array -/
def pyGet {α : Type} (l : List α) (i : Int) : Except Err α :=
  match getIdx l i with
  | none => .error .indexError
  | some a => .ok a

/-- `getSequenceClass(index)`, classification.py:271-275 -/
def SC.getSequenceClass (d : SC I) (index : Int) : Except Err Int :=
  let lastSeq : Int := (d.starts.length : Int) - 1
  if index < lastSeq then
    match pyGet d.starts (index + 1) with
    | .error e => .error e
    | .ok s => pyGet d.cls ((s : Int) - 1)
  else if index = lastSeq then pyGet d.cls ((d.input.length : Int) - 1)
  else .error .indexError

/-- `getSequenceClass()`, classification.py:267-269 -/
def SC.getSequenceClasses (d : SC I) : Except Err (List Int) :=
  ((d.starts.drop 1).map (fun (s : Nat) => (s : Int) - 1) ++ [(d.input.length : Int) - 1]).mapM (pyGet d.cls)

/-- `SequentialDataSet.removeSequence` with the three fields linked, sequential.py:110-157 -/
def SC.cutSequence (d : SC I) (index : Nat) : SC I × Option Err :=
  match d.starts[index]? with
  | none => (d, some .indexError)
  | some seqstart =>
    let lastSeqDeleted := index = d.starts.length - 1
    let seqend := if lastSeqDeleted then d.input.length else d.starts.getD (index + 1) 0
    let d1 : SC I := { d with
      input := d.input.take seqstart ++ d.input.drop seqend
      target := d.target.take seqstart ++ d.target.drop seqend
      cls := d.cls.take seqstart ++ d.cls.drop seqend
      starts := (d.starts.map fun v => if v > seqstart then v - (seqend - seqstart) else v).eraseIdx index }
    if lastSeqDeleted ∧ d1.input.length = 0 then (d1.clear, none) else (d1, none)

/-- `removeSequence`, classification.py:277-282; `linkFields` checks the lengths (dataset.py:121-128) -/
def SC.removeSequence (d : SC I) (index : Nat) : SC I × Option Err :=
  let d1 := d.assignClasses
  if d1.input.length ≠ d1.target.length ∨ d1.input.length ≠ d1.cls.length then (d1, some .outOfSync)
  else
    match SC.cutSequence { d1 with classLinked := true } index with
    | (d2, some e) => (d2, some e)
    | (d2, none) => ({ d2 with classLinked := false }, none)

/-- `for s in feat: ds.addSample(s, [c])`, classification.py:254-255 -/
def addAll (c : Int) : List I → SC I → Except Err (SC I)
  | [], ds => .ok ds
  | x :: xs, ds =>
    match ds.addSample x c with
    | (_, some e) => .error e
    | (ds1, none) => addAll c xs ds1

/-- `for _ in range(count)`, classification.py:251-255: takes sequences of class `c` (their numbers are in `idx`) from the end of `perm` -/
def moveSeqs (d : SC I) (idx : List Nat) (c : Int) : Nat → List Nat → SC I → Except Err (List Nat × SC I)
  | 0, perm, ds => .ok (perm, ds)
  | count + 1, perm, ds =>
    match perm.getLast? with
    | none => .error .indexError
    | some p =>
      match idx[p]? with
      | none => .error .indexError
      | some q =>
        match d.sequenceField d.input q with
        | .error e => .error e
        | .ok feat =>
          match ds.newSequence with
          | (_, some e) => .error e
          | (ds1, none) =>
            match addAll c feat ds1 with
            | .error e => .error e
            | .ok ds2 => moveSeqs d idx c count perm.dropLast ds2

/-- the training, test and validation sets -/
structure Parts (I : Type) where
  trn : SC I
  tst : SC I
  val : SC I

/-- the body of the loop over the classes, classification.py:245-257; `classes` are the classes of the closed sequences and `perm` is what
`permutation(nCls)` returns -/
def splitClass (d : SC I) (testfrac evalfrac : Rat) (classes : List Int) (c : Nat) (perm : List Nat) (s : Parts I) : Except Err (Parts I) :=
  let idx := (classes.zipIdx.filter fun e => e.1 = (c : Int)).map Prod.snd
  let nCls : Rat := (idx.length : Rat)
  let nTst := pyInt (testfrac * nCls)
  let nVal := pyInt (evalfrac * nCls)
  match moveSeqs d idx c nTst.toNat perm s.tst with
  | .error e => .error e
  | .ok (perm1, tst) =>
    match moveSeqs d idx c nVal.toNat perm1 s.val with
    | .error e => .error e
    | .ok (perm2, val) =>
      match moveSeqs d idx c ((idx.length : Int) - nTst - nVal).toNat perm2 s.trn with
      | .error e => .error e
      | .ok (perm3, trn) => if perm3 = [] then .ok ⟨trn.assignClasses, tst.assignClasses, val.assignClasses⟩ else .error .assertion

/-- `for c in range(self.nClasses)` from class `c` on, `count` classes -/
def splitLoop (d : SC I) (testfrac evalfrac : Rat) (classes : List Int) (perms : Nat → List Nat) : List Nat → Parts I → Except Err (Parts I)
  | [], s => .ok s
  | c :: cs, s =>
    match splitClass d testfrac evalfrac classes c (perms c) s with
    | .error e => .error e
    | .ok s1 => splitLoop d testfrac evalfrac classes perms cs s1

/-- `stratifiedSplit`, classification.py:225-261: training set, test set and, if it is not empty, validation set -/
def stratifiedSplit (d : SC I) (testfrac evalfrac : Rat) (perms : Nat → List Nat) : Except Err (SC I × SC I × Option (SC I)) :=
  match ((d.starts.drop 1).map fun (s : Nat) => (s : Int) - 1).mapM (pyGet d.cls) with
  | .error e => .error e
  | .ok classes =>
    match splitLoop d testfrac evalfrac classes perms (List.range d.nClasses.toNat) ⟨d.clear, d.clear, d.clear⟩ with
    | .error e => .error e
    | .ok s => .ok (s.trn, s.tst, if s.val.input.length > 0 then some s.val else none)

/-- a call that changes a dataset -/
inductive Op (I : Type)
  | addSample (x : I) (t : Int)
  | newSequence
  | assignClasses
  | removeSequence (index : Nat)
  | clear

/-- one call -/
def SC.step (d : SC I) : Op I → SC I × Option Err
  | .addSample x t => d.addSample x t
  | .newSequence => d.newSequence
  | .assignClasses => (d.assignClasses, none)
  | .removeSequence i => d.removeSequence i
  | .clear => (d.clear, none)

/-- a history of calls, where errors are caught -/
def SC.run (d : SC I) : List (Op I) → SC I
  | [] => d
  | op :: ops => SC.run (d.step op).1 ops

end Verif.SeqClass
