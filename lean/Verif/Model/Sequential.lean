import Verif.Model.DataSet
/-
Model of pybrain/datasets/sequential.py (class SequentialDataSet; also the linked-field layout of
ReinforcementDataSet, reinforcement.py:9-32, and ImportanceDataSet, importance.py:18-21).

The field `sequence_index` is kept apart from the other fields, as a one-column field of integers
(the code stores them as floats and, in lines 49, 125-130 and 157, uses them as slice bounds, which
numpy >= 1.12 rejects with TypeError; the model uses the evident integer meaning).
-/
namespace Verif.Sequential
open Verif.Py Verif.DataSet

/-- State: the other fields, the `sequence_index` field and `currentSeq`. -/
structure SDS (K : Type) where
  ds : DS K
  seq : Field Int
  currentSeq : Int
deriving DecidableEq, Repr

/-- Rows of the field `sequence_index` flattened: `ravel(self.getField('sequence_index'))`. -/
def SDS.seqs {K : Type} (d : SDS K) : List Int := d.seq.rows.flatten

/-- Storing a value at the end of `sequence_index` (`_appendUnlinked('sequence_index', v)`,
dataset.py:190-199, for this non-empty label: the buffer is enlarged when full). -/
def pushSeq (f : Field Int) (v : Int) : Field Int :=
  let g := if f.buf.length ≤ f.fin then f.grow else f
  { g with buf := g.buf.set g.fin [v], fin := g.fin + 1 }

/-- Constructor, sequential.py:21-26 (and reinforcement.py:9-32): adds the given fields, links them all,
and starts `sequence_index` with `[0]`. -/
def SDS.init {K : Type} (fields : List (String × Nat)) : SDS K :=
  { ds := { fields := fields.map (fun p => (p.1, { dim := p.2, buf := [], fin := 0 })),
            link := fields.map Prod.fst, index := 0 },
    seq := pushSeq { dim := 1, buf := [], fin := 0 } 0,
    currentSeq := 0 }

/-- `newSequence`, sequential.py:28-37. `ravel(...)[-1]` on an empty index raises IndexError. -/
def SDS.newSequence {K : Type} (d : SDS K) : SDS K × Option Err :=
  match d.ds.getLength with
  | none => (d, some .keyError)
  | some n =>
    if n ≠ 0 then
      match getIdx d.seqs (-1) with
      | none => (d, some .indexError)
      | some last =>
        if last = (n : Int) then (d, some .emptySequence)
        else ({ d with seq := pushSeq d.seq n }, none)
    else (d, none)

/-- `_getSequenceField`, sequential.py:39-49. -/
def SDS.getSequenceField {K : Type} (d : SDS K) (index : Int) (label : String) :
    Except Err (List (List K)) :=
  match d.ds.getField label with
  | none => .error .keyError
  | some rows =>
    if (d.seqs.length : Int) = index + 1 then
      match getIdx d.seqs index with
      | none => .error .indexError
      | some s => .ok (sliceFrom rows s)
    else if (d.seqs.length : Int) < index + 1 then .error .indexError
    else
      match getIdx d.seqs index, getIdx d.seqs (index + 1) with
      | some s, some e => .ok (slice rows s e)
      | _, _ => .error .indexError

/-- `getSequence`, sequential.py:51-56. -/
def SDS.getSequence {K : Type} (d : SDS K) (index : Int) : Except Err (List (List (List K))) :=
  go d.ds.link
where
  go : List String → Except Err (List (List (List K)))
    | [] => .ok []
    | l :: rest =>
      match d.getSequenceField index l with
      | .error e => .error e
      | .ok t =>
        match go rest with
        | .error e => .error e
        | .ok ts => .ok (t :: ts)

/-- `getNumSequences`, sequential.py:92-95. -/
def SDS.getNumSequences {K : Type} (d : SDS K) : Nat := d.seq.rows.length

/-- `getSequenceLength`, sequential.py:97-108. -/
def SDS.getSequenceLength {K : Type} (d : SDS K) (index : Int) : Except Err Int :=
  if (d.seqs.length : Int) = index + 1 then
    match d.ds.getLength, getIdx d.seqs index with
    | some n, some s => .ok ((n : Int) - s)
    | _, _ => .error .indexError
  else if (d.seqs.length : Int) < index + 1 then .error .indexError
  else
    match getIdx d.seqs index, getIdx d.seqs (index + 1) with
    | some s, some e => .ok (e - s)
    | _, _ => .error .indexError

/-- `getCurrentSequence`, sequential.py:87-90. -/
def SDS.getCurrentSequence {K : Type} (d : SDS K) : Int :=
  (d.seqs.length : Int) - ((d.seqs.filter (fun v => decide (v > d.ds.index))).length : Int) - 1

/-- `gotoSequence`, sequential.py:80-85. -/
def SDS.gotoSequence {K : Type} (d : SDS K) (index : Int) : SDS K × Option Err :=
  match getIdx d.seqs index with
  | none => (d, some .indexError)
  | some s => ({ d with ds := { d.ds with index := s } }, none)

/-- `endOfSequence`, sequential.py:65-78. -/
def SDS.endOfSequence {K : Type} (d : SDS K) (index : Int) : Except Err Bool :=
  if (d.seqs.length : Int) = index + 1 then
    match d.ds.endOfData with
    | none => .error .keyError
    | some b => .ok b
  else if (d.seqs.length : Int) < index + 1 then .error .indexError
  else
    match getIdx d.seqs (index + 1) with
    | none => .error .indexError
    | some s => .ok (decide (d.ds.index ≥ s))

/-- `clear`, sequential.py:160-163. -/
def SDS.clear {K : Type} (d : SDS K) : SDS K :=
  { ds := d.ds.clear true,
    seq := pushSeq { d.seq with buf := [], fin := 0 } 0,
    currentSeq := 0 }

/-- Cutting rows `s..e` out of one field, sequential.py:130-132 (the padding is kept). -/
def cutField {K : Type} (f : Field K) (s e : Int) : Field K :=
  { f with buf := sliceTo f.buf s ++ sliceFrom f.buf e, fin := ((f.fin : Int) - (e - s)).toNat }

/-- the loop over `self.link`, sequential.py:128-132 -/
def cutAll {K : Type} (d : DS K) (s e : Int) : List String → DS K × Option Err
  | [] => (d, none)
  | l :: rest =>
    match d.get l with
    | none => (d, some .keyError)
    | some f => cutAll (d.put l (cutField f s e)) s e rest

/-- `removeSequence`, sequential.py:110-157. -/
def SDS.removeSequence {K : Type} (d : SDS K) (index : Int) : SDS K × Option Err :=
  if index ≥ (d.getNumSequences : Int) then (d, some .indexError)
  else
    let sequences := d.seqs
    match getIdx sequences index with
    | none => (d, some .indexError)
    | some seqstart =>
      let lastSeqDeleted := decide (index = (d.getNumSequences : Int) - 1)
      let seqend? : Option Int :=
        if lastSeqDeleted then d.ds.getLength.map (fun (n : Nat) => (n : Int)) else getIdx sequences (index + 1)
      match seqend? with
      | none => (d, some .indexError)
      | some seqend =>
        match cutAll d.ds seqstart seqend d.ds.link with
        | (ds1, some err) => ({ d with ds := ds1 }, some err)
        | (ds1, none) =>
          -- update sequence indices (lines 135-137)
          let shifted := (List.range d.seq.buf.length).map (fun i =>
            match sequences[i]? with
            | some val =>
              if val > seqstart then ((d.seq.buf[i]?).getD []).map (fun x => x - (seqend - seqstart))
              else (d.seq.buf[i]?).getD []
            | none => (d.seq.buf[i]?).getD [])
          -- remove sequence index of deleted sequence (lines 140-141)
          let seq1 : Field Int :=
            { d.seq with buf := sliceTo shifted index ++ sliceFrom shifted (index + 1), fin := d.seq.fin - 1 }
          let d1 : SDS K := { ds := ds1, seq := seq1, currentSeq := d.currentSeq }
          if lastSeqDeleted then
            match ds1.getLength with
            | none => (d1, some .keyError)
            | some n =>
              let d2 : SDS K := { d1 with currentSeq := index - 1, ds := { ds1 with index := n } }
              if n = 0 then (d2.clear, none) else (d2, none)
          else
            match getIdx d1.seqs index with
            | none => ({ d1 with currentSeq := index }, some .indexError)
            | some v => ({ d1 with currentSeq := index, ds := { ds1 with index := v } }, none)

/-- Public operations on the sequence structure. `add` is `addSample`/`appendLinked`. -/
inductive Op (K : Type) where
  | add (sample : List (List K))
  | newSequence
  | removeSequence (i : Nat)
  | clear
  | getLinked (i : Option Int)
  | gotoSequence (i : Int)
deriving Repr

def step {K : Type} [Zero K] (d : SDS K) : Op K → SDS K × Option Err
  | .add s => match d.ds.appendLinked s with
    | (ds1, e) => ({ d with ds := ds1 }, e)
  | .newSequence => d.newSequence
  | .removeSequence i => d.removeSequence i
  | .clear => (d.clear, none)
  | .getLinked i => match d.ds.getLinked i with
    | (ds1, .ok _) => ({ d with ds := ds1 }, none)
    | (ds1, .error e) => ({ d with ds := ds1 }, some e)
  | .gotoSequence i => d.gotoSequence i

def run {K : Type} [Zero K] (d : SDS K) : List (Op K) → SDS K
  | [] => d
  | op :: ops => run (step d op).1 ops

end Verif.Sequential

namespace Verif.Sequential
open Verif.Py Verif.DataSet

/-- Python's `zip(*cols)`: tuples up to the length of the shortest list. -/
def zipStar {α : Type} (cols : List (List α)) : List (List α) :=
  match cols with
  | [] => []
  | c :: cs =>
    (List.range ((cs.map List.length).foldl min c.length)).map (fun j => cols.filterMap (fun col => col[j]?))

/-- `getSequenceIterator`, sequential.py:58-63: the samples of one sequence. -/
def SDS.getSamples {K : Type} (d : SDS K) (i : Int) : Except Err (List (List (List K))) :=
  match d.getSequence i with
  | .error e => .error e
  | .ok cols => .ok (zipStar cols)

/-- `newSequence()` followed by `addSample` for each sample (sequential.py:204-206, 208-210);
stops at the first exception. -/
def SDS.addSequence {K : Type} [Zero K] (d : SDS K) (samples : List (List (List K))) : SDS K × Option Err :=
  match d.newSequence with
  | (d1, some e) => (d1, some e)
  | (d1, none) => addSamples d1 samples
where
  addSamples (d : SDS K) : List (List (List K)) → SDS K × Option Err
    | [] => (d, none)
    | s :: rest =>
      match step d (.add s) with
      | (d1, some e) => (d1, some e)
      | (d1, none) => addSamples d1 rest

/-- the loop of `splitWithProportion`, sequential.py:202-211 -/
def splitLoop {K : Type} [Zero K] (src : SDS K) (leftIdx : List Nat) (left right : SDS K) :
    List Nat → Except Err (SDS K × SDS K)
  | [] => .ok (left, right)
  | i :: rest =>
    match src.getSamples i with
    | .error e => .error e
    | .ok samples =>
      if i ∈ leftIdx then
        match left.addSequence samples with
        | (_, some e) => .error e
        | (l1, none) => splitLoop src leftIdx l1 right rest
      else
        match right.addSequence samples with
        | (_, some e) => .error e
        | (r1, none) => splitLoop src leftIdx left r1 rest

/-- `splitWithProportion`, sequential.py:191-212. `leftIdx` is the outcome of
`random.sample(range(l), int(l * proportion))`. Deep copies are the identity in the model. -/
def SDS.split {K : Type} [Zero K] (d : SDS K) (leftIdx : List Nat) : Except Err (SDS K × SDS K) :=
  splitLoop d leftIdx d.clear d.clear (List.range d.getNumSequences)

end Verif.Sequential
