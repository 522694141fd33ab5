import Verif.Model.SequenceClass
/-!
Specification of sequence classification datasets: a dataset is a list of sequences of samples, the last of which is still open and may be empty.
-/

namespace Verif.SeqClass.Spec
open Verif.SeqClass

variable {I : Type}

/-- sequences of samples, each an input and a target -/
abbrev Seqs (I : Type) := List (List (I × Int))

/-- the class of a sequence is the target of its last sample -/
def lastClass (e : List (I × Int)) : Int := (e.getLast?.map Prod.snd).getD 0

/-- adding a sample to the open sequence -/
def addLast (E : Seqs I) (x : I × Int) : Seqs I := E.dropLast ++ [E.getLastD [] ++ [x]]

/-- closing the open sequence, unless it is empty -/
def close (E : Seqs I) : Seqs I := if E.getLastD [] = [] then E else E ++ [[]]

/-- removing a sequence; there is always an open one -/
def remove (E : Seqs I) (i : Nat) : Seqs I := if E.eraseIdx i = [] then [[]] else E.eraseIdx i

/-- the sequences, and whether adding samples fails because the last call of `removeSequence` did -/
structure Abs (I : Type) where
  seqs : Seqs I
  broken : Bool

/-- what a call does -/
def Abs.step (a : Abs I) : Op I → Abs I
  | .addSample x t => if a.broken then a else { a with seqs := addLast a.seqs (x, t) }
  | .newSequence => { a with seqs := close a.seqs }
  | .assignClasses => a
  | .removeSequence i => if i < a.seqs.length then ⟨remove a.seqs i, false⟩ else ⟨a.seqs, true⟩
  | .clear => { a with seqs := [[]] }

/-- what a history of calls does -/
def Abs.run (a : Abs I) : List (Op I) → Abs I
  | [] => a
  | op :: ops => Abs.run (a.step op) ops

/-- the numbers of the closed sequences of class `c` -/
def closedOf (E : Seqs I) (c : Int) : List Nat := (List.range (E.length - 1)).filter fun i => lastClass (E.getD i []) = c

/-- the inputs of sequence `i`, all with target `c` -/
def relabel (E : Seqs I) (c : Int) (i : Nat) : List (I × Int) := (E.getD i []).map fun s => (s.1, c)

/-- What a user reads from the dataset: `getSequence`, `getNumSequences` and the fields are those of the sequences `E`. -/
structure Reads (d : SC I) (E : Seqs I) : Prop where
  number : d.starts.length = E.length
  inputs : ∀ i < E.length, d.sequenceField d.input i = .ok ((E.getD i []).map Prod.fst)
  targets : ∀ i < E.length, d.sequenceField d.target i = .ok ((E.getD i []).map Prod.snd)
  input : d.input = E.flatten.map Prod.fst
  target : d.target = E.flatten.map Prod.snd

end Verif.SeqClass.Spec
