import Verif.Model.Sequential
/-
Specification of a sequential dataset: a list of sequences, each a list of samples, each sample one row
per linked field. The last sequence is the open one. There is always at least one sequence.
-/
namespace Verif.Sequential.Spec
open Verif.DataSet Verif.Sequential

abbrev Sample (K : Type) := List (List K)
abbrev Seqs (K : Type) := List (List (Sample K))

/-- A fresh dataset has one open empty sequence. -/
def init {K : Type} : Seqs K := [[]]

/-- A sample is accepted when it has one row of the right width for each field. -/
def okSample {K : Type} (dims : List Nat) (s : Sample K) : Bool := s.map List.length = dims

/-- Append a sample to the last sequence. -/
def addLast {K : Type} (S : Seqs K) (s : Sample K) : Seqs K :=
  S.dropLast ++ [S.getLastD [] ++ [s]]

def step {K : Type} (S : Seqs K) : Op K → Seqs K × Option Err
  | .add s => (addLast S s, none)
  | .newSequence =>
    if S.flatten = [] then (S, none)
    else if S.getLastD [] = [] then (S, some .emptySequence)
    else (S ++ [[]], none)
  | .removeSequence i =>
    if i < S.length then
      (if S.eraseIdx i = [] then [[]] else S.eraseIdx i, none)
    else (S, some .indexError)
  | .clear => ([[]], none)
  | .getLinked _ => (S, none)
  | .gotoSequence _ => (S, none)

def run {K : Type} (S : Seqs K) : List (Op K) → Seqs K
  | [] => S
  | op :: ops => run (step S op).1 ops

/-- Column `k` of a sequence. -/
def column {K : Type} (k : Nat) (seq : List (Sample K)) : List (List K) := seq.map (fun s => (s[k]?).getD [])

end Verif.Sequential.Spec

namespace Verif.Sequential.Spec
open Verif.DataSet Verif.Sequential

/-- What the user of a sequential dataset observes when it holds the sequences `S`: their number, for each
valid index the columns of that sequence (one per linked field) and its length, and an IndexError beyond
the last. -/
def Shows {K : Type} (d : SDS K) (S : Seqs K) : Prop :=
  d.getNumSequences = S.length ∧
  (∀ (i : Nat) (h : i < S.length),
     d.getSequence i = .ok ((List.range d.ds.link.length).map (fun k => column k S[i])) ∧
     d.getSequenceLength i = .ok (S[i].length : Int)) ∧
  (∀ i : Nat, S.length ≤ i → d.getSequence i = .error .indexError ∧ d.getSequenceLength i = .error .indexError) ∧
  (∀ (k : Nat) l, d.ds.link[k]? = some l → d.ds.getField l = some (column k S.flatten)) ∧
  d.ds.getLength = some S.flatten.length

/-- The sub-list of the sequences whose number satisfies `p`, in order. -/
def select {α : Type} (p : Nat → Bool) (S : List α) : List α :=
  ((S.zipIdx).filter (fun x => p x.2)).map Prod.fst

end Verif.Sequential.Spec
