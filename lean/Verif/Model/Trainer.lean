import Verif.Model.GradientDescent
import Verif.Model.Recurrent
import Mathlib.Algebra.BigOperators.Group.Finset.Basic
/-
Model of pybrain/supervised/trainers/backprop.py (BackpropTrainer.train, _calcDerivs, testOnData) and of
pybrain/supervised/trainers/rprop.py (RPropMinusTrainer.train), with the error computation of
pybrain/datasets/supervised.py and importance.py (_evaluateSequence).

The trainers only use the module interface, which is a record here (`Learner`); `rnetLearner` is the instance for recurrent networks
(feed-forward ones are those without recurrent connections, and datasets without sequences consist of sequences of one sample).
Shuffling is represented by the order of the list of sequences. Verbose output is not modelled.
-/
namespace Verif.Train
open Verif.Net (Vec RNet RState)
open Finset

/-- What a trainer uses of a module. `none` is an exception. -/
structure Learner (S K : Type) (n : Nat) where
  params : S → Fin n → K
  setParams : S → (Fin n → K) → S
  derivs : S → Fin n → K
  resetDerivatives : S → S
  reset : S → S
  activate : S → Vec K → Option S
  /-- `outputbuffer[offset]` -/
  output : S → Nat → Vec K
  backActivate : S → Vec K → Option S

/-- A sample of a dataset, with or without importances. -/
structure Sample (K : Type) where
  input : Vec K
  target : Vec K
  importance : Option (Vec K)

variable {S K : Type} [Field K] {n : Nat}

/-- backprop.py:84-85 -/
def activateAll (M : Learner S K n) : List (Vec K) → S → Option S
  | [], s => some s
  | x :: xs, s => (M.activate s x).bind (activateAll M xs)

/-- the error and the weight of one sample, backprop.py:91-96, 98-100; also importance.py:41-43 and supervised.py:91-93 -/
def sampleError (outdim : Nat) (x : Sample K) (outerr : Vec K) : K :=
  match x.importance with
  | some imp => 1 / 2 * ∑ j ∈ range outdim, imp j * outerr j ^ 2
  | none => 1 / 2 * ∑ j ∈ range outdim, outerr j ^ 2
def sampleWeight (outdim : Nat) (x : Sample K) : K :=
  match x.importance with
  | some imp => ∑ j ∈ range outdim, imp j
  | none => outdim

/-- the error passed to `backActivate`, backprop.py:97, 105 -/
def sampleSignal (x : Sample K) (outerr : Vec K) : Vec K :=
  match x.importance with
  | some imp => fun j => outerr j * imp j
  | none => outerr

/-- backprop.py:88-105; the list holds the enumerated samples, last first -/
def backLoop (M : Learner S K n) (outdim : Nat) : List (Nat × Sample K) → S × K × K → Option (S × K × K)
  | [], acc => some acc
  | (offset, x) :: rest, (s, error, ponderation) =>
    let outerr : Vec K := fun j => x.target j - M.output s offset j
    match M.backActivate s (sampleSignal x outerr) with
    | none => none
    | some s' => backLoop M outdim rest (s', error + sampleError outdim x outerr, ponderation + sampleWeight outdim x)

/-- `list(enumerate(seq))` -/
def enumerate {α : Type} (seq : List α) : List (Nat × α) := (List.range seq.length).zip seq

/-- `_calcDerivs`, backprop.py:80-107 -/
def calcDerivs (M : Learner S K n) (outdim : Nat) (seq : List (Sample K)) (s : S) : Option (S × K × K) :=
  match activateAll M (seq.map Sample.input) (M.reset s) with
  | none => none
  | some s1 => backLoop M outdim (enumerate seq).reverse (s1, 0, 0)

structure Options (K : Type) where
  batchlearning : Bool
  weightdecay : K
  descent : Descent.Settings K

/-- the loop of `train`, backprop.py:60-69 -/
def trainLoop (M : Learner S K n) (outdim : Nat) (c : Options K) :
    List (List (Sample K)) → S × Descent.Momentum K n × K × K → Option (S × Descent.Momentum K n × K × K)
  | [], acc => some acc
  | seq :: rest, (s, d, errors, ponderation) =>
    match calcDerivs M outdim seq s with
    | none => none
    | some (s1, e, p) =>
      if c.batchlearning then trainLoop M outdim c rest (s1, d, errors + e, ponderation + p)
      else
        let gradient := fun i => M.derivs s1 i - c.weightdecay * M.params s1 i
        let d1 := d.call c.descent gradient
        trainLoop M outdim c rest (M.resetDerivatives (M.setParams s1 d1.values), d1, errors + e, ponderation + p)

/-- `train`, backprop.py:50-77, on the (shuffled) sequences; `none` also for the assertion that the
dataset holds a sample. (A zero `ponderation`, possible only with importances that cancel, gives NaN in numpy and 0 here.) -/
def train (M : Learner S K n) (outdim : Nat) (c : Options K) (seqs : List (List (Sample K))) (s : S) (d : Descent.Momentum K n) :
    Option (S × Descent.Momentum K n × K) :=
  if (seqs.map List.length).sum = 0 then none
  else
    match trainLoop M outdim c seqs (M.resetDerivatives s, d, 0, 0) with
    | none => none
    | some (s1, d1, errors, ponderation) =>
      if c.batchlearning then
        let d2 := d1.call c.descent (M.derivs s1)
        some (M.setParams s1 d2.values, d2, errors / ponderation)
      else some (s1, d1, errors / ponderation)

/-- the loop of `RPropMinusTrainer.train`, rprop.py:43-46 -/
def rpropLoop (M : Learner S K n) (outdim : Nat) : List (List (Sample K)) → S × K × K → Option (S × K × K)
  | [], acc => some acc
  | seq :: rest, (s, errors, ponderation) =>
    match calcDerivs M outdim seq s with
    | none => none
    | some (s1, e, p) => rpropLoop M outdim rest (s1, errors + e, ponderation + p)

/-- `RPropMinusTrainer.train`, rprop.py:38-55 -/
def rpropTrain [LinearOrder K] (M : Learner S K n) (outdim : Nat) (c : Options K) (seqs : List (List (Sample K))) (s : S) (d : Descent.Rprop K n) :
    Option (S × Descent.Rprop K n × K) :=
  match rpropLoop M outdim seqs (M.resetDerivatives s, 0, 0) with
  | none => none
  | some (s1, errors, ponderation) =>
    let d1 := d.call c.descent (fun i => M.derivs s1 i - c.weightdecay * M.params s1 i)
    some (M.setParams s1 d1.values, d1, errors / ponderation)

/-- `_evaluateSequence` with `module.activate`, supervised.py:84-98, importance.py:35-49. The value of `activate` is the row of the output buffer just
written. -/
def evaluateSequence (M : Learner S K n) (outdim : Nat) : Nat → List (Sample K) → S × K × K → Option (S × K × K)
  | _, [], acc => some acc
  | t, x :: xs, (s, e, p) =>
    match M.activate s x.input with
    | none => none
    | some s1 => evaluateSequence M outdim (t + 1) xs (s1, e + sampleError outdim x (fun j => x.target j - M.output s1 t j), p + sampleWeight outdim x)

/-- the loop of `testOnData`, backprop.py:148-153, with the sums of lines 156-157; an empty sequence makes `e / i` a division of
Python floats by zero -/
def testLoop (M : Learner S K n) (outdim : Nat) : List (List (Sample K)) → S × K × K → Option (S × K × K)
  | [], acc => some acc
  | seq :: rest, (s, e, p) =>
    match evaluateSequence M outdim 0 seq (M.reset s, 0, 0) with
    | none => none
    | some (s1, e1, p1) => if seq.isEmpty then none else testLoop M outdim rest (s1, e + e1, p + p1)

/-- `testOnData`, backprop.py:135-162 -/
def testOnData [LinearOrder K] (M : Learner S K n) (outdim : Nat) (seqs : List (List (Sample K))) (s : S) : Option (S × K) :=
  match testLoop M outdim seqs (s, 0, 0) with
  | none => none
  | some (s1, e, p) => if 0 < p then some (s1, e / p) else none

section
variable {V P : Type} [DecidableEq V] [DecidableEq P]

/-- The flat parameter vector of a network: which entry belongs to parameter `k` of container `p` (see C11). -/
structure Layout (P : Type) (n : Nat) where
  index : P → Nat → Option (Fin n)
  place : Fin n → P × Nat

/-- the parameters of the containers as read through the flat vector -/
def Layout.decode (L : Layout P n) (w : Fin n → K) : P → Vec K := fun p k => match L.index p k with
  | some i => w i
  | none => 0

/-- A recurrent network as a trainer sees it: its flat parameters and its buffers. -/
def rnetLearner (N : RNet V P K) (L : Layout P n) : Learner ((Fin n → K) × RState V P K) K n where
  params s := s.1
  setParams s w := (w, s.2)
  derivs s i := s.2.derivs (L.place i).1 (L.place i).2
  resetDerivatives s := (s.1, { s.2 with derivs := fun _ _ => 0 })
  reset s := (s.1, Net.rreset s.2)
  activate s x := (Net.ractivate N false (L.decode s.1) s.2 x).map fun r => (s.1, r.1)
  output s t := Net.readOut N.toNet (s.2.outb.getD t Net.zrow) 0 N.outmods (fun _ => 0)
  backActivate s e := (Net.rbackActivate N (L.decode s.1) s.2 e).map fun r => (s.1, r.1)
end

end Verif.Train
