import Verif.Model.Lstm
import Mathlib.Algebra.BigOperators.Ring.Finset
import Mathlib.Algebra.Order.Floor.Defs
import Mathlib.Algebra.Order.Archimedean.Real.Basic
import Mathlib.Data.Matrix.Mul
/-
Model of pybrain/structure/modules/evolinonetwork.py (EvolinoNetwork), of the evaluation of one network in pybrain/supervised/evolino/filter.py
(EvolinoEvaluation._evaluateNet), of the schedule of burst mutations in pybrain/supervised/trainers/evolino.py (EvolinoTrainer.train), and of the genomes of
pybrain/supervised/evolino/networkwrapper.py (NetworkWrapper).

The recurrent network inside an EvolinoNetwork is fixed: an input layer, a bias unit, an LSTM layer without peepholes that is connected to itself, and a linear output layer. Its buffers are two-dimensional
arrays (time, unit), here functions of both; all have the same number of rows, that of the LSTM layer, and the offset of the network is the offset of all its modules. Values of units beyond the dimension of a layer
are not used. Numbers are real.
-/
namespace Verif.EvoNet
open Verif.Net (Vec)
open Verif.Lstm (Trans LState setRow)

/-- the numbers of outputs and of LSTM cells, `outdim` and `hiddim`, evolinonetwork.py:19 -/
structure Dims where
  out : Nat
  hid : Nat

/-- the parameters of the connections, evolinonetwork.py:36-49: from inputs, bias and (recurrent) LSTM cells to the LSTM layer, and from there to the outputs -/
structure Weights where
  win : Vec ℝ
  wbias : Vec ℝ
  wrec : Vec ℝ
  wout : Vec ℝ

/-- the buffers: of the LSTM layer, its input and output buffer, the input and output buffer of the output layer; and `offset` of the EvolinoNetwork, which is not that of the network inside -/
structure St where
  hid : LState ℝ
  hidIn : Nat → Vec ℝ
  hidOut : Nat → Vec ℝ
  outIn : Nat → Vec ℝ
  outOut : Nat → Vec ℝ
  offset : Nat

/-- a new network, evolinonetwork.py:19-54 -/
def new : St :=
  { hid := Lstm.fresh, hidIn := fun _ _ => 0, hidOut := fun _ _ => 0, outIn := fun _ _ => 0, outOut := fun _ _ => 0, offset := 0 }

/-- `reset`, evolinonetwork.py:57-59 with network.py:146-150: the buffers are zero, and the offset of the network inside; but not `offset` -/
def reset (s : St) : St :=
  { s with hid := Lstm.reset s.hid, hidIn := fun _ _ => 0, hidOut := fun _ _ => 0, outIn := fun _ _ => 0, outOut := fun _ _ => 0 }

/-- `_growBuffers`, module.py:59-70, network.py:141-144 -/
def grow (s : St) : St :=
  let ext (b : Nat → Vec ℝ) : Nat → Vec ℝ := fun t => if t < s.hid.rows then b t else fun _ => 0
  { s with hid := Lstm.grow s.hid, hidIn := ext s.hidIn, hidOut := ext s.hidOut, outIn := ext s.outIn, outOut := ext s.outOut }

/-- the product of a weight matrix with `n` columns and a vector, full.py:16-17 -/
def times (n : Nat) (w x : Vec ℝ) : Vec ℝ := fun k => ∑ i ∈ Finset.range n, w (k * n + i) * x i

/-- `_activateNetwork`, evolinonetwork.py:80-85, with recurrent.py:43-66 and 78-113: recurrent connection, input layer and bias add to the input buffer of the LSTM layer, then the layer is computed, its outputs are added to the
input buffer of the output layer. `none` is an IndexError. -/
noncomputable def activateNetwork (T : Trans ℝ) (d : Dims) (w : Weights) (s : St) (x : Vec ℝ) : Option (St × Vec ℝ) :=
  if s.hid.offset < s.hid.rows then
    let s := if s.hid.offset + 1 < s.hid.rows then s else grow s
    let o := s.hid.offset
    let in1 : Vec ℝ := if 0 < o then fun k => s.hidIn o k + times d.hid w.wrec (s.hidOut (o - 1)) k else s.hidIn o
    let in2 : Vec ℝ := fun k => in1 k + times d.out w.win x k
    let in3 : Vec ℝ := fun k => in2 k + w.wbias k
    match Lstm.forward T false d.hid (fun _ => 0) s.hid in3 with
    | none => none
    | some (h, y) =>
      let z : Vec ℝ := fun j => s.outIn o j + times d.hid w.wout y j
      some ({ hid := { h with offset := o + 1 }, hidIn := setRow s.hidIn o in3, hidOut := setRow s.hidOut o y, outIn := setRow s.outIn o z, outOut := setRow s.outOut o z
              offset := o + 1 }, z)
  else none

/-- `_getLastOutput`, evolinonetwork.py:115-120 -/
def lastOutput (s : St) : Vec ℝ := if s.offset = 0 then fun _ => 0 else s.outOut (s.offset - 1)

/-- `backprojection = self._getLastOutput(); backprojection *= self.backprojectionFactor`, evolinonetwork.py:70-71: the product is stored in the output buffer -/
noncomputable def backproject (factor : ℝ) (s : St) : St × Vec ℝ :=
  let v : Vec ℝ := fun j => lastOutput s j * factor
  (if s.offset = 0 then s else { s with outOut := setRow s.outOut (s.offset - 1) v }, v)

/-- `_setLastOutput`, evolinonetwork.py:122-124 (after an activation, so that `offset` is not 0) -/
def setLastOutput (s : St) (v : Vec ℝ) : St := { s with outOut := setRow s.outOut (s.offset - 1) v }

/-- the loop of `washout`, evolinonetwork.py:68-77 -/
noncomputable def washoutLoop (T : Trans ℝ) (d : Dims) (w : Weights) (factor : ℝ) : St → List (Vec ℝ) → Option (St × List (Vec ℝ))
  | s, [] => some (s, [])
  | s, val :: seq =>
    let b := backproject factor s
    match activateNetwork T d w b.1 b.2 with
    | none => none
    | some (s1, _) =>
      let raw := s1.hidOut (s1.offset - 1)
      match washoutLoop T d w factor (setLastOutput s1 val) seq with
      | none => none
      | some (s2, raws) => some (s2, raw :: raws)

/-- `washout`, evolinonetwork.py:61-77: an AssertionError (`none`) if the sequence is empty -/
noncomputable def washout (T : Trans ℝ) (d : Dims) (w : Weights) (factor : ℝ) (s : St) (seq : List (Vec ℝ)) : Option (St × List (Vec ℝ)) :=
  if seq = [] then none else washoutLoop T d w factor s seq

/-- `generate`, evolinonetwork.py:101-113 -/
noncomputable def generate (T : Trans ℝ) (d : Dims) (w : Weights) (factor : ℝ) : St → Nat → Option (St × List (Vec ℝ))
  | s, 0 => some (s, [])
  | s, n + 1 =>
    let b := backproject factor s
    match activateNetwork T d w b.1 b.2 with
    | none => none
    | some (s1, y) =>
      match generate T d w factor s1 n with
      | none => none
      | some (s2, ys) => some (s2, y :: ys)

/-- `extrapolate`, evolinonetwork.py:91-99 -/
noncomputable def extrapolate (T : Trans ℝ) (d : Dims) (w : Weights) (factor : ℝ) (s : St) (seq : List (Vec ℝ)) (length : Nat) : Option (St × List (Vec ℝ)) :=
  match washout T d w factor (reset s) seq with
  | none => none
  | some (s1, _) => generate T d w factor s1 length

/-! ### genomes -/

/-- the places of the weights of cell `cell` in the connections with the input dimensions `indims`: number of the connection and index into its parameters, in the order of evolinonetwork.py:151-164 -/
def slots (dim : Nat) (indims : List Nat) (cell : Nat) : List (Nat × Nat) :=
  (List.range 4).flatMap fun t => (List.range indims.length).flatMap fun c =>
    (List.range (indims.getD c 0)).map fun i => (c, i + cell * indims.getD c 0 + t * dim * indims.getD c 0)

/-- the same for NetworkWrapper, networkwrapper.py:404-410: four weights of each connection -/
def wrapperSlots (dim nconns cell : Nat) : List (Nat × Nat) :=
  (List.range nconns).flatMap fun c => (List.range 4).map fun t => (c, cell + t * dim)

section
variable {K : Type}

/-- `getGenome`, evolinonetwork.py:133-164; `params c` are the parameters of connection `c` -/
def getGenome (dim : Nat) (indims : List Nat) (params : Nat → Nat → K) : List (List K) :=
  (List.range dim).map fun cell => (slots dim indims cell).map fun p => params p.1 p.2

/-- `c.params[idx] = cell_weights.pop(0)` for all places in turn, evolinonetwork.py:176-184; `none` is the IndexError of `pop` -/
def setCell : List (Nat × Nat) → List K → (Nat → Nat → K) → Option (Nat → Nat → K)
  | [], _, params => some params
  | _ :: _, [], _ => none
  | p :: ps, v :: vs, params => setCell ps vs fun c k => if c = p.1 ∧ k = p.2 then v else params c k

/-- `setGenome`, evolinonetwork.py:137-140, 166-184, the loop over the cells from `cell` on; `none` is also the IndexError of `weights[cell_idx]` -/
def setCells (dim : Nat) (indims : List Nat) : List Nat → List (List K) → (Nat → Nat → K) → Option (Nat → Nat → K)
  | [], _, params => some params
  | cell :: cells, weights, params =>
    match weights[cell]? with
    | none => none
    | some cw =>
      match setCell (slots dim indims cell) cw params with
      | none => none
      | some params' => setCells dim indims cells weights params'

def setGenome (dim : Nat) (indims : List Nat) (weights : List (List K)) (params : Nat → Nat → K) : Option (Nat → Nat → K) :=
  setCells dim indims (List.range dim) weights params

end

/-! ### evaluation -/

/-- the value of `wtRatio`: a number, or a pair as in the default, filter.py:39 -/
inductive Ratio where
  | number (r : ℝ)
  | pair (a b : ℝ)

/-- `training_start = int(wtRatio * len(sequence))`, filter.py:60: a TypeError (`none`) for arrays of two numbers -/
noncomputable def trainingStart (ratio : Ratio) (len : Nat) : Option Nat :=
  match ratio with
  | .number r => some ⌊r * len⌋₊
  | .pair _ _ => none

/-- filter.py:53-62: washout and training sequences -/
noncomputable def splitAll (ratio : Ratio) : List (List (Vec ℝ)) → Option (List (List (Vec ℝ) × List (Vec ℝ)))
  | [] => some []
  | seq :: seqs =>
    match trainingStart ratio seq.length with
    | none => none
    | some k =>
      match splitAll ratio seqs with
      | none => none
      | some r => some ((seq.take k, seq.drop k) :: r)

/-- filter.py:66-71: the raw outputs of all training sequences -/
noncomputable def collect (T : Trans ℝ) (d : Dims) (w : Weights) (factor : ℝ) : St → List (List (Vec ℝ) × List (Vec ℝ)) → Option (St × List (List (Vec ℝ)))
  | s, [] => some (s, [])
  | s, q :: qs =>
    match washout T d w factor (reset s) q.1 with
    | none => none
    | some (s1, _) =>
      match washout T d w factor s1 q.2 with
      | none => none
      | some (s2, phi) =>
        match collect T d w factor s2 qs with
        | none => none
        | some (s3, phis) => some (s3, phi :: phis)

/-- filter.py:83-86: the outputs of the network with the new weights -/
noncomputable def outputs (T : Trans ℝ) (d : Dims) (w : Weights) (factor : ℝ) : St → List (List (Vec ℝ) × List (Vec ℝ)) → Option (St × List (List (Vec ℝ)))
  | s, [] => some (s, [])
  | s, q :: qs =>
    match extrapolate T d w factor s q.1 q.2.length with
    | none => none
    | some (s1, out) =>
      match outputs T d w factor s1 qs with
      | none => none
      | some (s2, outs) => some (s2, out :: outs)

/-- `PHI = concatenate(phis).T`, filter.py:75: a row for each LSTM cell, a column for each step -/
def phiMatrix (hid : Nat) (rows : List (Vec ℝ)) : Matrix (Fin hid) (Fin rows.length) ℝ := fun i t => rows[t] i

/-- `W = dot(TARGET, PHI_INV)` flattened, filter.py:76-79 and evolinonetwork.py:190-193; `inv` is `pinv2(PHI)` -/
def outputWeights (hid : Nat) (rows targets : List (Vec ℝ)) (inv : Matrix (Fin rows.length) (Fin hid) ℝ) : Vec ℝ :=
  fun k => if h : 0 < hid then ∑ t : Fin rows.length, targets.getD t (fun _ => 0) (k / hid) * inv t ⟨k % hid, Nat.mod_lt _ h⟩ else 0

/-- `_evaluateNet`, filter.py:45-95, up to the fitness: the network afterwards, its weights, the outputs and targets that are compared. Without sequences `concatenate` raises a
ValueError. -/
noncomputable def evaluateNet (T : Trans ℝ) (d : Dims) (factor : ℝ) (ratio : Ratio) (pinv : (rows : List (Vec ℝ)) → Matrix (Fin rows.length) (Fin d.hid) ℝ) (s : St) (w : Weights)
    (seqs : List (List (Vec ℝ))) : Option (St × Weights × List (Vec ℝ) × List (Vec ℝ)) :=
  match splitAll ratio seqs with
  | none => none
  | some [] => none
  | some qs =>
    match collect T d w factor s qs with
    | none => none
    | some (s1, phis) =>
      let w' := { w with wout := outputWeights d.hid phis.flatten (qs.map Prod.snd).flatten (pinv phis.flatten) }
      match outputs T d w' factor s1 qs with
      | none => none
      | some (s2, outs) => some (s2, w', outs.flatten, (qs.map Prod.snd).flatten)

/-- the `wtRatio` of an EvolinoTrainer: `given` is the keyword argument; if there is none, the evaluation uses its own default, evolino.py:83, 99 and filter.py:39 -/
def trainerRatio (given : Option Ratio) : Ratio := given.getD (.pair 1 2)

/-! ### burst mutations -/

section
variable {F : Type} [LT F] [DecidableRel (α := F) (· < ·)]

/-- `totalepochs`, `_max_fitness`, `_max_fitness_epoch`, evolino.py:117-119 -/
structure Schedule (F : Type) where
  total : Nat
  best : F
  bestEpoch : Nat

/-- a new trainer, evolino.py:117-119, where no fitness is known: `⊥` is `-Infinity`, filter.py:43 -/
def newSchedule [Bot F] : Schedule F := { total := 0, best := ⊥, bestEpoch := 0 }

/-- `train`, evolino.py:128-146, where the evaluation finds the fitness `f` and bursts come after `n` epochs (`none` is Infinity): whether there is a burst mutation, and whether there is a gain -/
def train (n : Option Nat) (s : Schedule F) (f : F) : Schedule F × Bool × Bool :=
  let total := s.total + 1
  let burst := match n with
    | none => false
    | some n => decide ((n : Int) ≤ (total : Int) - s.bestEpoch)
  let bestEpoch := if burst then total else s.bestEpoch
  if s.best < f then ({ total := total, best := f, bestEpoch := total }, burst, true)
  else ({ total := total, best := s.best, bestEpoch := bestEpoch }, burst, false)

/-- several epochs -/
def trainEpochs (n : Option Nat) : Schedule F → List F → List (Bool × Bool)
  | _, [] => []
  | s, f :: fs => (train n s f).2 :: trainEpochs n (train n s f).1 fs

end
end Verif.EvoNet
