import Verif.Model.Mesh
/-
Model of pybrain/structure/networks/rbm.py (Rbm), pybrain/unsupervised/trainers/rbm.py (RbmGibbsTrainer, RbmBernoulliTrainer,
RbmGaussTrainer), pybrain/structure/modules/samplelayer.py (BernoulliLayer) and of the errors of
pybrain/unsupervised/trainers/deepbelief.py (DeepBeliefTrainer).

The parameters of a machine are the flat array of the full connection and that of the connection of the bias. Random numbers are arguments.
-/
namespace Verif.Rbm
open Verif.Net Verif.Mesh
open Finset (range)

/-- the modules of `net`, rbm.py:44-47 -/
inductive Node where
  | visible | bias | hidden
deriving DecidableEq, Repr

/-- the parameter containers; `own` stands for the empty container of layers -/
inductive Par where
  | own | con | biascon
deriving DecidableEq, Repr

/-- the network of `fromDims`, rbm.py:44-60, up to `sortModules` -/
noncomputable def plan (visibledim hiddendim : Nat) : Plan Node Par where
  modules := [.visible, .bias, .hidden]
  mod := fun
    | .visible => linearLayer .own visibledim
    | .bias => biasUnit .own
    | .hidden => sigmoidLayer .own hiddendim
  links := [(.visible, fullConnection .hidden .con 0 visibledim 0 hiddendim), (.bias, fullConnection .hidden .biascon 0 1 0 hiddendim)]
  inmods := [.visible]
  outmods := [.hidden]

/-- an `Rbm` of two layers: `params` and `biasParams` -/
structure Machine where
  visibleDim : Nat
  hiddenDim : Nat
  params : Vec ℝ
  biasParams : Vec ℝ

/-- the parameters in the network -/
def Machine.θ (r : Machine) : Par → Vec ℝ
  | .own => fun _ => 0
  | .con => r.params
  | .biascon => r.biasParams

/-- `fromDims`, rbm.py:39-60; `w` and `b` are the random parameters of new connections -/
def fromDims (visibledim hiddendim : Nat) (params biasParams : Option (Vec ℝ)) (w b : Vec ℝ) : Machine :=
  { visibleDim := visibledim, hiddenDim := hiddendim, params := params.getD w, biasParams := biasParams.getD b }

/-- `invert`, rbm.py:73-77 -/
def Machine.invert (r : Machine) (w b : Vec ℝ) : Machine := fromDims r.hiddenDim r.visibleDim (some r.params) none w b

/-- `activate`, rbm.py:79-80: what the network computes (`C114_activate`) -/
noncomputable def Machine.activate (r : Machine) (inpt : Vec ℝ) : Vec ℝ :=
  fun j => sigmoid ((∑ i ∈ range r.visibleDim, r.params (j * r.visibleDim + i) * inpt i) + r.biasParams j)

/-- `RbmGibbsTrainerConfig`, trainers/rbm.py:12-29 -/
structure Cfg where
  batchSize : Nat := 10
  rWeights : ℝ
  rHidBias : ℝ
  rVisBias : ℝ
  weightCost : ℝ
  iniMm : ℝ
  finMm : ℝ
  mmSwitchIter : Nat := 5
  maxIter : Nat := 9

/-- updates for the weights (an array of shape visible × hidden, here flat), hidden biases and visible biases -/
structure Update where
  w : Vec ℝ
  hb : Vec ℝ
  vb : Vec ℝ

/-- `calcUpdateByRow`, trainers/rbm.py:112-134, with the updater of lines 175-176 (and 190-192, where the variances are ones); `sampler` with its random numbers is an argument -/
noncomputable def calcUpdateByRow (sampler : Vec ℝ → Vec ℝ) (rbm invRbm : Machine) (row : Vec ℝ) : Update :=
  let poshp := rbm.activate row
  let sampled := sampler poshp
  let recon := invRbm.activate sampled
  let neghp := rbm.activate recon
  { w := fun k => row (k / rbm.hiddenDim) * poshp (k % rbm.hiddenDim) - recon (k / rbm.hiddenDim) * neghp (k % rbm.hiddenDim)
    hb := fun j => poshp j - neghp j
    vb := fun i => row i - recon i }

/-- the loop of `calcUpdateByRows`, trainers/rbm.py:149-153; `n` counts the rows, for the random numbers of the sampler -/
noncomputable def sumRows (sampler : Nat → Vec ℝ → Vec ℝ) (rbm invRbm : Machine) : Nat → List (Vec ℝ) → Update → Update
  | _, [], d => d
  | n, row :: rows, d =>
    let u := calcUpdateByRow (sampler n) rbm invRbm row
    sumRows sampler rbm invRbm (n + 1) rows { w := fun k => d.w k + u.w k, hb := fun k => d.hb k + u.hb k, vb := fun k => d.vb k + u.vb k }

/-- `calcUpdateByRows`, trainers/rbm.py:141-160 -/
noncomputable def calcUpdateByRows (sampler : Nat → Vec ℝ → Vec ℝ) (rbm invRbm : Machine) (rows : List (Vec ℝ)) : Update :=
  let d := sumRows sampler rbm invRbm 0 rows { w := fun _ => 0, hb := fun _ => 0, vb := fun _ => 0 }
  { w := fun k => d.w k / rows.length, hb := fun k => d.hb k / rows.length, vb := fun k => d.vb k / rows.length }

/-- the trainer: its machine, the inverted machine, and the last updates of the current batch -/
structure Trainer where
  rbm : Machine
  invRbm : Machine
  old : Update

/-- one iteration of the inner loop, trainers/rbm.py:58-98; `fresh` are the random biases of the new inverted machine, which are overwritten -/
noncomputable def iteration (cfg : Cfg) (sampler : Nat → Vec ℝ → Vec ℝ) (fresh : Vec ℝ) (rows : List (Vec ℝ)) (t : Nat) (s : Trainer) : Trainer :=
  let mm := if t < cfg.mmSwitchIter then cfg.iniMm else cfg.finMm
  let d := calcUpdateByRows sampler s.rbm s.invRbm rows
  let u : Update := { w := fun k => s.old.w k * mm + cfg.rWeights * (d.w k - cfg.weightCost * s.rbm.params k), hb := fun j => s.old.hb j * mm + cfg.rHidBias * d.hb j, vb := fun i => s.old.vb i * mm + cfg.rVisBias * d.vb i }
  let rbm : Machine := { s.rbm with params := fun k => s.rbm.params k + u.w k, biasParams := fun j => s.rbm.biasParams j + u.hb j }
  let invBiasParams : Vec ℝ := fun i => s.invRbm.biasParams i + u.vb i
  let invRbm : Machine := { rbm.invert (fun _ => 0) fresh with biasParams := invBiasParams }
  { rbm := rbm, invRbm := invRbm, old := u }

/-- the iterations for one batch, trainers/rbm.py:53-98: the last updates are zero at first -/
noncomputable def iterations (cfg : Cfg) (sampler : Nat → Nat → Vec ℝ → Vec ℝ) (fresh : Nat → Vec ℝ) (rows : List (Vec ℝ)) : Nat → Trainer → Trainer
  | 0, s => { s with old := { w := fun _ => 0, hb := fun _ => 0, vb := fun _ => 0 } }
  | t + 1, s => iteration cfg (sampler t) (fresh t) rows t (iterations cfg sampler fresh rows t s)

/-- `trainOnDataset`, trainers/rbm.py:48-98, for the batches that `randomBatches` yields -/
noncomputable def trainOnBatches (cfg : Cfg) (sampler : Nat → Nat → Nat → Vec ℝ → Vec ℝ) (fresh : Nat → Nat → Vec ℝ) : Nat → List (List (Vec ℝ)) → Trainer → Trainer
  | _, [], s => s
  | n, rows :: batches, s => trainOnBatches cfg sampler fresh (n + 1) batches (iterations cfg (sampler n) (fresh n) rows cfg.maxIter s)

/-- `RbmGibbsTrainer(rbm, dataset, cfg)`, trainers/rbm.py:35-39; `b` are the random biases of the inverted machine -/
def newTrainer (rbm : Machine) (b : Vec ℝ) : Trainer :=
  { rbm := rbm, invRbm := rbm.invert (fun _ => 0) b, old := { w := fun _ => 0, hb := fun _ => 0, vb := fun _ => 0 } }

/-- `RbmBernoulliTrainer.sampler`, trainers/rbm.py:171-173 -/
noncomputable def bernoulliSampler (rand probabilities : Vec ℝ) : Vec ℝ := fun j => if probabilities j > rand j then 1 else 0

/-- `BernoulliLayer`, samplelayer.py:18-21: one unit, with the random number `r` -/
noncomputable def bernoulliLayer (r inbuf : ℝ) : ℝ := if inbuf ≤ r then 1 else 0

/-! ### deep belief networks -/

inductive DErr where
  | stopIteration | keyError | indexError | attributeError
deriving DecidableEq, Repr

/-- `Rbm.fromModules(visible, hidden, bias, con, biascon)`, rbm.py:62-71 and 30-37, by the names of the modules: `net['visible']` is None if there is none of this name, and has connections
unless it is the hidden layer. -/
def fromModules (visible hidden bias : String) : Except DErr Unit :=
  if visible = "visible" ∨ bias = "visible" then .ok () else if hidden = "visible" then .error .indexError else .error .keyError

/-- `DeepBeliefTrainer.train`, deepbelief.py:74-115, for a chain of layers with the given names and one bias: the first machine is built twice (lines 84 and 90) and trained, then line 100 reads its
attribute `biasWeights`, and machines have no such attribute -/
def deepTrain (bias : String) : List String → Except DErr Unit
  | visible :: hidden :: _ =>
    match fromModules visible hidden bias with
    | .error e => .error e
    | .ok _ => .error .attributeError
  | _ => .error .stopIteration

end Verif.Rbm
