import Verif.Model.GradientDescent
/-
Model of `BackpropTrainer.trainUntilConvergence` (pybrain/supervised/trainers/backprop.py:188-260), with training and data abstract.

Errors are elements of a linear order with 0 and subtraction; NaN is `none`. The validation error before training is taken to be a number (it is not checked for
NaN). Splitting the dataset is C07; here both parts are given and not empty.
-/
namespace Verif.Converge

/-- what is raised -/
inductive TErr where
  /-- `Exception("Training produced NaN results")`, line 229 -/
  | nan
  /-- `max` of an empty list, line 248 -/
  | valueError
deriving DecidableEq, Repr

/-- the trainer: `S` is the state of trainer and module together, `P` the parameters -/
structure Trainer (S P K : Type) where
  /-- `train()`: one epoch and its error -/
  train : S → S × Option K
  params : S → P
  /-- `module.params[:] = p` -/
  setParams : S → P → S
  /-- `testOnData(validationData)`: depends on the parameters only, as the module is reset -/
  test : P → Option K
  /-- `round(y, convergence_threshold)` -/
  round : K → K

/-- the variables of the loop -/
structure Vars (S P K : Type) where
  s : S
  epochs : Nat
  bestweights : P
  bestverr : K
  bestepoch : Nat
  trainingErrors : List K
  validationErrors : List K

/-- Python's `l[-k:]`, `l[-2k:-k]` for `0 < k` and `2k ≤ len(l)` -/
def lastK {α : Type} (k : Nat) (l : List α) : List α := l.drop (l.length - k)
def prevK {α : Type} (k : Nat) (l : List α) : List α := (l.drop (l.length - 2 * k)).take k

section
variable {S P K : Type} [AddGroup K] [LinearOrder K]

/-- the stopping test of lines 243-254: `none` = no, `some (.ok ())` = stop -/
def converged (t : Trainer S P K) (continueEpochs : Nat) (v : List K) : Except TErr Bool :=
  if continueEpochs * 2 ≤ v.length then
    if continueEpochs = 0 then .error .valueError
    else
      let old := prevK continueEpochs v
      let new := lastK continueEpochs v
      if new.all (fun a => old.all (fun b => decide (b < a))) then .ok true
      else
        let lastnew := t.round (new.getLastD 0)
        .ok (decide ((new.map (fun y => t.round y - lastnew)).sum = 0))
  else .ok false

/-- one pass of the loop up to line 236 -/
def epoch (t : Trainer S P K) (x : Vars S P K) : Except TErr (Vars S P K) :=
  let r := t.train x.s
  match r.2, t.test (t.params r.1) with
  | some te, some ve =>
    let trainingErrors := x.trainingErrors ++ [te]
    let validationErrors := x.validationErrors ++ [ve]
    if x.epochs = 0 ∨ ve < x.bestverr then
      .ok { s := r.1, epochs := x.epochs, bestweights := t.params r.1, bestverr := ve, bestepoch := x.epochs,
            trainingErrors := trainingErrors, validationErrors := validationErrors }
    else .ok { x with s := r.1, trainingErrors := trainingErrors, validationErrors := validationErrors }
  | _, _ => .error .nan

/-- the `while True` loop, lines 225-254, with a bound on the number of passes -/
def loop (t : Trainer S P K) (maxEpochs : Option Nat) (continueEpochs : Nat) : Nat → Vars S P K → Option (Except TErr (Vars S P K))
  | 0, _ => none
  | fuel + 1, x =>
    match epoch t x with
    | .error e => some (.error e)
    | .ok x =>
      if maxEpochs.any (fun m => decide (m ≤ x.epochs)) then some (.ok { x with s := t.setParams x.s x.bestweights })
      else
        let x := { x with epochs := x.epochs + 1 }
        match converged t continueEpochs x.validationErrors with
        | .error e => some (.error e)
        | .ok true => some (.ok { x with s := t.setParams x.s x.bestweights })
        | .ok false => loop t maxEpochs continueEpochs fuel x

/-- `trainUntilConvergence`, backprop.py:188-260: the state, the recorded errors and the returned ones (line 260) -/
def trainUntilConvergence (t : Trainer S P K) (maxEpochs : Option Nat) (continueEpochs : Nat) (fuel : Nat) (s : S) (v0 : K) :
    Option (Except TErr (Vars S P K × List K × List K)) :=
  match loop t maxEpochs continueEpochs fuel
      { s := s, epochs := 0, bestweights := t.params s, bestverr := v0, bestepoch := 0, trainingErrors := [], validationErrors := [v0] } with
  | none => none
  | some (.error e) => some (.error e)
  | some (.ok x) => some (.ok (x, x.trainingErrors.take x.bestepoch, x.validationErrors.take (1 + x.bestepoch)))

end

/-- A trainer whose epoch is one step of gradient descent (backprop.py:65-69, one sequence per epoch): the descender holds its own copy of the parameters
(backprop.py:48, gradientdescent.py:45), from which the next parameters are computed. -/
def descentTrainer {K : Type} [Field K] {n : Nat} (c : Descent.Settings K) (gradient : (Fin n → K) → (Fin n → K)) (test : (Fin n → K) → Option K) :
    Trainer (Descent.Momentum K n × (Fin n → K)) (Fin n → K) K :=
  { train := fun s => let d := Descent.Momentum.call c s.1 (gradient s.2); ((d, d.values), some 0),
    params := fun s => s.2,
    setParams := fun s p => (s.1, p),
    test := test,
    round := id }

end Verif.Converge
