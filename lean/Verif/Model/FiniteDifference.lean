import Verif.Model.Optimizer
import Verif.Model.GradientDescent
import Mathlib.Data.Matrix.Mul
/-
Model of pybrain/optimization/finitedifference: fd.py (FiniteDifferences), spsa.py (SimpleSPSA) and pgpe.py (PGPE), on top of the
optimizer base class (Model/Optimizer.lean) and GradientDescent (Model/GradientDescent.lean, `rprop` False, the default).

Numbers are elements of an ordered field. Random numbers are arguments. `pinv` is an argument too; the theorems assume of it what scipy
documents (Spec/Pinv.lean).
-/
namespace Verif.FD
open Verif.Opt Verif.Descent

variable {K : Type} [Field K] [LinearOrder K] {n : Nat}

/-- how a learning step ends; a DivergenceError is caught by `learn` (optimizer.py:204-209), the others reach the caller -/
inductive Outcome where
  | done
  | divergence
  | attributeError
  | notImplemented
deriving DecidableEq

/-! ### FiniteDifferences -/

/-- the attributes used by FiniteDifferences, fd.py:13-32 -/
structure State (K : Type) (n : Nat) where
  opt : Opt (Fin n → K) K
  current : Fin n → K
  gd : Momentum K n
  epsilon : K

/-- `_setInitEvaluable`, fd.py:22-32: the descender starts at (a copy of) the initial point -/
def init (opt : Opt (Fin n → K) K) (x0 : Fin n → K) (learningRate epsilon : K) : State K n :=
  { opt := opt, current := x0, gd := Momentum.init x0 learningRate, epsilon := epsilon }

/-- `random.uniform(-epsilon, epsilon)` for the random number `r` in [0, 1), fd.py:36 -/
def uniform (epsilon r : K) : K := -epsilon + (epsilon - -epsilon) * r

/-- the loop of fd.py:50-54 with `perturbation` (fd.py:34-39): the rows of `D` and `R`, or a DivergenceError -/
def batch (gamma : K) : List (Fin n → K) → State K n → State K n × Option (List ((Fin n → K) × K))
  | [], s => (s, some [])
  | r :: rs, s =>
    let deltas := fun j => uniform s.epsilon (r j)
    let s := { s with epsilon := s.epsilon * gamma }
    match oneEvaluation s.opt (fun j => s.current j + deltas j) with
    | (o, none) => ({ s with opt := o }, none)
    | (o, some v) =>
      match batch gamma rs { s with opt := o } with
      | (s, none) => (s, none)
      | (s, some rows) => (s, some ((deltas, v) :: rows))

/-- the matrix `D` and the vector `R` filled in fd.py:46-54 -/
def dMatrix (rows : List ((Fin n → K) × K)) : Matrix (Fin rows.length) (Fin n) K := Matrix.of fun i j => rows[i].1 j
def rVector (rows : List ((Fin n → K) × K)) : Fin rows.length → K := fun i => rows[i].2

/-- `FiniteDifferences._learnStep`, fd.py:41-59; one random vector per member of the batch -/
def learnStep (c : Settings K) (gamma : K) (pinv : ∀ {m : Nat}, Matrix (Fin m) (Fin n) K → Matrix (Fin n) (Fin m) K)
    (rs : List (Fin n → K)) (s : State K n) : State K n × Outcome :=
  match batch gamma rs s with
  | (s, none) => (s, .divergence)
  | (s, some rows) =>
    let gd := Momentum.call c s.gd ((pinv (dMatrix rows)).mulVec (rVector rows))
    ({ s with gd := gd, current := gd.values }, .done)

/-! ### SPSA -/

/-- the attributes used by SimpleSPSA, spsa.py:13-20; `mreward` is only written -/
structure Spsa (K : Type) (n : Nat) where
  opt : Opt (Fin n → K) K
  current : Fin n → K
  gd : Momentum K n
  epsilon : K
  baseline : Option K

/-- the constructor: fd.py:22-32 and spsa.py:19-20 -/
def Spsa.init (opt : Opt (Fin n → K) K) (x0 : Fin n → K) (learningRate epsilon : K) : Spsa K n :=
  { opt := opt, current := x0, gd := Momentum.init x0 learningRate, epsilon := epsilon, baseline := none }

/-- the two evaluations, spsa.py:36-37 and pgpe.py:48-49 -/
def evalPair (o : Opt (Fin n → K) K) (current deltas : Fin n → K) : Opt (Fin n → K) K × Option (K × K) :=
  match oneEvaluation o (fun j => current j + deltas j) with
  | (o, none) => (o, none)
  | (o, some r1) =>
    match oneEvaluation o (fun j => current j - deltas j) with
    | (o, none) => (o, none)
    | (o, some r2) => (o, some (r1, r2))

/-- spsa.py:46-50 and pgpe.py:59-63; `best` is `bestEvaluation` -/
def factor (best : K) (r1 r2 : K) : K := if r1 ≠ r2 then (r1 - r2) / (2 * best - r1 - r2) else 0

/-- `SimpleSPSA._learnStep`, spsa.py:31-56; `bits` are the random bits of `perturbation`, spsa.py:22-29. (`bestEvaluation` is set by the
evaluations; its default here is never used.) -/
def Spsa.step (c : Settings K) (gamma : K) (bits : Fin n → Bool) (s : Spsa K n) : Spsa K n × Outcome :=
  let deltas := fun j => ((if bits j then 1 else 0) * 2 - 1) * s.epsilon
  let s := { s with epsilon := s.epsilon * gamma }
  match evalPair s.opt s.current deltas with
  | (o, none) => ({ s with opt := o }, .divergence)
  | (o, some (r1, r2)) =>
    let mreward := (r1 + r2) / 2
    let (baseline, fakt) := match s.baseline with
      | none => (mreward * (99 / 100), 0)
      | some b => (b, factor (o.bestEvaluation.getD 0) r1 r2)
    let baseline := 9 / 10 * baseline + 1 / 10 * mreward
    let gd := Momentum.call c s.gd fun j => fakt * s.epsilon * s.epsilon / deltas j
    ({ s with opt := o, baseline := some baseline, gd := gd, current := gd.values }, .done)

/-- a run of SPSA steps; a step that fails ends it -/
def Spsa.run (c : Settings K) (gamma : K) : List (Fin n → Bool) → Spsa K n → Spsa K n
  | [], s => s
  | b :: bs, s =>
    match Spsa.step c gamma b s with
    | (s, .done) => Spsa.run c gamma bs s
    | (s, _) => s

/-! ### PGPE -/

/-- the values of the attribute `exploration`, pgpe.py:12-13 -/
inductive Exploration where
  | glob
  | loc
  | other

/-- the attributes used by PGPE, pgpe.py:12-37 -/
structure Pgpe (K : Type) (n : Nat) where
  opt : Opt (Fin n → K) K
  current : Fin n → K
  gd : Momentum K n
  sigList : Fin n → K
  gdSig : Momentum K n
  baseline : Option K

/-- the constructor: fd.py:22-32 and `_additionalInit`, pgpe.py:28-37 -/
def Pgpe.init (opt : Opt (Fin n → K) K) (x0 : Fin n → K) (learningRate sigmaLearningRate epsilon : K) : Pgpe K n :=
  { opt := opt, current := x0, gd := Momentum.init x0 learningRate,
    sigList := fun _ => 1 * epsilon, gdSig := Momentum.init (fun _ => 1 * epsilon) sigmaLearningRate, baseline := none }

/-- `PGPE._learnStep`, pgpe.py:43-88; `z` are the standard normal numbers behind `perturbation` (pgpe.py:39-41), `cs` the settings of the
descender for the sigmas. With "global" exploration line 76 reads `self.deltas`, an attribute that is never set. -/
def Pgpe.step (c cs : Settings K) (exploration : Exploration) (wDecay : K) (z : Fin n → K) (s : Pgpe K n) : Pgpe K n × Outcome :=
  let deltas := fun j => 0 + s.sigList j * z j
  match evalPair s.opt s.current deltas with
  | (o, none) => ({ s with opt := o }, .divergence)
  | (o, some (r1, r2)) =>
    let mreward := (r1 + r2) / 2
    let best := o.bestEvaluation.getD 0
    let (baseline, fakt, fakt2) := match s.baseline with
      | none => (mreward, 0, 0)
      | some b => (b, factor best r1 r2, if best - b ≠ 0 then (mreward - b) / (best - b) else 0)
    let baseline := 9 / 10 * baseline + 1 / 10 * mreward
    let gd := Momentum.call c s.gd fun j => fakt * deltas j - s.current j * s.sigList j * wDecay
    let s := { s with opt := o, baseline := some baseline, gd := gd, current := gd.values }
    if fakt2 > 0 then
      match exploration with
      | .glob => (s, .attributeError)
      | .loc =>
        let gdSig := Momentum.call cs s.gdSig fun j => fakt2 * (deltas j * deltas j - s.sigList j * s.sigList j) / s.sigList j
        ({ s with gdSig := gdSig, sigList := gdSig.values }, .done)
      | .other => (s, .notImplemented)
    else (s, .done)

/-- a run of PGPE steps; a step that fails ends it -/
def Pgpe.run (c cs : Settings K) (exploration : Exploration) (wDecay : K) : List (Fin n → K) → Pgpe K n → Pgpe K n
  | [], s => s
  | z :: zs, s =>
    match Pgpe.step c cs exploration wDecay z s with
    | (s, .done) => Pgpe.run c cs exploration wDecay zs s
    | (s, _) => s

end Verif.FD
