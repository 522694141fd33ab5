import Verif.Model.FiniteDifference
/-
Model of pybrain/optimization/finitedifference with the attribute `rprop` set: fd.py, spsa.py and pgpe.py with the descenders in rprop mode
(fd.py:20, 31; pgpe.py:25-26, 33). Everything else is as in Model/FiniteDifference.lean.
-/
namespace Verif.FD
open Verif.Opt Verif.Descent

variable {K : Type} [Field K] [LinearOrder K] {n : Nat}

/-- how a learning step with rprop ends; `valueError` is raised by `random.normal` for a negative standard deviation -/
inductive OutcomeR where
  | done
  | divergence
  | attributeError
  | notImplemented
  | valueError
deriving DecidableEq

/-- the attributes used by FiniteDifferences, fd.py:13-32 -/
structure StateR (K : Type) (n : Nat) where
  opt : Opt (Fin n → K) K
  current : Fin n → K
  gd : Rprop K n
  epsilon : K

/-- `_setInitEvaluable`, fd.py:22-32 -/
def initR (c : Settings K) (opt : Opt (Fin n → K) K) (x0 : Fin n → K) (epsilon : K) : StateR K n :=
  { opt := opt, current := x0, gd := Rprop.init c x0, epsilon := epsilon }

/-- `FiniteDifferences._learnStep`, fd.py:41-59; the evaluations are those of the loop without rprop -/
def learnStepR (c : Settings K) (gamma : K) (pinv : ∀ {m : Nat}, Matrix (Fin m) (Fin n) K → Matrix (Fin n) (Fin m) K)
    (rs : List (Fin n → K)) (s : StateR K n) : StateR K n × OutcomeR :=
  match batch gamma rs { opt := s.opt, current := s.current, gd := Momentum.init s.current 0, epsilon := s.epsilon } with
  | (s1, none) => ({ s with opt := s1.opt, epsilon := s1.epsilon }, .divergence)
  | (s1, some rows) =>
    let gd := Rprop.call c s.gd ((pinv (dMatrix rows)).mulVec (rVector rows))
    ({ opt := s1.opt, epsilon := s1.epsilon, gd := gd, current := gd.values }, .done)

/-- the attributes used by SimpleSPSA, spsa.py:13-20 -/
structure SpsaR (K : Type) (n : Nat) where
  opt : Opt (Fin n → K) K
  current : Fin n → K
  gd : Rprop K n
  epsilon : K
  baseline : Option K

/-- the constructor: fd.py:22-32 and spsa.py:19-20 -/
def SpsaR.init (c : Settings K) (opt : Opt (Fin n → K) K) (x0 : Fin n → K) (epsilon : K) : SpsaR K n :=
  { opt := opt, current := x0, gd := Rprop.init c x0, epsilon := epsilon, baseline := none }

/-- `SimpleSPSA._learnStep`, spsa.py:31-56 -/
def SpsaR.step (c : Settings K) (gamma : K) (bits : Fin n → Bool) (s : SpsaR K n) : SpsaR K n × OutcomeR :=
  let deltas := fun j => ((if bits j then 1 else 0) * 2 - 1) * s.epsilon
  let s := { s with epsilon := s.epsilon * gamma }
  match evalPair s.opt s.current deltas with
  | (o, none) => ({ s with opt := o }, .divergence)
  | (o, some (r1, r2)) =>
    let mreward := (r1 + r2) / 2
    let (baseline, fakt) := match s.baseline with
      | none => (mreward * (99 / 100), 0)
      | some b => (b, factor (o.bestEvaluation.getD 0) r1 r2)
    let baseline := 9 / 10 * baseline + 1 / 10 * mreward
    let gd := Rprop.call c s.gd fun j => fakt * s.epsilon * s.epsilon / deltas j
    ({ s with opt := o, baseline := some baseline, gd := gd, current := gd.values }, .done)

/-- a run of SPSA steps; a step that fails ends it -/
def SpsaR.run (c : Settings K) (gamma : K) : List (Fin n → Bool) → SpsaR K n → SpsaR K n
  | [], s => s
  | b :: bs, s =>
    match SpsaR.step c gamma b s with
    | (s, .done) => SpsaR.run c gamma bs s
    | (s, _) => s

/-- the attributes used by PGPE, pgpe.py:12-37 -/
structure PgpeR (K : Type) (n : Nat) where
  opt : Opt (Fin n → K) K
  current : Fin n → K
  gd : Rprop K n
  sigList : Fin n → K
  gdSig : Rprop K n
  baseline : Option K

/-- the constructor: fd.py:22-32 and `_additionalInit`, pgpe.py:28-37 -/
def PgpeR.init (c : Settings K) (opt : Opt (Fin n → K) K) (x0 : Fin n → K) (epsilon : K) : PgpeR K n :=
  { opt := opt, current := x0, gd := Rprop.init c x0,
    sigList := fun _ => 1 * epsilon, gdSig := Rprop.init c (fun _ => 1 * epsilon), baseline := none }

/-- `PGPE._learnStep`, pgpe.py:43-88; `random.normal` refuses negative standard deviations (pgpe.py:41) -/
def PgpeR.step (c cs : Settings K) (exploration : Exploration) (wDecay : K) (z : Fin n → K) (s : PgpeR K n) : PgpeR K n × OutcomeR :=
  if ∃ j, s.sigList j < 0 then (s, .valueError) else
  let deltas := fun j => 0 + s.sigList j * z j
  match evalPair s.opt s.current deltas with
  | (o, none) => ({ s with opt := o }, .divergence)
  | (o, some (r1, r2)) =>
    let mreward := (r1 + r2) / 2
    let best := o.bestEvaluation.getD 0
    let (baseline, fakt, fakt2) := match s.baseline with
      | none => (mreward, 0, 0)
      | some b => (b, factor best r1 r2, if best - b ≠ 0 then (mreward - b) / (best - b) else 0)
    let baseline := 9 / 10 * baseline + 1 / 10 * mreward
    let gd := Rprop.call c s.gd fun j => fakt * deltas j - s.current j * s.sigList j * wDecay
    let s := { s with opt := o, baseline := some baseline, gd := gd, current := gd.values }
    if fakt2 > 0 then
      match exploration with
      | .glob => (s, .attributeError)
      | .loc =>
        let gdSig := Rprop.call cs s.gdSig fun j => fakt2 * (deltas j * deltas j - s.sigList j * s.sigList j) / s.sigList j
        ({ s with gdSig := gdSig, sigList := gdSig.values }, .done)
      | .other => (s, .notImplemented)
    else (s, .done)

/-- a run of PGPE steps; a step that fails ends it -/
def PgpeR.run (c cs : Settings K) (exploration : Exploration) (wDecay : K) : List (Fin n → K) → PgpeR K n → PgpeR K n
  | [], s => s
  | z :: zs, s =>
    match PgpeR.step c cs exploration wDecay z s with
    | (s, .done) => PgpeR.run c cs exploration wDecay zs s
    | (s, _) => s

end Verif.FD
