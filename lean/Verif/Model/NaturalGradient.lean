import Mathlib.LinearAlgebra.Matrix.NonsingularInverse
/-
Model of `NaturalGradient` and `IRpropPlus` (pybrain/auxiliary/gradientdescent.py:97-174). Numbers are elements of a field, arrays of `n` parameters
functions on `Fin n`.
-/
namespace Verif.NatGrad

variable {K : Type} [Field K] [DecidableEq K] {n : ℕ}

/-- The exceptions. -/
inductive Fault where
  | valueError
  | linAlgError
  | attributeError
  deriving DecidableEq, Repr

/-- The attributes of a NaturalGradient (gradientdescent.py:99-107). -/
structure State (K : Type) (n : ℕ) where
  samplesize : ℕ
  samples : List (Fin n → K)
  values : Fin n → K

/-- `__init__` and `init` (gradientdescent.py:99-107). -/
def new (samplesize : ℕ) (values : Fin n → K) : State K n :=
  { samplesize := samplesize, samples := [], values := values }

/-- `gradientarray.sum(axis=1)` (gradientdescent.py:121). -/
def total (gs : List (Fin n → K)) : Fin n → K := gs.sum

/-- The mean of the samples, as numpy's `cov` computes it. -/
def mean (gs : List (Fin n → K)) : Fin n → K := fun i => total gs i / gs.length

/-- numpy's `cov` of the samples (gradientdescent.py:120). -/
def cov (gs : List (Fin n → K)) : Matrix (Fin n) (Fin n) K :=
  Matrix.of fun i j => (gs.map fun g => (g i - mean gs i) * (g j - mean gs j)).sum / (gs.length - 1)

/-- The estimate (gradientdescent.py:119-121): `cov` of one parameter is a number, which `inv` refuses, and of one sample it is nan, which
`inv` refuses, too; a singular matrix raises a LinAlgError. -/
noncomputable def estimate (gs : List (Fin n → K)) : Except Fault (Fin n → K) :=
  if n = 1 then .error .valueError
  else if gs.length ≤ 1 then .error .valueError
  else if (cov gs).det = 0 then .error .linAlgError
  else .ok ((cov gs)⁻¹.mulVec (total gs))

/-- `__call__` (gradientdescent.py:109-122): the result, `none` for None, and the new state, also if there is an exception. -/
noncomputable def call (s : State K n) (gradient : Fin n → K) : Except Fault (Option (Fin n → K)) × State K n :=
  let s := { s with samples := s.samples ++ [gradient] }
  if s.samples.length < s.samplesize then (.ok none, s)
  else
    match estimate s.samples with
    | .error e => (.error e, s)
    | .ok d =>
      let s := { s with values := s.values + d }
      (.ok (some s.values), s)

/-- The calls with some gradients: their results and the last state. -/
noncomputable def calls : List (Fin n → K) → State K n → List (Except Fault (Option (Fin n → K))) × State K n
  | [], s => ([], s)
  | g :: gs, s =>
      let r := call s g
      let rest := calls gs r.2
      (r.1 :: rest.1, rest.2)

/-- The attributes of an IRpropPlus; `bound` is not among them (gradientdescent.py:127-139). -/
structure IRprop (K : Type) (n : ℕ) where
  upfactor : K
  downfactor : K
  values : Fin n → K

/-- `__init__` and `init` (gradientdescent.py:127-139). -/
def newIRprop [LinearOrder K] (upfactor downfactor bound : K) (values : Fin n → K) : Except Fault (IRprop K n) :=
  if ¬ bound > 0 then .error .valueError else .ok { upfactor := upfactor, downfactor := downfactor, values := values }

/-- `__call__` (gradientdescent.py:141-174): line 148 reads `self.bound` before anything is changed. -/
def callIRprop (s : IRprop K n) (_gradient : Fin n → K) (_error : K) : Except Fault (Fin n → K) × IRprop K n := (.error .attributeError, s)

end Verif.NatGrad
