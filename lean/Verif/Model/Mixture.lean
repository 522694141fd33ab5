import Mathlib.Analysis.SpecialFunctions.Log.Basic
import Mathlib.Analysis.SpecialFunctions.Sqrt
import Mathlib.Algebra.Order.Floor.Ring
import Mathlib.Algebra.Order.Archimedean.Real.Basic
import Verif.Model.DataSet
/-
Model of the mixtures of Gaussians of `pybrain/tools/mixtures/mixtureofgaussian.py` and
`pybrain/tools/mixtures/mogpuremax.py`.

Numbers are reals; `random.random()` and the standard normal number behind `random.normal` are arguments.  The
noisy test reward functions and the plotting functions are not modelled.
-/
namespace Verif.Mixture

open Verif.DataSet (Err)

/-- `stND[i]` (mixtureofgaussian.py:6-9, mogpuremax.py:8-11). -/
noncomputable def stND (i : ℕ) : ℝ := 1 / 2.51 * Real.exp (-0.5 * (-4 + i * 8 / 1000) ^ 2)

/-- `int((x + 4.0) / 8.0 * 1000)` (mixtureofgaussian.py:43): `int` cuts off towards zero. -/
noncomputable def tableIndex (x : ℝ) : ℤ := if 0 ≤ (x + 4) / 8 * 1000 then ⌊(x + 4) / 8 * 1000⌋ else ⌈(x + 4) / 8 * 1000⌉

/-- `MixtureOfGaussians.getStND` (mixtureofgaussian.py:40-44, mogpuremax.py:41-45).  The index is one of the table:
`C142_table`. -/
noncomputable def getStND (x mue sig : ℝ) : ℝ :=
  if 4 ≤ |(x - mue) / sig| then 0.000000001 else stND (tableIndex ((x - mue) / sig)).toNat / sig

/-- `MixtureOfGaussians.sigmo` (mixtureofgaussian.py:119-120, mogpuremax.py:91-92). -/
noncomputable def sigmo (a : ℝ) : ℝ := 1 / (1 + Real.exp (-1 * a))

/-- `MixtureOfGaussians.invSigmo` (mixtureofgaussian.py:122-123, mogpuremax.py:94-95). -/
noncomputable def invSigmo (a : ℝ) : ℝ := -Real.log (1 / a - 1)

/-- The changing attributes of a mixture of `n` Gaussians. -/
structure Mix (n : ℕ) where
  alpha : Fin n → ℝ
  mue : Fin n → ℝ
  sigma : Fin n → ℝ
  baseline : ℝ
  best : ℝ

/-- The step sizes `alphaA`, `alphaM` and `alphaS`. -/
structure Rates where
  alphaA : ℝ
  alphaM : ℝ
  alphaS : ℝ

variable {n : ℕ}

/-- `MixtureOfGaussians.__init__` (mixtureofgaussian.py:12-38) and, with `pure`, that of mogpuremax.py:16-39, which
does not transform `alpha`.  `propFakt` and `distFakt` divide by zero for less than two Gaussians. -/
noncomputable def construct (pure : Bool) (n : ℕ) : Except Err (Mix n) :=
  if n ≤ 1 then .error .zeroDivision else
    .ok { alpha := fun _ => if pure then 1 / n else invSigmo (1 / n)
          mue := fun i => 40 * i * (1 / (n - 1)) + -20
          sigma := fun _ => 40 / (√2 * (n - 1))
          baseline := 0
          best := 0.000001 }

/-- `MixtureOfGaussians.getGaus` (mixtureofgaussian.py:60-65, mogpuremax.py:48-52), called with the own attributes. -/
noncomputable def getGaus (m : Mix n) (x : ℝ) : ℝ := ∑ g, sigmo (m.alpha g) * getStND x (m.mue g) (m.sigma g)

/-- The loop of `drawSample` (mixtureofgaussian.py:83-88, mogpuremax.py:57-62): the first Gaussian at which the sum
of the weights exceeds the random number. -/
noncomputable def scan (m : Mix n) (rnd : ℝ) : List (Fin n) → ℝ → Option (Fin n)
  | [], _ => none
  | g :: gs, s => if rnd < s + sigmo (m.alpha g) then some g else scan m rnd gs (s + sigmo (m.alpha g))

/-- `MixtureOfGaussians.drawSample("max")` (mixtureofgaussian.py:79-89, mogpuremax.py:54-63): the sample and the
mixture, whose chosen sigma is not below `minSig` any more.  `none` is the access to the unassigned `x`. -/
noncomputable def drawSample (m : Mix n) (rnd z : ℝ) : Option (ℝ × Mix n) :=
  match scan m rnd (List.finRange n) 0 with
  | none => none
  | some g =>
    let sigma := if m.sigma g < 0.000001 then Function.update m.sigma g 0.000001 else m.sigma
    some (m.mue g + sigma g * z, { m with sigma := sigma })

/-- `MixtureOfGaussians.drawSample("dist")` (mixtureofgaussian.py:90-91). -/
noncomputable def drawDist (rnd : ℝ) : ℝ := rnd * 40 + -20

/-- `norm` (mixtureofgaussian.py:96-99). -/
noncomputable def norm (m : Mix n) (x : ℝ) (g : Fin n) : ℝ := getStND x (m.mue g) (m.sigma g) / getGaus m x

/-- The baseline and the best value after a reward (mixtureofgaussian.py:100-101, mogpuremax.py:71-72). -/
noncomputable def score (dm : Bool) (m : Mix n) (y : ℝ) : ℝ × ℝ :=
  (if dm then 0.99 * m.baseline + 0.01 * y else m.baseline, if y > m.best then y else m.best)

/-- `fakt` (mixtureofgaussian.py:102-103, mogpuremax.py:73-74). -/
noncomputable def fakt (dm : Bool) (m : Mix n) (y : ℝ) : ℝ :=
  let f := (y - (score dm m y).1) / ((score dm m y).2 - (score dm m y).1)
  if f < -1 then -1 else f

/-- `alpha` before it is normalised (mixtureofgaussian.py:107-108, mogpuremax.py:77-78). -/
noncomputable def rawAlpha (dm : Bool) (c : Rates) (m : Mix n) (x y : ℝ) (g : Fin n) : ℝ :=
  m.alpha g + c.alphaA * (1 / n) * sigmo (m.alpha g) * (1 - sigmo (m.alpha g)) * fakt dm m y * norm m x g

/-- `MixtureOfGaussians.learn` (mixtureofgaussian.py:94-117, mogpuremax.py:65-89); `dm` says whether the mode is
"max". -/
noncomputable def learn (dm : Bool) (c : Rates) (m : Mix n) (x y : ℝ) : Mix n :=
  let f := fakt dm m y
  let alpha := fun g => invSigmo (sigmo (rawAlpha dm c m x y g) / ∑ k, sigmo (rawAlpha dm c m x y k))
  let mue := fun g => m.mue g + c.alphaM * f * (x - m.mue g) * sigmo (alpha g) * norm m x g
  let sigma := fun g => if f > 0 then
      m.sigma g + c.alphaS * f * ((x - mue g) ^ 2 - m.sigma g ^ 2) / m.sigma g * sigmo (alpha g) * norm m x g
    else m.sigma g
  { alpha := alpha, mue := mue, sigma := sigma, baseline := (score dm m y).1, best := (score dm m y).2 }

end Verif.Mixture
