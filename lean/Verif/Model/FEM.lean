import Verif.Model.Ranking
import Mathlib.Data.Matrix.Mul
import Mathlib.Data.Real.Basic
/-
Model of pybrain/optimization/distributionbased/fem.py (Fitness Expectation-Maximization) with its one center (line 55) and the options `diagonalOnly`, `mutative` and
`useAnticipatedMeanShift`. `elitism`, `sampleElitism`, `oneFifthRule`, `doMadnessUpdate` and `adaptiveShaping` are left at their default (off); they are in Verif.Model.FEMOptions.

The samples drawn from the normal distribution, their fitnesses and their densities are given. Real numbers stand for floats.
-/
namespace Verif.FEM
open Matrix

variable {n : Nat}

/-- the settings, fem.py:21-52 -/
structure Config where
  forgetFactor : ℝ
  muMultiplier : ℝ
  windowSize : Nat
  shaping : List ℝ → List ℝ
  mutative : Bool
  anticipated : Bool

/-- the state. For `diagonalOnly` the matrix stands for the diagonal (see `diagStep`). -/
structure St (n : Nat) where
  mu : Fin n → ℝ
  sigma : Matrix (Fin n) (Fin n) ℝ
  fitnesses : List ℝ
  count : Nat
  meanShift : Fin n → ℝ

/-- `_additionalInit`, fem.py:54-88: the center is drawn from the range, whatever the initial point `x0` is -/
def start (c : Config) (rangemins rangemaxs : Fin n → ℝ) (cov : Matrix (Fin n) (Fin n) ℝ) (_x0 : Fin n → ℝ) (r : Fin n → ℝ) : St n :=
  { mu := fun i => r i * (rangemaxs i - rangemins i) + rangemins i, sigma := 1 * cov, fitnesses := List.replicate c.windowSize 0, count := 0, meanShift := 0 }

/-- `_computeDensities`, fem.py:121-138: the clipped density, normalised (with one center, whose weight is 1) -/
noncomputable def density (pdf : ℝ) : ℝ :=
  let p := if pdf > 10 ^ 40 then 10 ^ 40 else if pdf < 1 / 10 ^ 40 then 1 / 10 ^ 40 else pdf
  1 * p / (1 * p)

/-- `_computeUpdateSize`, fem.py:140-150 -/
noncomputable def updateSize (c : Config) (fitnesses : List ℝ) (k : Nat) (densities : ℝ) : ℝ :=
  ((c.shaping fitnesses).map fun v => v / Ranking.maxOf (c.shaping fitnesses)).getD k 0 * densities * c.forgetFactor

/-- `_updateMus`, fem.py:152-161. `oldmu` is the same array as the center, which is changed in place (lines 154-156): the difference added to the mean shift is that of an array with itself. -/
def updateMus (c : Config) (u : ℝ) (sample : Fin n → ℝ) (s : St n) : St n :=
  let mu := (1 - c.muMultiplier * u) • s.mu + (c.muMultiplier * u) • sample
  let oldmu := mu
  { s with
    mu := mu
    meanShift := if c.anticipated ∧ s.count % c.windowSize = 1 then (1 - c.forgetFactor) • s.meanShift + (mu - oldmu) else s.meanShift }

/-- `_updateSigmas`, fem.py:175-182 (full covariance matrix) -/
noncomputable def updateSigmas (u : ℝ) (sample : Fin n → ℝ) (s : St n) : St n :=
  { s with sigma := (1 - u) • s.sigma + (u * 1.2) • vecMulVec (s.mu - sample) (s.mu - sample) }

/-- what is done before the sample is drawn, fem.py:96-99: the center is shifted, in place -/
def shift (c : Config) (s : St n) : St n :=
  if c.anticipated ∧ s.count % 2 = 1 ∧ s.count > 1 then { s with mu := s.mu + s.meanShift } else s

/-- `_learnStep`, fem.py:227-257, with the sample, its fitness (negated for minimization) and its density -/
noncomputable def learnStep (c : Config) (s : St n) (d : (Fin n → ℝ) × ℝ × ℝ) : St n :=
  let s := shift c s
  let k := s.count % c.windowSize
  let s := { s with fitnesses := s.fitnesses.set k d.2.1, count := s.count + 1 }
  if s.count < c.windowSize then s
  else
    let u := updateSize c s.fitnesses k (density d.2.2)
    if 0 < u then
      if c.mutative then updateMus c u d.1 (updateSigmas u d.1 s) else updateSigmas u d.1 (updateMus c u d.1 s)
    else s

/-- several steps -/
noncomputable def learn (c : Config) : St n → List ((Fin n → ℝ) × ℝ × ℝ) → St n
  | s, [] => s
  | s, d :: ds => learn c (learnStep c s d) ds

/-- the sample drawn for standard normal noise `g`, fem.py:101-104, in one dimension: `normal` takes a standard deviation, `multivariate_normal` a covariance -/
noncomputable def sample1 (diagonalOnly : Bool) (sqrt : ℝ → ℝ) (mu sigma g : ℝ) : ℝ := if diagonalOnly then mu + sigma * g else mu + sqrt sigma * g

/-- center and sigma after an update of size `u` in one dimension (fem.py:152-182; not mutative, `muMultiplier` 1) -/
noncomputable def update1 (diagonalOnly : Bool) (u mu sigma sample : ℝ) : ℝ × ℝ :=
  let mu := (1 - u) * mu + u * sample
  (mu, (1 - u) * sigma + (if diagonalOnly then u else u * 1.2) * ((mu - sample) * (mu - sample)))

end Verif.FEM
