import Verif.Model.DataSet
import Mathlib.Data.Matrix.Mul
import Mathlib.Analysis.Real.Sqrt
import Mathlib.Analysis.SpecialFunctions.Log.Basic
/-
Model of pybrain/optimization/distributionbased/rank1.py (natural evolution strategies with covariances of rank one plus a multiple of the identity).

The samples and their utilities (the shaped fitnesses, C63) are given. Real numbers stand for floats.
-/
namespace Verif.Rank1
open Matrix
open Verif.DataSet (Err)

variable {n : ℕ}

/-- the settings, rank1.py:19-24 -/
structure Config where
  centerLearningRate : ℝ
  scaleLearningRate : Option ℝ
  covLearningRate : Option ℝ
  batchSize : Option ℕ
  uniformBaseline : Bool

/-- the settings that are used -/
structure Used where
  centerLearningRate : ℝ
  scaleLearningRate : ℝ
  covLearningRate : ℝ
  batchSize : ℕ
  uniformBaseline : Bool

/-- `_additionalInit`, rank1.py:37-56, as far as settings are concerned. `heuristicRate`, `heuristicSize` and `lateSize` are the values of `_initLearningRate`, `_initBatchSize` and of the expression in line 54. -/
def settings (c : Config) (heuristicRate : ℝ) (heuristicSize lateSize : ℕ) : Used :=
  let cov := c.covLearningRate.getD heuristicRate
  let u : Used :=
    { centerLearningRate := c.centerLearningRate, scaleLearningRate := c.scaleLearningRate.getD cov, covLearningRate := cov, batchSize := c.batchSize.getD heuristicSize, uniformBaseline := c.uniformBaseline }
  let u := { u with covLearningRate := 0.1 }
  let u := { u with batchSize := lateSize }
  let u := { u with uniformBaseline := false }
  { u with scaleLearningRate := 0.1 }

/-- center, principal vector and logarithm of the scale -/
structure St (n : ℕ) where
  center : Fin n → ℝ
  u : Fin n → ℝ
  a : ℝ

/-- `_getMaxVariance`, rank1.py:66-68 -/
noncomputable def maxVariance (s : St n) : ℝ := Real.exp (s.a * 2 / n)

/-- a sample, rank1.py:111-112, from standard normal numbers: `w` and the point -/
def w (u : Fin n → ℝ) (s : Fin (n + 1) → ℝ) : Fin n → ℝ := (fun i => s i.castSucc) + s (Fin.last n) • u
noncomputable def point (st : St n) (w : Fin n → ℝ) : Fin n → ℝ := st.center + Real.exp st.a • w

/-- the utilities, rank1.py:118-121 -/
noncomputable def utilities {ι : Type} [Fintype ι] (uniformBaseline : Bool) (shaped : ι → ℝ) (i : ι) : ℝ :=
  shaped i / (∑ j, shaped j) - (if uniformBaseline then 1 / (Fintype.card ι : ℝ) else 0)

section
variable {ι : Type} [Fintype ι]

/-- the natural gradients on the scale and on the vector, rank1.py:128-147. (Samples with utility 0, which are removed first, do not contribute to the sums.) -/
noncomputable def gradA (u : Fin n → ℝ) (W : ι → Fin n → ℝ) (util : ι → ℝ) : ℝ :=
  let v := (1 / √(u ⬝ᵥ u)) • u
  1 / (2 * ((n : ℝ) - 1)) * ∑ i, ((W i ⬝ᵥ W i - n) - ((v ⬝ᵥ W i) ^ 2 - 1)) * util i

noncomputable def gradU (u : Fin n → ℝ) (W : ι → Fin n → ℝ) (util : ι → ℝ) : Fin n → ℝ :=
  let r := √(u ⬝ᵥ u)
  let v := (1 / r) • u
  let kp i := ((r ^ 2 - n + 2) * (v ⬝ᵥ W i) ^ 2 - (r ^ 2 + 1) * (W i ⬝ᵥ W i)) / (2 * r * (n - 1))
  (∑ i, kp i * util i) • v + ∑ i, ((v ⬝ᵥ W i) / r * util i) • W i

/-- the new principal vector, rank1.py:149-168. If `du` is zero, the quotient in line 155 is infinite and the learning rate is the minimum. -/
noncomputable def updateU (covLearningRate : ℝ) (u du : Fin n → ℝ) : Fin n → ℝ :=
  let r := √(u ⬝ᵥ u)
  let v := (1 / r) • u
  let c := Real.log r
  let dc := du ⬝ᵥ v / r
  let dv := (1 / r) • du - dc • v
  let epsilon := if du ⬝ᵥ du = 0 then covLearningRate else min covLearningRate (2 * √(r ^ 2 / (du ⬝ᵥ du)))
  if dc > 0 then u + epsilon • du
  else
    let c := c + epsilon * dc
    let v := v + epsilon • dv
    let v := (1 / √(v ⬝ᵥ v)) • v
    Real.exp c • v

/-- `_learnStep`, rank1.py:104-174, for the vectors `w` of the samples and the utilities. In one dimension line 144 divides by zero. -/
noncomputable def learnStep (c : Used) (W : ι → Fin n → ℝ) (util : ι → ℝ) (s : St n) : Except Err (St n) :=
  if n = 1 then .error .zeroDivision
  else .ok
    { center := s.center + c.centerLearningRate • (Real.exp s.a • ∑ i, util i • W i)
      u := updateU c.covLearningRate s.u (gradU s.u W util)
      a := s.a + c.scaleLearningRate * gradA s.u W util }

end

end Verif.Rank1
