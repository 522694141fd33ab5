import Verif.Model.Layers
import Mathlib.Algebra.BigOperators.Fin
import Mathlib.Analysis.SpecialFunctions.Pow.Real
import Mathlib.Analysis.SpecialFunctions.Trigonometric.Basic
/-
Model of pybrain/structure/modules/gaussianlayer.py, statedependentlayer.py, mixturedensity.py, softmax.py (PartialSoftmaxLayer) and of
pybrain/supervised/trainers/mixturedensity.py, over the reals. `random.normal(mean, std)` is the mean plus the standard deviation times a
standard normal number, which is an argument. The transfer functions are those of Verif/Model/Layers.lean.
-/
namespace Verif.GaussLayers
open Verif.Net Finset

/-- The options and parameters of a `GaussianLayer`, gaussianlayer.py:13-19 -/
structure Gauss (n : ℕ) where
  params : Fin n → ℝ
  derivs : Fin n → ℝ
  autoalpha : Bool
  enabled : Bool

/-- `GaussianLayer._forwardImplementation`, gaussianlayer.py:28-32 -/
noncomputable def Gauss.forward {n : ℕ} (l : Gauss n) (noise inbuf : Fin n → ℝ) : Fin n → ℝ :=
  if l.enabled then fun i => inbuf i + expln (l.params i) * noise i else inbuf

/-- `GaussianLayer._backwardImplementation`, gaussianlayer.py:34-41: the layer with new derivatives, and the error of the input. The
argument `outerr` is not read. -/
noncomputable def Gauss.backward {n : ℕ} (l : Gauss n) (outbuf inbuf : Fin n → ℝ) : Gauss n × (Fin n → ℝ) :=
  let derivs := fun i => l.derivs i + ((outbuf i - inbuf i) ^ 2 - expln (l.params i) ^ 2) / expln (l.params i) * explnPrime (l.params i)
  let inerr := fun i => outbuf i - inbuf i
  if l.autoalpha then ({ l with derivs := derivs }, inerr)
  else ({ l with derivs := fun i => derivs i / expln (l.params i) ^ 2 }, fun i => inerr i / expln (l.params i) ^ 2)

/-- `StateDependentLayer` with `onesigma=True`, statedependentlayer.py:12-31: the parameter, the derivative, the state (`m` numbers) and the
exploration to be added -/
structure OneSigma (n m : ℕ) where
  param : ℝ
  deriv : ℝ
  state : Fin m → ℝ
  exploration : Fin n → ℝ
  autoalpha : Bool
  enabled : Bool

/-- `setState`, statedependentlayer.py:33-36; `module` is the function computed by the module for exploration -/
def OneSigma.setState {n m : ℕ} (module : (Fin m → ℝ) → Fin n → ℝ) (l : OneSigma n m) (s : Fin m → ℝ) : OneSigma n m :=
  { l with state := s, exploration := module s }

/-- `_forwardImplementation`, statedependentlayer.py:42-48. (The comparison of an array with `None` in the assertion is taken as true.) -/
def OneSigma.forward {n m : ℕ} (l : OneSigma n m) (inbuf : Fin n → ℝ) : OneSigma n m × (Fin n → ℝ) :=
  ({ l with exploration := fun _ => 0 }, if l.enabled then fun j => inbuf j + l.exploration j else inbuf)

/-- `_backwardImplementation` with one sigma, statedependentlayer.py:51-63 -/
noncomputable def OneSigma.backward {n m : ℕ} (l : OneSigma n m) (outbuf inbuf : Fin n → ℝ) : OneSigma n m × (Fin n → ℝ) :=
  let e := expln l.param
  let sumx := ∑ i, l.state i * l.state i
  let deriv := l.deriv + (∑ j, ((outbuf j - inbuf j) ^ 2 - e ^ 2 * sumx)) / e * explnPrime l.param
  let inerr := fun j => outbuf j - inbuf j
  if l.autoalpha = false ∧ sumx ≠ 0 then ({ l with deriv := deriv / (e ^ 2 * sumx) }, fun j => inerr j / (e ^ 2 * sumx))
  else ({ l with deriv := deriv }, inerr)

/-- `sigma_subst2`, statedependentlayer.py:73 -/
noncomputable def subst2 {n m : ℕ} (params : Fin n → Fin m → ℝ) (state : Fin m → ℝ) (j : Fin n) : ℝ := ∑ i, state i ^ 2 * expln (params j i) ^ 2

/-- `_backwardImplementation` with separate sigmas, statedependentlayer.py:64-82: the derivatives (assigned, not added; entry (j, i) is at
index `j * m + i`) and the error of the input -/
noncomputable def separateBackward {n m : ℕ} (autoalpha : Bool) (params : Fin n → Fin m → ℝ) (state : Fin m → ℝ) (outbuf inbuf : Fin n → ℝ) :
    (Fin n → Fin m → ℝ) × (Fin n → ℝ) :=
  (fun j i =>
    let d := ((outbuf j - inbuf j) ^ 2 - subst2 params state j) / subst2 params state j * state i ^ 2 * expln (params j i) * explnPrime (params j i)
    if autoalpha = true ∧ subst2 params state j ≠ 0 then d / subst2 params state j else d,
   fun j => if autoalpha = false ∧ subst2 params state j ≠ 0 then (outbuf j - inbuf j) / subst2 params state j else outbuf j - inbuf j)

/-- `MixtureDensityLayer._forwardImplementation`, mixturedensity.py:26-34: `K` Gaussians in `d` dimensions, all values in one array -/
noncomputable def mixForward (K : ℕ) (inbuf : ℕ → ℝ) : ℕ → ℝ := fun i =>
  if i < K then safeExp (inbuf i) / ∑ k ∈ range K, safeExp (inbuf k) else if i < K * 2 then safeExp (inbuf i) else inbuf i

/-- `gaussian`, trainers/mixturedensity.py:8-12, for a target with `d` entries; the mean begins at index `o` of the array -/
noncomputable def gaussian (d : ℕ) (x : ℕ → ℝ) (par : ℕ → ℝ) (o : ℕ) (stddev : ℝ) : ℝ :=
  Real.exp (-(1 / 2) * ∑ i ∈ range d, ((x i - par (o + i)) / stddev) ^ 2) / ((2 * Real.pi) ^ ((1 / 2 : ℝ) * d) * stddev)

/-- The contributions `coeff * gaussian(...)` of the loop, trainers/mixturedensity.py:55-61 -/
noncomputable def contribution (K d : ℕ) (target par : ℕ → ℝ) (k : ℕ) : ℝ := par k * gaussian d target par (2 * K + k * d) (par (k + K))

/-- The error of one sample, trainers/mixturedensity.py:63-65 -/
noncomputable def mixError (K d : ℕ) (target par : ℕ → ℝ) : ℝ := -Real.log (∑ k ∈ range K, contribution K d target par k)

/-- The posterior `gamma`, trainers/mixturedensity.py:66 -/
noncomputable def posterior (K d : ℕ) (target par : ℕ → ℝ) (k : ℕ) : ℝ :=
  contribution K d target par k / ∑ k ∈ range K, contribution K d target par k

/-- `outputerror`, trainers/mixturedensity.py:68-82 -/
noncomputable def mixOutputError (K d : ℕ) (target par : ℕ → ℝ) : ℕ → ℝ := fun i =>
  -(if i < K then par i - posterior K d target par i
    else if i < 2 * K then
      let k := i - K
      let s := par (k + K)
      (-1) * posterior K d target par k * ((∑ q ∈ range d, (par (2 * K + k * d + q) - target q) * (par (2 * K + k * d + q) - target q)) *
        (1 / s ^ 2) * (1 / s) - 1 / s)
    else
      let k := (i - 2 * K) / d
      let s := par (k + K)
      posterior K d target par k * (par i - target ((i - 2 * K) % d)) * (1 / s ^ 2))

/-- `PartialSoftmaxLayer._forwardImplementation`, softmax.py:33-37, with the division of the number of units taken as a whole number: the last
line assigns to the local name `outbuf`, so that what is left in the buffer is what the first line wrote. -/
noncomputable def partialSoftmax (inbuf : ℕ → ℝ) : ℕ → ℝ := fun i => safeExp (inbuf i)

end Verif.GaussLayers
