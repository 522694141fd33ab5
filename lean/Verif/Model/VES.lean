import Mathlib.LinearAlgebra.Matrix.NonsingularInverse
import Mathlib.Analysis.SpecialFunctions.Exp
import Mathlib.Data.Real.Basic
/-
Model of pybrain/optimization/distributionbased/ves.py (vanilla gradient evolution strategies) and nes.py (exact and original natural evolution strategies): derivatives, baselines, updates and densities.

The samples and their shaped fitnesses are given (importance mixing is modelled in Verif.Model.ImportanceMixing, shaping in Verif.Model.Ranking, `triu2flat` and `flat2triu` in Verif.Model.Blocks). A vector of the
distribution's parameters is a center and the upper triangle of a matrix, whose rows are the blocks of the flat vector. Left out: `vanillaScale`, `momentum`, `elitism`, online learning (they are in Verif.Model.VESOptions). `numDistrParams`
is the integer that is meant. Real numbers stand for floats.
-/
namespace Verif.VES
open Matrix

variable {n : ℕ}

/-- `_additionalInit`, ves.py:69-71: center and factor, for the random numbers `r` and the Cholesky factor `chol` of the covariance; the initial point is not used -/
def start (rangemins rangemaxs : Fin n → ℝ) (chol : Matrix (Fin n) (Fin n) ℝ) (_x0 r : Fin n → ℝ) : (Fin n → ℝ) × Matrix (Fin n) (Fin n) ℝ :=
  (fun i => r i * (rangemaxs i - rangemins i) + rangemins i, chol)

/-- a new sample, ves.py:90-91, 122-124 -/
def newSample (factorSigma : Matrix (Fin n) (Fin n) ℝ) (x p : Fin n → ℝ) : Fin n → ℝ := factorSigmaᵀ *ᵥ p + x

/-- the densities for importance mixing, ves.py:114-120 -/
noncomputable def pdf (factorSigma : Matrix (Fin n) (Fin n) ℝ) (x s : Fin n → ℝ) : ℝ :=
  let p := (factorSigma⁻¹)ᵀ *ᵥ (s - x)
  Real.exp (-0.5 * (p ⬝ᵥ p)) / factorSigma.det

/-- `_logDerivX`, ves.py:218-219 -/
def logDerivX (sample x : Fin n → ℝ) (invSigma : Matrix (Fin n) (Fin n) ℝ) : Fin n → ℝ := invSigma *ᵥ (sample - x)

/-- `_logDerivFactorSigma`, ves.py:226-230: the matrix of which the upper triangle is taken -/
noncomputable def logDerivFactorSigma (sample x : Fin n → ℝ) (invSigma factorSigma : Matrix (Fin n) (Fin n) ℝ) : Matrix (Fin n) (Fin n) ℝ :=
  let logDerivSigma := (0.5 : ℝ) • (invSigma * vecMulVec (sample - x) (sample - x) * invSigma) - (0.5 : ℝ) • invSigma
  factorSigma * (logDerivSigma + logDerivSigmaᵀ)

/-- `OriginalNES._logDerivsFactorSigma` for one sample, nes.py:127-138, and the matrix `R` of `ExactNES._calcBatchUpdate`, nes.py:39-40: the upper triangle is taken -/
noncomputable def logDerivNES (sample x : Fin n → ℝ) (factorSigma : Matrix (Fin n) (Fin n) ℝ) : Matrix (Fin n) (Fin n) ℝ :=
  let s := (factorSigma⁻¹)ᵀ *ᵥ (sample - x)
  vecMulVec s (factorSigma⁻¹ *ᵥ s) - diagonal (factorSigma⁻¹).diag

section Gradient
variable {P ι : Type} [Fintype ι]

/-- `_calcBaseline`, ves.py:263-266 -/
noncomputable def baseline (phi : ι → P → ℝ) (f : ι → ℝ) (j : P) : ℝ := (∑ i, f i * (phi i j * phi i j)) / ∑ i, 1 * (phi i j * phi i j)

/-- `_calcVanillaBatchGradient`, ves.py:235-249 -/
noncomputable def gradient (phi : ι → P → ℝ) (f : ι → ℝ) (j : P) : ℝ := ∑ i, phi i j * (f i - baseline phi f j)

/-- `OriginalNES._calcBatchUpdate`, nes.py:115-125: a column of ones is appended to the derivatives (here `none`), and the product of the pseudoinverse `pinv2` and the fitnesses is taken without the last component -/
def originalUpdate (pinv2 : (ι → Option P → ℝ) → Option P → ι → ℝ) (phi : ι → P → ℝ) (f : ι → ℝ) (j : P) : ℝ :=
  ∑ i, pinv2 (fun i k => k.elim 1 (phi i)) (some j) i * f i

/-- the baselines of `ExactNES`, nes.py:17-20 -/
inductive Baseline
  | no
  | uniform
  | specific
  | block

/-- the end of `ExactNES._calcBatchUpdate`, nes.py:75-106, for the matrix `V`, the vector `u` and the block of each parameter -/
noncomputable def exactUpdate {B : Type} [Fintype P] [DecidableEq B] (type : Baseline) (block : P → B) (V : P → ι → ℝ) (u : P → ℝ) (f : ι → ℝ) (j : P) : ℝ :=
  (match type with
    | .block =>
      let b0 i := ∑ k with block k = block j, V k i * V k i
      let b := (∑ i, b0 i * f i) / ∑ i, b0 i
      ∑ i, V j i * (f i - b)
    | .specific =>
      let b := (∑ i, V j i * V j i * f i) / ∑ i, V j i * V j i
      ∑ i, V j i * (f i - b)
    | .uniform =>
      let v k := ∑ i, V k i
      u j - (∑ k, v k * u k) / (∑ k, v k * v k) * v j
    | .no => ∑ i, V j i * f i) / Fintype.card ι

end Gradient

/-- `blockCombine` of a number, a vector (as row and as column) and a matrix, nes.py:66-69 -/
def combine {d : ℕ} (r : ℝ) (v : Fin d → ℝ) (M : Matrix (Fin d) (Fin d) ℝ) : Matrix (Fin (d + 1)) (Fin (d + 1)) ℝ :=
  Matrix.of (Fin.cons (Fin.cons r v) fun i => Fin.cons (v i) (M i))

/-- The loop of `ExactNES._calcBatchUpdate` over the rows from the last to the first, nes.py:47-72, for one column of `V` (the upper triangle of `R`) or for `u`. `diagInvA` is the diagonal of the inverse of the
factor. The result is the last `D`, and the new column, as an upper triangle. -/
noncomputable def natural : (d : ℕ) → Matrix (Fin (d + 1)) (Fin (d + 1)) ℝ → (Fin (d + 1) → ℝ) → Matrix (Fin (d + 1)) (Fin (d + 1)) ℝ →
    Matrix (Fin (d + 1)) (Fin (d + 1)) ℝ × Matrix (Fin (d + 1)) (Fin (d + 1)) ℝ
  | 0, invSigma, diagInvA, R => (Matrix.of fun _ _ => 1 / invSigma 0 0, Matrix.of fun _ _ => 1 / (invSigma 0 0 + diagInvA 0 ^ 2) * R 0 0)
  | d + 1, invSigma, diagInvA, R =>
    let rest := natural d (invSigma.submatrix Fin.succ Fin.succ) (fun i => diagInvA i.succ) (R.submatrix Fin.succ Fin.succ)
    let D := rest.1
    let p : Fin (d + 1) → ℝ := fun i => invSigma i.succ 0
    let w := invSigma 0 0
    let wg := w + diagInvA 0 ^ 2
    let q := D *ᵥ p
    let c := p ⬝ᵥ q
    let r := 1 / (w - c)
    let rg := 1 / (wg - c)
    let t := -(1 + r * c) / w
    let tg := -(1 + rg * c) / wg
    let G := combine rg (tg • q) (D + rg • vecMulVec q q)
    (combine r (t • q) (D + r • vecMulVec q q), Matrix.of (Fin.cons (G *ᵥ R 0) fun i => Fin.cons 0 (rest.2 i)))

/-- the update of the distribution, ves.py:155-160: center, factor and covariance. Only the upper triangle of the factor is changed. -/
def step (learningRate learningRateSigma : ℝ) (s : (Fin n → ℝ) × Matrix (Fin n) (Fin n) ℝ) (ux : Fin n → ℝ) (uA : Matrix (Fin n) (Fin n) ℝ) : (Fin n → ℝ) × Matrix (Fin n) (Fin n) ℝ :=
  (s.1 + learningRate • ux, s.2 + learningRateSigma • Matrix.of fun i j => if i ≤ j then uA i j else 0)

/-- the covariance, ves.py:160 -/
def sigma (factorSigma : Matrix (Fin n) (Fin n) ℝ) : Matrix (Fin n) (Fin n) ℝ := factorSigmaᵀ * factorSigma

end Verif.VES
