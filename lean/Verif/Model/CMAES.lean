import Verif.Model.NES
import Mathlib.Analysis.SpecialFunctions.Pow.Real
import Mathlib.LinearAlgebra.Matrix.PosDef
/-!
Model of `CMAES`, optimization/distributionbased/cmaes.py:13-131.

Points are vectors of `n` real numbers; floating point is idealised. `g` is the function `_oneEvaluation` calls (to be minimised); its bookkeeping
is that of C30. The normal draws of a step are an argument: `z k` is column `k` of `arz`. `numpy.linalg.eig` is an argument as well: from a matrix
it returns (real parts of) eigenvalues and the matrix of eigenvectors. `storeAllCenters` and the messages are left out.
-/

namespace Verif.CMA
open Matrix Verif.NES

variable {n : Nat}

/-- `batchSize`, cmaes.py:120-122 -/
noncomputable def batchSize (n : Nat) : Nat := 4 + ⌊3 * Real.log n⌋₊

/-- `mu`, cmaes.py:33 -/
noncomputable def mu (n : Nat) : Nat := ⌊(batchSize n : ℝ) / 2⌋₊

/-- `weights`, cmaes.py:34-35 -/
noncomputable def weights (n : Nat) : List ℝ :=
  let w := (List.range (mu n)).map (fun i : Nat => Real.log (mu n + 1) - Real.log ((i : ℝ) + 1))
  w.map (fun x => x / w.sum)

/-- `muEff`, cmaes.py:36, and `muCov`, 41 -/
noncomputable def muEff (n : Nat) : ℝ := (weights n).sum ^ 2 / ((weights n).map (fun w => w ^ 2)).sum

/-- cmaes.py:39 -/
noncomputable def cumCov (n : Nat) : ℝ := 4 / ((n : ℝ) + 4)

/-- cmaes.py:40 -/
noncomputable def cumStep (n : Nat) : ℝ := (muEff n + 2) / (n + muEff n + 3)

/-- cmaes.py:42-43 -/
noncomputable def covLearningRate (n : Nat) : ℝ :=
  (1 / muEff n) * 2 / ((n : ℝ) + 1.4) ^ 2 + (1 - 1 / muEff n) * ((2 * muEff n - 1) / (((n : ℝ) + 2) ^ 2 + 2 * muEff n))

/-- cmaes.py:44 -/
noncomputable def dampings (n : Nat) : ℝ := 1 + 2 * max 0 (Real.sqrt ((muEff n - 1) / ((n : ℝ) + 1)) - 1) + cumStep n

/-- cmaes.py:53 -/
noncomputable def chiN (n : Nat) : ℝ := (n : ℝ) ^ (0.5 : ℝ) * (1 - 1 / (4 * (n : ℝ)) + 1 / (21 * (n : ℝ) ^ 2))

structure Cma (n : Nat) where
  center : Vec n
  stepSize : ℝ
  covPath : Vec n
  stepPath : Vec n
  B : Matrix (Fin n) (Fin n) ℝ
  D : Matrix (Fin n) (Fin n) ℝ
  C : Matrix (Fin n) (Fin n) ℝ
  numEvaluations : Nat
  numLearningSteps : Nat
  maxLearningSteps : Option Nat

/-- `_additionalInit`, cmaes.py:26-29 and 47-52 -/
def Cma.init (x0 : Vec n) (initStepSize : ℝ) (maxLearningSteps : Option Nat) : Cma n :=
  { center := x0, stepSize := initStepSize, covPath := 0, stepPath := 0, B := 1, D := 1, C := (1 * 1) * (1 * 1)ᵀ, numEvaluations := 0,
    numLearningSteps := 0, maxLearningSteps := maxLearningSteps }

/-- Euclidean norm -/
noncomputable def norm2 (v : Vec n) : ℝ := Real.sqrt (v ⬝ᵥ v)

/-- column `k` of `arx`, cmaes.py:59-60 -/
def Cma.point (s : Cma n) (z : Vec n) : Vec n := s.center + s.stepSize • ((s.B * s.D) *ᵥ z)

/-- `sorti`, cmaes.py:125-130: the fitnesses in ascending order with their positions -/
noncomputable def sorti (fits : List ℝ) : List (ℝ × Nat) := fits.zipIdx.mergeSort Ranking.tupleLe

/-- `hsig`, cmaes.py:81-82; `ne` is `numEvaluations` -/
noncomputable def hsig (n : Nat) (stepPath : Vec n) (ne : Nat) : Bool :=
  decide (norm2 stepPath / Real.sqrt (1 - (1 - cumStep n) ^ ((2 * ne : ℝ) / (batchSize n : ℝ))) / chiN n < 1.4 + 2 / ((n : ℝ) + 1))

/-- `_learnStep`, cmaes.py:55-118, and the counter, optimizer.py:200-203 -/
noncomputable def Cma.step (eig : Matrix (Fin n) (Fin n) ℝ → Vec n × Matrix (Fin n) (Fin n) ℝ) (stopPrecision : ℝ) (g : Vec n → ℝ)
    (z : Nat → Vec n) (s : Cma n) : Cma n :=
  let arz := (List.range (batchSize n)).map z
  let arx := arz.map s.point
  let ne := s.numEvaluations + batchSize n
  let sorted := sorti (arx.map g)
  let arzsel := ((sorted.map Prod.snd).filterMap (fun i => arz[i]?)).take (mu n)
  let arxsel := ((sorted.map Prod.snd).filterMap (fun i => arx[i]?)).take (mu n)
  let arxmut := arxsel.map (fun x => x - s.center)
  let zmean : Vec n := wsum (weights n) arzsel
  let center : Vec n := wsum (weights n) arxsel
  let stepPath := (1 - cumStep n) • s.stepPath + Real.sqrt (cumStep n * (2 - cumStep n) * muEff n) • (s.B *ᵥ zmean)
  let hs := hsig n stepPath ne
  let hsv : ℝ := if hs then 1 else 0
  let covPath := (1 - cumCov n) • s.covPath + (hsv * Real.sqrt (cumCov n * (2 - cumCov n) * muEff n)) • ((s.B * s.D) *ᵥ zmean)
  let C := (1 - covLearningRate n) • s.C +
    (covLearningRate n * (1 / muEff n)) • (vecMulVec covPath covPath + ((1 - hsv) * cumCov n * (2 - cumCov n)) • s.C) +
    (covLearningRate n * (1 - 1 / muEff n)) • wsum (weights n) (arxmut.map (fun v => vecMulVec v v))
  let stepSize := s.stepSize * Real.exp ((cumStep n / dampings n) * (norm2 stepPath / chiN n - 1))
  let C := (1 / 2 : ℝ) • (C + Cᵀ)
  let Ev := (eig C).1
  let best := (sorted.map Prod.fst).headD 0
  let worst := (sorted.map Prod.fst).getLastD 0
  let converged := best = worst ∨ |best - worst| / (|best| + |worst|) ≤ stopPrecision
  let diverged := ∀ i, 1e5 < Ev i
  { center := center, stepSize := stepSize, covPath := covPath, stepPath := stepPath, B := (eig C).2, D := diagonal (fun i => Real.sqrt (Ev i)), C := C,
    numEvaluations := ne, numLearningSteps := s.numLearningSteps + 1,
    maxLearningSteps := open Classical in if converged ∨ diverged then some s.numLearningSteps else s.maxLearningSteps }

/-- consecutive learning steps -/
noncomputable def Cma.run (eig : Matrix (Fin n) (Fin n) ℝ → Vec n × Matrix (Fin n) (Fin n) ℝ) (stopPrecision : ℝ) (g : Vec n → ℝ) :
    List (Nat → Vec n) → Cma n → Cma n
  | [], s => s
  | z :: zs, s => (s.step eig stopPrecision g z).run eig stopPrecision g zs

/-- the test on `maxLearningSteps` in `_stoppingCriterion`, optimizer.py:290 -/
def Cma.stops (s : Cma n) : Prop := ∃ m, s.maxLearningSteps = some m ∧ m < s.numLearningSteps

end Verif.CMA
