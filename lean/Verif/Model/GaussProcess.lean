import Verif.Model.KMeans
import Mathlib.Analysis.SpecialFunctions.Exp
import Mathlib.LinearAlgebra.Matrix.NonsingularInverse
/-!
Model of `pybrain/auxiliary/gaussprocess.py`: the class `GaussianProcess` without plotting and without `autonoise` (off by default). Reals stand
for floats, `solve` and `inv` are the exact solution and inverse. The grid of test points made by the constructor is an argument. Data sets are
given as lists of inputs and scalar targets.
-/

namespace Verif.GaussP
open Matrix Verif.NES Verif.KMeans

variable {d : Nat}

/-- `_kernel`, gaussprocess.py:45-51; `l` and `sigmaF` are the first two hyper parameters -/
noncomputable def kernel (l sigmaF : ℝ) (a b : Vec d) : ℝ := sigmaF ^ 2 * Real.exp (-1 / (2 * l ^ 2) * sqDist a b)

/-- `_buildCov`, gaussprocess.py:64-69 -/
noncomputable def buildCov (l sigmaF : ℝ) (a b : List (Vec d)) : Matrix (Fin a.length) (Fin b.length) ℝ :=
  Matrix.of fun i j => kernel l sigmaF a[i] b[j]

/-- the attributes, gaussprocess.py:29-43. `predCov` is a list of rows. -/
structure GP (d : Nat) where
  mean : ℝ
  hyper : ℝ × ℝ
  trainx : List (Vec d)
  trainy : List ℝ
  noise : List ℝ
  testx : List (Vec d)
  calculated : Bool
  predMean : List ℝ
  predCov : List (List ℝ)

/-- the rows of a matrix -/
def rows {m n : Nat} (M : Matrix (Fin m) (Fin n) ℝ) : List (List ℝ) := List.ofFn fun i => List.ofFn fun j => M i j

/-- the constructor, gaussprocess.py:21-43; `grid` is the result of `_buildGrid` -/
noncomputable def GP.init (grid : List (Vec d)) : GP d :=
  { mean := 0, hyper := (0.5, 2), trainx := [], trainy := [], noise := [], testx := grid, calculated := true,
    predMean := List.replicate grid.length 0, predCov := rows (1 : Matrix (Fin grid.length) (Fin grid.length) ℝ) }

/-- `reset`, gaussprocess.py:71-76: `calculated` stays as it is -/
noncomputable def GP.reset (g : GP d) : GP d :=
  { g with
    trainx := []
    trainy := []
    noise := []
    predMean := List.replicate g.testx.length 0
    predCov := rows (1 : Matrix (Fin g.testx.length) (Fin g.testx.length) ℝ) }

/-- `trainOnDataset`, gaussprocess.py:78-87 -/
noncomputable def GP.trainOnDataset (g : GP d) (ds : List (Vec d × ℝ)) : GP d :=
  { g with
    trainx := ds.map Prod.fst
    trainy := ds.map Prod.snd
    noise := List.replicate ds.length 0.001
    calculated := false }

/-- `addDataset`, gaussprocess.py:89-97 -/
noncomputable def GP.addDataset (g : GP d) (ds : List (Vec d × ℝ)) : GP d :=
  let trainx := g.trainx ++ ds.map Prod.fst
  { g with
    trainx := trainx
    trainy := g.trainy ++ ds.map Prod.snd
    noise := List.replicate trainx.length 0.001
    calculated := false }

/-- `addSample`, gaussprocess.py:99-103 -/
noncomputable def GP.addSample (g : GP d) (train : Vec d) (target : ℝ) : GP d :=
  { g with
    trainx := g.trainx ++ [train]
    trainy := g.trainy ++ [target]
    noise := g.noise ++ [0.001]
    calculated := false }

/-- the matrix `K`, gaussprocess.py:116, 122 -/
noncomputable def GP.K (g : GP d) : Matrix (Fin g.trainx.length) (Fin g.trainx.length) ℝ :=
  buildCov g.hyper.1 g.hyper.2 g.trainx g.trainx + diagonal fun i : Fin g.trainx.length => g.noise.getD i 0

/-- `_calculate`, gaussprocess.py:110-146 -/
noncomputable def GP.calculate (g : GP d) : GP d :=
  if g.trainx.length = 0 then g
  else
    let train_test := buildCov g.hyper.1 g.hyper.2 g.trainx g.testx
    let test_train := train_testᵀ
    let test_test := buildCov g.hyper.1 g.hyper.2 g.testx g.testx
    { g with
      predMean := List.ofFn fun i => g.mean + (test_train *ᵥ (g.K⁻¹ *ᵥ fun j => g.trainy.getD j 0 - g.mean)) i
      predCov := rows (test_test - test_train * (g.K⁻¹ * train_test))
      calculated := true }

/-- `testOnArray`, gaussprocess.py:105-108 -/
noncomputable def GP.testOnArray (g : GP d) (arr : List (Vec d)) : GP d × List ℝ :=
  let g := GP.calculate { g with testx := arr }
  (g, g.predMean)

/-- `draw`, gaussprocess.py:148-152: the mean and the covariance of the multivariate normal distribution of the result -/
noncomputable def GP.draw (g : GP d) : GP d × List ℝ × List (List ℝ) :=
  let g := if g.calculated then g else g.calculate
  (g, g.predMean, g.predCov)

/-- a call that changes a Gaussian process; `setHyper` and `setMean` are assignments to the attributes -/
inductive Op (d : Nat)
  | reset
  | trainOnDataset (ds : List (Vec d × ℝ))
  | addDataset (ds : List (Vec d × ℝ))
  | addSample (x : Vec d) (y : ℝ)
  | testOnArray (arr : List (Vec d))
  | draw
  | setHyper (l sigmaF : ℝ)
  | setMean (m : ℝ)

/-- one call -/
noncomputable def GP.step (g : GP d) : Op d → GP d
  | .reset => g.reset
  | .trainOnDataset ds => g.trainOnDataset ds
  | .addDataset ds => g.addDataset ds
  | .addSample x y => g.addSample x y
  | .testOnArray arr => (g.testOnArray arr).1
  | .draw => g.draw.1
  | .setHyper l s => { g with hyper := (l, s) }
  | .setMean m => { g with mean := m }

/-- a history of calls -/
noncomputable def GP.run (g : GP d) : List (Op d) → GP d
  | [] => g
  | op :: ops => GP.run (g.step op) ops

end Verif.GaussP
