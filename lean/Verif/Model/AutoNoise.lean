import Verif.Model.GaussProcess
import Verif.Model.DataSet
import Mathlib.Data.List.Sort
/-
Model of the option `autonoise` of pybrain/auxiliary/gaussprocess.py (lines 124-142), which Verif.Model.GaussProcess leaves out. As there, reals stand for floats, `solve` and `inv` are the exact solution and inverse.
Inputs have at least one component.
-/
namespace Verif.GaussP
open Matrix Verif.NES Verif.KMeans
open Verif.DataSet (Err)

variable {d : Nat}

/-- one row of `sort(self.trainx)`, gaussprocess.py:127: numpy sorts along the last axis, the components of one input -/
noncomputable def sortRow (x : Vec d) : Vec d := fun i => ((List.ofFn x).insertionSort (· ≤ ·)).getD i 0

/-- the sum over the loop, gaussprocess.py:126-131, given the previous row -/
noncomputable def gaps : Vec d → List (Vec d) → Vec d
  | _, [] => 0
  | p, x :: xs => (x - p) + gaps x xs

/-- `avgdist`, gaussprocess.py:126-132, for at least two rows: an array with one entry for each component -/
noncomputable def avgdist (xs : List (Vec d)) : Vec d :=
  match xs.map sortRow with
  | [] => 0
  | x :: rest => ((xs.length : ℝ) - 1)⁻¹ • gaps x rest

/-- `norm(a - b)` -/
noncomputable def dist (a b : Vec d) : ℝ := Real.sqrt (sqDist a b)

/-- the summand `d`, gaussprocess.py:141 -/
noncomputable def disagreement (a b : Vec d × ℝ) : ℝ := |a.2 - b.2| / Real.exp (dist a.1 b.1)

/-- What is added to the `i`-th entry of the diagonal, gaussprocess.py:136-142. For a single input the division in line 132 has the divisor 0; for more components the truth value of the comparison in line 138 is ambiguous. -/
noncomputable def GP.autonoise (g : GP d) : Except Err (Fin g.trainx.length → ℝ) :=
  if g.trainx.length = 1 then .error .zeroDivision
  else if h : d = 1 then
    .ok fun i => ((g.trainx.zip g.trainy).map fun q =>
      if dist g.trainx[i] q.1 > avgdist g.trainx ⟨0, by omega⟩ then 0 else disagreement (g.trainx[i], g.trainy.getD i 0) q).sum
  else .error .valueError

/-- `_calculate` with `autonoise`, gaussprocess.py:110-146 -/
noncomputable def GP.calculateAuto (g : GP d) : Except Err (GP d) :=
  if g.trainx.length = 0 then .ok g
  else
    match g.autonoise with
    | .error e => .error e
    | .ok extra =>
      let train_test := buildCov g.hyper.1 g.hyper.2 g.trainx g.testx
      let test_train := train_testᵀ
      let test_test := buildCov g.hyper.1 g.hyper.2 g.testx g.testx
      let K := g.K + diagonal extra
      .ok { g with
        predMean := List.ofFn fun i => g.mean + (test_train *ᵥ (K⁻¹ *ᵥ fun j => g.trainy.getD j 0 - g.mean)) i
        predCov := rows (test_test - test_train * (K⁻¹ * train_test))
        calculated := true }

/-- `testOnArray` with `autonoise`, gaussprocess.py:105-108 -/
noncomputable def GP.testAuto (g : GP d) (arr : List (Vec d)) : Except Err (GP d) := GP.calculateAuto { g with testx := arr }

end Verif.GaussP
