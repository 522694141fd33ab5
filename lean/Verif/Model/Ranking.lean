import Mathlib.Analysis.SpecialFunctions.Pow.Real
import Mathlib.Analysis.SpecialFunctions.Log.Basic
/-
Model of pybrain/tools/rankingfunctions.py. Fitnesses are real numbers (no NaN), floating point is idealised.
-/
namespace Verif.Ranking

/-- order of Python tuples `(fitness, index)` as used by `l.sort()`, rankingfunctions.py:18-19 -/
def tupleLe {K : Type} [LinearOrder K] (a b : K × Nat) : Bool :=
  decide (a.1 < b.1) || (decide (a.1 = b.1) && decide (a.2 ≤ b.2))

/-- `for i, (_, j) in enumerate(l): res[j] = i`, rankingfunctions.py:20-21 -/
def rankLoop {K : Type} : List (K × Nat) → Nat → List Nat → List Nat
  | [], _, res => res
  | (_, j) :: l, i, res => rankLoop l (i + 1) (res.set j i)

/-- `rankedFitness`, rankingfunctions.py:10-22. (`zeros_like(R)` has the element type of `R`; ranks are kept as numbers here.) -/
def rankedFitness {K : Type} [LinearOrder K] (R : List K) : List Nat :=
  rankLoop (R.zipIdx.mergeSort tupleLe) 0 (List.replicate R.length 0)

/-- Python's `max(list)`; 0 stands for the exception on an empty list -/
noncomputable def maxOf : List ℝ → ℝ
  | [] => 0
  | x :: l => l.foldl max x

/-- `RankingFunction.__call__`, rankingfunctions.py:39-42 -/
noncomputable def defaultRanking (R : List ℝ) : List ℝ :=
  let res := (rankedFitness R).map (fun r : Nat => (r : ℝ))
  res.map (fun r => r / maxOf res)

/-- `SmoothGiniRanking.__call__`, rankingfunctions.py:73-82 -/
noncomputable def smoothGini (gini linearComponent : ℝ) (R : List ℝ) : List ℝ :=
  let res := (rankedFitness R).map (fun r : Nat => (r : ℝ) * linearComponent +
    ((r : ℝ) / ((R.length : ℝ) - 1)) ^ (2 / gini - 1) * (1 - linearComponent))
  res.map (fun v => v / maxOf res)

/-- `ExponentialRanking.__call__`, rankingfunctions.py:90-93 -/
noncomputable def exponential (temperature : ℝ) (R : List ℝ) : List ℝ :=
  (rankedFitness R).map (fun r : Nat => Real.exp ((r : ℝ) / ((R.length : ℝ) - 1) * temperature))

/-- `HansenRanking.__call__`, rankingfunctions.py:98-100 -/
noncomputable def hansen (R : List ℝ) : List ℝ :=
  (rankedFitness R).map (fun r : Nat => max 0 (Real.log ((R.length : ℝ) / 2 + 1) - Real.log ((R.length : ℝ) - r)))

/-- `TopSelection.__call__`, rankingfunctions.py:108-117 -/
noncomputable def topSelection (topFraction : ℝ) (R : List ℝ) : List ℝ :=
  let cutoff := (R.length : ℝ) * (1 - topFraction)
  (rankedFitness R).map (fun r : Nat => if (r : ℝ) ≥ cutoff then 1 else 0)

/-- `TopLinearRanking.__call__`, rankingfunctions.py:126-136 -/
noncomputable def topLinear (topFraction : ℝ) (R : List ℝ) : List ℝ :=
  let cutoff := (R.length : ℝ) * (1 - topFraction)
  let res := (rankedFitness R).map (fun r : Nat => if (r : ℝ) ≥ cutoff then (r : ℝ) - cutoff else 0)
  res.map (fun v => v / maxOf res)

/-- `BilinearRanking.__call__`, rankingfunctions.py:151-161 (`/` is real division) -/
noncomputable def bilinear (bilinearFactor : ℝ) (R : List ℝ) : List ℝ :=
  let t := 4 * (R.length : ℝ) / 5
  let res := (rankedFitness R).map (fun r : Nat => if (r : ℝ) < t then (r : ℝ) else (r : ℝ) + ((r : ℝ) - t) * bilinearFactor)
  res.map (fun v => v / maxOf res)

/-- numpy's `argmax` of a list: the first position of the largest value -/
def argmax {K : Type} [LinearOrder K] : List K → Nat
  | [] => 0
  | x :: l => (l.foldl (fun (s : Nat × Nat × K) v => if s.2.2 < v then (s.1 + 1, s.1, v) else (s.1 + 1, s.2)) (1, 0, x)).2.1

/-- `TournamentSelection.__call__`, rankingfunctions.py:51-62. `opponents i` are the positions drawn for position `i`
(`tournamentSize - 1` of them, each different from `i`: the rejection loop of lines 56-58). -/
def tournament {K : Type} [LinearOrder K] (opponents : Nat → List Nat) (R : List K) : List Nat :=
  (List.range R.length).foldl (fun res i =>
    let l := i :: opponents i
    let fits := l.filterMap (fun x => R[x]?)
    res.modify (argmax fits) (· + 1)) (List.replicate R.length 0)

end Verif.Ranking
