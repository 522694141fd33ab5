import Mathlib.Data.Real.Basic
import Mathlib.Algebra.BigOperators.Fin
import Verif.Model.DataSet
/-
Model of `pybrain/rl/learners/directsearch/gpomdp.py`.

Numbers are reals.  `none` is numpy's nan, the result of the division of zero by zero.  As in the code, `sum` is the
builtin, so that `sum(loglhs[:t + 1, :], 0)` is the vector of the sums over the time steps, and `mean` of a vector along
axis 0 is a single number.
-/
namespace Verif.Gpomdp

open Verif.DataSet (Err)

/-- A sequence of the data set as seen by the learner: the fields `loglh` and `reward` at the time steps `0, …, len - 1`
(gpomdp.py:25). -/
structure Episode (d : ℕ) where
  len : ℕ
  loglh : ℕ → Fin d → ℝ
  reward : ℕ → ℝ

variable {d : ℕ}

/-- `sum(loglhs[:t + 1, :], 0)` (gpomdp.py:27, 35). -/
def sumLog (e : Episode d) (t : ℕ) (j : Fin d) : ℝ := ((List.range (t + 1)).map fun k => e.loglh k j).sum

/-- `mean(sum(loglhs[:t + 1, :], 0) ** 2 * rewards[t, :], 0) / mean(sum(loglhs[:t + 1, :], 0) ** 2, 0)`
(gpomdp.py:27). -/
noncomputable def contribution (e : Episode d) (t : ℕ) : Option ℝ :=
  open Classical in
  let q := (∑ j, sumLog e t j ^ 2) / d
  if q = 0 then none else some ((∑ j, sumLog e t j ^ 2 * e.reward t) / d / q)

/-- `baselines[t]` (gpomdp.py:21-30): `seqcount[t]` is the number of the sequences that have the time step. -/
noncomputable def baseline (es : List (Episode d)) (t : ℕ) : Option ℝ :=
  ((es.filter fun e => t < e.len).mapM fun e => contribution e t).map fun l => l.sum / l.length

/-- `g[seq, j]` (gpomdp.py:32-35). -/
noncomputable def gOf (es : List (Episode d)) (e : Episode d) (j : Fin d) : Option ℝ :=
  ((List.range e.len).mapM fun t => (baseline es t).map fun b => sumLog e t j * (e.reward t - b)).map List.sum

/-- `GPOMDP.calculateGradient` (gpomdp.py:12-38); `max` of the empty list of lengths fails. -/
noncomputable def calculateGradient (es : List (Episode d)) : Except Err (Fin d → Option ℝ) :=
  if es = [] then .error .emptySequence else
    .ok fun j => (es.mapM fun e => gOf es e j).map fun l => l.sum / es.length

end Verif.Gpomdp
