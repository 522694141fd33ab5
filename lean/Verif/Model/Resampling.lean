import Mathlib.Algebra.Order.Floor.Ring
import Mathlib.Algebra.Order.Field.Basic
import Mathlib.Data.List.Sort
import Verif.Model.DataSet
/-
Model of `AdaptiveResampler` (`pybrain/tools/aptativeresampling.py`).

Numbers are an ordered field with rounding.  The wrapped function is noisy: its `k`-th evaluation returns `f k`.  The median of no
numbers (numpy's nan) is 0; `C145_range` shows that it is not taken.
-/
namespace Verif.Resampling

open Verif.DataSet (Err)

variable {K : Type} [Field K] [LinearOrder K] [FloorRing K]

/-- `scipy.median` of a list. -/
def median (l : List K) : K :=
  let s := l.insertionSort (· ≤ ·)
  if s.length % 2 = 1 then s.getD (s.length / 2) 0 else (s.getD (s.length / 2 - 1) 0 + s.getD (s.length / 2) 0) / 2

/-- The constants (aptativeresampling.py:12-17). -/
structure Config (K : Type) where
  batchsize : Nat
  updateFactor : K
  threshold : K
  maxResampling : Option K

/-- The attributes that change; `calls` counts the evaluations of the function. -/
structure State (K : Type) where
  recents : List (Option K)
  resampleOver : K
  numEvals : Nat
  calls : Nat

/-- `__init__` (aptativeresampling.py:12-21). -/
def init (c : Config K) : State K := ⟨List.replicate c.batchsize none, 1, 0, 0⟩

/-- `[self.f(x) for _ in range(int(self.resample_over))]` (aptativeresampling.py:24, 26), beginning with evaluation `k`. -/
def samples (f : Nat → K) (over : K) (k : Nat) : List K := (List.range ⌊over⌋₊).map fun i => f (k + i)

/-- `rc` (aptativeresampling.py:35); comparing with `None` fails. -/
def rankChange (recents : List (Option K)) (res alt : K) : Except Err Nat :=
  match recents.tail.mapM id with
  | none => .error .typeError
  | some xs => .ok (xs.countP fun x => (x - res) * (x - alt) < 0)

/-- `_adaptResampling` (aptativeresampling.py:33-41): the new `resample_over`. -/
def adapt (c : Config K) (s : State K) (res alt : K) : Except Err K :=
  (rankChange s.recents res alt).map fun (rc : Nat) =>
    if (rc : K) ≥ c.threshold * ((c.batchsize : K) - 1) then
      let o := s.resampleOver * c.updateFactor
      match c.maxResampling with
      | some m => if o > m then m else o
      | none => o
    else if rc = 0 then max (s.resampleOver / c.updateFactor) 1
    else s.resampleOver

/-- `__call__` (aptativeresampling.py:23-31), for a point at which the evaluations return `f 0, f 1, …`: the value and the new state. -/
def call (c : Config K) (f : Nat → K) (s : State K) : Except Err (K × State K) :=
  let k := ⌊s.resampleOver⌋₊
  let res := median (samples f s.resampleOver 0)
  if c.batchsize = 0 then .error .zeroDivision
  else if s.numEvals % c.batchsize = 0 ∧ s.numEvals > 0 then
    let alt := median (samples f s.resampleOver k)
    (adapt c s res alt).map fun o =>
      let r := 0.5 * res + 0.5 * alt
      (r, ⟨s.recents.set (s.numEvals % c.batchsize) (some r), o, s.numEvals + 1, s.calls + 2 * k⟩)
  else .ok (res, ⟨s.recents.set (s.numEvals % c.batchsize) (some res), s.resampleOver, s.numEvals + 1, s.calls + k⟩)

/-- A history of calls: the values and the last state. -/
def calls (c : Config K) : List (Nat → K) → State K → Except Err (List K × State K)
  | [], s => .ok ([], s)
  | f :: fs, s =>
    match call c f s with
    | .error e => .error e
    | .ok (v, s') => (calls c fs s').map fun r => (v :: r.1, r.2)

end Verif.Resampling
