import Verif.Model.FunctionTransform
import Verif.Model.Benchmark
import Verif.Model.DataSet
import Mathlib.Analysis.SpecialFunctions.Pow.Real
import Mathlib.Analysis.SpecialFunctions.Sqrt
import Mathlib.Analysis.SpecialFunctions.Trigonometric.Basic
/-
Model of `BBOBTransformationFunction` (`pybrain/rl/environments/functions/transformations.py`).

Points are real vectors.  Random matrices and numbers are arguments.  The sparse representation of matrices in large dimensions
computes the same products; there the missing matrix is the unit matrix.  A result that is nan is `none`.
-/
namespace Verif.Bbob

open Verif.FunctionTransform (Vec penalize)
open Verif.DataSet (Err)
open Classical

variable {n : ℕ}

/-- The base function: its function, `xopt` and `penalized`. -/
structure Base (n : ℕ) where
  f : Vec n → ℝ
  xopt : Vec n
  penalized : Bool

/-- The arguments of the constructor (transformations.py:123-135). -/
structure Config where
  translate : Bool := true
  rotate : Bool := false
  conditioning : Option ℝ := none
  asymmetry : Option ℝ := none
  oscillate : Bool := false
  penalized : ℝ := 0
  gnoise : Option ℝ := none
  unoise : Option ℝ := none
  cnoise : Option (ℝ × ℝ) := none

/-- What the constructor draws: `rand(xdim)` and up to three orthogonal matrices. -/
structure Setup (n : ℕ) where
  rand : Vec n
  before : Matrix (Fin n) (Fin n) ℝ
  inner : Matrix (Fin n) (Fin n) ℝ
  outer : Matrix (Fin n) (Fin n) ℝ

/-- What an evaluation draws: two normal and two uniform numbers. -/
structure Draws where
  g : ℝ
  g' : ℝ
  u : ℝ
  u' : ℝ

/-- `if o:` for a number or `None`. -/
def truthy (o : Option ℝ) : Prop := ∃ v, o = some v ∧ v ≠ 0

/-- The tiny number `1e-100` (transformations.py:236, 267). -/
noncomputable def tiny : ℝ := 1 / 10 ^ 100

/-- One entry of `oscillatify` (transformations.py:266-269). -/
noncomputable def osc (x : ℝ) : ℝ :=
  Real.exp (Real.log (|x| + tiny) + (if x > 0 then 1 else 0) * 0.049 * (Real.sin (10 * x) + Real.sin (7.9 * x))
    + (if x < 0 then 1 else 0) * 0.049 * (Real.sin (5.5 * x) + Real.sin (3.1 * x)))

/-- One entry of `_oscillatify` (transformations.py:249-260). -/
noncomputable def osc' (x : ℝ) : ℝ :=
  if x = 0 then x
  else if x > 0 then 1 * Real.exp (Real.log |x| + 0.049 * (Real.sin (10 * x) + Real.sin (7.9 * x)))
  else 1 * Real.exp (Real.log |x| + 0.049 * (Real.sin (5.5 * x) + Real.sin (3.1 * x)))

/-- `oscillatify` (transformations.py:265-269). -/
noncomputable def oscillatify (x : Vec n) : Vec n := fun i => osc (x i)

/-- One entry of `asymmetrify` (transformations.py:236). -/
noncomputable def asym (n : ℕ) (beta : ℝ) (i : ℕ) (x : ℝ) : ℝ :=
  x * (if x ≤ 0 then 1 else 0) + (if x > 0 then 1 else 0) * Real.exp ((1 + beta * i / ((n : ℝ) - 1) * √|x|) * Real.log (|x| + tiny))

/-- `asymmetrify` (transformations.py:233-236): in one dimension `0 / 0` is nan. -/
noncomputable def asymmetrify (beta : ℝ) (x : Vec n) : Option (Vec n) :=
  if n = 1 then none else some fun i => asym n beta i (x i)

/-- `generateDiags` (transformations.py:110-114), not shuffled: in one dimension the divisor is zero. -/
noncomputable def generateDiags (alpha : ℝ) (n : ℕ) : Except Err (Matrix (Fin n) (Fin n) ℝ) :=
  if n = 1 then .error .zeroDivision else .ok (Matrix.diagonal fun i : Fin n => alpha ^ ((i : ℝ) / (2 * n - 2)))

/-- The matrix `prefix` (transformations.py:153-175). -/
noncomputable def prefixMatrix (c : Config) (s : Setup n) : Except Err (Matrix (Fin n) (Fin n) ℝ) :=
  if truthy c.conditioning then
    (generateDiags (c.conditioning.getD 0) n).map fun d =>
      if c.rotate then
        let p := d * s.inner
        if c.oscillate ∨ ¬truthy c.asymmetry then s.outer * p else p
      else d
  else if c.rotate ∧ truthy c.asymmetry ∧ ¬c.oscillate then .ok s.inner
  else .ok 1

/-- `self.xopt` (transformations.py:136, 150-151). -/
noncomputable def xopt (b : Base n) (c : Config) (s : Setup n) : Vec n := if c.translate then fun i => (s.rand i - 0.5) * 9.8 else b.xopt

/-- `tmp3` (transformations.py:184-202). -/
noncomputable def transform (c : Config) (s : Setup n) (x : Vec n) : Option (Vec n) :=
  let t1 := if c.rotate then Matrix.vecMul x s.before else x
  let t2 := if c.oscillate then oscillatify t1 else t1
  match c.asymmetry with
  | some beta => asymmetrify beta t2
  | none => some t2

/-- `ntmp` (transformations.py:205-213). -/
noncomputable def ntmp (n : ℕ) (c : Config) (d : Draws) : Option (ℝ → ℝ) :=
  if truthy c.gnoise then some fun f => f * Real.exp (c.gnoise.getD 0 * d.g)
  else if truthy c.unoise then
    let alpha := 0.49 * (1 / n) * c.unoise.getD 0
    some fun f => f * d.u ^ (c.unoise.getD 0) * max 1 ((10 ^ 9 / (f + 1 / 10 ^ 99)) ^ (alpha * d.u'))
  else match c.cnoise with
    | some (alpha, beta) => some fun f => f + alpha * max 0 (1000 * (if d.u < beta then 1 else 0) * d.g / (|d.g'| + 1 / 10 ^ 199))
    | none => none

/-- `noisetrans` (transformations.py:215-219). -/
noncomputable def noisetrans (n : ℕ) (c : Config) (d : Draws) (f : ℝ) : ℝ :=
  match ntmp n c d with
  | none => f
  | some t => if f < 1 / 10 ^ 8 then f else t f + 1.01 / 10 ^ 8

/-- The constructed function (transformations.py:177-181, 221-230).  `self.penalized` is the class attribute, false, when it is tested. -/
noncomputable def build (b : Base n) (c : Config) (s : Setup n) : Except Err (Draws → Vec n → Option ℝ) :=
  (prefixMatrix c s).map fun p => fun d x =>
    (transform c s (x - xopt b c s)).map fun t => noisetrans n c d (b.f (Matrix.mulVec p t)) + c.penalized * penalize x 5

end Verif.Bbob
