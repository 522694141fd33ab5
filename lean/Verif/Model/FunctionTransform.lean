import Mathlib.LinearAlgebra.Matrix.NonsingularInverse
import Mathlib.Analysis.Normed.Field.Basic
import Mathlib.Analysis.Normed.Group.Basic
import Mathlib.Data.NNReal.Defs
import Mathlib.LinearAlgebra.Matrix.Notation
/-
Model of the function transformations of `pybrain/rl/environments/functions/transformations.py` and of
`FunctionEnvironment` (`pybrain/rl/environments/functions/function.py`).

Arrays are shared by reference in the code, so that the arrays holding `xopt` live in a heap.  Points are
real vectors `Fin n → ℝ`.
-/
namespace Verif.FunctionTransform

variable {n : ℕ}

/-- Points. -/
abbrev Vec (n : ℕ) := Fin n → ℝ

/-- The arrays. -/
abbrev Heap (n : ℕ) := ℕ → Vec n

/-- `FunctionEnvironment` (function.py:11-45): the function (which may read arrays), the array `xopt`,
`desiredValue`, `toBeMinimized` and `penalized`. -/
structure FEnv (n : ℕ) where
  f : Heap n → Vec n → ℝ
  xopt : ℕ
  desiredValue : Option ℝ
  toBeMinimized : Bool
  penalized : Bool

/-- `FitnessEvaluator` (fitnessevaluator.py:6-25). -/
structure Evaluator (n : ℕ) where
  f : Vec n → ℝ
  desiredValue : Option ℝ
  toBeMinimized : Bool

/-- `oppositeFunction` of a plain function (transformations.py:33). -/
def oppositeFun (f : Vec n → ℝ) : Vec n → ℝ := fun x => -f x

/-- `oppositeFunction` of a `FitnessEvaluator` (transformations.py:26-31); the class default of
`desiredValue` is `None`. -/
def oppositeEvaluator (b : Evaluator n) : Evaluator n :=
  { f := fun x => -b.f x
    desiredValue := match b.desiredValue with
      | some v => some (-v)
      | none => none
    toBeMinimized := !b.toBeMinimized }

/-- The class default of `desiredValue` (function.py:23). -/
noncomputable def defaultDesired : ℝ := 1 / 10 ^ 10

/-- `oppositeFunction` of a `FunctionEnvironment` (transformations.py:24-31): shares `xopt`; the class
default of `desiredValue` stays when the base has none. -/
noncomputable def oppositeEnv (b : FEnv n) : FEnv n :=
  { f := fun h x => -b.f h x
    xopt := b.xopt
    desiredValue := match b.desiredValue with
      | some v => some (-v)
      | none => some defaultDesired
    toBeMinimized := !b.toBeMinimized
    penalized := false }

/-- `TranslateFunction.__init__` (transformations.py:39-54): `self.xopt` is the array of the base, and
`self.xopt += self._offset` changes it in place. -/
def translate (h : Heap n) (b : FEnv n) (offset : Vec n) : Heap n × FEnv n :=
  (fun a => if a = b.xopt then h b.xopt + offset else h a,
   { f := fun h x => b.f h (x - offset), xopt := b.xopt, desiredValue := b.desiredValue
     toBeMinimized := b.toBeMinimized, penalized := false })

/-- `RotateFunction.__init__` (transformations.py:61-76): `dot(inv(M), xopt)` is a new array at address
`fresh`; the function is `basef.f(dot(x, M))`. -/
noncomputable def rotate (h : Heap n) (fresh : ℕ) (b : FEnv n) (M : Matrix (Fin n) (Fin n) ℝ) : Heap n × FEnv n :=
  (fun a => if a = fresh then Matrix.mulVec M⁻¹ (h b.xopt) else h a,
   { f := fun h x => b.f h (Matrix.vecMul x M), xopt := fresh, desiredValue := b.desiredValue
     toBeMinimized := b.toBeMinimized, penalized := false })

/-- `ax.max()` of the absolute values (transformations.py:80-81), for a vector with at least one entry;
the bound `m` is given. -/
noncomputable def penalizeWith (m : ℝ) (x : Vec n) (distance : ℝ) : ℝ :=
  ∑ i, (min (max (|x i| - distance) 0) m) * (min (max (|x i| - distance) 0) m)

/-- `penalize` (transformations.py:79-82): `clip(|x| - distance, 0, max |x|)` squared and summed. -/
noncomputable def penalize (x : Vec n) (distance : ℝ) : ℝ := penalizeWith (Finset.univ.sup (fun i => ‖x i‖₊) : NNReal) x distance

/-- `SoftConstrainedFunction.__init__` (transformations.py:91-107). -/
noncomputable def softConstrain (b : FEnv n) (distance factor : ℝ) : FEnv n :=
  { f := if b.penalized then b.f
      else fun h x => b.f h x + penalize x distance * (if b.toBeMinimized then factor else -factor)
    xopt := b.xopt, desiredValue := b.desiredValue, toBeMinimized := b.toBeMinimized, penalized := true }

end Verif.FunctionTransform
