import Mathlib.Data.List.Sort
import Mathlib.Algebra.Order.Field.Basic
import Verif.Model.DataSet
/-
Model of the Indian Buffet Process helpers (`pybrain/tools/ibp.py`).

Matrices are lists of columns.  `generate` takes the drawn stick proportions and the uniform numbers as arguments; the number of sticks is
the length of the former, as `maxdishes` is in the code.
-/
namespace Verif.Ibp

/-- Python's `<=` on tuples. -/
def tupleLe {α : Type} [LinearOrder α] : List α → List α → Bool
  | [], _ => true
  | _ :: _, [] => false
  | a :: as, b :: bs => if a = b then tupleLe as bs else decide (a < b)

/-- A two-dimensional array, given by its columns, or the array without entries that is left if there are no columns. -/
inductive Arr (α : Type)
  | cols (cs : List (List α))
  | flat
  deriving DecidableEq

/-- `leftordered` (ibp.py:10-14): sort the columns as tuples and reverse the order.  `array([])` has one dimension only. -/
def leftordered {α : Type} [LinearOrder α] (cs : List (List α)) : Arr α :=
  match (cs.insertionSort fun a b => tupleLe a b = true) with
  | [] => .flat
  | l => .cols l.reverse

variable {K : Type} [Field K] [LinearOrder K]

/-- The column `dishestaken = rand(customers) < currentstick * reducedprop` (ibp.py:38). -/
def dishes (stick reduced : K) (rs : List K) : List Bool := rs.map fun r => decide (r < stick * reduced)

/-- One turn of the loop (ibp.py:36-42): `res`, `currentstick`, `dishesskipped` and the index of the stick. -/
def step (reduced : K) (s : List (List Bool) × K × Nat × Nat) (d : K × List K) : List (List Bool) × K × Nat × Nat :=
  let (res, stick, skipped, i) := s
  let stick' := stick * d.1
  let taken := dishes stick' reduced d.2
  if taken.count true > 0 then (res.set (i - skipped) taken, stick', skipped, i + 1)
  else (res, stick', skipped + 1, i + 1)

/-- `generateIBP` (ibp.py:30-44) after the draws: the columns of the result. -/
def generate (customers : Nat) (reduced : K) (draws : List (K × List K)) : List (List Bool) :=
  let s := draws.foldl (step reduced) (List.replicate draws.length (List.replicate customers false), 1, 0, 0)
  s.1.take (draws.length - s.2.2.1)

end Verif.Ibp
