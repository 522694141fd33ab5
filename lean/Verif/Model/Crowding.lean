import Mathlib.Algebra.Order.Field.Basic
/-
Model of crowding_distance, pybrain/tools/nondominated.py:8-25, over a linearly ordered field. `big` is the constant 1e100.
-/
namespace Verif.NonDom

variable {α K : Type} [DecidableEq α] [Field K] [LinearOrder K]

/-- `distances[a] = v` -/
def updAt (d : α → K) (a : α) (v : K) : α → K := fun x => if x = a then v else d x

/-- nondominated.py:14-24 for one objective. `none`: there are no individuals (IndexError), or all values of the objective are
equal and there are inner points (division by zero: an exception, or NaN with numpy floats). -/
def crowdObj (big : K) (fit : α → Nat → K) (i : Nat) (individuals : List α) (d : α → K) : Option (List α × (α → K)) :=
  let ind := individuals.mergeSort (fun a b => decide (fit a i ≤ fit b i))
  match ind.head?, ind.getLast? with
  | some first, some last =>
    let normalization := fit first i - fit last i
    let d1 := updAt (updAt d first big) last big
    let tripled := ind.zip ((ind.drop 1).dropLast.zip (ind.drop 2))
    if normalization = 0 ∧ tripled ≠ [] then none
    else some (ind, tripled.foldl (fun d t => updAt d t.2.1 (d t.2.1 + (fit t.1 i - fit t.2.2 i) / normalization)) d1)
  | _, _ => none

/-- `crowding_distance`, nondominated.py:8-25 -/
def crowdLoop (big : K) (fit : α → Nat → K) : List Nat → List α → (α → K) → Option (List α × (α → K))
  | [], ind, d => some (ind, d)
  | i :: is, ind, d =>
    match crowdObj big fit i ind d with
    | none => none
    | some (ind1, d1) => crowdLoop big fit is ind1 d1

def crowdingDistance (big : K) (nObj : Nat) (fit : α → Nat → K) (individuals : List α) : Option (α → K) :=
  (crowdLoop big fit (List.range nObj) individuals (fun _ => 0)).map Prod.snd

end Verif.NonDom
