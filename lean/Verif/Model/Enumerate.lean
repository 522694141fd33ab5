import Verif.Model.DataSet
/-
Model of the enumeration helpers of pybrain/utilities.py. Generators are lists. A dictionary is the list of its
items in insertion order, with distinct keys.
-/
namespace Verif.Enum
open Verif.Py Verif.DataSet

/-- `iterCombinations`, utilities.py:77-87, on the reversed tuple: `l` is `reversed(tup)`, the recursion is on
`tup[:-1]`. -/
def iterCombRev : List Nat → List (List Nat)
  | [] => []
  | [n] => (List.range n).map (fun i => [i])
  | n :: m :: rest => (iterCombRev (m :: rest)).flatMap (fun pre => (List.range n).map (fun i => pre ++ [i]))

def iterCombinations (tup : List Nat) : List (List Nat) := iterCombRev tup.reverse

/-- `reduce(operator.add, l)` on lists: TypeError when `l` is empty. -/
def reduceAdd {α : Type} : List (List α) → Except Err (List α)
  | [] => .error .typeError
  | x :: xs => .ok (xs.foldl (· ++ ·) x)

/-- `crossproduct`, utilities.py:485-493. `ss[0]` of an empty list is IndexError. -/
def crossproduct {α : Type} : List (List α) → List α → Except Err (List (List α))
  | [], _ => .error .indexError
  | [s], row => .ok (s.map (fun i => row ++ [i]))
  | s :: s' :: rest, row =>
    match s.mapM (fun i => crossproduct (s' :: rest) (row ++ [i])) with
    | .error e => .error e
    | .ok ls => reduceAdd ls

/-- A value in the dictionary given to `dictCombinations`: a list or tuple of alternatives, or a single value. -/
inductive Entry (α : Type) where
  | many (vs : List α)
  | one (v : α)

/-- `sorted(set(vs))` -/
def sortedSet {α : Type} [DecidableEq α] (le : α → α → Bool) (vs : List α) : List α := vs.eraseDups.mergeSort le

/-- `dictCombinations`, utilities.py:669-682, on the reversed item list: `popitem` removes the last item. `dict(d, **{k: v})`
appends the new item (the key is not in `d`). -/
def dictCombRev {κ α : Type} [DecidableEq α] (le : α → α → Bool) : List (κ × Entry α) → List (List (κ × α))
  | [] => [[]]
  | (k, .many vs) :: rest => (dictCombRev le rest).flatMap (fun d => (sortedSet le vs).map (fun v => d ++ [(k, v)]))
  | (k, .one v) :: rest => (dictCombRev le rest).map (fun d => d ++ [(k, v)])

def dictCombinations {κ α : Type} [DecidableEq α] (le : α → α → Bool) (d : List (κ × Entry α)) : List (List (κ × α)) :=
  dictCombRev le d.reverse

/-- `decrementAny`, utilities.py:402-409 -/
def decrementAny (tup : List Nat) : List (List Nat) :=
  (tup.zipIdx.filter (fun (p : Nat × Nat) => decide (p.1 > 0))).map
    (fun (p : Nat × Nat) => tup.take p.2 ++ [p.1 - 1] ++ tup.drop (p.2 + 1))

end Verif.Enum
