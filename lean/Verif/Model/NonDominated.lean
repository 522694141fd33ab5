import Mathlib.Order.Defs.LinearOrder
/-
Model of pybrain/tools/nondominated.py and of nsga2select (pybrain/optimization/populationbased/multiobjective/nsga2.py).

A Python set is a list without repetitions. Wherever the code iterates over a set or turns one into a list, the order is
given by an arbitrary function `σ` that rearranges lists. An objective vector is a function on objective numbers below
`dim`.
-/
namespace Verif.NonDom

section generic
variable {α : Type} [DecidableEq α]

/-- the inner loop, nondominated.py:53-60, 93-100, 138-145: `js` is `list(res)`, the loop variable runs through it -/
def addItem (dom : α → α → Bool) (i : α) : List α → List α → List α
  | [], res => res
  | j :: js, res =>
    if j = i then addItem dom i js res
    else if dom j i then res.erase i
    else if dom i j then addItem dom i js (res.erase j)
    else addItem dom i js res

/-- `res.add(i)` -/
def setAdd (res : List α) (i : α) : List α := if i ∈ res then res else res ++ [i]

/-- the outer loop, nondominated.py:49-61, 89-101, 135-145 -/
def frontLoop (dom : α → α → Bool) (σ : List α → List α) (items : List α) : List α :=
  items.foldl (fun res i => addItem dom i (σ (setAdd res i)) (setAdd res i)) []

end generic

variable {α K : Type} [DecidableEq α] [LinearOrder K]

/-- `all(keys[i][k] < keys[j][k] for k in range(dim))` or with `<=`, nondominated.py:40-45 -/
def domOld (dim : Nat) (allowequality : Bool) (x y : Nat → K) : Bool :=
  if allowequality then (List.range dim).all (fun k => decide (x k < y k)) else (List.range dim).all (fun k => decide (x k ≤ y k))

/-- the loops with `good`, nondominated.py:76-88 -/
def domFast (dim : Nat) (allowequality : Bool) (x y : Nat → K) : Bool :=
  if allowequality then !(List.range dim).any (fun k => decide (x k ≥ y k)) else !(List.range dim).any (fun k => decide (x k > y k))

/-- `not ndom[ij, ii]`, nondominated.py:128-134: `a[ij, ii] = x[ii]`, `b[ij, ii] = x[ij]`; `ndom` is whether the number of
objectives with `a <= b` (or `a < b`) is not zero. -/
def domArr (dim : Nat) (allowequality : Bool) (xij xii : Nat → K) : Bool :=
  !(if allowequality then decide (((List.range dim).countP (fun k => decide (xii k ≤ xij k))) ≠ 0)
    else decide (((List.range dim).countP (fun k => decide (xii k < xij k))) ≠ 0))

/-- `_non_dominated_front_old`, nondominated.py:27-61, for keys of equal length -/
def frontOld (dim : Nat) (key : α → Nat → K) (eq : Bool) (σ : List α → List α) (iterable : List α) : List α :=
  frontLoop (fun i j => domOld dim eq (key i) (key j)) σ (σ iterable.eraseDups)

/-- `_non_dominated_front_fast`, nondominated.py:64-101 -/
def frontFast (dim : Nat) (key : α → Nat → K) (eq : Bool) (σ : List α → List α) (iterable : List α) : List α :=
  frontLoop (fun i j => domFast dim eq (key i) (key j)) σ (σ iterable.eraseDups)

/-- the domination test on positions -/
def domAt (dom : α → α → Bool) (items : List α) (i j : Nat) : Bool :=
  match items[i]?, items[j]? with
  | some a, some b => dom a b
  | _, _ => false

/-- `_non_dominated_front_arr`, nondominated.py:118-146, for any domination test: works on positions; the result is
`set([items[i] for i in res])` -/
def frontOn (dom : α → α → Bool) (σi : List Nat → List Nat) (items : List α) : List α :=
  ((frontLoop (domAt dom items) σi (List.range items.length)).filterMap (fun i => items[i]?)).eraseDups

/-- `_non_dominated_front_arr`, nondominated.py:118-146 -/
def frontArr (dim : Nat) (key : α → Nat → K) (eq : Bool) (σi : List Nat → List Nat) (items : List α) : List α :=
  frontOn (fun a b => domArr dim eq (key a) (key b)) σi items

/-- the tests of `_const_non_dominated_front_arr`, nondominated.py:219-237: whether `ij` removes `ii`. `feas` is `v`, `viol`
is `abs(sum(c))`. (When it does not, the code asks the same with the roles exchanged, lines 222-232.) -/
def domConst (dim : Nat) (eq : Bool) (key : α → Nat → K) (feas : α → Bool) (viol : α → K) (ij ii : α) : Bool :=
  if domArr dim eq (key ij) (key ii) && feas ij && feas ii then true
  else if feas ij && !feas ii then true
  else if !feas ii && !feas ij then decide (¬ viol ii < viol ij)
  else false

/-- `_non_dominated_front_merge` (threshold 20) and `_non_dominated_front_merge_arr`, `_const_non_dominated_front_merge_arr`
(threshold 100), nondominated.py:104-115, 149-160, 179-190. `base` is the version used for short lists; `l / 2` and `l / 3`
are integer divisions (in `_non_dominated_front_merge_arr` they are written for Python 2; in Python 3 slicing with `l / 2` is
an error). The first argument bounds the depth of the recursion. -/
def frontMerge (threshold : Nat) (base : List α → List α) (σ : List α → List α) : Nat → List α → Option (List α)
  | 0, _ => none
  | n + 1, items =>
    let l := items.length
    if l > threshold then
      match frontMerge threshold base σ n (items.take (l / 2)), frontMerge threshold base σ n (items.drop (l / 2)) with
      | some p1, some p2 =>
        if p1.length ≥ l / 3 ∨ p2.length ≥ l / 3 then some (base (σ p1 ++ σ p2))
        else frontMerge threshold base σ n (σ p1 ++ σ p2)
      | _, _ => none
    else some (base items)

/-- `non_dominated_sort` and `const_non_dominated_sort`, nondominated.py:165-174, 243-254. `items` is a set. The first
argument bounds the number of turns. -/
def sortLoop (front : List α → Option (List α)) (σ : List α → List α) : Nat → List α → Option (List (List α))
  | _, [] => some []
  | 0, _ :: _ => none
  | n + 1, x :: xs =>
    match front (σ (x :: xs)) with
    | none => none
    | some f =>
      match sortLoop front σ n ((x :: xs).filter (fun i => decide (i ∉ f))) with
      | none => none
      | some rest => some (f :: rest)

/-- the loop of `nsga2select`, nsga2.py:71-82. `byCrowd front` is `sorted(front, key=crowd_dist, reverse=True)`. -/
def selectLoop (byCrowd : List α → List α) (survivors : Nat) : List (List α) → List α → List α
  | [], individuals => individuals
  | front :: fronts, individuals =>
    if individuals.length < survivors then
      let remaining := survivors - individuals.length
      let front1 := if front.length > remaining then (byCrowd front).take remaining else front
      selectLoop byCrowd survivors fronts (individuals ++ front1.filter (fun i => decide (i ∉ individuals)))
    else individuals

/-- `nsga2select`, nsga2.py:64-84 (and constnsga2.py), given the fronts -/
def nsga2select (byCrowd : List α → List α) (survivors : Nat) (fronts : List (List α)) : List α :=
  selectLoop byCrowd survivors fronts []

end Verif.NonDom
