import Verif.Model.DataSet
import Verif.Model.FirstMax
import Mathlib.Algebra.Field.Defs
/-
Model of pybrain/tools/gridsearch.py: GridSearch2D and GridSearchDOE (two parameters). Floating point is idealised by a field `K`;
`linspace` is called with a float step count, which current numpy versions reject: modelled as the evident count.
-/
namespace Verif.GridSearch
open Verif.DataSet (Err)
open Verif.Py

/-- numpy `linspace(a, b, n)` -/
def linspace {K : Type} [Field K] (a b : K) (n : Nat) : List K :=
  if n = 1 then [a] else (List.range n).map (fun k : Nat => a + (k : K) * ((b - a) / ((n : K) - 1)))

/-- the loop of `_permuteSequence`, gridsearch.py:139-141 -/
def interleave {α : Type} : List α → List α → List α
  | [], r => r
  | a :: l, [] => a :: l
  | a :: l, b :: r => a :: b :: interleave l r

/-- `GridSearch2D._permuteSequence`, gridsearch.py:128-143 -/
def permuteSequence {α : Type} (seq : List α) : List α :=
  if h : seq.length ≤ 1 then seq
  else
    seq[seq.length / 2] :: interleave (permuteSequence (seq.take (seq.length / 2))) (permuteSequence (seq.drop (seq.length / 2 + 1)))
termination_by seq.length
decreasing_by
  · simp; omega
  · simp; omega

/-- the loop of `_calculateJobs`, gridsearch.py:111-123, on positions. The comparison `i / nr_c < j / nr_g` of floats is that of
the fractions. `none`: fuel exhausted. -/
def jobsLoop (nc ng : Nat) : Nat → Nat → Nat → Option (List (List (Nat × Nat)))
  | 0, i, j => if i < nc ∨ j < ng then none else some []
  | fuel + 1, i, j =>
    if i < nc ∨ j < ng then
      if i * ng < j * nc then
        (jobsLoop nc ng fuel (i + 1) j).map (fun rest => (List.range j).map (fun k => (i, k)) :: rest)
      else
        (jobsLoop nc ng fuel i (j + 1)).map (fun rest => (List.range i).map (fun k => (k, j)) :: rest)
    else some []

/-- `(linspaces[0][i], linspaces[1][j])`, gridsearch.py:115, 121 -/
def cell {K : Type} (c g : List K) (p : Nat × Nat) : Except Err (K × K) :=
  match c[p.1]?, g[p.2]? with
  | some x, some y => .ok (x, y)
  | _, _ => .error .indexError

/-- `GridSearch2D._calculateJobs`, gridsearch.py:94-124, as one list of jobs. An empty axis divides by zero. The loop runs
`nr_c + nr_g` times. -/
def calculateJobs {K : Type} (c g : List K) : Except Err (List (K × K)) :=
  let c' := permuteSequence c
  let g' := permuteSequence g
  if c' = [] ∨ g' = [] then (if c' = [] ∧ g' = [] then .ok [] else .error .zeroDivision)
  else
    match jobsLoop c'.length g'.length (c'.length + g'.length) 0 0 with
    | none => .error .assertion
    | some lines => lines.flatten.mapM (cell c' g')

/-- the loop of `search`, gridsearch.py:69-72; `t` numbers the validations, so that `_validate` may be random -/
def validateAll {P V : Type} [DecidableEq P] (validate : Nat → P → V) : Nat → List P → List (P × V) → List (P × V)
  | _, [], perfs => perfs
  | t, p :: ps, perfs => validateAll validate (t + 1) ps (dset perfs p (validate t p))

/-- `GridSearch2D.search`, gridsearch.py:61-79, on a new object; also the performances recorded -/
def search {K V : Type} [DecidableEq K] [LT V] [DecidableLT V] (validate : Nat → K × K → V) (c g : List K) :
    Except Err ((K × K) × List ((K × K) × V)) :=
  match calculateJobs c g with
  | .error e => .error e
  | .ok jobs =>
    let perfs := validateAll validate 0 jobs []
    match firstMax Prod.snd perfs with
    | none => .error .valueError
    | some kv => .ok (kv.1, perfs)

/-! ### GridSearchDOE -/

variable {K : Type} [Field K] [LinearOrder K]

/-- `_doe_pat`, gridsearch.py:158-162, row by row -/
def doePat : List (K × K) :=
  [(-1, 1), (0, 1), (1, 1),
   (-(1 / 2), 1 / 2), (1 / 2, 1 / 2),
   (-1, 0), (0, 0), (1, 0),
   (-(1 / 2), -(1 / 2)), (1 / 2, -(1 / 2)),
   (-1, -1), (0, -1), (1, -1)]

/-- `grid.min(axis=0)` of one column -/
def colMin : List K → K
  | [] => 0
  | [a] => a
  | a :: b :: l => min a (colMin (b :: l))

/-- `grid.max(axis=0)` of one column -/
def colMax : List K → K
  | [] => 0
  | [a] => a
  | a :: b :: l => max a (colMax (b :: l))

/-- one column of `_moveGridIntoBounds`, gridsearch.py:230-245 (the second loop overwrites the first) -/
def moveIntoBounds (lo hi : K) (col : List K) : List K :=
  let t := if hi < colMax col then hi - colMax col
    else if colMin col < lo then lo - colMin col
    else 0
  col.map (fun x => x + t)

/-- one column of `_calcGrid`, gridsearch.py:215-228 -/
def calcColumn (lo hi : K) (pat : List K) (center : K) (level : Nat) : List K :=
  moveIntoBounds lo hi (pat.map (fun p => p * ((hi - lo) / 2 ^ level / 2) + center))

/-- `_calcGrid`, gridsearch.py:215-228 -/
def calcGrid (lo hi : K × K) (center : K × K) (level : Nat) : List (K × K) :=
  (calcColumn lo.1 hi.1 (doePat.map Prod.fst) center.1 level).zip (calcColumn lo.2 hi.2 (doePat.map Prod.snd) center.2 level)

/-- one level of `GridSearchDOE.search`, gridsearch.py:193-197; the second component lists all points validated so far -/
def doeLevel {V : Type} [LT V] [DecidableLT V] (validate : K × K → V) (lo hi : K × K) (s : (K × K) × List (K × K)) (level : Nat) :
    (K × K) × List (K × K) :=
  let grid := calcGrid lo hi s.1 level
  ((firstMax validate grid).getD s.1, s.2 ++ grid)

/-- `GridSearchDOE.search`, gridsearch.py:185-203, for a `_validate` that gives the same value for the same parameters
(GridSearchDOECostGamma caches the values to that end, gridsearch.py:336-347). -/
def doeSearch {V : Type} [LT V] [DecidableLT V] (validate : K × K → V) (lo hi : K × K) (nIterations : Nat) : (K × K) × List (K × K) :=
  (List.range nIterations).foldl (doeLevel validate lo hi) ((lo.1 + (hi.1 - lo.1) / 2, lo.2 + (hi.2 - lo.2) / 2), [])

end Verif.GridSearch
