import Verif.Model.FirstMax
import Verif.Model.DataSet
import Mathlib.Algebra.Order.Field.Rat
import Mathlib.Algebra.Order.Field.Basic
/-
Model of pybrain/supervised/trainers/svmtrainer.py: the searches for parameters (GridSearch, GridSearchDOE).

The accuracy that cross-validation with LIBSVM finds is an arbitrary function `acc`; in the DOE search it may also depend on the number of evaluations before (LIBSVM draws the folds at random).
Plotting and the log file are left out. Points and parameters are logarithms: the parameters are `C = 2 ** log2C` and `gamma = 2 ** log2g`. Floats are elements of a linearly ordered field.
-/
namespace Verif.SvmSearch
open Verif.DataSet (Err)

/-! ### regular grid -/

/-- the loop in lines 193-195: items are taken from both lists in turn -/
def interleave {α : Type} : List α → List α → List α
  | [], r => r
  | a :: l, [] => a :: l
  | a :: l, b :: r => a :: b :: interleave l r

/-- `_permute_sequence`, svmtrainer.py:183-197 -/
def permuteSequence {α : Type} (seq : List α) : List α :=
  match h : seq.drop (seq.length / 2) with
  | [] => seq
  | m :: right =>
    if seq.length ≤ 1 then seq
    else m :: interleave (permuteSequence (seq.take (seq.length / 2))) (permuteSequence right)
termination_by seq.length
decreasing_by
  · simp only [List.length_take]; omega
  · have := congrArg List.length h
    simp only [List.length_drop, List.length_cons] at this
    omega

section
variable {K : Type} [Field K] [LinearOrder K]

/-- `_range_f`, svmtrainer.py:199-207, with a bound on the number of rounds: `none` if the loop has not ended by then -/
def rangeF : Nat → K → K → K → Option (List K)
  | 0, _, _, _ => none
  | fuel + 1, b, e, step =>
    if 0 < step ∧ e < b then some []
    else if step < 0 ∧ b < e then some []
    else (rangeF fuel (b + step) e step).map fun seq => b :: seq

/-- the loop of `calculate_jobs`, svmtrainer.py:217-235, from the counters `i` and `j` on. Every round increases one of them, `fuel` is a bound on the rounds. The quotients are exact. -/
def jobsLoop (c g : List K) : Nat → Nat → Nat → Except Err (List (List (K × K)))
  | 0, _, _ => .ok []
  | fuel + 1, i, j =>
    if i < c.length ∨ j < g.length then
      if c.length = 0 ∨ g.length = 0 then .error .zeroDivision
      else if (i : Rat) / c.length < (j : Rat) / g.length then
        match c[i]?, (List.range j).mapM fun k => g[k]? with
        | some x, some l => (jobsLoop c g fuel (i + 1) j).map fun js => (l.map fun y => (x, y)) :: js
        | _, _ => .error .indexError
      else
        match g[j]?, (List.range i).mapM fun k => c[k]? with
        | some y, some l => (jobsLoop c g fuel i (j + 1)).map fun js => (l.map fun x => (x, y)) :: js
        | _, _ => .error .indexError
    else .ok []

/-- `calculate_jobs`, svmtrainer.py:209-236, from the sequences of `_range_f` on -/
def calculateJobs (cSeq gSeq : List K) : Except Err (List (List (K × K))) :=
  jobsLoop (permuteSequence cSeq) (permuteSequence gSeq) (cSeq.length + gSeq.length) 0 0

/-- `search` of GridSearch, svmtrainer.py:160-180: the logarithms of the parameters C and gamma that are returned. An empty array has no column to index. -/
def gridSearch (acc : K × K → K) (cSeq gSeq : List K) : Except Err (K × K) :=
  match calculateJobs cSeq gSeq with
  | .error e => .error e
  | .ok jobs =>
    match Py.firstMax (fun row => row.1) (jobs.flatten.map fun p => (p.1, p.2, acc p)) with
    | none => .error .indexError
    | some best => .ok best.2

/-! ### design of experiments -/

/-- `doepat`, svmtrainer.py:292-293 -/
def pattern : List (K × K) :=
  [(1 / 2, 1), (1 / 4, 3 / 4), (3 / 4, 3 / 4), (0, 1 / 2), (1, 1 / 2), (1 / 4, 1 / 4), (3 / 4, 1 / 4), (1 / 2, 0), (0, 1), (1, 1), (1 / 2, 1 / 2), (0, 0), (1, 0)]

/-- `refineGrid`, svmtrainer.py:369-372 -/
def refineGrid (lo hi : K × K) : List (K × K) := pattern.map fun p => (p.1 * (hi.1 - lo.1) + lo.1, p.2 * (hi.2 - lo.2) + lo.2)

/-- what the search knows: the points evaluated so far with their scores (`allPts`, `allScores`), and the depth -/
structure Doe (K : Type) where
  all : List ((K × K) × K)
  depth : Nat

/-- `_findIndex`, svmtrainer.py:374-390: the score of the point if it exists. The bare `raise` fails with a RuntimeError. -/
def find (s : Doe K) (p : K × K) : Except Err (Option K) :=
  if s.depth = 0 then .ok none
  else match s.all.filter fun e => decide (e.1 = p) with
    | [] => .ok none
    | [e] => .ok (some e.2)
    | _ => .error .valueError

/-- the loop over the points, svmtrainer.py:317-334: points with scores, and whether they are new; `n` evaluations were made before -/
def evaluate (acc : Nat → K × K → K) (s : Doe K) : Nat → List (K × K) → Except Err (List ((K × K) × K × Bool))
  | _, [] => .ok []
  | n, p :: ps =>
    match find s p with
    | .error e => .error e
    | .ok (some v) => (evaluate acc s n ps).map fun r => (p, v, false) :: r
    | .ok none => (evaluate acc s (n + 1) ps).map fun r => (p, acc n p, true) :: r

/-- one coordinate of the new center, line 343 -/
def clampTo (umin umax diff x : K) : K := min (max x (umin + diff)) (umax - diff)

/-- the new window, svmtrainer.py:340-345 -/
def newWindow (umin umax lo hi best : K × K) : (K × K) × (K × K) :=
  let d := ((hi.1 - lo.1) / 4, (hi.2 - lo.2) / 4)
  let m := (clampTo umin.1 umax.1 d.1 best.1, clampTo umin.2 umax.2 d.2 best.2)
  ((m.1 - d.1, m.2 - d.2), (m.1 + d.1, m.2 + d.2))

/-- `search` of GridSearchDOE, svmtrainer.py:297-366; `rounds` is `maxdepth + 1 - depth`. Returned are the logarithms of the parameters, and all evaluations. -/
def doeSearch (acc : Nat → K × K → K) (umin umax : K × K) : Nat → Doe K → K × K → K × K → Except Err ((K × K) × List ((K × K) × K))
  | 0, s, _, _ =>
    match Py.firstMax (fun e => e.2) s.all with
    | none => .error .valueError
    | some e => .ok (e.1, s.all)
  | rounds + 1, s, lo, hi =>
    match evaluate acc s s.all.length (refineGrid lo hi) with
    | .error e => .error e
    | .ok r =>
      match Py.firstMax (fun e => e.2.1) r with
      | none => .error .valueError
      | some b =>
        let w := newWindow umin umax lo hi b.1
        doeSearch acc umin umax rounds ⟨s.all ++ (r.filter fun e => e.2.2).map fun e => (e.1, e.2.1), s.depth + 1⟩ w.1 w.2

/-- the search as the constructor starts it, svmtrainer.py:145 and 310-313 -/
def doe (acc : Nat → K × K → K) (umin umax : K × K) (maxdepth : Nat) : Except Err ((K × K) × List ((K × K) × K)) :=
  doeSearch acc umin umax (maxdepth + 1) ⟨[], 0⟩ umin umax

end
end Verif.SvmSearch
