import Verif.Model.DataSet
import Mathlib.Data.Real.Sqrt
import Mathlib.Analysis.SpecialFunctions.Trigonometric.Basic
import Mathlib.Data.Matrix.Mul
/-
Model of helpers in pybrain/utilities.py that are used by programs that run experiments: memoized functions, statistics, dictionaries, names, and small tools of linear algebra.
Real numbers stand for floats; dictionaries are lists of pairs in the order of iteration.
-/
namespace Verif.Util
open Verif.DataSet (Err)

/-! ### memoize, utilities.py:286-302 -/

/-- `inner`, utilities.py:290-301. `key` gives `none` for arguments that cannot be hashed, and equal values for arguments that compare as equal (positional arguments and the frozen set of keyword arguments together); `func` may have
side effects on `S` and may raise an exception. -/
def memoCall {S A K R E : Type} [DecidableEq K] (key : A → Option K) (unhashable : E) (func : A → S → Except E (R × S)) (a : A) (st : List (K × R) × S) : Except E (R × (List (K × R) × S)) :=
  match key a with
  | none => .error unhashable
  | some k =>
    match st.1.lookup k with
    | some r => .ok (r, st)
    | none => do
      let (r, s) ← func a st.2
      return (r, ((k, r) :: st.1, s))

/-- a sequence of calls, with their results; the first exception ends it -/
def memoCalls {S A K R E : Type} [DecidableEq K] (key : A → Option K) (unhashable : E) (func : A → S → Except E (R × S)) : List A → List (K × R) × S → Except E (List R × (List (K × R) × S))
  | [], st => .ok ([], st)
  | a :: as, st => do
    let (r, st) ← memoCall key unhashable func a st
    let (rs, st) ← memoCalls key unhashable func as st
    return (r :: rs, st)

/-! ### statistics -/

/-- `percentError`, utilities.py:114-118, for flattened arrays. Arrays of different sizes are compared by numpy's broadcasting, which needs one of them to have size 1. -/
def percentError {α : Type} [DecidableEq α] (out true : List α) : Except Err ℚ := do
  let wrong ← if out.length = true.length then pure ((List.zipWith (fun a b => decide (a ≠ b)) out true).count .true)
    else match out, true with
      | _, [b] => pure ((out.map fun a => decide (a ≠ b)).count .true)
      | [a], _ => pure ((true.map fun b => decide (a ≠ b)).count .true)
      | _, _ => throw .valueError
  if out.length = 0 then throw .zeroDivision
  return 100 * wrong / out.length

/-- utilities.py:625: `l[i] <= tval` -/
def hit {α : Type} [LinearOrder α] (l : List α) (tval : α) (i : Nat) : Bool :=
  match l[i]? with
  | some x => decide (x ≤ tval)
  | none => false

/-- the loop utilities.py:624-628: the first index from `start` on with a value not above the target -/
def findFrom {α : Type} [LinearOrder α] (l : List α) (tval : α) (start : Nat) : Option Nat :=
  (List.range' start (l.length - start)).find? (hit l tval)

/-- the body of the loop over the targets for one list, utilities.py:622-630: `lres` is kept with its last element first -/
def foundStep {α : Type} [LinearOrder α] (longest : Nat) (l : List α) (lres : List Nat) (tval : α) : List Nat :=
  match findFrom l tval (lres.headD 0) with
  | some i => i :: lres
  | none => longest :: lres

/-- `avgFoundAfter`, utilities.py:610-636, with `useMedian=False`. The loops over targets and lists are exchanged: lists do not influence each other. -/
def avgFoundAfter {α : Type} [LinearOrder α] (targets : List α) (lists : List (List α)) (batchSize : ℚ := 1) : Except Err (List ℚ) :=
  if lists.length = 0 then .error .valueError
  else
    let longest := (lists.map List.length).foldl max 0
    let res := lists.map fun l => ((targets.foldl (foundStep longest l) [0]).reverse).drop 1
    .ok ((List.range targets.length).map fun j => ((res.map fun r => (r.getD j 0 : ℚ)).sum / lists.length) * batchSize)

/-- the double loop utilities.py:778-784 -/
noncomputable def utestU (g1 g2 : List (ℝ × ℝ)) : ℝ :=
  (g1.map fun p => (g2.map fun q => if p.1 = q.1 then 0.5 * p.2 * q.2 else if p.1 > q.1 then p.2 * q.2 else 0).sum).sum

/-- `weightedUtest`, utilities.py:762-789, on lists of values with their weights. `cdf` is the distribution function of the standard normal distribution (scipy). -/
noncomputable def weightedUtest (cdf : ℝ → ℝ) (g1 g2 : List (ℝ × ℝ)) : ℝ :=
  let n1 := (g1.map (·.2)).sum
  let n2 := (g2.map (·.2)).sum
  let mu := n1 * n2 / 2
  let sigu := √(n1 * n2 * (n1 + n2 + 1) / 12)
  cdf ((utestU g1 g2 - mu) / sigu)

/-- `linscale`, utilities.py:109-111, for an array with the smallest value `m` -/
def linscale (m lo hi : ℝ) (d : ℝ) : ℝ := (d - m) * (hi - lo) + lo

/-! ### dictionaries -/

/-- a value of a selection: a list of values, or a single one -/
inductive Sel (V : Type)
  | many (vs : List V)
  | one (v : V)

/-- `matchingDict`, utilities.py:643-657 -/
def matchingDict {K V : Type} [DecidableEq K] [DecidableEq V] (d : List (K × V)) (requireExistence : Bool) : List (K × Sel V) → Bool
  | [] => true
  | (k, v) :: sel =>
    match d.lookup k with
    | some x =>
      match v with
      | .many vs => if x ∉ vs then false else matchingDict d requireExistence sel
      | .one v => if x ≠ v then false else matchingDict d requireExistence sel
    | none => if requireExistence then false else matchingDict d requireExistence sel

/-- `subDict`, utilities.py:660-667 -/
def subDict {K V : Type} [DecidableEq K] (d : List (K × V)) (allowed : List K) (flip : Bool := false) : List (K × V) :=
  d.filter fun p => xor (decide (p.1 ∈ allowed)) flip

/-! ### names, utilities.py:200-228 -/

/-- an object with its class and its name, if it has one already -/
structure Obj where
  cls : List Char
  name : Option (List Char)
  deriving DecidableEq

/-- operations: create an object of a class, read the name of an object, rename it, copy it (copies have the attributes of the original) -/
inductive NameOp
  | create (cls : List Char)
  | read (i : Nat)
  | rename (i : Nat) (name : List Char)
  | copy (i : Nat)

/-- the objects, and the next value of the counter that all classes share (`_nameIds`, utilities.py:203) -/
structure Names where
  objs : List Obj
  next : Nat

/-- utilities.py:226-228: `"%s-%i"` -/
def generateName (cls : List Char) (i : Nat) : List Char := cls ++ '-' :: (Nat.repr i).toList

/-- utilities.py:213-221 -/
def nameStep (s : Names) : NameOp → Names
  | .create cls => { s with objs := s.objs ++ [⟨cls, none⟩] }
  | .read i => match s.objs[i]? with
    | some ⟨cls, none⟩ => { objs := s.objs.set i ⟨cls, some (generateName cls s.next)⟩, next := s.next + 1 }
    | _ => s
  | .rename i name => match s.objs[i]? with
    | some o => { s with objs := s.objs.set i { o with name := some name } }
    | none => s
  | .copy i => match s.objs[i]? with
    | some o => { s with objs := s.objs ++ [o] }
    | none => s

/-! ### numbers and matrices -/

/-- `numpy.packbits` for one group of (up to) eight bits: the first bit is the highest, missing ones are 0 -/
def packByte (bits : List Bool) : Nat := (List.range 8).foldl (fun v i => 2 * v + (bits.getD i false).toNat) 0

/-- `numpy.packbits` -/
def packbits (bits : List Bool) : List Nat := (List.range ((bits.length + 7) / 8)).map fun k => packByte ((bits.drop (8 * k)).take 8)

/-- `binArr2int`, utilities.py:738-742 -/
def binArr2int (bits : List Bool) : Nat := ((packbits bits).reverse.zipIdx.map fun (val, i) => val * 256 ^ i).sum

variable {d : Nat}

/-- the matrix `Qi` for the index `i`, utilities.py:721-729: the identity with four entries in rows and columns `i` and `i+1` set one after the other -/
noncomputable def givens (i : Nat) (theta : ℝ) (flip : Bool) : Matrix (Fin d) (Fin d) ℝ := fun a b =>
  if a.val = i ∧ b.val = i then Real.cos theta
  else if a.val = i + 1 ∧ b.val = i then Real.sin theta
  else if a.val = i ∧ b.val = i + 1 then (if flip then -Real.sin theta else Real.sin theta)
  else if a.val = i + 1 ∧ b.val = i + 1 then (if flip then Real.cos theta else -Real.cos theta)
  else if a = b then 1 else 0

/-- python's `range(start, stop, 2)` -/
def range2 (start stop : Int) : List Nat := (List.range ((stop - start + 1) / 2).toNat).map fun k => start.toNat + 2 * k

/-- utilities.py:713-716 -/
def orthSeq (d : Nat) : List Nat := if d % 2 = 0 then range2 0 d ++ range2 1 (d - 1) else range2 0 (d - 1) ++ range2 1 d

/-- `sparse_orth`, utilities.py:704-731, with the random angles and flips for every index -/
noncomputable def sparseOrth (d : Nat) (theta : Nat → ℝ) (flip : Nat → Bool) : Matrix (Fin d) (Fin d) ℝ :=
  (orthSeq d).foldl (fun Q i => Q * givens i (theta i) (flip i)) 1

/-- a matrix of numpy with its shape -/
structure Mat where
  rows : Nat
  cols : Nat
  at_ : Nat → Nat → ℝ

/-- numpy's `res[v:v+h, c:c+w] = m`: the slice is cut at the border of `res`; `m` must have its shape, or a size of 1 instead (broadcasting) -/
def assign (res : Mat) (v h c w : Nat) (m : Mat) : Except Err Mat :=
  let sh := min (v + h) res.rows - min v res.rows
  let sw := min (c + w) res.cols - min c res.cols
  if (m.rows = sh ∨ m.rows = 1) ∧ (m.cols = sw ∨ m.cols = 1) then
    .ok { res with at_ := fun a b => if v ≤ a ∧ a < v + h ∧ c ≤ b ∧ b < c + w then m.at_ (if m.rows = 1 then 0 else a - v) (if m.cols = 1 then 0 else b - c) else res.at_ a b }
  else .error .valueError

/-- the inner loop utilities.py:602-605 -/
def combineRow (v h : Nat) : Nat → List (Mat × Nat) → Mat → Except Err Mat
  | _, [], res => .ok res
  | c, (m, w) :: row, res => do
    let res ← assign res v h c w m
    combineRow v h (c + w) row res

/-- the outer loop utilities.py:600-606 -/
def combineRows (hdims : List Nat) : Nat → List (List Mat × Nat) → Mat → Except Err Mat
  | _, [], res => .ok res
  | v, (row, h) :: rows, res => do
    let res ← combineRow v h 0 (row.zip hdims) res
    if row.length > hdims.length then throw .indexError
    combineRows hdims (v + h) rows res

/-- utilities.py:597: `row[0].shape[0]` -/
def rowHeight : List Mat → Except Err Nat
  | [] => .error .indexError
  | m :: _ => .ok m.rows

/-- `blockCombine`, utilities.py:592-607 -/
def blockCombine (l : List (List Mat)) : Except Err Mat := do
  match l with
  | [] => throw .indexError
  | first :: _ =>
    let hdims := first.map (·.cols)
    let hs := hdims.sum
    let vdims ← l.mapM rowHeight
    let vs := vdims.sum
    combineRows hdims 0 (l.zip vdims) ⟨hs, vs, fun _ _ => 0⟩

end Verif.Util
