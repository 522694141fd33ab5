import Verif.Model.Py
import Mathlib.Algebra.Group.Defs
/-
Model of the matrix packing helpers of pybrain/utilities.py. A vector is a function on positions, a matrix a function on
(row, column); entries outside the array are never looked at. Divisions are integer divisions (the code is written for
Python 2; in Python 3 `zeros(dim * (dim + 1) / 2)` and the index `j` of permuteToBlocks2d would be floats).
-/
namespace Verif.Blocks

variable {K : Type} [Zero K]

/-- `res[a:b] = v` -/
def setSlice (res : Nat → K) (a b : Nat) (v : Nat → K) : Nat → K := fun j => if a ≤ j ∧ j < b then v (j - a) else res j

/-- one turn of the loop of `triu2flat`, utilities.py:562-564 -/
def flatStep (m : Nat → Nat → K) (dim : Nat) (s : (Nat → K) × Nat) (row : Nat) : (Nat → K) × Nat :=
  (setSlice s.1 s.2 (s.2 + (dim - row)) (fun j => m row (row + j)), s.2 + (dim - row))

/-- `triu2flat`, utilities.py:556-565 -/
def triu2flat (m : Nat → Nat → K) (dim : Nat) : Nat → K := ((List.range dim).foldl (flatStep m dim) (fun _ => 0, 0)).1

/-- one turn of the loop of `flat2triu`, utilities.py:572-574 -/
def triuStep (a : Nat → K) (dim : Nat) (s : (Nat → Nat → K) × Nat) (row : Nat) : (Nat → Nat → K) × Nat :=
  (fun i => if i = row then setSlice (s.1 row) row dim (fun j => a (s.2 + j)) else s.1 i, s.2 + (dim - row))

/-- `flat2triu`, utilities.py:568-575 -/
def flat2triu (a : Nat → K) (dim : Nat) : Nat → Nat → K := ((List.range dim).foldl (triuStep a dim) (fun _ _ => 0, 0)).1

/-- the new position of entry `i`, utilities.py:545-551 -/
def blockPos (width bh bw i : Nat) : Nat :=
  let blockx := (i % width) / bw
  let blocky := i / width / bh
  let blockoffset := (blocky * width / bw + blockx) * (bw * bh)
  let inblockx := i % bw
  let inblocky := (i / width) % bh
  blockoffset + inblocky * bw + inblockx

/-- `permuteToBlocks2d`, utilities.py:540-553, of an array with `height * width` entries -/
def permuteToBlocks2d (arr : Nat → K) (height width bh bw : Nat) : Nat → K :=
  (List.range (height * width)).foldl (fun new i => fun j => if j = blockPos width bh bw i then arr i else new j) (fun _ => 0)

/-- `permuteToBlocks3d`, utilities.py:532-537, of an array with `depth * height * width` entries -/
def permuteToBlocks3d (arr : Nat → K) (depth height width bd bh bw : Nat) : Nat → K :=
  permuteToBlocks2d (permuteToBlocks2d arr (height * depth) width bh bw) depth (height * width) bd (bw * bh)

/-- what `permuteToBlocks` can raise -/
inductive BlockErr
  | valueError | notImplemented

/-- `permuteToBlocks`, utilities.py:506-529; taking the shape apart raises a ValueError if it has another number of dimensions -/
def permuteToBlocks (arr : Nat → K) : (shape blockshape : List Nat) → Except BlockErr (Nat → K)
  | _, [] => .error .valueError
  | _, [_] => .error .valueError
  | [height, width], [bh, bw] => .ok (permuteToBlocks2d arr height width bh bw)
  | _, [_, _] => .error .valueError
  | [depth, height, width], [bd, bh, bw] => .ok (permuteToBlocks3d arr depth height width bd bh bw)
  | _, [_, _, _] => .error .valueError
  | _, _ => .error .notImplemented

/-- one turn of the loop of `blockList2Matrix`, utilities.py:584-588 -/
def diagStep (s : (Nat → Nat → K) × Nat) (dm : Nat × (Nat → Nat → K)) : (Nat → Nat → K) × Nat :=
  (fun i j => if s.2 ≤ i ∧ i < s.2 + dm.1 ∧ s.2 ≤ j ∧ j < s.2 + dm.1 then dm.2 (i - s.2) (j - s.2) else s.1 i j, s.2 + dm.1)

/-- `blockList2Matrix`, utilities.py:578-589, for a list of (dimension, matrix) -/
def blockList2Matrix (l : List (Nat × (Nat → Nat → K))) : Nat → Nat → K := (l.foldl diagStep (fun _ _ => 0, 0)).1

end Verif.Blocks
