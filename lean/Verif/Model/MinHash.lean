import Verif.Model.DataSet
import Verif.Model.Py
import Mathlib.Data.List.Sort
import Mathlib.Data.Rat.Defs
import Mathlib.Algebra.Order.Ring.Rat
/-
Model of `pybrain/supervised/knn/lsh/minhash.py`: locality sensitive hashing of 0/1 arrays.

Arrays are one-dimensional lists of integers.  The random permutations are an argument.
-/
namespace Verif.MinHash

open Verif.Py
open Verif.DataSet (Err)

/-- `item.astype(bool)`, with `True`/`False` as `1`/`0` (minhash.py:46-47, 113). -/
def asBool (item : List Int) : List Int := item.map (fun x => if x = 0 then 0 else 1)

/-- `arrayPermutation` (minhash.py:17-30): `[arr[i] for i in permutation]`.  The permutation has the
length of the array (checked by `_checkItem`), so the indices are in range. -/
def permute (perm : List Nat) (arr : List Int) : List Int := perm.map (fun i => arr.getD i 0)

/-- `jacardCoefficient` (minhash.py:33-49). -/
def jacard (a b : List Int) : ℚ :=
  (((asBool a).zip (asBool b)).countP (fun p => p.1 = p.2) : ℚ) / (a.length : ℚ)

/-- `_firstOne` (minhash.py:82-87), for a non-empty array. -/
def firstOne : List Int → Nat
  | [] => 0
  | x :: l => if x = 1 then 0 else firstOne l + 1

/-- `_hash` after the check (minhash.py:102-106). -/
def hash (perms : List (List Nat)) (item : List Int) : List Nat := perms.map (fun p => firstOne (permute p item))

/-- `MinHash` (minhash.py:71-80). -/
structure Store (S : Type) where
  dim : Nat
  perms : List (List Nat)
  buckets : List (List Nat × List (List Int × S))

/-- `__init__` (minhash.py:71-80). -/
def new {S : Type} (dim : Nat) (perms : List (List Nat)) : Store S := ⟨dim, perms, []⟩

/-- `self.buckets[h]` of the `defaultdict` (minhash.py:80). -/
def bucket {S : Type} (m : Store S) (h : List Nat) : List (List Int × S) := (dget m.buckets h).getD []

/-- `put` (minhash.py:108-115). -/
def put {S : Type} (m : Store S) (item : List Int) (sat : S) : Except Err (Store S) :=
  if item.length ≠ m.dim then .error .valueError
  else
    let item := asBool item
    let h := hash m.perms item
    .ok { m with buckets := dset m.buckets h (bucket m h ++ [(item, sat)]) }

/-- `knn` (minhash.py:118-129): the bucket is sorted in place, stably, by decreasing coefficient. -/
def knn {S : Type} (m : Store S) (item : List Int) (k : Int) : Except Err (List (List Int × S) × Store S) :=
  if item.length ≠ m.dim then .error .valueError
  else
    let h := hash m.perms item
    let c := (bucket m h).insertionSort (fun x y => jacard y.1 item ≤ jacard x.1 item)
    .ok (sliceTo c k, { m with buckets := dset m.buckets h c })

/-- The operations. -/
inductive Op (S : Type) where
  | put (item : List Int) (sat : S)
  | knn (item : List Int) (k : Int)

/-- A history of calls; a call that raises changes nothing. -/
def run {S : Type} : Store S → List (Op S) → Store S
  | m, [] => m
  | m, .put item sat :: ops => match put m item sat with
    | .ok m' => run m' ops
    | .error _ => run m ops
  | m, .knn item k :: ops => match knn m item k with
    | .ok (_, m') => run m' ops
    | .error _ => run m ops

end Verif.MinHash
