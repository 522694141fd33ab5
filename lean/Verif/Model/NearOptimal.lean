import Verif.Model.DataSet
import Verif.Model.Py
import Mathlib.Data.List.Sort
import Mathlib.Algebra.Order.Floor.Ring
import Mathlib.Algebra.Order.Field.Basic
/-
Model of `pybrain/supervised/knn/lsh/nearoptimal.py`: hashing of points of a Euclidean space into balls of
shifted grids.

Points are lists over an ordered field with floor.  The random grid is an argument; points are taken to
have the dimension of the structure.
-/
namespace Verif.NearOptimal

open Verif.Py
open Verif.DataSet (Err)

variable {K : Type} [Field K] [LinearOrder K] [IsStrictOrderedRing K] [FloorRing K]

/-- `MultiDimHash` (nearoptimal.py:47-71): dimension, side length `omega * radius`, `radiusSquared`, the
centres `gridBalls`, the buckets `balls`. -/
structure Store (K S : Type) where
  dim : Nat
  side : K
  radiusSquared : K
  gridBalls : List (List K)
  balls : List ((List Int × Option Nat) × List (List K × S))

/-- `lowerDimensionBound` (nearoptimal.py:36). -/
def lowerDimensionBound : Nat := 24

/-- Squared Euclidean distance, `dot(distance.T, distance)` (nearoptimal.py:120-121, 189-190). -/
def sqDist (a b : List K) : K := ((a.zip b).map (fun p => (p.1 - p.2) * (p.1 - p.2))).sum

/-- `_findHypercube` (nearoptimal.py:101-115): `divmod` of every coordinate by the side length. -/
def findHypercube (m : Store K S) (point : List K) : List Int × List K :=
  (point.map (fun p => ⌊p / m.side⌋), point.map (fun p => p - m.side * (⌊p / m.side⌋ : K)))

/-- `_findLocalBall_noinline` (nearoptimal.py:117-122): the first ball that contains the point. -/
def findLocalBall (m : Store K S) (point : List K) : Option Nat :=
  m.gridBalls.findIdx? (fun ball => decide (sqDist point ball ≤ m.radiusSquared))

/-- `findBall` (nearoptimal.py:159-162). -/
def findBall (m : Store K S) (point : List K) : List Int × Option Nat :=
  ((findHypercube m point).1, findLocalBall m (findHypercube m point).2)

/-- `self.balls[index]` of the `defaultdict` (nearoptimal.py:71). -/
def bucket {S : Type} (m : Store K S) (i : List Int × Option Nat) : List (List K × S) := (dget m.balls i).getD []

/-- `insert` (nearoptimal.py:164-169).  For `dim ≤ 24` the projection is the number 1
(nearoptimal.py:92-95).  Otherwise it is a `dim × 24` matrix and `dot(projection, point)` with a point of
`dim > 24` entries raises `ValueError`. -/
def insert {S : Type} (m : Store K S) (point : List K) (sat : S) : Except Err (Store K S) :=
  if lowerDimensionBound < m.dim then .error .valueError
  else
    let i := findBall m point
    .ok { m with balls := dset m.balls i (bucket m i ++ [(point, sat)]) }

/-- `knn` (nearoptimal.py:178-192): `nlargest(k, candidates, key)` is `sorted(candidates, key=key, reverse=True)[:k]`,
a stable sort by increasing distance. -/
def knn {S : Type} (m : Store K S) (point : List K) (k : Nat) : List (List K × S) :=
  ((bucket m (findBall m point)).insertionSort (fun x y => -sqDist point y.1 ≤ -sqDist point x.1)).take k

/-- A history of insertions; one that raises changes nothing. -/
def run {S : Type} : Store K S → List (List K × S) → Store K S
  | m, [] => m
  | m, (p, s) :: ops => match insert m p s with
    | .ok m' => run m' ops
    | .error _ => run m ops

end Verif.NearOptimal
