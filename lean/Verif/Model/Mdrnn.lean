import Verif.Model.DataSet
/-
Model of pybrain/structure/modules/mdrnnlayer.py (the parameters) and pybrain/structure/networks/mdrnn.py (the permutations of the swiping directions).

Permutations are functions on flat positions. Indexing an array with a list of slices is modelled as with a tuple of slices (newer versions of numpy refuse lists).
The networks themselves only exist with the arac library and are not modelled.
-/
namespace Verif.Mdrnn
open Verif.DataSet (Err)

/-- the numbers that determine a layer, mdrnnlayer.py:51-83 -/
structure Layer where
  timedim : Nat
  shape : List Nat
  hiddendim : Nat
  outsize : Nat
  blockshape : List Nat

/-- `blocksize`, mdrnnlayer.py:81 -/
def Layer.blocksize (l : Layer) : Nat := l.blockshape.foldl (· * ·) 1
/-- `num_in_params`, mdrnnlayer.py:90 -/
def Layer.numIn (l : Layer) : Nat := l.blocksize * l.hiddendim * (3 + l.timedim)
/-- `num_rec_params`, mdrnnlayer.py:94 -/
def Layer.numRec (l : Layer) : Nat := l.outsize * l.hiddendim * (3 + l.timedim)
/-- `num_out_params`, mdrnnlayer.py:97 -/
def Layer.numOut (l : Layer) : Nat := l.outsize * l.hiddendim
/-- `num_bias_params`, mdrnnlayer.py:101 -/
def Layer.numBias (l : Layer) : Nat := (3 + l.timedim) * l.hiddendim + l.outsize
/-- `num_params`, mdrnnlayer.py:104-107 -/
def Layer.numParams (l : Layer) : Nat := l.numIn + l.timedim * l.numRec + l.numOut + l.numBias

section
variable {K : Type}

/-- `params[a:b]` -/
def slice (params : List K) (a b : Nat) : List K := (params.take b).drop a

/-- `inParams`, mdrnnlayer.py:34-36 -/
def Layer.inParams (l : Layer) (params : List K) : List K := slice params 0 l.numIn
/-- `predParams`, mdrnnlayer.py:38-43 -/
def Layer.predParams (l : Layer) (params : List K) : List (List K) :=
  (List.range l.timedim).map fun i => slice (params.drop l.numIn) (i * l.numRec) ((i + 1) * l.numRec)
/-- `outParams`, mdrnnlayer.py:45-48 -/
def Layer.outParams (l : Layer) (params : List K) : List K := slice params (l.numIn + l.numRec) (l.numIn + l.numRec + l.numOut)
/-- `biasParams`, mdrnnlayer.py:50-53 -/
def Layer.biasParams (l : Layer) (params : List K) : List K :=
  slice params (l.numIn + l.numRec + l.numOut) (l.numIn + l.numRec + l.numOut + l.numBias)
end

/-! ### swiping directions -/

/-- all lists of directions, `crossproduct([('+', '-')] * timedim)` (utilities.py:485-493), for at least one dimension; `true` is `-` -/
def directions : Nat → List (List Bool)
  | 0 => [[]]
  | n + 1 => [false, true].flatMap fun d => (directions n).map fun ds => d :: ds

/-- the position in the flat array of the entry that ends up at position `i` when the axes of an array are reversed according to the directions: the slices of
mdrnn.py:95-105 and `flatten`; the last axis is the fastest -/
def swipe : List (Nat × Bool) → Nat → Nat
  | [], i => i
  | (n, rev) :: rest, i =>
    let size := (rest.map Prod.fst).foldl (· * ·) 1
    let q := i / size
    (if rev then n - 1 - q else q) * size + swipe rest (i % size)

/-- `_permsForSwiping` of `_MultiDirectionalMdrnn`, mdrnn.py:84-106, for the shape in blocks -/
def permsForSwiping (dims : List Nat) : List (Nat → Nat) := (directions dims.length).map fun ds => swipe (dims.zip ds)

/-- `permute(list(range(len(p))), p)`, mdrnn.py:66 and utilities.py:496-503 -/
def pinv (p : Nat → Nat) : Nat → Nat := fun i => p i

/-- the effect of the connections to and from a hidden layer on a sequence of blocks, mdrnn.py:63-67, if the layer returns `h` of the sequence it gets -/
def through {B C : Type} (p : Nat → Nat) (h : (Nat → B) → (Nat → C)) (x : Nat → B) : Nat → C := fun j => h (fun i => x (p i)) (pinv p j)

end Verif.Mdrnn
