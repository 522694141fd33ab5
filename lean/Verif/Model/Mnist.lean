import Verif.Model.DataSet
/-
Model of pybrain/tools/datasets/mnist.py: reading the files of the MNIST database.

A file is the list of its bytes. A generator is modelled by the values it yields and the exception that ends it, if any. `scipy.array` and `scipy.zeros` make the arrays
(their presence in scipy is the library's business). `numrows * numcols` and the lengths are signed 32 bit numbers, as `struct` decodes them.
-/
namespace Verif.Mnist

abbrev Byte := Fin 256

/-- The exceptions that may be raised: `AssertionError`, `struct.error`, `TypeError`, `UnicodeDecodeError`, `IndexError`, `ValueError`. -/
inductive MErr where
  | assertion | struct | type | decode | index | value
deriving DecidableEq, Repr

/-- the format `>i` of `struct` -/
def beInt (a b c d : Byte) : Int :=
  let u : Int := ((a.1 * 256 + b.1) * 256 + c.1) * 256 + d.1
  if u < 2147483648 then u else u - 4294967296

/-- A generator: what it yields, and the exception that ends it. -/
abbrev Gen (α : Type) := List α × Option MErr

/-- mnist.py:13-15: `length` single bytes -/
def labelLoop : Nat → List Byte → Gen Byte
  | 0, _ => ([], none)
  | _ + 1, [] => ([], some .struct)
  | n + 1, b :: bs => (b :: (labelLoop n bs).1, (labelLoop n bs).2)

/-- How Python opens a file without a mode: Python 2 reads bytes, Python 3 decodes text (whether the beginning of the file can be decoded is given). -/
inductive Open where
  | bytes
  | text (decodes : Bool)

/-- `labels(filename)`, mnist.py:9-15. `struct.unpack` refuses text. -/
def labels (m : Open) (file : List Byte) : Gen Byte :=
  match m with
  | .text true => ([], some .type)
  | .text false => ([], some .decode)
  | .bytes =>
    match file with
    | a :: b :: c :: d :: e :: f :: g :: h :: rest =>
      if beInt a b c d = 2049 ∨ beInt a b c d = 2051 then labelLoop (beInt e f g h).toNat rest else ([], some .assertion)
    | _ => ([], some .struct)

/-- mnist.py:24-27. `fp.read(imagesize)` reads everything when the size is negative, and `'B' * imagesize` is then empty. -/
def imageLoop (size : Int) : Nat → List Byte → Gen (List Byte)
  | 0, _ => ([], none)
  | n + 1, file =>
    let chunk := if size < 0 then file else file.take size.toNat
    let rest := if size < 0 then [] else file.drop size.toNat
    if chunk.length = size.toNat then (chunk :: (imageLoop size n rest).1, (imageLoop size n rest).2) else ([], some .struct)

/-- `images(filename)`, mnist.py:18-27 -/
def images (file : List Byte) : Gen (List Byte) :=
  match file with
  | a :: b :: c :: d :: e :: f :: g :: h :: i :: j :: k :: l :: m :: n :: o :: p :: rest =>
    if beInt a b c d = 2049 ∨ beInt a b c d = 2051 then imageLoop (beInt i j k l * beInt m n o p) (beInt e f g h).toNat rest else ([], some .assertion)
  | _ => ([], some .struct)

/-- `flaggedArrayByIndex(idx, length)`, mnist.py:30-33 -/
def flagged (idx length : Nat) : Except MErr (List Nat) := if idx < length then .ok ((List.replicate length 0).set idx 1) else .error .index

/-- mnist.py:45-46 and 53-54: `zip` asks the images first. `addSample` puts the row into an array of 784 columns (dataset.py:107-113). -/
def load : List (List Byte) → Option MErr → List Byte → Option MErr → List (List Nat × List Nat) → Except MErr (List (List Nat × List Nat))
  | [], some e, _, _, _ => .error e
  | [], none, _, _, acc => .ok acc
  | _ :: _, _, [], some e, _ => .error e
  | _ :: _, _, [], none, acc => .ok acc
  | img :: imgs, ei, l :: ls, el, acc =>
    match flagged l.1 10 with
    | .error e => .error e
    | .ok t =>
      match Verif.DataSet.broadcast 784 (img.map fun b => b.1) with
      | none => .error .value
      | some row => load imgs ei ls el (acc ++ [(row, t)])

/-- one of the two sets, mnist.py:39-46 and 48-54 -/
def loadSet (m : Open) (imageFile labelFile : List Byte) : Except MErr (List (List Nat × List Nat)) :=
  load (images imageFile).1 (images imageFile).2 (labels m labelFile).1 (labels m labelFile).2 []

/-- `makeMnistDataSets(path)`, mnist.py:36-56: the training and the test set, read in the opposite order. -/
def makeMnistDataSets (m : Open) (trainImages trainLabels testImages testLabels : List Byte) :
    Except MErr (List (List Nat × List Nat) × List (List Nat × List Nat)) :=
  match loadSet m testImages testLabels with
  | .error e => .error e
  | .ok test =>
    match loadSet m trainImages trainLabels with
    | .error e => .error e
    | .ok train => .ok (train, test)

end Verif.Mnist
