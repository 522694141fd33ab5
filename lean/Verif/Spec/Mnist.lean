import Verif.Model.Mnist
/-
Specification of the files of the MNIST database: how they are written.
-/
namespace Verif.Mnist.Spec
open Verif.Mnist

/-- the four bytes of a number, most significant first -/
def be32 (n : Nat) : List Byte := [Fin.ofNat 256 (n / 16777216), Fin.ofNat 256 (n / 65536), Fin.ofNat 256 (n / 256), Fin.ofNat 256 n]

/-- magic number 2049, number of labels, labels -/
def labelFile (ls : List Byte) : List Byte := be32 2049 ++ (be32 ls.length ++ ls)

/-- magic number 2051, number of images, rows, columns, pixels -/
def imageFile (rows cols : Nat) (imgs : List (List Byte)) : List Byte :=
  be32 2051 ++ (be32 imgs.length ++ (be32 rows ++ (be32 cols ++ imgs.flatten)))

/-- images of one size whose numbers fit into the header -/
structure GoodImages (rows cols : Nat) (imgs : List (List Byte)) : Prop where
  size : ∀ i ∈ imgs, i.length = rows * cols
  number : imgs.length < 2147483648
  rows : rows < 2147483648
  cols : cols < 2147483648

/-- a digit as a vector with a single one -/
def oneHot (d : Nat) : List Nat := (List.range 10).map fun i => if i = d then 1 else 0

/-- the samples for images and their labels -/
def samples (imgs : List (List Byte)) (ls : List Byte) : List (List Nat × List Nat) := (imgs.zip ls).map fun p => (p.1.map fun b => b.1, oneHot p.2.1)

end Verif.Mnist.Spec
