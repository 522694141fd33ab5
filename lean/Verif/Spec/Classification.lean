/- Specification vocabulary for classification datasets. -/
namespace Verif.Classification.Spec

/-- The row of length `n` with `hi` at position `k` and `lo` elsewhere. -/
def oneHot (n : Nat) (lo hi : Rat) (k : Nat) : List Rat := (List.range n).map (fun j => if j = k then hi else lo)

end Verif.Classification.Spec
