import Mathlib.Data.List.Forall2
/-
Specification of grids: units are tuples of coordinates below the dimensions, stored row by row (the last coordinate runs fastest).
-/
namespace Verif.Mesh.Spec

/-- the coordinates of a unit of a grid with the given dimensions -/
def InGrid (dims u : List Nat) : Prop := List.Forall₂ (· < ·) u dims

/-- the number of a unit in row-major order -/
def rowMajor (dims u : List Nat) : Nat := (dims.zip u).foldl (fun acc p => acc * p.1 + p.2) 0

end Verif.Mesh.Spec
