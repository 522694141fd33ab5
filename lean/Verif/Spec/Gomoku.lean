import Verif.Model.Gomoku
/-
The rules of Go-Moku and Pente on a board.
-/
namespace Verif.Gomoku.Spec
open Verif.Gomoku
open Verif.Capture (Cell Color Color.cell Color.opp)

/-- on the board -/
def Point (size : Nat × Nat) (p : Pos) : Prop := 0 ≤ p.1 ∧ p.1 < size.1 ∧ 0 ≤ p.2 ∧ p.2 < size.2

instance (size : Nat × Nat) (p : Pos) : Decidable (Point size p) := by unfold Point; infer_instance

/-- `p + i * dir` -/
def shift (p dir : Pos) (i : Int) : Pos := (p.1 + i * dir.1, p.2 + i * dir.2)

/-- five consecutive points from `start` in direction `dir` (to the right, down, or diagonal) with stones of colour `c` -/
def FiveLine (size : Nat × Nat) (b : Pos → Cell) (c : Color) (start dir : Pos) : Prop :=
  dir ∈ [((0 : Int), (1 : Int)), (1, 0), (1, 1), (1, -1)] ∧
  ∀ j : Int, 0 ≤ j → j < 5 → Point size (shift start dir j) ∧ b (shift start dir j) = c.cell

/-- the board with a stone of colour `c` put on `pos` -/
def place (b : Pos → Cell) (c : Color) (pos : Pos) : Pos → Cell := fun p => if p = pos then c.cell else b p

/-- putting a stone on `pos` makes it part of a line of (at least) five own stones -/
def Completes (size : Nat × Nat) (b : Pos → Cell) (c : Color) (pos : Pos) : Prop :=
  ∃ start dir, FiveLine size (place b c pos) c start dir ∧ ∃ j : Int, 0 ≤ j ∧ j < 5 ∧ shift start dir j = pos

/-- the eight directions -/
def allDirs : List Pos := [(0, -1), (0, 1), (-1, 0), (1, 0), (-1, -1), (1, 1), (-1, 1), (1, -1)]

/-- a stone of colour `c` at `pos` flanks an enemy pair in direction `dir` -/
def FlanksIn (size : Nat × Nat) (b : Pos → Cell) (c : Color) (pos dir : Pos) : Prop :=
  Point size (shift pos dir 1) ∧ b (shift pos dir 1) = c.opp.cell ∧ Point size (shift pos dir 2) ∧ b (shift pos dir 2) = c.opp.cell ∧
  Point size (shift pos dir 3) ∧ b (shift pos dir 3) = c.cell

instance (size : Nat × Nat) (b : Pos → Cell) (c : Color) (pos dir : Pos) : Decidable (FlanksIn size b c pos dir) := by
  unfold FlanksIn; infer_instance

/-- the number of pairs a stone of colour `c` at `pos` captures -/
def pairs (size : Nat × Nat) (b : Pos → Cell) (c : Color) (pos : Pos) : Nat :=
  (allDirs.filter (fun dir => decide (FlanksIn size b c pos dir))).length

/-- the points of the board -/
def points (size : Nat × Nat) : List Pos :=
  (List.range size.1).flatMap (fun i : Nat => (List.range size.2).map (fun j : Nat => ((i : Int), (j : Int))))

/-- the number of stones on the board (the winning stone is marked 'x') -/
def stones (size : Nat × Nat) (b : Pos → Cell) : Nat := ((points size).filter (fun p => decide (b p ≠ .empty))).length

/-- a stone at `p` is captured by a stone of colour `c` at `pos` -/
def Captured (size : Nat × Nat) (b : Pos → Cell) (c : Color) (pos p : Pos) : Prop :=
  ∃ dir ∈ allDirs, FlanksIn size b c pos dir ∧ (p = shift pos dir 1 ∨ p = shift pos dir 2)

end Verif.Gomoku.Spec
