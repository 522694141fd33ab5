import Verif.Model.Maze
/-
Cells, walls and moves of a maze.
-/
namespace Verif.Maze.Spec
open Verif.Maze

/-- `p` is a cell of the table -/
def Cell (t : Table) (p : Pos) : Prop := 0 ≤ p.1 ∧ p.1 < t.rows ∧ 0 ≤ p.2 ∧ p.2 < t.cols

/-- `p` is a free cell -/
def Free (t : Table) (p : Pos) : Prop := Cell t p ∧ t.wall p.1.toNat p.2.toNat = false

/-- the maze is surrounded by walls -/
def Bordered (t : Table) : Prop :=
  ∀ r c : Nat, r < t.rows → c < t.cols → (r = 0 ∨ r + 1 = t.rows ∨ c = 0 ∨ c + 1 = t.cols) → t.wall r c = true

/-- the directions: rows are counted upwards (north), columns to the right (east) -/
inductive Heading
  | north | east | south | west
deriving DecidableEq, Repr

/-- the neighbouring cell in a direction -/
def step : Heading → Pos → Pos
  | .north, p => (p.1 + 1, p.2)
  | .east, p => (p.1, p.2 + 1)
  | .south, p => (p.1 - 1, p.2)
  | .west, p => (p.1, p.2 - 1)

/-- facing north, west is on the left -/
def leftOf : Heading → Heading
  | .north => .west
  | .west => .south
  | .south => .east
  | .east => .north

def rightOf : Heading → Heading
  | .north => .east
  | .east => .south
  | .south => .west
  | .west => .north

def behind : Heading → Heading
  | .north => .south
  | .east => .west
  | .south => .north
  | .west => .east

/-- the number by which the library refers to a direction -/
def code : Heading → Nat
  | .north => 0
  | .east => 1
  | .south => 2
  | .west => 3

end Verif.Maze.Spec
