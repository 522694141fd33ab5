import Verif.Model.MazeTask
import Verif.Spec.Maze
import Mathlib.MeasureTheory.Measure.Lebesgue.Basic
/-
Specifications for C97: 1-in-n codes, walls around a cell, the T-maze, probabilities.
-/
namespace Verif.MazeTask.Spec
open Verif.Maze Verif.Maze.Spec MeasureTheory

/-- a vector of length `n` with exactly one entry 1 and zeros elsewhere -/
def OneHot (n : Nat) (l : List Nat) : Prop := l.length = n ∧ ∃ i < n, ∀ j < n, l.getD j 0 = if j = i then 1 else 0

/-- the same neighbours of `p` and `q` are walls -/
def SameWalls (t : Table) (p q : Pos) : Prop := ∀ h : Heading, Free t (step h p) ↔ Free t (step h q)

/-- probability of an event about a random number from [0,1) and an index drawn uniformly from `n`: the measure of the numbers, averaged over the indices -/
noncomputable def prob (n : Nat) (E : ℝ → Nat → Prop) : ℝ := (∑ k ∈ Finset.range n, (volume {r : ℝ | 0 ≤ r ∧ r < 1 ∧ E r k}).toReal) / n

/-! the T-maze with a corridor of length `L` -/

/-- the junction is the right end of row 2; the two arms are the cells above and below -/
def arm (L : Nat) (up : Bool) : Pos := if up then (3, (L : Int) + 1) else (1, (L : Int) + 1)

/-- corridor and junction -/
def Corridor (L : Nat) (p : Pos) : Prop := p.1 = 2 ∧ 1 ≤ p.2 ∧ p.2 ≤ (L : Int) + 1

/-! the shuttle between the stations in columns 1 and 5 -/

/-- the shuttle is next to a station and faces it -/
def Facing (c : Int) (h : Heading) : Prop := (c = 2 ∧ h = .west) ∨ (c = 4 ∧ h = .east)

open Classical in
/-- the probability that backing up turns the shuttle around, in column `c`, facing `h` -/
noncomputable def turnChance (c : Int) (h : Heading) : ℝ := if c = 3 then 1 / 10 else if Facing c h then 3 / 10 else 0

open Classical in
/-- the probability that backing up is carried out -/
noncomputable def backChance (c : Int) (h : Heading) : ℝ := if c = 3 then 8 / 10 else if Facing c h then 3 / 10 else 7 / 10

end Verif.MazeTask.Spec
