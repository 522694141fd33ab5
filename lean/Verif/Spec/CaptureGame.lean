import Verif.Model.CaptureGame
import Mathlib.Logic.Relation
import Mathlib.Data.Set.Card
/-
The rules of the capture game on a board, independent of the program's bookkeeping: groups are connected sets of stones of one colour,
liberties are the empty points next to a group.
-/
namespace Verif.Capture.Spec
open Verif.Capture

/-- a point of a board of the given size -/
def Point (size : Nat) (p : Pos) : Prop := p.1 < size ∧ p.2 < size

/-- next to each other in a row or column -/
def Adj (p q : Pos) : Prop :=
  (p.1 = q.1 ∧ (p.2 + 1 = q.2 ∨ q.2 + 1 = p.2)) ∨ (p.2 = q.2 ∧ (p.1 + 1 = q.1 ∨ q.1 + 1 = p.1))

/-- there is a stone -/
def Stone (b : Pos → Cell) (p : Pos) : Prop := b p = .black ∨ b p = .white

/-- neighbouring stones of the same colour -/
def Link (size : Nat) (b : Pos → Cell) (p q : Pos) : Prop := Point size p ∧ Point size q ∧ Adj p q ∧ Stone b p ∧ b p = b q

/-- connected by stones of the same colour -/
def Connected (size : Nat) (b : Pos → Cell) : Pos → Pos → Prop := Relation.ReflTransGen (Link size b)

/-- the group of the stone at `p` -/
def group (size : Nat) (b : Pos → Cell) (p : Pos) : Set Pos := {q | Connected size b p q}

/-- the liberties of the stone at `p`: empty points next to its group -/
def liberties (size : Nat) (b : Pos → Cell) (p : Pos) : Set Pos :=
  {e | Point size e ∧ b e = .empty ∧ ∃ q, Connected size b p q ∧ Adj q e}

/-- the board with a stone of colour `c` put on `pos` -/
def place (b : Pos → Cell) (c : Color) (pos : Pos) : Pos → Cell := fun p => if p = pos then c.cell else b p

/-- putting a stone on `pos` takes the last liberty of an enemy group next to it -/
def Captures (size : Nat) (b : Pos → Cell) (c : Color) (pos : Pos) : Prop :=
  ∃ n, Point size n ∧ Adj pos n ∧ b n = c.opp.cell ∧ liberties size (place b c pos) n = ∅

/-- putting a stone on `pos` leaves its own group without liberties, and captures nothing -/
def Suicide (size : Nat) (b : Pos → Cell) (c : Color) (pos : Pos) : Prop :=
  liberties size (place b c pos) pos = ∅ ∧ ¬ Captures size b c pos

end Verif.Capture.Spec
