import Verif.Model.CaptureGame
/-
Model of pybrain/rl/environments/twoplayergames/gomoku.py (GomokuGame) and pente.py (PenteGame).

The keys of the dictionary `b` are exactly the positions of the board (reset), so `b` is a function and reading a position off the board
is a KeyError. Colours and board values as in Verif.Model.CaptureGame.
-/
namespace Verif.Gomoku
open Verif.DataSet (Err)
open Verif.Capture (Cell Color Color.cell Color.opp upd)

abbrev Pos := Int × Int

/-- `winner`: a colour or 'draw' -/
inductive Result
  | won (c : Color)
  | draw
deriving DecidableEq, Repr

/-- attributes of GomokuGame, gomoku.py:18-37, and of PenteGame, pente.py:15-20 -/
structure Game where
  size : Nat × Nat
  movesDone : Nat
  winner : Option Result
  b : Pos → Cell
  pairsTaken : Color → Nat

/-- on the board: `not (next[0] < 0 or next[0] >= self.size[0] or next[1] < 0 or next[1] >= self.size[1])` -/
def inside (size : Nat × Nat) (p : Pos) : Bool :=
  !(decide (p.1 < 0) || decide (p.1 ≥ (size.1 : Int)) || decide (p.2 < 0) || decide (p.2 ≥ (size.2 : Int)))

/-- `_iterPos`, gomoku.py:25-29 -/
def iterPos (size : Nat × Nat) : List Pos :=
  (List.range size.1).flatMap (fun i : Nat => (List.range size.2).map (fun j : Nat => ((i : Int), (j : Int))))

/-- the directions of gomoku.py:42 and pente.py:34 -/
def dirs : List Pos := [(0, 1), (1, 0), (1, 1), (1, -1)]

/-- `next`, gomoku.py:46, pente.py:38 -/
def next (pos dir : Pos) (i d : Int) : Pos := (pos.1 + dir.1 * i * d, pos.2 + dir.2 * i * d)

/-- the innermost loop of `_fiveRow`, gomoku.py:45-52: the number added to `found` -/
def runLength (size : Nat × Nat) (b : Pos → Cell) (c : Color) (pos dir : Pos) (d : Int) : List Int → Nat
  | [] => 0
  | i :: is =>
    if !inside size (next pos dir i d) || decide (b (next pos dir i d) ≠ c.cell) then 0 else 1 + runLength size b c pos dir d is

/-- `_fiveRow`, gomoku.py:39-55 -/
def fiveRow (size : Nat × Nat) (b : Pos → Cell) (c : Color) (pos : Pos) : Bool :=
  dirs.any (fun dir => decide (1 + runLength size b c pos dir (-1) [1, 2, 3, 4] + runLength size b c pos dir 1 [1, 2, 3, 4] ≥ 5))

/-- `GomokuGame.__init__` and `reset`, gomoku.py:18-37 -/
def newGomoku (size : Nat × Nat) : Except Err Game :=
  if size.1 ≥ 5 ∧ size.2 ≥ 5 then .ok { size := size, movesDone := 0, winner := none, b := fun _ => .empty, pairsTaken := fun _ => 0 }
  else .error .assertion

/-- `GomokuGame.doMove`, gomoku.py:79-94, with `isLegal`, lines 76-77, and `_setStone`, lines 130-132 -/
def doMove (g0 : Game) (c : Color) (pos : Pos) : Except Err (Game × Bool) :=
  let g := { g0 with movesDone := g0.movesDone + 1 }
  if !inside g.size pos then .error .keyError
  else if g.b pos ≠ .empty then .ok (g, false)
  else if fiveRow g.size g.b c pos then .ok ({ g with winner := some (.won c), b := upd g.b pos .mark }, true)
  else
    let g1 := { g with b := upd g.b pos c.cell }
    if g1.movesDone = g1.size.1 * g1.size.2 then .ok ({ g1 with winner := some .draw }, true) else .ok (g1, true)

/-- `getLegals`, gomoku.py:134-136 -/
def getLegals (g : Game) : List Pos := (iterPos g.size).filter (fun p => decide (g.b p = .empty))

/-- `getKilling`, gomoku.py:138-140 -/
def getKilling (g : Game) (c : Color) : List Pos := (getLegals g).filter (fun p => fiveRow g.size g.b c p)

/-! ### Pente -/

/-- one pass of the inner loop of `_killsWhich`, pente.py:36-47 -/
def killLine (size : Nat × Nat) (b : Pos → Cell) (c : Color) (pos dir : Pos) (d : Int) : List Int → List Pos → List Pos
  | [], _ => []
  | i :: is, killcands =>
    if !inside size (next pos dir i d) then []
    else if i = 3 ∧ b (next pos dir i d) = c.cell then killcands
    else if i ≠ 3 ∧ b (next pos dir i d) ≠ c.opp.cell then []
    else killLine size b c pos dir d is (killcands ++ [next pos dir i d])

/-- `_killsWhich`, pente.py:31-48 -/
def killsWhich (size : Nat × Nat) (b : Pos → Cell) (c : Color) (pos : Pos) : List Pos :=
  dirs.flatMap (fun dir => [(-1 : Int), 1].flatMap (fun d => killLine size b c pos dir d [1, 2, 3] []))

/-- `PenteGame._setStone`, pente.py:74-81 -/
def setStone (g : Game) (c : Color) (pos : Pos) (tokill : List Pos) : Game :=
  { g with
    b := tokill.foldl (fun b p => upd b p .empty) (upd g.b pos c.cell)
    pairsTaken := upd g.pairsTaken c (g.pairsTaken c + tokill.length / 2) }

/-- `PenteGame.reset`, pente.py:15-20 -/
def newPente (size : Nat × Nat) : Except Err Game :=
  match newGomoku size with
  | .error e => .error e
  | .ok g =>
    let center : Pos := (((size.1 / 2 : Nat) : Int), ((size.2 / 2 : Nat) : Int))
    let g1 := setStone g .white center (killsWhich g.size g.b .white center)
    .ok { g1 with movesDone := g1.movesDone + 1 }

/-- `PenteGame.doMove`, pente.py:50-72. `len(tokill) / 2 >= 5 - pairsTaken` is a comparison of numbers, written without division. -/
def penteMove (g0 : Game) (c : Color) (pos : Pos) : Except Err (Game × Bool) :=
  let g := { g0 with movesDone := g0.movesDone + 1 }
  if !inside g.size pos then .error .keyError
  else if g.b pos ≠ .empty then .ok (g, false)
  else if fiveRow g.size g.b c pos then .ok ({ g with winner := some (.won c), b := upd g.b pos .mark }, true)
  else
    let tokill := killsWhich g.size g.b c pos
    if 2 * g.pairsTaken c + tokill.length ≥ 10 then .ok ({ g with winner := some (.won c), b := upd g.b pos .mark }, true)
    else
      let g1 := setStone g c pos tokill
      if g1.movesDone = g1.size.1 * g1.size.2 + 2 * (g1.pairsTaken .black + g1.pairsTaken .white) then
        .ok ({ g1 with winner := some .draw }, true)
      else .ok (g1, true)

/-- `PenteGame.getKilling`, pente.py:22-29 -/
def penteKilling (g : Game) (c : Color) : List Pos :=
  getKilling g c ++ (getLegals g).filter (fun p => decide (2 * g.pairsTaken c + (killsWhich g.size g.b c p).length ≥ 10))

end Verif.Gomoku
