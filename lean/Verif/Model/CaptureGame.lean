import Verif.Model.DataSet
import Mathlib.Data.Finset.Basic
import Mathlib.Data.Finset.Card
/-
Model of pybrain/rl/environments/twoplayergames/capturegame.py (CaptureGame).

Positions are pairs of natural numbers; the dictionary `b` has exactly the board's positions as keys (reset, lines 39-41; later writes
are to legal positions only), so `pos in self.b` is `onBoard`, and `b` is a function. All other keys (negative numbers, other types)
behave like positions outside the board. `groups` and `liberties` are dictionaries: `none` means that the key is missing, reading it is
a KeyError. Sets are Finsets.
-/
namespace Verif.Capture
open Verif.DataSet (Err)

abbrev Pos := Nat × Nat

/-- board values, capturegame.py:17-19; `mark` is 'x' or 'y', lines 86 and 91 -/
inductive Cell
  | empty | black | white | mark
deriving DecidableEq, Repr

/-- the two players' colours, 1 and -1 -/
inductive Color
  | black | white
deriving DecidableEq, Repr

/-- `-c` -/
def Color.opp : Color → Color
  | .black => .white
  | .white => .black

/-- the board value of a colour -/
def Color.cell : Color → Cell
  | .black => .black
  | .white => .white

/-- the attributes of CaptureGame, capturegame.py:23-45 -/
structure Game where
  size : Nat
  suicideenabled : Bool
  movesDone : Nat
  winner : Option Color
  b : Pos → Cell
  groups : Pos → Option Nat
  liberties : Nat → Option (Finset Pos)

/-- `pos in self.b` -/
def onBoard (size : Nat) (p : Pos) : Bool := decide (p.1 < size) && decide (p.2 < size)

/-- `__init__` and `reset`, capturegame.py:23-45 -/
def newGame (size : Nat) (suicideenabled : Bool) : Game :=
  { size := size, suicideenabled := suicideenabled, movesDone := 0, winner := none, b := fun _ => .empty, groups := fun _ => none,
    liberties := fun _ => none }

/-- `_iterPos`, capturegame.py:29-33 -/
def iterPos (size : Nat) : List Pos := (List.range size).flatMap (fun i => (List.range size).map (fun j => (i, j)))

/-- `_neighbors`, capturegame.py:122-129 -/
def neighbors (size : Nat) (p : Pos) : List Pos :=
  (if p.2 + 1 < size then [(p.1, p.2 + 1)] else []) ++ (if 0 < p.2 then [(p.1, p.2 - 1)] else []) ++
  (if p.1 + 1 < size then [(p.1 + 1, p.2)] else []) ++ (if 0 < p.1 then [(p.1 - 1, p.2)] else [])

/-- function update, `d[k] = v` -/
def upd {α β : Type} [DecidableEq α] (f : α → β) (k : α) (v : β) : α → β := fun x => if x = k then v else f x

/-- `self.liberties[self.groups[n]]` -/
def libertiesAt (g : Game) (n : Pos) : Except Err (Finset Pos) :=
  match g.groups n with
  | none => .error .keyError
  | some k =>
    match g.liberties k with
    | none => .error .keyError
    | some l => .ok l

/-- `_capture`, capturegame.py:182-188, on the remaining neighbours -/
def captureLoop (g : Game) (c : Color) : List Pos → Except Err Bool
  | [] => .ok false
  | n :: ns =>
    if g.b n = c.opp.cell then
      match libertiesAt g n with
      | .error e => .error e
      | .ok l => if l.card = 1 then .ok true else captureLoop g c ns
    else captureLoop g c ns

/-- `_capture`, capturegame.py:182-188 -/
def capture (g : Game) (c : Color) (pos : Pos) : Except Err Bool := captureLoop g c (neighbors g.size pos)

/-- the second loop of `_suicide`, capturegame.py:171-174: is there a friendly neighbour with extra liberties? -/
def friendLoop (g : Game) (c : Color) : List Pos → Except Err Bool
  | [] => .ok false
  | n :: ns =>
    if g.b n = c.cell then
      match libertiesAt g n with
      | .error e => .error e
      | .ok l => if l.card > 1 then .ok true else friendLoop g c ns
    else friendLoop g c ns

/-- `_suicide`, capturegame.py:163-180 -/
def suicide (g : Game) (c : Color) (pos : Pos) : Except Err Bool :=
  if (neighbors g.size pos).any (fun n => decide (g.b n = .empty)) then .ok false
  else
    match friendLoop g c (neighbors g.size pos) with
    | .error e => .error e
    | .ok true => .ok false
    | .ok false =>
      match capture g c pos with
      | .error e => .error e
      | .ok true => .ok false
      | .ok false => .ok true

/-- the state of `_setStone`'s loop: groups, liberties, merge -/
structure Loop where
  groups : Pos → Option Nat
  liberties : Nat → Option (Finset Pos)
  merge : Bool

/-- line 140: `self.liberties[self.groups[n]].difference_update([pos])` -/
def enemyStep (pos n : Pos) (s : Loop) : Except Err Loop :=
  match s.groups n with
  | none => .error .keyError
  | some k =>
    match s.liberties k with
    | none => .error .keyError
    | some l => .ok { s with liberties := upd s.liberties k (some (l.erase pos)) }

/-- lines 143-154 -/
def mergeStep (pos n : Pos) (s : Loop) : Except Err Loop :=
  match s.groups pos, s.groups n with
  | some newg, some oldg =>
    if newg = oldg then
      match s.liberties newg with
      | none => .error .keyError
      | some l => .ok { s with liberties := upd s.liberties newg (some (l.erase pos)) }
    else
      match s.liberties newg, s.liberties oldg with
      | some ln, some lo =>
        .ok { s with
          groups := fun p => if s.groups p = some oldg then some newg else s.groups p
          liberties := upd (upd s.liberties newg (some ((ln ∪ lo).erase pos))) oldg none }
      | _, _ => .error .keyError
  | _, _ => .error .keyError

/-- lines 157-161 -/
def connectStep (freen : Finset Pos) (pos n : Pos) (s : Loop) : Except Err Loop :=
  match s.groups pos, s.groups n with
  | some own, some k =>
    match s.liberties own with
    | none => .error .keyError
    | some _ =>
      match (upd s.liberties own none) k with
      | none => .error .keyError
      | some l =>
        .ok { groups := upd s.groups pos (some k)
              liberties := upd (upd s.liberties own none) k (some ((l ∪ freen).erase pos))
              merge := true }
  | _, _ => .error .keyError

/-- the loop of `_setStone`, capturegame.py:138-161; `b` is the board with the new stone -/
def stoneLoop (b : Pos → Cell) (c : Color) (freen : Finset Pos) (pos : Pos) : List Pos → Loop → Except Err Loop
  | [], s => .ok s
  | n :: ns, s =>
    let r := if b n = c.opp.cell then enemyStep pos n s
      else if b n = c.cell then (if s.merge then mergeStep pos n s else connectStep freen pos n s)
      else .ok s
    match r with
    | .error e => .error e
    | .ok s' => stoneLoop b c freen pos ns s'

/-- `_setStone`, capturegame.py:131-161 -/
def setStone (g : Game) (c : Color) (pos : Pos) : Except Err Game :=
  let b := upd g.b pos c.cell
  let own := g.size * pos.1 + pos.2
  let freen := ((neighbors g.size pos).filter (fun n => decide (b n = .empty))).toFinset
  match stoneLoop b c freen pos (neighbors g.size pos)
      { groups := upd g.groups pos (some own), liberties := upd g.liberties own (some freen), merge := false } with
  | .error e => .error e
  | .ok s => .ok { g with b := b, groups := s.groups, liberties := s.liberties }

/-- `isLegal`, capturegame.py:66-73 -/
def isLegal (g : Game) (c : Color) (pos : Pos) : Except Err Bool :=
  if !onBoard g.size pos then .ok false
  else if g.b pos ≠ .empty then .ok false
  else if !g.suicideenabled then (suicide g c pos).map (fun r => !r)
  else .ok true

/-- a move: a position, or 'resign' -/
inductive Move
  | resign
  | at (pos : Pos)

/-- `doMove` after the legality test, capturegame.py:84-95 -/
def doLegal (g : Game) (c : Color) (pos : Pos) : Except Err (Game × Bool) :=
  match suicide g c pos with
  | .error e => .error e
  | .ok true =>
    if g.suicideenabled then .ok ({ g with b := upd g.b pos .mark, winner := some c.opp }, true) else .error .assertion
  | .ok false =>
    match capture g c pos with
    | .error e => .error e
    | .ok true => .ok ({ g with b := upd g.b pos .mark, winner := some c }, true)
    | .ok false => (setStone g c pos).map (fun g' => (g', true))

/-- `doMove`, capturegame.py:75-95 -/
def doMove (g0 : Game) (c : Color) (m : Move) : Except Err (Game × Bool) :=
  let g := { g0 with movesDone := g0.movesDone + 1 }
  match m with
  | .resign => .ok ({ g with winner := some c.opp }, true)
  | .at pos =>
    match isLegal g c pos with
    | .error e => .error e
    | .ok false => .ok (g, false)
    | .ok true => doLegal g c pos

/-- `getLiberties`, capturegame.py:190-194 -/
def getLiberties (g : Game) (pos : Pos) : Except Err (Option Nat) :=
  if g.b pos = .empty then .ok none else (libertiesAt g pos).map (fun l => some l.card)

/-- `getGroupSize`, capturegame.py:196-201. The keys of `groups` are board positions. -/
def getGroupSize (g : Game) (pos : Pos) : Except Err (Option Nat) :=
  if g.b pos = .empty then .ok none
  else
    match g.groups pos with
    | none => .error .keyError
    | some k => .ok (some (((iterPos g.size).filter (fun p => decide (g.groups p = some k))).length))

/-- `getLegals`, capturegame.py:203-205 -/
def getLegals (g : Game) : List Pos := (iterPos g.size).filter (fun p => decide (g.b p = .empty))

/-- a sequence of moves, each with its player -/
def play : Game → List (Color × Move) → Except Err Game
  | g, [] => .ok g
  | g, (c, m) :: ms =>
    match doMove g c m with
    | .error e => .error e
    | .ok (g', _) => play g' ms

end Verif.Capture
