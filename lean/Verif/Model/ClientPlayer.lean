import Verif.Model.CaptureGame
/-
Model of pybrain/rl/environments/twoplayergames/capturegameplayers/clientwrapper.py (ClientCapturePlayer) and captureplayer.py (CapturePlayer), with the strings of Python 2 (in Python 3, `send` takes bytes).

What the calls of `recv` return one after the other is an argument: pieces of the bytes sent by the server, as the network delivers them, or empty strings after the connection is closed. The loops that wait have fuel. `eval` is an argument; it
may raise an exception. Printing is not modelled.
-/
namespace Verif.ClientPlayer
open Verif.Capture
open Verif.DataSet (Err)

/-- the digit of a cell, clientwrapper.py:52-57 -/
def digit : Cell → Char
  | .black => '1'
  | .white => '2'
  | _ => '0'

/-- the body of the loop, clientwrapper.py:50-57 -/
def addCell (g : Game) (js : List Char) (q : Pos × Nat) : List Char := (if q.2 % g.size = 0 then js ++ ['-'] else js) ++ [digit (g.b q.1)]

/-- the line sent for a move, clientwrapper.py:45-62 -/
def encode (g : Game) (c : Color) : List Char :=
  let js := if c = .black then ['1', '-'] else ['2', '-']
  (iterPos g.size).zipIdx.foldl (addCell g) js ++ ['\n']

/-- the loop that waits for an answer, clientwrapper.py:38-39 and 66-69: each piece replaces the one before. The result is the answer and the number of calls of `recv`. -/
def receive (recv : Nat → List Char) : Nat → Nat → List Char → Option (List Char × Nat)
  | 0, _, _ => none
  | fuel + 1, t, jr => if jr.length < 2 then receive recv fuel (t + 1) (recv t) else some (jr, t)

/-- the handshake at the end of `__init__`, clientwrapper.py:33-40 -/
def handshake (recv : Nat → List Char) (fuel : Nat) : Option (Except Err Nat) :=
  match receive recv fuel 0 [] with
  | none => none
  | some (a, t) => some (if a = ['O', 'K'] then .ok t else .error .assertion)

/-- `getAction`, clientwrapper.py:43-75: the action and the number of calls of `recv` so far, which begins with `t` -/
def getAction (eval : List Char → Except Err Pos) (recv : Nat → List Char) (fuel t : Nat) (g : Game) (c : Color) : Option (Except Err ((Color × Pos) × Nat)) :=
  match receive recv fuel t [] with
  | none => none
  | some (jr, t') => some (do
      let chosen ← eval jr
      if (← isLegal g c chosen) then return ((c, chosen), t') else throw .assertion)

end Verif.ClientPlayer
