import Verif.Model.Network
import Mathlib.Algebra.Ring.Defs
/-
Model of pybrain/structure/modules/lstm.py (LSTMLayer) together with the part of
pybrain/structure/networks/recurrent.py:60-71 that moves the time offset of the layers of a recurrent network.

Buffers are two-dimensional arrays (time, cell): here functions of time and cell, with the number `rows` of rows that exist.
Reading or writing a row which does not exist is an IndexError, modelled by `none`. Rows which do not exist are never read.
Cells `j` with `j < dim` are the ones of the layer; entries beyond are not used.
-/
namespace Verif.Lstm
open Verif.Net

variable {K : Type}

/-- The transfer functions and their derivatives, lstm.py:27-32. They are class attributes and may be replaced in subclasses. -/
structure Trans (K : Type) where
  f : K → K
  fprime : K → K
  g : K → K
  gprime : K → K
  h : K → K
  hprime : K → K

/-- The buffers of the layer, lstm.py:41-53 with the input buffer of module.py:41, its offset, its `maxoffset` and its derivatives. -/
structure LState (K : Type) where
  rows : Nat
  offset : Nat
  maxoffset : Nat
  inputbuffer : Nat → Vec K
  ingate : Nat → Vec K
  outgate : Nat → Vec K
  forgetgate : Nat → Vec K
  ingatex : Nat → Vec K
  outgatex : Nat → Vec K
  forgetgatex : Nat → Vec K
  state : Nat → Vec K
  ingateError : Nat → Vec K
  outgateError : Nat → Vec K
  forgetgateError : Nat → Vec K
  stateError : Nat → Vec K
  derivs : Vec K

/-- `buf[o] = v` -/
def setRow (b : Nat → Vec K) (o : Nat) (v : Vec K) : Nat → Vec K := fun t => if t = o then v else b t

section
variable [Ring K]

/-- A new layer, lstm.py:35-58, module.py:49-57: buffers of one row, derivatives zero. -/
def fresh : LState K :=
  { rows := 1, offset := 0, maxoffset := 0, inputbuffer := fun _ _ => 0, ingate := fun _ _ => 0, outgate := fun _ _ => 0,
    forgetgate := fun _ _ => 0, ingatex := fun _ _ => 0, outgatex := fun _ _ => 0, forgetgatex := fun _ _ => 0,
    state := fun _ _ => 0, ingateError := fun _ _ => 0, outgateError := fun _ _ => 0, forgetgateError := fun _ _ => 0,
    stateError := fun _ _ => 0, derivs := fun _ => 0 }

/-- `reset`, module.py:84-89: all buffers zero and offset 0. `maxoffset` and the derivatives stay. -/
def reset (s : LState K) : LState K := { (fresh : LState K) with rows := s.rows, maxoffset := s.maxoffset, derivs := s.derivs }

/-- `_growBuffers`, module.py:59-70: twice as many rows, the new ones zero. -/
def grow (s : LState K) : LState K :=
  let ext (b : Nat → Vec K) : Nat → Vec K := fun t => if t < s.rows then b t else fun _ => 0
  { s with rows := 2 * s.rows, inputbuffer := ext s.inputbuffer, ingate := ext s.ingate, outgate := ext s.outgate,
           forgetgate := ext s.forgetgate, ingatex := ext s.ingatex, outgatex := ext s.outgatex, forgetgatex := ext s.forgetgatex,
           state := ext s.state, ingateError := ext s.ingateError, outgateError := ext s.outgateError,
           forgetgateError := ext s.forgetgateError, stateError := ext s.stateError }

/-- `forward` with `_forwardImplementation` on input `x`, lstm.py:82-114, module.py:72-75. Returns the output as well. -/
def forward (T : Trans K) (peepholes : Bool) (dim : Nat) (w : Vec K) (s : LState K) (x : Vec K) : Option (LState K × Vec K) :=
  let o := s.offset
  if o < s.rows then
    let ingatex : Vec K := fun j => x j
    let forgetgatex : Vec K := fun j => x (dim + j)
    let cellx : Vec K := fun j => x (2 * dim + j)
    let outgatex : Vec K := fun j => x (3 * dim + j)
    let ingatex : Vec K := if peepholes && decide (0 < o) then fun j => ingatex j + w j * s.state (o - 1) j else ingatex
    let forgetgatex : Vec K := if peepholes && decide (0 < o) then fun j => forgetgatex j + w (dim + j) * s.state (o - 1) j else forgetgatex
    let ingate : Vec K := fun j => T.f (ingatex j)
    let forgetgate : Vec K := fun j => T.f (forgetgatex j)
    let state : Vec K := fun j => ingate j * T.g (cellx j)
    let state : Vec K := if 0 < o then fun j => state j + forgetgate j * s.state (o - 1) j else state
    let outgatex : Vec K := if peepholes then fun j => outgatex j + w (2 * dim + j) * state j else outgatex
    let outgate : Vec K := fun j => T.f (outgatex j)
    some ({ s with maxoffset := max (o + 1) s.maxoffset
                   inputbuffer := setRow s.inputbuffer o x
                   ingatex := setRow s.ingatex o ingatex, forgetgatex := setRow s.forgetgatex o forgetgatex
                   ingate := setRow s.ingate o ingate, forgetgate := setRow s.forgetgate o forgetgate
                   state := setRow s.state o state
                   outgatex := setRow s.outgatex o outgatex, outgate := setRow s.outgate o outgate },
      fun j => outgate j * T.h (state j))
  else none

/-- `backward` with `_backwardImplementation` on output error `outerr`, lstm.py:116-147, module.py:77-82. Returns the input error
as well. Unless the offset is `maxoffset` the row after the current one is read. -/
def backward (T : Trans K) (peepholes : Bool) (dim : Nat) (w : Vec K) (s : LState K) (outerr : Vec K) : Option (LState K × Vec K) :=
  let o := s.offset
  let last := decide (s.maxoffset = o)
  if o < s.rows ∧ (last = false → o + 1 < s.rows) then
    let cellx : Vec K := fun j => s.inputbuffer o (2 * dim + j)
    let outgateError : Vec K := fun j => T.fprime (s.outgatex o j) * outerr j * T.h (s.state o j)
    let stateError : Vec K := fun j => outerr j * s.outgate o j * T.hprime (s.state o j)
    let stateError : Vec K := if last then stateError else
      let e : Vec K := fun j => stateError j + s.stateError (o + 1) j * s.forgetgate (o + 1) j
      if peepholes then fun j => e j + s.ingateError (o + 1) j * w j + s.forgetgateError (o + 1) j * w (dim + j) else e
    let stateError : Vec K := if peepholes then fun j => stateError j + outgateError j * w (2 * dim + j) else stateError
    let cellError : Vec K := fun j => s.ingate o j * T.gprime (cellx j) * stateError j
    let forgetgateError : Vec K := if 0 < o then fun j => T.fprime (s.forgetgatex o j) * stateError j * s.state (o - 1) j else s.forgetgateError o
    let ingateError : Vec K := fun j => T.fprime (s.ingatex o j) * stateError j * T.g (cellx j)
    let derivs : Vec K := if peepholes then
        fun k => if 2 * dim ≤ k then s.derivs k + outgateError (k - 2 * dim) * s.state o (k - 2 * dim)
          else if 0 < o then
            if dim ≤ k then s.derivs k + forgetgateError (k - dim) * s.state (o - 1) (k - dim) else s.derivs k + ingateError k * s.state (o - 1) k
          else s.derivs k
      else s.derivs
    some ({ s with outgateError := setRow s.outgateError o outgateError, stateError := setRow s.stateError o stateError
                   forgetgateError := setRow s.forgetgateError o forgetgateError, ingateError := setRow s.ingateError o ingateError
                   derivs := derivs },
      fun i => if i < dim then ingateError i else if i < 2 * dim then forgetgateError (i - dim)
        else if i < 3 * dim then cellError (i - 2 * dim) else outgateError (i - 3 * dim))
  else none

/-- One time step forward inside a recurrent network, recurrent.py:60-66: the buffers are grown if there is no room for the next row,
and the offset advances. -/
def stepForward (T : Trans K) (peepholes : Bool) (dim : Nat) (w : Vec K) (s : LState K) (x : Vec K) : Option (LState K × Vec K) :=
  let s := if s.offset + 1 < s.rows then s else grow s
  match forward T peepholes dim w s x with
  | none => none
  | some (s, y) => some ({ s with offset := s.offset + 1 }, y)

/-- One time step backward, recurrent.py:68-71, 126-130 (`offset` is at least 1 here). -/
def stepBackward (T : Trans K) (peepholes : Bool) (dim : Nat) (w : Vec K) (s : LState K) (e : Vec K) : Option (LState K × Vec K) :=
  if 0 < s.offset then backward T peepholes dim w { s with offset := s.offset - 1 } e else none

def forwardAll (T : Trans K) (peepholes : Bool) (dim : Nat) (w : Vec K) : LState K → List (Vec K) → Option (LState K × List (Vec K))
  | s, [] => some (s, [])
  | s, x :: xs =>
    match stepForward T peepholes dim w s x with
    | none => none
    | some (s, y) =>
      match forwardAll T peepholes dim w s xs with
      | none => none
      | some (s, ys) => some (s, y :: ys)

def backwardAll (T : Trans K) (peepholes : Bool) (dim : Nat) (w : Vec K) : LState K → List (Vec K) → Option (LState K × List (Vec K))
  | s, [] => some (s, [])
  | s, e :: es =>
    match stepBackward T peepholes dim w s e with
    | none => none
    | some (s, g) =>
      match backwardAll T peepholes dim w s es with
      | none => none
      | some (s, gs) => some (s, g :: gs)

end
end Verif.Lstm
