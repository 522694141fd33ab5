import Verif.Model.Network
/-
Model of pybrain/structure/networks/recurrent.py (RecurrentNetworkComponent) with the time dimension of the buffers
(pybrain/structure/modules/module.py, networks/network.py).

Every buffer is a two-dimensional array (time, unit). The buffers of all modules of a network have the same number of
rows (`Network._resetBuffers` and `Network._growBuffers` treat all modules alike), so each of the four buffers is a list
whose entry `o` holds row `o` of all modules. The network's own buffers have the same number of rows; its rows are only
passed on to, and collected from, the modules.

Modules are functions of their current row (`Verif.Net.Mod`); layers that look back in time themselves (LSTM) are not
covered by this file.
-/
namespace Verif.Net

/-- A recurrent network after `sortModules`: `recs` are the recurrent connections with the module each leaves. -/
structure RNet (V P K : Type) extends Net V P K where
  recs : List (V × Conn V P K)

structure RState (V P K : Type) where
  inb : List (V → Vec K)
  outb : List (V → Vec K)
  ine : List (V → Vec K)
  oute : List (V → Vec K)
  derivs : P → Vec K
  offset : Nat
  maxoffset : Nat

section
variable {V P K : Type} [DecidableEq V] [DecidableEq P] [AddCommMonoid K]

def zrow : V → Vec K := fun _ _ => 0

/-- Row `o` of all buffers. -/
def rowAt (s : RState V P K) (o : Nat) : Bufs V P K :=
  { inb := s.inb.getD o zrow, outb := s.outb.getD o zrow, ine := s.ine.getD o zrow, oute := s.oute.getD o zrow, derivs := s.derivs }

/-- Write row `o` back. -/
def putRow (s : RState V P K) (o : Nat) (b : Bufs V P K) : RState V P K :=
  { s with inb := s.inb.set o b.inb, outb := s.outb.set o b.outb, ine := s.ine.set o b.ine, oute := s.oute.set o b.oute, derivs := b.derivs }

/-- `_growBuffers`, module.py:59-70 with network.py:141-144: twice as many rows, old values kept, new rows zero. -/
def grow (s : RState V P K) : RState V P K :=
  let z := List.replicate s.inb.length zrow
  { s with inb := s.inb ++ z, outb := s.outb ++ z, ine := s.ine ++ z, oute := s.oute ++ z }

/-- `reset`, network.py:146-150 with module.py:84-89: all rows zero, offset 0; length, derivatives and `maxoffset` stay. -/
def rreset (s : RState V P K) : RState V P K :=
  { s with inb := s.inb.map fun _ => zrow, outb := s.outb.map fun _ => zrow, ine := s.ine.map fun _ => zrow,
           oute := s.oute.map fun _ => zrow, offset := 0 }

/-- `m.shift(-1)` for all modules, module.py:91-104. -/
def shift1 (s : RState V P K) : RState V P K :=
  { s with inb := s.inb.drop 1 ++ [zrow], outb := s.outb.drop 1 ++ [zrow], ine := s.ine.drop 1 ++ [zrow], oute := s.oute.drop 1 ++ [zrow] }

/-- `c.forward(offset - 1, offset)`, connection.py:68-77: reads the previous row of outputs, adds to the current inputs. -/
def recForward (θ : P → Vec K) (prev : V → Vec K) (b : Bufs V P K) (a : V × Conn V P K) : Bufs V P K :=
  let v := a.2.fwd (θ a.2.pc) (sl (prev a.1) a.2.inFrom a.2.inTo)
  { b with inb := upd b.inb a.2.outmod (addAt (b.inb a.2.outmod) a.2.outFrom a.2.outTo v) }

/-- recurrent.py:82-100: what happens to row `o`, given the previous row of outputs. -/
def stepRow (N : RNet V P K) (θ : P → Vec K) (x : Vec K) (o : Nat) (prev : V → Vec K) (b : Bufs V P K) : Bufs V P K :=
  let b0 := loadIn N.toNet x 0 N.inmods b
  let b1 := if 0 < o then N.recs.foldl (recForward θ prev) b0 else b0
  sweepForward N.toNet θ b1 N.sorted

/-- `activate(x)`, recurrent.py:43-50, 60-66, 78-113. `none` is an IndexError of `inputbuffer[offset]`. In a forgetful network
`offset` is raised by one before the step and lowered by two after it (lines 82, 106), and raised by one in `forward`
(line 65), so it stays where it was. -/
def ractivate (N : RNet V P K) (forget : Bool) (θ : P → Vec K) (s : RState V P K) (x : Vec K) : Option (RState V P K × Vec K) :=
  if s.offset < s.inb.length then
    let s1 := if s.offset + 1 < s.inb.length then s else grow s
    if forget then
      let o := s1.offset + 1
      let s2 := putRow s1 o (stepRow N θ x o (s1.outb.getD (o - 1) zrow) (rowAt s1 o))
      let s3 := shift1 s2
      some ({ s3 with maxoffset := max s3.offset s3.maxoffset }, readOut N.toNet (s3.outb.getD (o - 1) zrow) 0 N.outmods (fun _ => 0))
    else
      let o := s1.offset
      let s2 := putRow s1 o (stepRow N θ x o (s1.outb.getD (o - 1) zrow) (rowAt s1 o))
      some ({ s2 with offset := o + 1, maxoffset := max (o + 1) s2.maxoffset },
        readOut N.toNet (s2.outb.getD o zrow) 0 N.outmods (fun _ => 0))
  else none

/-- `c.backward(offset, offset + 1)`, connection.py:80-94: the error comes from the next row of input errors. -/
def recBackward (θ : P → Vec K) (next : V → Vec K) (b : Bufs V P K) (a : V × Conn V P K) : Bufs V P K :=
  let oe := sl (next a.2.outmod) a.2.outFrom a.2.outTo
  let ib := sl (b.outb a.1) a.2.inFrom a.2.inTo
  let g := a.2.bwdErr (θ a.2.pc) oe ib
  let d := a.2.bwdPar (θ a.2.pc) oe ib
  { b with
    oute := upd b.oute a.1 (addAt (b.oute a.1) a.2.inFrom a.2.inTo g)
    derivs := upd b.derivs a.2.pc (fun k => b.derivs a.2.pc k + d k) }

/-- recurrent.py:115-137: what happens to row `o`, given the next row of input errors. -/
def backRow (N : RNet V P K) (θ : P → Vec K) (e : Vec K) (last : Bool) (next : V → Vec K) (b : Bufs V P K) : Bufs V P K :=
  let b0 := loadErr N.toNet e 0 N.outmods b
  let b1 := if last then b0 else N.recs.foldl (recBackward θ next) b0
  sweepBackward N.toNet θ b1 N.sorted

/-- `backActivate(e)`, recurrent.py:52-58, 68-76, 115-137, for a network that does not forget. `none`: nothing has been
activated (`offset = 0`; the code then goes on with negative indices, which is not modelled) or row `offset` is missing. -/
def rbackActivate (N : RNet V P K) (θ : P → Vec K) (s : RState V P K) (e : Vec K) : Option (RState V P K × Vec K) :=
  if 0 < s.offset ∧ s.offset < s.inb.length then
    let o := s.offset - 1
    let s1 := putRow s o (backRow N θ e (o == s.maxoffset) (s.ine.getD (o + 1) zrow) (rowAt s o))
    some ({ s1 with offset := o }, readErr N.toNet (s1.ine.getD o zrow) 0 N.inmods (fun _ => 0))
  else none

/-- A sequence of activations; before each, `_growBuffers` may additionally be called any number of times. -/
def ractivateAll (N : RNet V P K) (forget : Bool) (θ : P → Vec K) : RState V P K → List (Nat × Vec K) → Option (RState V P K × List (Vec K))
  | s, [] => some (s, [])
  | s, (g, x) :: xs =>
    match ractivate N forget θ (grow^[g] s) x with
    | none => none
    | some (s1, y) =>
      match ractivateAll N forget θ s1 xs with
      | none => none
      | some (s2, ys) => some (s2, y :: ys)

/-- A sequence of back-activations; returns the input errors in the order of the calls. -/
def rbackAll (N : RNet V P K) (θ : P → Vec K) : RState V P K → List (Vec K) → Option (RState V P K × List (Vec K))
  | s, [] => some (s, [])
  | s, e :: es =>
    match rbackActivate N θ s e with
    | none => none
    | some (s1, g) =>
      match rbackAll N θ s1 es with
      | none => none
      | some (s2, gs) => some (s2, g :: gs)

end
end Verif.Net
