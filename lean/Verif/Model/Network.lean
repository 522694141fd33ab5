import Mathlib.Algebra.BigOperators.Group.List.Basic
/-
Model of the network machinery:
  pybrain/structure/networks/feedforward.py  (FeedForwardNetworkComponent)
  pybrain/structure/modules/module.py        (Module.activate, forward, backActivate, backward, reset)
  pybrain/structure/connections/connection.py (Connection.forward, backward; slices)

A row of a buffer (a numpy vector of length n) is a function `Nat → K` that is 0 from n on. Modules and
connections are abstract: they are given by their forward and backward implementations; the concrete
ones are modelled in `Verif.Model.Layers` and `Verif.Model.Connections`. Parameters live in containers
`P` (a module's or connection's own container, or a MotherConnection shared by several connections).
-/
namespace Verif.Net

abbrev Vec (K : Type) := Nat → K

/-- the entries `a..b-1` of a row, as a vector -/
def sl {K : Type} [Zero K] (v : Vec K) (a b : Nat) : Vec K := fun i => if i < b - a then v (a + i) else 0

/-- the first `n` entries -/
def tr {K : Type} [Zero K] (n : Nat) (v : Vec K) : Vec K := fun i => if i < n then v i else 0

/-- `row[a:b] += v` -/
def addAt {K : Type} [Add K] (row : Vec K) (a b : Nat) (v : Vec K) : Vec K :=
  fun j => if a ≤ j ∧ j < b then row j + v (j - a) else row j

/-- A module (module.py). `fwd p inbuf outbuf` is the content of `outbuf` after
`_forwardImplementation(inbuf, outbuf)`; `bwdErr p outerr inerr outbuf inbuf` is the content of `inerr` after
`_backwardImplementation(outerr, inerr, outbuf, inbuf)`, and `bwdPar p outerr outbuf inbuf` what the latter
adds to `derivs`. -/
structure Mod (P K : Type) where
  indim : Nat
  outdim : Nat
  pc : P
  fwd : Vec K → Vec K → Vec K → Vec K
  bwdErr : Vec K → Vec K → Vec K → Vec K → Vec K → Vec K
  bwdPar : Vec K → Vec K → Vec K → Vec K → Vec K

/-- A connection (connection.py:10-62) from the module it is stored under to `outmod`, with its slices.
`fwd p inbuf` is what `_forwardImplementation` adds to the out slice; `bwdErr p outerr inbuf` and
`bwdPar p outerr inbuf` are what `_backwardImplementation` adds to `inerr` and to `derivs`. -/
structure Conn (V P K : Type) where
  outmod : V
  inFrom : Nat
  inTo : Nat
  outFrom : Nat
  outTo : Nat
  pc : P
  fwd : Vec K → Vec K → Vec K
  bwdErr : Vec K → Vec K → Vec K → Vec K
  bwdPar : Vec K → Vec K → Vec K → Vec K

/-- A network after `sortModules`. -/
structure Net (V P K : Type) where
  mod : V → Mod P K
  sorted : List V
  inmods : List V
  outmods : List V
  conns : V → List (Conn V P K)

/-- The four buffers of every module (one row each: a feed-forward network only uses offset 0), and the
parameter derivatives of every container. -/
structure Bufs (V P K : Type) where
  inb : V → Vec K
  outb : V → Vec K
  ine : V → Vec K
  oute : V → Vec K
  derivs : P → Vec K

/-- `buf[v] := row` -/
def upd {V α : Type} [DecidableEq V] (f : V → α) (k : V) (a : α) : V → α := fun v => if v = k then a else f v

section
variable {V P K : Type} [DecidableEq V] [DecidableEq P] [AddCommMonoid K]

/-- `Network.reset` → `Module.reset` of all modules, module.py:84-89, network.py:146-150: buffers become zero;
derivatives are kept. -/
def resetBufs (b : Bufs V P K) : Bufs V P K :=
  { b with inb := fun _ _ => 0, outb := fun _ _ => 0, ine := fun _ _ => 0, oute := fun _ _ => 0 }

/-- feedforward.py:23-27: distribute the input over the input modules. -/
def loadIn (N : Net V P K) (x : Vec K) : Nat → List V → Bufs V P K → Bufs V P K
  | _, [], b => b
  | index, m :: ms, b =>
    loadIn N x (index + (N.mod m).indim) ms
      { b with inb := upd b.inb m (sl x index (index + (N.mod m).indim)) }

/-- `c.forward()`, connection.py:68-77, for a connection leaving `m`. -/
def connForward (θ : P → Vec K) (m : V) (b : Bufs V P K) (c : Conn V P K) : Bufs V P K :=
  let v := c.fwd (θ c.pc) (sl (b.outb m) c.inFrom c.inTo)
  { b with inb := upd b.inb c.outmod (addAt (b.inb c.outmod) c.outFrom c.outTo v) }

/-- `m.forward()`, module.py:72-75. -/
def modForward (N : Net V P K) (θ : P → Vec K) (b : Bufs V P K) (m : V) : Bufs V P K :=
  let M := N.mod m
  { b with outb := upd b.outb m (tr M.outdim (M.fwd (θ M.pc) (b.inb m) (b.outb m))) }

/-- feedforward.py:29-32 -/
def sweepForward (N : Net V P K) (θ : P → Vec K) (b : Bufs V P K) (ms : List V) : Bufs V P K :=
  ms.foldl (fun b m => (N.conns m).foldl (connForward θ m) (modForward N θ b m)) b

/-- feedforward.py:34-37: collect the outputs of the output modules. -/
def readOut (N : Net V P K) (rows : V → Vec K) : Nat → List V → Vec K → Vec K
  | _, [], out => out
  | index, m :: ms, out =>
    readOut N rows (index + (N.mod m).outdim) ms
      (fun j => if index ≤ j ∧ j < index + (N.mod m).outdim then rows m (j - index) else out j)

/-- `FeedForwardNetwork.activate(x)`, feedforward.py:16-37 with module.py:119-124. The network's own output
buffer is zero after `reset`. -/
def activate (N : Net V P K) (θ : P → Vec K) (b : Bufs V P K) (x : Vec K) : Bufs V P K × Vec K :=
  let b1 := sweepForward N θ (loadIn N x 0 N.inmods (resetBufs b)) N.sorted
  (b1, readOut N b1.outb 0 N.outmods (fun _ => 0))

/-- feedforward.py:41-45: distribute the output error over the output modules. -/
def loadErr (N : Net V P K) (e : Vec K) : Nat → List V → Bufs V P K → Bufs V P K
  | _, [], b => b
  | index, m :: ms, b =>
    loadErr N e (index + (N.mod m).outdim) ms
      { b with oute := upd b.oute m (sl e index (index + (N.mod m).outdim)) }

/-- `c.backward()`, connection.py:80-94, for a connection leaving `m`. -/
def connBackward (θ : P → Vec K) (m : V) (b : Bufs V P K) (c : Conn V P K) : Bufs V P K :=
  let oe := sl (b.ine c.outmod) c.outFrom c.outTo
  let ib := sl (b.outb m) c.inFrom c.inTo
  let g := c.bwdErr (θ c.pc) oe ib
  let d := c.bwdPar (θ c.pc) oe ib
  { b with
    oute := upd b.oute m (addAt (b.oute m) c.inFrom c.inTo g)
    derivs := upd b.derivs c.pc (fun k => b.derivs c.pc k + d k) }

/-- `m.backward()`, module.py:77-82. -/
def modBackward (N : Net V P K) (θ : P → Vec K) (b : Bufs V P K) (m : V) : Bufs V P K :=
  let M := N.mod m
  let g := M.bwdErr (θ M.pc) (b.oute m) (b.ine m) (b.outb m) (b.inb m)
  let d := M.bwdPar (θ M.pc) (b.oute m) (b.outb m) (b.inb m)
  { b with
    ine := upd b.ine m (tr M.indim g)
    derivs := upd b.derivs M.pc (fun k => b.derivs M.pc k + d k) }

/-- feedforward.py:47-50, over `reversed(self.modulesSorted)`. -/
def sweepBackward (N : Net V P K) (θ : P → Vec K) (b : Bufs V P K) (ms : List V) : Bufs V P K :=
  ms.reverse.foldl (fun b m => modBackward N θ ((N.conns m).foldl (connBackward θ m) b) m) b

/-- feedforward.py:52-55: collect the input errors of the input modules. -/
def readErr (N : Net V P K) (rows : V → Vec K) : Nat → List V → Vec K → Vec K
  | _, [], out => out
  | index, m :: ms, out =>
    readErr N rows (index + (N.mod m).indim) ms
      (fun j => if index ≤ j ∧ j < index + (N.mod m).indim then rows m (j - index) else out j)

/-- `backActivate(e)`, module.py:126-131 with feedforward.py:39-55. -/
def backActivate (N : Net V P K) (θ : P → Vec K) (b : Bufs V P K) (e : Vec K) : Bufs V P K × Vec K :=
  let b1 := sweepBackward N θ (loadErr N e 0 N.outmods b) N.sorted
  (b1, readErr N b1.ine 0 N.inmods (fun _ => 0))

end
end Verif.Net
