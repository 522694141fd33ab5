import Verif.Model.Recurrent
import Verif.Model.Lstm
import Verif.Model.Trainer
/-
Model of recurrent networks that contain LSTM layers: pybrain/structure/networks/recurrent.py with
pybrain/structure/modules/lstm.py (and network.py, module.py).

It joins `Verif.Model.Recurrent` (the network machinery, with layers that are functions of their current row) and `Verif.Model.Lstm` (the LSTM layer
with all its buffers). An LSTM layer `v` of the network is marked by `kind v`; its input, output and error buffers are those of the network model, its further buffers
(gates, states and their errors) are its memory. Only networks that keep their history are covered (`forget = False`).
-/
namespace Verif.LstmNet
open Verif.Net

/-- What distinguishes one LSTM layer from another, lstm.py:27-40. -/
structure Kind (K : Type) where
  T : Lstm.Trans K
  peepholes : Bool
  dim : Nat

/-- A recurrent network some of whose modules are LSTM layers. For those, `mod` only supplies the dimensions and the parameter container. -/
structure LNet (V P K : Type) extends RNet V P K where
  kind : V → Option (Kind K)

/-- The buffers of the network with the memories of its LSTM layers. -/
structure LNState (V P K : Type) where
  r : RState V P K
  mem : V → Lstm.LState K

/-- The current row of the buffers with the memories. -/
structure LRow (V P K : Type) where
  b : Bufs V P K
  mem : V → Lstm.LState K

section
variable {V P K : Type} [DecidableEq V] [DecidableEq P] [Ring K]

/-- `reset`, network.py:146-150: all modules. -/
def lreset (s : LNState V P K) : LNState V P K := ⟨rreset s.r, fun v => Lstm.reset (s.mem v)⟩

/-- `_growBuffers`, network.py:141-144: all modules. -/
def lgrow (s : LNState V P K) : LNState V P K := ⟨grow s.r, fun v => Lstm.grow (s.mem v)⟩

/-- `m.forward()`, module.py:72-75, lstm.py:82-114; the offset of the module is the one of the network (network.py:26-34). -/
def lmodForward (N : LNet V P K) (θ : P → Vec K) (o : Nat) (s : LRow V P K) (m : V) : Option (LRow V P K) :=
  match N.kind m with
  | none => some ⟨modForward N.toNet θ s.b m, s.mem⟩
  | some k =>
    match Lstm.forward k.T k.peepholes k.dim (θ (N.mod m).pc) { s.mem m with offset := o } (s.b.inb m) with
    | none => none
    | some (l, y) => some ⟨{ s.b with outb := upd s.b.outb m (tr (N.mod m).outdim y) }, upd s.mem m l⟩

/-- recurrent.py:94-97 -/
def lsweepForward (N : LNet V P K) (θ : P → Vec K) (o : Nat) : List V → LRow V P K → Option (LRow V P K)
  | [], s => some s
  | m :: ms, s =>
    match lmodForward N θ o s m with
    | none => none
    | some s1 => lsweepForward N θ o ms ⟨(N.conns m).foldl (connForward θ m) s1.b, s1.mem⟩

/-- `activate(x)`, recurrent.py:43-50, 60-66, 78-113, of a network that keeps its history. -/
def lactivate (N : LNet V P K) (θ : P → Vec K) (s : LNState V P K) (x : Vec K) : Option (LNState V P K × Vec K) :=
  if s.r.offset < s.r.inb.length then
    let s1 := if s.r.offset + 1 < s.r.inb.length then s else lgrow s
    let o := s1.r.offset
    let b0 := loadIn N.toNet x 0 N.inmods (rowAt s1.r o)
    let b1 := if 0 < o then N.recs.foldl (recForward θ (s1.r.outb.getD (o - 1) zrow)) b0 else b0
    match lsweepForward N θ o N.sorted ⟨b1, s1.mem⟩ with
    | none => none
    | some s2 =>
      let r := putRow s1.r o s2.b
      some (⟨{ r with offset := o + 1, maxoffset := max (o + 1) r.maxoffset }, s2.mem⟩, readOut N.toNet (r.outb.getD o zrow) 0 N.outmods (fun _ => 0))
  else none

/-- `m.backward()`, module.py:77-82, lstm.py:116-147, after `m.offset = offset` (recurrent.py:129). The layer adds to the derivatives of its own container. -/
def lmodBackward (N : LNet V P K) (θ : P → Vec K) (o : Nat) (s : LRow V P K) (m : V) : Option (LRow V P K) :=
  match N.kind m with
  | none => some ⟨modBackward N.toNet θ s.b m, s.mem⟩
  | some k =>
    match Lstm.backward k.T k.peepholes k.dim (θ (N.mod m).pc) { s.mem m with offset := o, derivs := s.b.derivs (N.mod m).pc } (s.b.oute m) with
    | none => none
    | some (l, g) =>
      some ⟨{ s.b with ine := upd s.b.ine m (tr (N.mod m).indim g), derivs := upd s.b.derivs (N.mod m).pc l.derivs }, upd s.mem m l⟩

/-- recurrent.py:126-130, for the modules in the order they are visited -/
def lsweepBackward (N : LNet V P K) (θ : P → Vec K) (o : Nat) : List V → LRow V P K → Option (LRow V P K)
  | [], s => some s
  | m :: ms, s =>
    match lmodBackward N θ o ⟨(N.conns m).foldl (connBackward θ m) s.b, s.mem⟩ m with
    | none => none
    | some s1 => lsweepBackward N θ o ms s1

/-- `backActivate(e)`, recurrent.py:52-58, 68-76, 115-137 (compare `rbackActivate`). -/
def lbackActivate (N : LNet V P K) (θ : P → Vec K) (s : LNState V P K) (e : Vec K) : Option (LNState V P K × Vec K) :=
  if 0 < s.r.offset ∧ s.r.offset < s.r.inb.length then
    let o := s.r.offset - 1
    let b0 := loadErr N.toNet e 0 N.outmods (rowAt s.r o)
    let b1 := if o == s.r.maxoffset then b0 else N.recs.foldl (recBackward θ (s.r.ine.getD (o + 1) zrow)) b0
    match lsweepBackward N θ o N.sorted.reverse ⟨b1, s.mem⟩ with
    | none => none
    | some s2 =>
      let r := putRow s.r o s2.b
      some (⟨{ r with offset := o }, s2.mem⟩, readErr N.toNet (r.ine.getD o zrow) 0 N.inmods (fun _ => 0))
  else none

/-- A sequence of activations. -/
def lactivateAll (N : LNet V P K) (θ : P → Vec K) : LNState V P K → List (Vec K) → Option (LNState V P K × List (Vec K))
  | s, [] => some (s, [])
  | s, x :: xs =>
    match lactivate N θ s x with
    | none => none
    | some (s1, y) =>
      match lactivateAll N θ s1 xs with
      | none => none
      | some (s2, ys) => some (s2, y :: ys)

/-- A sequence of back-activations; returns the input errors in the order of the calls. -/
def lbackAll (N : LNet V P K) (θ : P → Vec K) : LNState V P K → List (Vec K) → Option (LNState V P K × List (Vec K))
  | s, [] => some (s, [])
  | s, e :: es =>
    match lbackActivate N θ s e with
    | none => none
    | some (s1, g) =>
      match lbackAll N θ s1 es with
      | none => none
      | some (s2, gs) => some (s2, g :: gs)

end

section
variable {V P K : Type} [DecidableEq V] [DecidableEq P] [Field K] {n : Nat}
open Verif.Train

/-- A network with LSTM layers as a trainer sees it (compare `Verif.Train.rnetLearner`): its flat parameters and its buffers. -/
def lnetLearner (N : LNet V P K) (L : Layout P n) : Learner ((Fin n → K) × LNState V P K) K n where
  params s := s.1
  setParams s w := (w, s.2)
  derivs s i := s.2.r.derivs (L.place i).1 (L.place i).2
  resetDerivatives s := (s.1, ⟨{ s.2.r with derivs := fun _ _ => 0 }, s.2.mem⟩)
  reset s := (s.1, lreset s.2)
  activate s x := (lactivate N (L.decode s.1) s.2 x).map fun r => (s.1, r.1)
  output s t := readOut N.toNet (s.2.r.outb.getD t zrow) 0 N.outmods (fun _ => 0)
  backActivate s e := (lbackActivate N (L.decode s.1) s.2 e).map fun r => (s.1, r.1)
end
end Verif.LstmNet
