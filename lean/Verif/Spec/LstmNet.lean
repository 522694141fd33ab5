import Verif.Model.LstmNet
import Verif.Spec.Recurrent
import Verif.Spec.Lstm
/-
Specification of recurrent networks with LSTM layers: the unrolled graph of `Verif.Spec.Recurrent`, where the output of an LSTM layer is given by the recurrence of
`Verif.Spec.Lstm` for each of its cells.
-/
namespace Verif.LstmNet.Spec
open Verif.Net Verif.Net.Spec Verif.LstmNet

variable {V P K : Type} [DecidableEq V] [Ring K]

/-- The defining equations: the input of a module at a time is the external input plus the sum of the signals of all connections that arrive; the output of an ordinary
module is its function applied to its input; the output of an LSTM layer at time `t` is the output of its cells after the inputs of the times `0..t`. -/
structure LSolves (N : LNet V P K) (θ : P → Vec K) (xs : List (Vec K)) (inb outb : V × Nat → Vec K) : Prop where
  inputs : ∀ n ∈ nodesT N.toRNet xs.length, ∀ j, inb n j = extT N.toRNet xs n j +
    ((arcs (nodesT N.toRNet xs.length) (connsT N.toRNet xs.length)).map (fun a => if a.2.outmod = n then signal θ (outb a.1) a.2 j else 0)).sum
  plain : ∀ n ∈ nodesT N.toRNet xs.length, N.kind n.1 = none →
    outb n = tr (N.mod n.1).outdim ((N.mod n.1).fwd (θ (N.mod n.1).pc) (inb n) (fun _ => 0))
  cells : ∀ n ∈ nodesT N.toRNet xs.length, ∀ k, N.kind n.1 = some k →
    outb n = tr k.dim fun j => Lstm.Spec.output k.T (Lstm.Spec.cellOf k.peepholes k.dim (θ (N.mod n.1).pc) (fun u => inb (n.1, u)) j) n.2

/-- `ys` are the outputs of the network for the inputs `xs`. -/
def IsLOutputs (N : LNet V P K) (θ : P → Vec K) (xs ys : List (Vec K)) : Prop :=
  ∃ inb outb, LSolves N θ xs inb outb ∧
    ys = (List.range xs.length).map fun t => concat (fun m => (N.mod m).outdim) N.outmods fun m => outb (m, t)

/-- A well-formed network; an LSTM layer has four inputs per cell, and is neither an input nor an output module. -/
structure LWF (N : LNet V P K) : Prop where
  base : RWF N.toRNet
  indim : ∀ v k, N.kind v = some k → (N.mod v).indim = 4 * k.dim
  outdim : ∀ v k, N.kind v = some k → (N.mod v).outdim = k.dim
  notIn : ∀ v k, N.kind v = some k → v ∉ N.inmods
  notOut : ∀ v k, N.kind v = some k → v ∉ N.outmods

/-- All buffers, also those of the LSTM layers, have the same number of rows, at least one. -/
def LShape (N : LNet V P K) (s : LNState V P K) : Prop := Shape s.r ∧ ∀ v ∈ N.sorted, ∀ k, N.kind v = some k → (s.mem v).rows = s.r.inb.length

end Verif.LstmNet.Spec
