import Verif.Model.Recurrent
import Verif.Spec.Gradient
/-
Specification of recurrent networks: the unrolled feed-forward graph. Its nodes are the modules at every time step; the
ordinary connections stay within a time step, the recurrent ones lead to the next.
-/
namespace Verif.Net.Spec
open Verif.Net Verif.Topo.Spec

variable {V P K : Type} [DecidableEq V] [AddCommMonoid K]

/-- the nodes of the graph unrolled for `T` steps -/
def nodesT (N : RNet V P K) (T : Nat) : List (V × Nat) := (List.range T).flatMap fun t => N.sorted.map fun n => (n, t)

/-- connection `c`, arriving at time `t` -/
def lift (t : Nat) (c : Conn V P K) : Conn (V × Nat) P K :=
  { outmod := (c.outmod, t), inFrom := c.inFrom, inTo := c.inTo, outFrom := c.outFrom, outTo := c.outTo, pc := c.pc,
    fwd := c.fwd, bwdErr := c.bwdErr, bwdPar := c.bwdPar }

/-- the recurrent connections leaving `n` -/
def recsOf (N : RNet V P K) (n : V) : List (Conn V P K) := (N.recs.filter fun a => a.1 = n).map Prod.snd

/-- the connections of the unrolled graph -/
def connsT (N : RNet V P K) (T : Nat) (n : V × Nat) : List (Conn (V × Nat) P K) :=
  (N.conns n.1).map (lift n.2) ++ if n.2 + 1 < T then (recsOf N n.1).map (lift (n.2 + 1)) else []

/-- the modules of the unrolled graph -/
def modT (N : RNet V P K) (n : V × Nat) : Mod P K := N.mod n.1

/-- the external input of the unrolled graph for the sequence `xs` -/
def extT (N : RNet V P K) (xs : List (Vec K)) (n : V × Nat) : Vec K :=
  share (fun m => (N.mod m).indim) N.inmods (xs.getD n.2 fun _ => 0) n.1

/-- `ys` are the outputs for the inputs `xs`: buffers of the unrolled graph solve its defining equations, and output `t` is
the concatenation of the outputs of the output modules at time `t`. -/
def IsOutputs (N : RNet V P K) (θ : P → Vec K) (xs ys : List (Vec K)) : Prop :=
  ∃ inb outb, Solves (nodesT N xs.length) (modT N) (connsT N xs.length) θ (extT N xs) inb outb ∧
    ys = (List.range xs.length).map fun t => concat (fun m => (N.mod m).outdim) N.outmods fun m => outb (m, t)

/-- A well-formed recurrent network: the ordinary part is well-formed and recurrent connections join its modules. -/
structure RWF (N : RNet V P K) : Prop where
  base : WF N.toNet
  ends : ∀ a ∈ N.recs, a.1 ∈ N.sorted ∧ a.2.outmod ∈ N.sorted
  inSlice : ∀ a ∈ N.recs, a.2.inFrom ≤ a.2.inTo ∧ a.2.inTo ≤ (N.mod a.1).outdim
  outSlice : ∀ a ∈ N.recs, a.2.outFrom ≤ a.2.outTo ∧ a.2.outTo ≤ (N.mod a.2.outmod).indim

/-- All buffers have the same number of rows, at least one (as after `sortModules`). -/
def Shape (s : RState V P K) : Prop :=
  0 < s.inb.length ∧ s.outb.length = s.inb.length ∧ s.ine.length = s.inb.length ∧ s.oute.length = s.inb.length

end Verif.Net.Spec
