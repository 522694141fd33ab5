import Verif.Model.Network
import Verif.Spec.TopoSort
import Mathlib.Logic.Relation
/-
Specification of what a network computes: the defining equations of its graph, without any order of
evaluation and without any buffers that are updated in place.
-/
namespace Verif.Net.Spec
open Verif.Net Verif.Topo.Spec

variable {V P K : Type} [DecidableEq V] [AddCommMonoid K]

/-- Every connection together with the module it leaves. -/
def arcs (nodes : List V) (conns : V → List (Conn V P K)) : List (V × Conn V P K) :=
  nodes.flatMap fun m => (conns m).map fun c => (m, c)

/-- What connection `c` contributes to coordinate `j` of the input of its target, when the module it leaves
outputs `row`. -/
def signal (θ : P → Vec K) (row : Vec K) (c : Conn V P K) : Vec K :=
  fun j => if c.outFrom ≤ j ∧ j < c.outTo then c.fwd (θ c.pc) (sl row c.inFrom c.inTo) (j - c.outFrom) else 0

/-- The defining equations: the input of a module is the external input plus the sum of the signals of all
its incoming connections, the output of a module is its function applied to its input. -/
structure Solves (nodes : List V) (mod : V → Mod P K) (conns : V → List (Conn V P K)) (θ : P → Vec K)
    (ext inb outb : V → Vec K) : Prop where
  inputs : ∀ n ∈ nodes, ∀ j, inb n j = ext n j +
    ((arcs nodes conns).map (fun a => if a.2.outmod = n then signal θ (outb a.1) a.2 j else 0)).sum
  outputs : ∀ n ∈ nodes, outb n = tr (mod n).outdim ((mod n).fwd (θ (mod n).pc) (inb n) (fun _ => 0))

/-- The consecutive piece of `x` that belongs to module `n`, when `x` is cut into pieces of lengths `d m` for
the modules in the list; zero for other modules. -/
def share (d : V → Nat) : List V → Vec K → V → Vec K
  | [], _, _ => fun _ => 0
  | m :: ms, x, n => if n = m then tr (d m) x else share d ms (fun i => x (d m + i)) n

/-- The rows of the modules in the list, one after the other. -/
def concat (d : V → Nat) : List V → (V → Vec K) → Vec K
  | [], _ => fun _ => 0
  | m :: ms, rows => fun j => if j < d m then rows m j else concat d ms rows (j - d m)

/-- A network as `addModule`, `addInputModule`, `addOutputModule`, `addConnection` and a successful `sortModules`
leave it: `sorted` is a topological order (C10), the input and output modules are listed once each and belong
to the network, slices fit. -/
structure WF (N : Net V P K) : Prop where
  nodup : N.sorted.Nodup
  insNodup : N.inmods.Nodup
  outsNodup : N.outmods.Nodup
  ins : ∀ m ∈ N.inmods, m ∈ N.sorted
  outs : ∀ m ∈ N.outmods, m ∈ N.sorted
  order : ∀ m ∈ N.sorted, ∀ c ∈ N.conns m, Before N.sorted m c.outmod
  inSlice : ∀ m ∈ N.sorted, ∀ c ∈ N.conns m, c.inFrom ≤ c.inTo ∧ c.inTo ≤ (N.mod m).outdim
  outSlice : ∀ m ∈ N.sorted, ∀ c ∈ N.conns m, c.outFrom ≤ c.outTo ∧ c.outTo ≤ (N.mod c.outmod).indim

/-- `y` is the output of the network for input `x`: some buffers solve the defining equations and `y` is the
concatenation of the outputs of the output modules. -/
def IsOutput (N : Net V P K) (θ : P → Vec K) (x y : Vec K) : Prop :=
  ∃ inb outb, Solves N.sorted N.mod N.conns θ (share (fun m => (N.mod m).indim) N.inmods x) inb outb ∧
    y = concat (fun m => (N.mod m).outdim) N.outmods outb

end Verif.Net.Spec
