import Verif.Model.Builder
import Verif.Spec.TopoSort
import Mathlib.Data.List.Dedup
/-
Specification of network construction: what a history of calls has put into the network.
-/
namespace Verif.Builder.Spec

open Verif.Builder

variable {V M X : Type} [DecidableEq V] [DecidableEq M]

/-- the module a call adds -/
def modOf : Op V M X → Option V
  | .module m | .input m | .output m => some m
  | _ => none

/-- the input module a call adds -/
def inputOf : Op V M X → Option V
  | .input m => some m
  | _ => none

/-- the output module a call adds -/
def outputOf : Op V M X → Option V
  | .output m => some m
  | _ => none

/-- the ordinary connection a call adds -/
def connOf : Op V M X → Option (Conn V M X)
  | .connection c => some c
  | _ => none

/-- the recurrent connection a call adds -/
def recOf : Op V M X → Option (Conn V M X)
  | .recurrent c => some c
  | _ => none

/-- the mother of the connection a call adds -/
def motherOf : Op V M X → Option M
  | .connection c | .recurrent c => c.mother
  | _ => none

/-- `l` lists the elements of `added`, each once, in the order of their first occurrence. -/
def FirstOccurrences {α : Type} [DecidableEq α] (added l : List α) : Prop := l = added.reverse.dedup.reverse

/-- `l` is a list of all elements of `added`, sorted by name, elements of equal name in the order they were added. -/
def SortedBy {α : Type} (name : α → String) (added l : List α) : Prop :=
  l.Perm added ∧ l.Pairwise (fun a b => name a ≤ name b) ∧ ∀ s, l.filter (fun a => name a = s) = added.filter (fun a => name a = s)

/-- The network `n` is the one described by the calls `ops`, ready for use. -/
structure Built (A : Attr V M) (ops : List (Op V M X)) (n : Net V M X) : Prop where
  sorted : n.sorted = true
  order : Topo.Spec.IsTopoOrder (ops.filterMap modOf) ((ops.filterMap connOf).map fun c => (c.inmod, c.outmod)) n.modulesSorted
  modules : FirstOccurrences (ops.filterMap modOf) n.modules
  inputs : FirstOccurrences (ops.filterMap inputOf) n.inmodules
  outputs : FirstOccurrences (ops.filterMap outputOf) n.outmodules
  conns : ∀ m ∈ n.modulesSorted, ∃ cs, Py.dget n.connections m = some cs ∧
    SortedBy (fun c => c.name) ((ops.filterMap connOf).filter fun c => c.inmod = m) cs
  recs : SortedBy (fun c => c.name) (ops.filterMap recOf) n.recurrentConns
  mothers : (∀ m, m ∈ n.motherconnections ↔ m ∈ ops.filterMap motherOf) ∧ n.motherconnections.Nodup ∧
    n.motherconnections.Pairwise (fun a b => A.motherName a ≤ A.motherName b)
  indim : n.indim = (n.inmodules.map A.indim).sum
  outdim : n.outdim = (n.outmodules.map A.outdim).sum

end Verif.Builder.Spec
