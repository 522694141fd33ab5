import Verif.Model.Convert
import Verif.Spec.TopoSort
/-
Specification of conversion: when two networks are the same network.
-/
namespace Verif.Builder.Spec
open Verif.Builder

variable {V M X : Type} [DecidableEq V] [DecidableEq M]

/-- The networks have the same modules, inputs, outputs, connections and dimensions, and `n'` is ready for use. Connections, also the recurrent ones, are in the same order. -/
structure SameNet (A : Attr V M) (n n' : Net V M X) : Prop where
  sorted : n'.sorted = true
  modules : n'.modules.Perm n.modules
  inputs : n'.inmodules = n.inmodules
  outputs : n'.outmodules = n.outmodules
  conns : ∀ m ∈ n.modules, Py.dget n'.connections m = Py.dget n.connections m
  recs : n'.recurrentConns = n.recurrentConns
  mothers : n'.motherconnections.Perm n.motherconnections ∧ n'.motherconnections.Pairwise fun a b => A.motherName a ≤ A.motherName b
  order : Topo.Spec.IsTopoOrder n.modules ((allConns n).map fun c => (c.inmod, c.outmod)) n'.modulesSorted
  indim : n'.indim = n.indim
  outdim : n'.outdim = n.outdim

end Verif.Builder.Spec
