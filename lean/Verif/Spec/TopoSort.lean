/- Specification of topological sorting. -/
namespace Verif.Topo.Spec

/-- `a` occurs in `l` strictly before `b` does (and both occur). -/
def Before {V : Type} (l : List V) (a b : V) : Prop := ∃ l1 l2 l3, l = l1 ++ a :: l2 ++ b :: l3

/-- No node can reach itself by one or more connections. -/
def Acyclic {V : Type} (edges : List (V × V)) : Prop :=
  ∀ v, ¬ Relation.TransGen (fun a b => (a, b) ∈ edges) v v

/-- A list of all modules, each once, in which the source of every connection precedes its target. -/
def IsTopoOrder {V : Type} (modules : List V) (edges : List (V × V)) (l : List V) : Prop :=
  l.Nodup ∧ (∀ v, v ∈ l ↔ v ∈ modules) ∧ ∀ e ∈ edges, Before l e.1 e.2

end Verif.Topo.Spec
