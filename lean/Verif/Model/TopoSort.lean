import Verif.Model.Py
import Mathlib.Data.List.Sort
/-
Model of Network._topologicalSort (pybrain/structure/networks/network.py:174-213).

`modules` is the iteration order of the set `self.modules`; `edges` lists `(c.inmod, c.outmod)` in the
order in which `chain(*self.connections.values())` yields the connections. The dictionary `graph` is
modelled by its keys, the counter `graph[v][0]` and the child list `graph[v][1:]`; looking up an absent
key is KeyError.
-/
namespace Verif.Topo

inductive TErr where
  | keyError | loop | diverged
deriving DecidableEq, Repr

structure Graph (V : Type) where
  keys : List V
  cnt : V → Int
  kids : V → List V

/-- `f[k] := v` for a function used as a dictionary -/
def upd {V α : Type} [DecidableEq V] (f : V → α) (k : V) (a : α) : V → α := fun v => if v = k then a else f v

/-- network.py:182-186: every node once, with counter 0. -/
def initGraph {V : Type} [DecidableEq V] (modules : List V) : Graph V :=
  { keys := modules.foldl (fun ks m => if m ∈ ks then ks else ks ++ [m]) [], cnt := fun _ => 0, kids := fun _ => [] }

/-- network.py:187-190 -/
def addEdges {V : Type} [DecidableEq V] (g : Graph V) : List (V × V) → Except TErr (Graph V)
  | [] => .ok g
  | (u, v) :: rest =>
    if u ∈ g.keys then
      if v ∈ g.keys then
        addEdges { g with kids := upd g.kids u (g.kids u ++ [v]), cnt := upd g.cnt v (g.cnt v + 1) } rest
      else .error .keyError
    else .error .keyError

/-- the inner loop, network.py:206-209 -/
def dropArcs {V : Type} [DecidableEq V] (g : Graph V) (roots : List V) : List V → Except TErr (Graph V × List V)
  | [] => .ok (g, roots)
  | c :: rest =>
    if c ∈ g.keys then
      let g1 := { g with cnt := upd g.cnt c (g.cnt c - 1) }
      if g1.cnt c = 0 then dropArcs g1 (roots ++ [c]) rest else dropArcs g1 roots rest
    else .error .keyError

/-- the `while` loop, network.py:202-210 and the final check 212-213. The first argument bounds the number
of iterations (`diverged` is proved unreachable). `sorted` is `self.modulesSorted`. -/
def sortLoop {V : Type} [DecidableEq V] : Nat → Graph V → List V → List V → Except TErr (List V)
  | _, g, [], sorted => if g.keys = [] then .ok sorted else .error .loop
  | 0, _, _ :: _, _ => .error .diverged
  | n + 1, g, root :: roots, sorted =>
    if root ∈ g.keys then
      match dropArcs g roots (g.kids root) with
      | .error e => .error e
      | .ok (g1, roots1) =>
        if root ∈ g1.keys then sortLoop n { g1 with keys := g1.keys.erase root } roots1 (sorted ++ [root])
        else .error .keyError
    else .error .keyError

/-- `_topologicalSort`, network.py:174-213. `name` is used to order the initial roots (stable sort). -/
def topologicalSort {V : Type} [DecidableEq V] (modules : List V) (edges : List (V × V)) (name : V → String) :
    Except TErr (List V) :=
  match addEdges (initGraph modules) edges with
  | .error e => .error e
  | .ok g =>
    let roots := (g.keys.filter (fun v => decide (g.cnt v = 0))).insertionSort (fun a b => name a ≤ name b)
    sortLoop g.keys.length g roots []

end Verif.Topo
