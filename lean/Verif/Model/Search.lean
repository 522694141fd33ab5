import Mathlib.Data.Finset.Union
import Mathlib.Data.Finset.Card
/-
Model of the graph searches of pybrain/utilities.py. Python sets are finite sets; `stepFunction` returns any
iterable, here a list. The first argument of the loops bounds the number of turns; running out of it is `none`
(the loop has not ended).
-/
namespace Verif.Search

variable {V : Type} [DecidableEq V]

/-- `full.intersection(X)`, or `X` when `fullSet is None` -/
def within (full : Option (Finset V)) (s : Finset V) : Finset V :=
  match full with
  | none => s
  | some f => f ∩ s

/-- `relevant is not None and relevant.issubset(flooded)`, utilities.py:480 -/
def met (relevant : Option (Finset V)) (flooded : Finset V) : Bool :=
  match relevant with
  | none => false
  | some r => decide (r ⊆ flooded)

/-- the `while` loop of `flood`, utilities.py:471-481 -/
def floodLoop (step : V → List V) (full : Option (Finset V)) (relevant : Option (Finset V)) :
    Nat → Finset V → Finset V → Option (Finset V)
  | fuel, change, flooded =>
    if change.card > 0 then
      match fuel with
      | 0 => none
      | fuel + 1 =>
        let new := change.biUnion (fun m => within full (step m).toFinset)
        let change' := new \ flooded
        let flooded' := flooded ∪ change'
        if met relevant flooded' = true then some flooded'
        else floodLoop step full relevant fuel change' flooded'
    else some flooded

/-- `flood`, utilities.py:454-482. (`relevant=[]` raises AttributeError once the loop runs, line 480; it is not
modelled: `relevant` is `None` or a non-empty collection.) -/
def flood (fuel : Nat) (step : V → List V) (full : Option (Finset V)) (init : Finset V) (relevant : Option (Finset V)) :
    Option (Finset V) :=
  let flooded := within full init
  let relevant := match full, relevant with
    | some f, none => some f
    | _, r => r
  floodLoop step full relevant fuel flooded flooded

/-- utilities.py:426-429 for a list `start`: removing from the list while iterating over it skips the next entry. The
first argument is the list position. Returns `start` after the loop and the entries found at distance 0. -/
def scanStart (dests : List V) : List V → List V × List V
  | [] => ([], [])
  | [s] => if s ∈ dests then ([], [s]) else ([s], [])
  | s :: t :: rest =>
    if s ∈ dests then
      let r := scanStart dests rest
      (t :: r.1, s :: r.2)
    else
      let r := scanStart dests (t :: rest)
      (s :: r.1, r.2)

/-- `reachable`, utilities.py:412-451, for the recursive calls: `new` is a set none of whose elements is in
`destinations`, so the loop 426-429 does nothing. The result is the list of items of the dictionary. -/
def reachRec (step : V → List V) : Nat → Finset V → List V → Finset V → Option (List (V × Nat))
  | fuel, start, dests, seen =>
    if start.card = 0 ∨ dests.length = 0 then some []
    else
      match fuel with
      | 0 => none
      | fuel + 1 =>
        let seen1 := seen ∪ start
        let new := start.biUnion (fun s => (step s).toFinset) \ seen1
        let found := (dests.filter (fun d => decide (d ∈ new))).eraseDups
        match reachRec step fuel (new.filter (fun s => s ∉ dests)) (found.foldl List.erase dests) (seen1 ∪ found.toFinset) with
        | none => none
        | some deeper => some (found.map (fun s => (s, 1)) ++ deeper.map (fun (kv : V × Nat) => (kv.1, kv.2 + 1)))

/-- `reachable(stepFunction, start, destinations)` as called by a user with a list of distinct starts. -/
def reachable (fuel : Nat) (step : V → List V) (start : List V) (dests : List V) : Option (List (V × Nat)) :=
  if start.length = 0 ∨ dests.length = 0 then some []
  else
    let r := scanStart dests start
    let seen1 := start.toFinset
    let new := r.1.toFinset.biUnion (fun s => (step s).toFinset) \ seen1
    let found := (dests.filter (fun d => decide (d ∈ new))).eraseDups
    match reachRec step fuel (new.filter (fun s => s ∉ dests)) (found.foldl List.erase dests) (seen1 ∪ found.toFinset) with
    | none => none
    | some deeper => some (r.2.map (fun s => (s, 0)) ++ found.map (fun s => (s, 1)) ++ deeper.map (fun (kv : V × Nat) => (kv.1, kv.2 + 1)))

end Verif.Search
