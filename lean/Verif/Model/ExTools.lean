import Mathlib.Analysis.Real.Sqrt
/-
Model of pybrain/tools/example_tools.py (class ExTools): recording and showing the results of experiments.

The lists `rl` and `rll` are attributes of the class (lines 20-21): all objects share them until an object gets attributes of its own. `rl` becomes one by `self.rl = []` in `addExps`, `rll` only by `showExps`. A row of `rll` is either the list
of the class itself, which may still change, or a list that nobody else has. Printing and the window of the figure are not modelled.
-/
namespace Verif.ExTools

inductive XErr where
  | attribute | index | ragged
deriving DecidableEq, Repr

/-- a row of `rll` -/
inductive Row where
  | cls
  | own (l : List ℝ)

/-- an object: its own current list, if it has one, and its own array of experiments, if it has shown them -/
structure Obj where
  rl : Option (List ℝ)
  shown : Option (List (List ℝ))

/-- the lists of the class, and the objects -/
structure World where
  rl : List ℝ
  rll : List Row
  objs : Nat → Obj

/-- before anything is used, example_tools.py:15-21 -/
def World.init : World := ⟨[], [], fun _ => ⟨none, none⟩⟩

/-- `f` with another value at `i` -/
def put (f : Nat → Obj) (i : Nat) (o : Obj) : Nat → Obj := fun j => if j = i then o else f j

/-- `self.rl.append(v)`, example_tools.py:60 and 69 -/
def record (w : World) (i : Nat) (v : ℝ) : World :=
  match (w.objs i).rl with
  | none => { w with rl := w.rl ++ [v] }
  | some l => { w with objs := put w.objs i { w.objs i with rl := some (l ++ [v]) } }

/-- `printResults` of an optimizer, example_tools.py:50-60: the average of the list of results is recorded -/
noncomputable def printOptimizer (w : World) (i : Nat) (res : List ℝ) : World := record w i (res.sum / res.length)

/-- `addExps`, example_tools.py:71-73; an array has no `append` -/
def addExps (w : World) (i : Nat) : Except XErr World :=
  match (w.objs i).shown with
  | some _ => .error .attribute
  | none =>
    let row := match (w.objs i).rl with
      | none => .cls
      | some l => .own l
    .ok { w with rll := w.rll ++ [row], objs := put w.objs i { w.objs i with rl := some [] } }

/-- the values in `rll` -/
def World.rows (w : World) : List (List ℝ) := w.rll.map fun
  | .cls => w.rl
  | .own l => l

/-- a column of a table -/
def column (rows : List (List ℝ)) (k : Nat) : List ℝ := rows.map fun r => r.getD k 0

/-- example_tools.py:77-82: average and deviation of a column -/
noncomputable def average (c : List ℝ) : ℝ := c.sum / c.length
noncomputable def deviation (c : List ℝ) : ℝ := Real.sqrt ((c.map fun x => (x - average c) ^ 2).sum / c.length)

/-- The figure of `showExps`, example_tools.py:75-84: places, averages, error bars. Rows of different lengths make no table. -/
noncomputable def figure (prnts batch : Nat) (rows : List (List ℝ)) : Except XErr (List (Nat × ℝ × ℝ)) :=
  match rows with
  | [] => .error .index
  | r :: rs =>
    if rs.all fun r' => r'.length = r.length then
      .ok ((List.range r.length).map fun k => (k * prnts * batch + prnts * batch, average (column (r :: rs) k), deviation (column (r :: rs) k)))
    else .error .ragged

/-- `showExps`: the table becomes an attribute of the object -/
noncomputable def showExps (prnts batch : Nat) (w : World) (i : Nat) : Except XErr (World × List (Nat × ℝ × ℝ)) :=
  let rows := ((w.objs i).shown).getD w.rows
  match figure prnts batch rows with
  | .error e => .error e
  | .ok f => .ok ({ w with objs := put w.objs i { w.objs i with shown := some rows } }, f)

/-- one run of an experiment with an object: results, then `addExps` -/
noncomputable def runExp (w : World) (i : Nat) (results : List (List ℝ)) : Except XErr World := addExps (results.foldl (fun w r => printOptimizer w i r) w) i

/-- several runs -/
noncomputable def runExps (w : World) (i : Nat) : List (List (List ℝ)) → Except XErr World
  | [] => .ok w
  | r :: rs =>
    match runExp w i r with
    | .error e => .error e
    | .ok w' => runExps w' i rs

end Verif.ExTools
