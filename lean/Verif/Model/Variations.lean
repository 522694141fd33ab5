import Verif.Model.Enumerate
import Verif.Model.Utilities
import Mathlib.Algebra.Ring.Defs
/-
Model of pybrain/tools/plotting/quickvariations.py (plotVariations).

The values of all options are lists. Strings are lists of characters; `show` is `str`. The generator returns nothing, an array of numbers, or a tuple of two lists. The functions called before and after the plots of a figure and the
drawing itself are not modelled; a figure is the record of what is drawn. Dictionaries are lists of items. `sort` is `sorted` on lists of dictionaries: in Python 2 some order, in Python 3 (`none`) a TypeError as soon as two are compared.
-/
namespace Verif.Variations
open Verif.Enum Verif.Util

/-- TypeError, and UnboundLocalError for a variable that has no value -/
inductive VErr where
  | type | unbound
deriving DecidableEq, Repr

abbrev Str := List Char

/-- what `genFun` returns: an array, or a tuple of two lists -/
inductive Gen (K : Type) where
  | curve (ys : List K)
  | pair (xs ys : List K)

/-- a call of `genFun`: the options that vary within the figure, all options, and what is drawn: a label and two lists of coordinates -/
structure Call (V K : Type) where
  varied : List (Str × V)
  options : List (Str × V)
  label : Option Str
  drawn : Option (List K × List K)

/-- a figure: the data and title it is made for, the options that are fixed in it, the rest of the title, and the calls in order -/
structure Fig (X T V K : Type) where
  data : X
  title : T
  fixed : List (Str × V)
  subtitle : Str
  calls : List (Call V K)

variable {X T V K : Type} [DecidableEq V] [Ring K] [DecidableEq K]

/-- `str(v)[:min(5, len(str(v)))]` -/
def short (str : V → Str) (v : V) : Str := (str v).take (min 5 (str v).length)

/-- `titadd1`, quickvariations.py:22-24 -/
def titadd1 (str : V → Str) (odl : List (Str × List V)) : Str :=
  (odl.filterMap fun e => match e.2 with
    | [v] => some (e.1 ++ ['='] ++ short str v ++ [' '])
    | _ => none).flatten

/-- `titadd2`, quickvariations.py:30-31 -/
def titadd2 (str : V → Str) (d : List (Str × V)) : Str := (d.map fun e => e.1 ++ ['='] ++ short str e.2 ++ [' ']).flatten

/-- `lab`, quickvariations.py:40-46 -/
def label (str : V → Str) (odl : List (Str × List V)) (d : List (Str × V)) : Option Str :=
  let lab := ((d.filter fun e => decide (((odl.lookup e.1).getD []).length > 1)).map fun e => e.1.take 3 ++ ['='] ++ short str e.2 ++ ['-']).flatten
  if lab.length > 0 then some lab.dropLast else none

/-- the coordinates drawn, quickvariations.py:48-59; `len(generated)` of an array of two numbers is 2, too -/
def coordinates (differentiator : K) (i : Nat) : Option (Gen K) → Except VErr (Option (List K × List K))
  | none => .ok none
  | some (.curve ys) =>
    if ys.length = 2 then
      if differentiator ≠ 0 then .ok (some ([ys.headD 0], ys.map (· + differentiator * (i : K)))) else .ok (some ([ys.headD 0], ys.drop 1))
    else
      let xs := (List.range ys.length).map fun (j : Nat) => (j : K)
      if differentiator ≠ 0 then .ok (some (xs, ys.map (· + differentiator * (i : K)))) else .ok (some (xs, ys))
  | some (.pair xs ys) => if differentiator ≠ 0 then .error .type else .ok (some (xs, ys))

/-- `sorted` -/
def sorted {D : Type} (sort : Option (List D → List D)) (ds : List D) : Except VErr (List D) :=
  if ds.length < 2 then .ok ds
  else match sort with
    | none => .error .type
    | some f => .ok (f ds)

/-- `dictCombinations` for options with lists of values -/
def combos (le : V → V → Bool) (d : List (Str × List V)) : List (List (Str × V)) := dictCombinations le (d.map fun e => (e.1, Entry.many e.2))

/-- a figure, quickvariations.py:27-64: without a call the variable `lab` has no value -/
def figure (le : V → V → Bool) (sort : Option (List (List (Str × V)) → List (List (Str × V)))) (str : V → Str) (gen : X → List (Str × V) → Option (Gen K)) (differentiator : K)
    (odl : List (Str × List V)) (x : X) (tit : T) (figdict : List (Str × V)) : Except VErr (Fig X T V K) := do
  let odicts ← sorted sort (combos le odl)
  let calls ← odicts.zipIdx.mapM fun p => do
    let c ← coordinates differentiator p.2 (gen x (p.1 ++ figdict))
    return { varied := p.1, options := p.1 ++ figdict, label := label str odl p.1, drawn := c }
  if calls = [] then throw .unbound
  return { data := x, title := tit, fixed := figdict, subtitle := titadd1 str odl ++ titadd2 str figdict, calls := calls }

/-- `plotVariations`, quickvariations.py:8-64. `k in None` is a TypeError. -/
def plotVariations (le : V → V → Bool) (sort : Option (List (List (Str × V)) → List (List (Str × V)))) (str : V → Str) (gen : X → List (Str × V) → Option (Gen K)) (differentiator : K)
    (datalist : List X) (titles : List T) (varyperplot : Option (List Str)) (optionlists : List (Str × List V)) : Except VErr (List (Fig X T V K)) :=
  if varyperplot = none ∧ optionlists ≠ [] then .error .type
  else do
    let odl := subDict optionlists (varyperplot.getD []) false
    let fdl := subDict optionlists (varyperplot.getD []) true
    let parts ← (datalist.zip titles).mapM fun p => do
      let figdicts ← sorted sort (combos le fdl)
      figdicts.mapM (figure le sort str gen differentiator odl p.1 p.2)
    return parts.flatten

end Verif.Variations
