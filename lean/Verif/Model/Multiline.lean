import Verif.Model.Py
import Mathlib.Algebra.Order.Field.Basic
/-
Model of pybrain/tools/plotting/multiline.py (MultilinePlotter).

The lists of coordinates are objects: `setData` stores the list it is given, so that several lines (and the caller) may have the same list. Coordinates are numbers of an ordered
field; `setData` is given lists (a tuple could not be appended to), `addData` a number or a list of numbers. Colours are numbers 0-8 of `graphColor`; the other keyword arguments
of a style are strings. The figure itself, labels, legends and `show` are not modelled.
-/
namespace Verif.Multiline
open Verif.Py

/-- IndexError, TypeError, ValueError; `forever` stands for a loop that does not end within the fuel -/
inductive PErr where
  | index | type | value | forever
deriving DecidableEq, Repr

/-- keyword arguments of a line -/
abbrev Sty := List (String × String)

/-- a line of the plot: the objects `indexList[i]` and `dataList[i]`, colour and style of the drawn line, and the data it shows -/
structure Line (K : Type) where
  xs : Nat
  ys : Nat
  color : Nat
  style : Sty
  drawn : List K × List K

/-- the plotter, the list objects and the limits of the axes -/
structure Plot (K : Type) where
  heap : List (List K)
  lines : List (Line K)
  default : Sty
  replot : Bool
  current : Option Int
  offset : Int
  autoscale : K
  xr : K × K
  yr : K × K

variable {K : Type}

/-- a list object -/
def Plot.obj (p : Plot K) (i : Nat) : List K := p.heap.getD i []

/-- the body of the loop in `_checkMaxId`, multiline.py:66-72 -/
def newLine (p : Plot K) : Plot K :=
  { p with heap := p.heap ++ [[], []],
           lines := p.lines ++ [{ xs := p.heap.length, ys := p.heap.length + 1, color := p.lines.length % 9, style := p.default, drawn := ([], []) }] }

/-- the loop -/
def newLines : Nat → Plot K → Plot K
  | 0, p => p
  | n + 1, p => newLines n (newLine p)

/-- `_checkMaxId`, multiline.py:61-73; `nbLines` is the number of lines -/
def check (p : Plot K) (id : Int) : Plot K :=
  if id ≥ p.lines.length then newLines (id + 1 - p.lines.length).toNat p else p

/-- `__init__`, multiline.py:30-47, with the limits of the new axes -/
def init (maxLines : Int) (autoscale : K) (xr yr : K × K) : Plot K :=
  { check { heap := [], lines := [], default := [], replot := true, current := none, offset := 0, autoscale := autoscale, xr := xr, yr := yr } (maxLines - 1) with
    replot := true, current := none, offset := 0 }

/-- `l.append(v)` -/
def append (heap : List (List K)) (i : Nat) (v : K) : List (List K) := heap.set i (heap.getD i [] ++ [v])

/-- `addData` of a number, multiline.py:82-87 and 91 -/
def add (p : Plot K) (id0 : Int) (x y : K) : Plot K × Option PErr :=
  let p1 := check p (id0 + p.offset)
  match getIdx p1.lines (id0 + p.offset) with
  | none => (p1, some .index)
  | some l => ({ p1 with heap := append (append p1.heap l.xs x) l.ys y, current := some (id0 + p.offset), replot := true }, none)

/-- `addData` of a list, multiline.py:88-91; `y` may be shorter than `x` -/
def adds (p : Plot K) (id0 : Int) : List K → List K → Plot K × Option PErr
  | [], _ => ({ p with replot := true }, none)
  | _ :: _, [] => (p, some .index)
  | x :: xs, y :: ys =>
    match add p id0 x y with
    | (p', some e) => (p', some e)
    | (p', none) => adds p' id0 xs ys

/-- a list given to `setData`: a new one, or a list that is used already -/
inductive Src (K : Type) where
  | new (l : List K)
  | old (i : Nat)

/-- the object of an argument -/
def alloc (heap : List (List K)) : Src K → List (List K) × Nat
  | .new l => (heap ++ [l], heap.length)
  | .old i => (heap, i)

/-- `setData`, multiline.py:93-103 -/
def setData (p : Plot K) (id0 : Int) (x y : Src K) : Plot K × Option PErr :=
  let p1 := check p (id0 + p.offset)
  match normIdx p1.lines.length (id0 + p.offset) with
  | none => (p1, some .index)
  | some k =>
    let a := alloc p1.heap x
    let b := alloc a.1 y
    ({ p1 with heap := b.1, lines := p1.lines.modify k fun l => { l with xs := a.2, ys := b.2 }, replot := true }, none)

/-- the text written for one line, multiline.py:111-114 -/
def pairs : List K → List K → Except PErr (List K)
  | [], _ => .ok []
  | _ :: _, [] => .error .index
  | x :: xs, y :: ys => (pairs xs ys).map fun r => x :: y :: r

/-- the lines of the file made by `saveData`, multiline.py:105-115; numbers stand for their `repr` -/
def fileOf (p : Plot K) : List (Line K) → Except PErr (List K)
  | [] => .ok []
  | l :: ls =>
    match pairs (p.obj l.xs) (p.obj l.ys) with
    | .error e => .error e
    | .ok a =>
      match fileOf p ls with
      | .error e => .error e
      | .ok b => .ok (a ++ b)

def saveData (p : Plot K) : Except PErr (List K) := fileOf p p.lines

/-- the argument `id` of `setLineStyle` -/
inductive Which where
  | last
  | one (id : Int)
  | many (ids : List Int)

/-- `line.set(**kwargs)` -/
def merge (s kw : Sty) : Sty := kw.foldl (fun d e => dset d e.1 e.2) s

/-- `self.Lines[i].set(**kwargs)` -/
def styleLine (p : Plot K) (i : Int) (kw : Sty) : Plot K × Option PErr :=
  match normIdx p.lines.length i with
  | none => (p, some .index)
  | some k => ({ p with lines := p.lines.modify k fun l => { l with style := merge l.style kw } }, none)

/-- the loop over a list of numbers, multiline.py:138-139 -/
def styleMany (p : Plot K) (kw : Sty) : List Int → Plot K × Option PErr
  | [] => (p, none)
  | i :: is =>
    match styleLine p (i + p.offset) kw with
    | (p', some e) => (p', some e)
    | (p', none) => styleMany p' kw is

/-- the part of `setLineStyle` that changes lines, multiline.py:132-147 -/
def applyStyle (p : Plot K) (kw : Sty) : Which → Plot K × Option PErr
  | .last =>
    match p.current with
    | none => (p, some .type)
    | some id => one p id
  | .one id => one p id
  | .many [] => (p, some .value)
  | .many (i :: is) => styleMany (check p (is.foldl max i + p.offset)) kw (i :: is)
where
  /-- a single number: negative ones stand for all lines -/
  one (p : Plot K) (id : Int) : Plot K × Option PErr :=
    if id ≥ 0 then styleLine (check p (id + p.offset)) (id + p.offset) kw
    else ({ p with lines := p.lines.map fun l => { l with style := merge l.style kw } }, none)

/-- `setLineStyle`, multiline.py:128-152: `popitem` has no arguments -/
def setLineStyle (p : Plot K) (which : Which) (kw : Sty) : Plot K × Option PErr :=
  match applyStyle p kw which with
  | (p', some e) => (p', some e)
  | (p', none) => if (dget kw "color").isSome then (p', some .type) else ({ p' with default := kw }, none)

section
variable [Field K] [LinearOrder K]

/-- the loops that expand an axis, multiline.py:169-170 and 172-173 -/
def expand : Nat → K → K → K → K → Except PErr K
  | 0, _, _, _, _ => .error .forever
  | n + 1, a, lo, hi, t => if t > hi then expand n a lo ((hi - lo) * a + lo) t else .ok hi

/-- the limits after one line, multiline.py:164-173 -/
def scaleLine (fuel : Nat) (a : K) (xs ys : List K) (r : (K × K) × (K × K)) : Except PErr ((K × K) × (K × K)) :=
  match xs with
  | [] => .error .index
  | x :: xt =>
    match ys with
    | [] => .error .value
    | y :: yt =>
      let xlo := if x < r.1.1 then x else r.1.1
      let ylo := if yt.foldl min y < r.2.1 then yt.foldl min y else r.2.1
      match expand fuel a xlo r.1.2 ((x :: xt).getLast (by simp)) with
      | .error e => .error e
      | .ok xhi =>
        match expand fuel a ylo r.2.2 (yt.foldl max y) with
        | .error e => .error e
        | .ok yhi => .ok ((xlo, xhi), (ylo, yhi))

/-- the loop over the lines in `update`, multiline.py:161-173; an exception leaves the other lines as they are -/
def updateLines (fuel : Nat) (p : Plot K) : List (Line K) → (K × K) × (K × K) → List (Line K) × Except PErr ((K × K) × (K × K))
  | [], r => ([], .ok r)
  | l :: ls, r =>
    let l' := { l with drawn := (p.obj l.xs, p.obj l.ys) }
    match (if p.autoscale > 1 then scaleLine fuel p.autoscale (p.obj l.xs) (p.obj l.ys) r else .ok r) with
    | .error e => (l' :: ls, .error e)
    | .ok r' =>
      let q := updateLines fuel p ls r'
      (l' :: q.1, q.2)

/-- `update`, multiline.py:155-180 -/
def update (fuel : Nat) (p : Plot K) : Plot K × Option PErr :=
  if p.replot then
    let q := updateLines fuel p p.lines (p.xr, p.yr)
    match q.2 with
    | .error e => ({ p with lines := q.1 }, some e)
    | .ok r => ({ p with lines := q.1, xr := r.1, yr := r.2, replot := false }, none)
  else (p, none)

/-- what a program does with a plotter -/
inductive Op (K : Type) where
  | offset (o : Int)
  | add (id : Int) (x y : K)
  | adds (id : Int) (xs ys : List K)
  | set (id : Int) (x y : Src K)
  | style (which : Which) (kw : Sty)
  | update

/-- `setOffset`, multiline.py:49-53, and the other calls -/
def step (fuel : Nat) (p : Plot K) : Op K → Plot K × Option PErr
  | .offset o => ({ p with offset := o }, none)
  | .add id x y => add p id x y
  | .adds id xs ys => adds p id xs ys
  | .set id x y => setData p id x y
  | .style w kw => setLineStyle p w kw
  | .update => update fuel p

/-- a program that catches exceptions -/
def run (fuel : Nat) (p : Plot K) : List (Op K) → Plot K
  | [] => p
  | o :: os => run fuel (step fuel p o).1 os

end

end Verif.Multiline
