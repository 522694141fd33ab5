import Verif.Model.DataSet
import Verif.Model.FirstMax
import Mathlib.Algebra.Order.Field.Basic
/-
Model of pybrain/tools/plotting/ciaoplot.py (CiaoPlot), fitnesslandscapes.py (plotCovEllipse, FitnessPlotter) and classification.py (punchcard_module_classification_performance): the numbers handed to the plotting library.

Numbers are those of an ordered field. Individuals, modules and evaluators are arguments; evaluators and fitness functions are functions of their arguments. `svd`, `sqrt`, and `cos` and `sin` of the angles on the circle are arguments.
Figures, colours, labels and files are not modelled.
-/
namespace Verif.Landscape
open Verif.DataSet (Err)

/-- assignment to one element of an array with two dimensions -/
def set2 {K : Type} (m : Nat → Nat → K) (i j : Nat) (v : K) : Nat → Nat → K := fun a b => if a = i ∧ b = j then v else m a b

section ciao
variable {I J K : Type} [Field K] [LinearOrder K]

/-- the body of the inner loop of `generateData`, ciaoplot.py:19-26 -/
def ciaoStep (ev : Sum I J → Sum I J → K) (symmetric : Bool) (g1 : Nat) (ind1 : I) (m : Nat → Nat → K) (p : J × Nat) : Nat → Nat → K :=
  let m := set2 m g1 p.2 (ev (.inl ind1) (.inr p.1))
  if symmetric then set2 m p.2 g1 (m g1 p.2)
  else if g1 = p.2 then set2 m g1 p.2 (m g1 p.2 + ev (.inr p.1) (.inl ind1))
  else set2 m p.2 g1 (ev (.inr p.1) (.inl ind1))

/-- `CiaoPlot.generateData`, ciaoplot.py:13-27 -/
def generateData (ev : Sum I J → Sum I J → K) (hof1 : List I) (hof2 : List J) (symmetric : Bool) : Except Err (Nat → Nat → K) :=
  if hof1.length ≠ hof2.length then .error .assertion
  else .ok (hof1.zipIdx.foldl (fun m q => (hof2.take (q.2 + 1)).zipIdx.foldl (ciaoStep ev symmetric q.2 q.1) m) fun _ _ => 0)

/-- the elements of an array with `n` rows and columns -/
def elements (n : Nat) (m : Nat → Nat → K) : List K := (List.range n).flatMap fun i => (List.range n).map fun j => m i j

/-- `amin` -/
def amin : List K → Except Err K
  | [] => .error .valueError
  | x :: xs => .ok (xs.foldl min x)

/-- `amax` -/
def amax : List K → Except Err K
  | [] => .error .valueError
  | x :: xs => .ok (xs.foldl max x)

/-- `CiaoPlot.__init__`, ciaoplot.py:36-37: the data drawn. Division by zero gives infinite numbers, and their differences are not numbers: `none`. -/
def relData (n : Nat) (m : Nat → Nat → K) : Except Err (Option (Nat → Nat → K)) := do
  let lo ← amin (elements n m)
  let hi ← amax (elements n m)
  if lo - hi = 0 then return none
  let m1 := fun i j => m i j * (1 / (lo - hi))
  let lo1 ← amin (elements n m1)
  return some fun i j => m1 i j - lo1

end ciao

section ellipse
variable {K : Type} [Field K]

/-- arrays with two rows and columns -/
structure M2 (K : Type) where
  a : K
  b : K
  c : K
  d : K

/-- `dot` of two arrays -/
def M2.mul (x y : M2 K) : M2 K := ⟨x.a * y.a + x.b * y.c, x.a * y.b + x.b * y.d, x.c * y.a + x.d * y.c, x.c * y.b + x.d * y.d⟩

/-- `plotCovEllipse`, fitnesslandscapes.py:12-28: the points, from the results `u`, `s`, `d` of `svd`. `circle i segments` are the cosine and sine of `2 * pi * i / segments`. -/
def covEllipse (root : K → K) (circle : Nat → Nat → K × K) (u : M2 K) (s : K × K) (d : M2 K) (center : K × K) (segments : Nat) : Except Err (List (K × K)) :=
  if segments = 0 then .error .zeroDivision
  else
    let sm := d.mul ((⟨root s.1, 0, 0, root s.2⟩ : M2 K).mul u)
    .ok ((List.range (segments + 1)).map fun i =>
      let p := circle i segments
      (center.1 + sm.a * p.1 + sm.b * p.2, center.2 + sm.c * p.1 + sm.d * p.2))

end ellipse

section plotter
variable {K : Type} [Field K] [LinearOrder K]

/-- `r_[a:b:n * 1j]`: `n` numbers from `a` to `b` -/
def linspace (a b : K) (n : Nat) : List K := (List.range n).map fun (i : Nat) => a + (i : K) * ((b - a) / ((n : K) - 1))

/-- attributes of a `FitnessPlotter`; `zs` has the row first -/
structure Plotter (K : Type) where
  f : K → K → K
  precision : Nat
  xs : List K
  ys : List K
  zs : Nat → Nat → K

/-- `_generateValMap`, fitnesslandscapes.py:54-60 -/
def valMap (f : K → K → K) (xs ys : List K) : Nat → Nat → K :=
  xs.zipIdx.foldl (fun m q => ys.zipIdx.foldl (fun m r => set2 m r.2 q.2 (f q.1 r.1)) m) fun _ _ => 0

/-- `__init__`, fitnesslandscapes.py:33-50 -/
def Plotter.new (f : K → K → K) (xmin xmax ymin ymax : K) (precision : Nat) : Plotter K :=
  let xs := linspace xmin xmax precision
  let ys := linspace ymin ymax precision
  ⟨f, precision, xs, ys, valMap f xs ys⟩

/-- `_rescale`, fitnesslandscapes.py:87-90 -/
def Plotter.rescale (p : Plotter K) (xmin xmax ymin ymax : K) : Except Err (Plotter K) := do
  let x0 ← amin p.xs
  let x1 ← amax p.xs
  let xs := linspace (min (xmin * (11 / 10)) x0) (max (xmax * (11 / 10)) x1) p.precision
  let y0 ← amin p.ys
  let y1 ← amax p.ys
  let ys := linspace (min (ymin * (11 / 10)) y0) (max (ymax * (11 / 10)) y1) p.precision
  return { p with xs := xs, ys := ys, zs := valMap p.f xs ys }

/-- `addSamples`, fitnesslandscapes.py:72-85, and the end of `addCovEllipse`, fitnesslandscapes.py:92-96: fit the ranges to points -/
def Plotter.add (p : Plotter K) (points : List (K × K)) (rescale : Bool) : Except Err (Plotter K) :=
  if rescale then do
    let x0 ← amin (points.map Prod.fst)
    let x1 ← amax (points.map Prod.fst)
    let y0 ← amin (points.map Prod.snd)
    let y1 ← amax (points.map Prod.snd)
    p.rescale x0 x1 y0 y1
  else .ok p

/-- a sequence of calls of `addSamples` and `addCovEllipse`, with the points added -/
def Plotter.run (p : Plotter K) : List (List (K × K) × Bool) → Except Err (Plotter K)
  | [] => .ok p
  | c :: cs =>
    match p.add c.1 c.2 with
    | .error e => .error e
    | .ok q => q.run cs

end plotter

section punchcard
variable {S X K : Type} [Field K] [LinearOrder K]

/-- a module: `reset()`, `activate()` and the number of outputs -/
structure Mod (S X K : Type) where
  reset : S → S
  activate : S → X → S × List K
  outdim : Nat

/-- the loop of `calculate_module_output_mean`, classification.py:76-77 -/
def sumOutputs (m : Mod S X K) : S → List X → List K → S × List K
  | s, [], acc => (s, acc)
  | s, x :: xs, acc => sumOutputs m (m.activate s x).1 xs (List.zipWith (· + ·) acc (m.activate s x).2)

/-- `calculate_module_output_mean`, classification.py:72-78 (not for empty lists of inputs) -/
def outputMean (m : Mod S X K) (s : S) (inputs : List X) : S × List K :=
  let r := sumOutputs m (m.reset s) inputs (List.replicate m.outdim 0)
  (r.1, r.2.map (· / (inputs.length : K)))

/-- `np.argmax` of an array with any number of dimensions: a position in the list of all elements -/
def argmax (l : List K) : Except Err Nat :=
  match Py.firstMax (fun i => l.getD i 0) (List.range l.length) with
  | none => .error .valueError
  | some i => .ok i

/-- results of the loop: the classes estimated, those expected, the sizes of the dots, and the number of correct ones -/
structure Card (K : Type) where
  actual : List Nat
  expected : List Nat
  confidence : List (List K)
  correct : Nat

/-- the loop over sequences, classification.py:87-96; a sequence is the list of inputs and the array of targets, by rows -/
def cardLoop (m : Mod S X K) : S → List (List X × List (List K)) → Card K → Except Err (Card K)
  | _, [], c => .ok c
  | s, q :: qs, c =>
    let r := outputMean m s q.1
    match argmax r.2 with
    | .error e => .error e
    | .ok a =>
      match argmax q.2.flatten with
      | .error e => .error e
      | .ok e => cardLoop m r.1 qs ⟨c.actual ++ [a], c.expected ++ [e], c.confidence ++ [r.2], if a = e then c.correct + 1 else c.correct⟩

/-- `punchcard_module_classification_performance`, classification.py:53-104: the results and the percentage in the title -/
def punchcard (m : Mod S X K) (s : S) (seqs : List (List X × List (List K))) : Except Err (Card K × ℚ) :=
  match cardLoop m s seqs ⟨[], [], [], 0⟩ with
  | .error e => .error e
  | .ok c => if seqs.length = 0 then .error .zeroDivision else .ok (c, ((c.correct * 100 : Nat) : ℚ) / (seqs.length : ℚ))

end punchcard
end Verif.Landscape
