import Verif.Model.FEM
import Mathlib.Data.List.Sort
/-
Model of the options of pybrain/optimization/distributionbased/fem.py that Verif.Model.FEM leaves out: `elitism`, `sampleElitism`, `oneFifthRule`, `doMadnessUpdate` and `adaptiveShaping`, with
the full covariance matrix and the default ranking function (pybrain/tools/rankingfunctions.py:120-143).

The drawn samples, the evaluations and the densities are given. Fitnesses are those to be maximized: for minimization the code negates them (fem.py:115-116), and compares the other way round (fem.py:109-110,
optimizer.py:244-247), which is the same. Real numbers stand for floats. The window has at least two samples (with one, line 221 raises a ValueError).
-/
namespace Verif.FEM
open Matrix

variable {n : Nat}

/-- the options, fem.py:27-45 -/
structure Options where
  elitism : Bool
  sampleElitism : Bool
  oneFifthRule : Bool
  madness : Bool
  adaptiveShaping : Bool

/-- The state: the distribution, the best point and its fitness (optimizer.py:244-249), the samples of the window (fem.py:76; the numbers it is filled with first are never used), all samples and fitnesses and all sizes
of updates (fem.py:79-85), the last one first. The parameter `topFraction` of the ranking function is not part of it: the ranking function is an attribute of the class (fem.py:30), which all optimizers share. -/
structure Search (n : Nat) where
  dist : St n
  best : (Fin n → ℝ) × ℝ
  window : List (Fin n → ℝ)
  all : List ((Fin n → ℝ) × ℝ)
  sizes : List ℝ

/-- `_additionalInit`, fem.py:54-88: the initial point is evaluated (line 88) -/
def startSearch (c : Config) (rangemins rangemaxs : Fin n → ℝ) (cov : Matrix (Fin n) (Fin n) ℝ) (x0 r : Fin n → ℝ) (fit0 : ℝ) : Search n :=
  { dist := start c rangemins rangemaxs cov x0 r, best := (x0, fit0), window := List.replicate c.windowSize 0, all := [], sizes := [] }

/-- the sample that is evaluated, fem.py:105-106 -/
def chosen (c : Config) (o : Options) (s : Search n) (drawn : Fin n → ℝ) : Fin n → ℝ :=
  if o.sampleElitism ∧ s.dist.count > c.windowSize ∧ s.dist.count % c.windowSize = 0 then s.best.1 else drawn

/-- the best point after an evaluation, optimizer.py:244-249 -/
noncomputable def better (best : (Fin n → ℝ) × ℝ) (e : (Fin n → ℝ) × ℝ) : (Fin n → ℝ) × ℝ := if best.2 ≤ e.2 then e else best

/-- the center shifted before the sample is drawn, fem.py:96-99: not with elitism, for the only center is the one that produced the best sample -/
def shifted (c : Config) (o : Options) (s : St n) : St n := if o.elitism then s else shift c s

/-- `_produceNewSample` and what is stored, fem.py:91-119, 228-230 -/
noncomputable def produce (c : Config) (o : Options) (s : Search n) (drawn : Fin n → ℝ) (eval : (Fin n → ℝ) → ℝ) : Search n :=
  let d := shifted c o s.dist
  let k := s.dist.count % c.windowSize
  let sample := chosen c o s drawn
  let fit := eval sample
  { s with
    dist := { d with fitnesses := d.fitnesses.set k fit, count := d.count + 1 }, best := better s.best (sample, fit), window := s.window.set k sample, all := (sample, fit) :: s.all }

/-- the mean of the last samples, weighted with the sizes of their updates, fem.py:163-169 -/
noncomputable def madnessMean (w : Nat) (s : Search n) : Fin n → ℝ :=
  (((List.range w).map fun i => s.sizes.getD i 0).sum)⁻¹ • ((List.range w).map fun i => s.sizes.getD i 0 • (s.all.getD i (0, 0)).1).sum

/-- `_updateMus`, fem.py:152-173 -/
noncomputable def moveCenter (c : Config) (o : Options) (u : ℝ) (sample : Fin n → ℝ) (s : Search n) : Search n :=
  let d := updateMus c u sample s.dist
  let d := if o.madness ∧ s.dist.count > 2 * c.windowSize then { d with mu := madnessMean c.windowSize s } else d
  { s with dist := if o.elitism then { d with mu := s.best.1 } else d }

/-- `_updateSigmas`, fem.py:175-182 -/
noncomputable def moveSigma (u : ℝ) (sample : Fin n → ℝ) (s : Search n) : Search n := { s with dist := updateSigmas u sample s.dist }

/-- `TopLinearRanking.getPossibleParameters`, rankingfunctions.py:138-140 -/
noncomputable def possibleParameters (w : Nat) : List ℝ := (List.range (w - 1)).map fun i : Nat => ((i : ℝ) + 2) / w

/-- how well utilities match densities, fem.py:214-218 -/
noncomputable def matchValue (pdfs transformed : List ℝ) : ℝ :=
  let l := (pdfs.zip transformed).filter fun p => decide (0 < p.2)
  (l.map fun p => p.1 * Real.log p.2).sum / (l.map fun p => p.1 * p.2).sum

/-- `_updateShaping`, fem.py:204-221: the new parameter of the ranking function, for the densities of the samples in the window -/
noncomputable def adapted (w : Nat) (pdfs fitnesses : List ℝ) : ℝ :=
  (possibleParameters w).getD (Ranking.argmax ((possibleParameters w).map fun p => matchValue pdfs (Ranking.topLinear p fitnesses))) 0

/-- the one-fifth rule, fem.py:259-270; `sort` sorts in increasing order -/
noncomputable def oneFifth (c : Config) (o : Options) (s : Search n) : Search n :=
  if o.oneFifthRule ∧ s.dist.count % 10 = 0 ∧ s.dist.count > 2 * c.windowSize then
    let last := ((s.all.take c.windowSize).map Prod.snd).insertionSort (· ≤ ·)
    let second := (((s.all.drop c.windowSize).take c.windowSize).map Prod.snd).insertionSort (· ≤ ·)
    let index := c.windowSize * 8 / 10
    let factor : ℝ := if second.getD index 0 ≤ last.getD index 0 then 1.2 else 0.5
    { s with dist := { s.dist with sigma := factor • s.dist.sigma } }
  else s

/-- the update of the distribution, fem.py:238-249 -/
noncomputable def updated (c : Config) (o : Options) (topFraction : ℝ) (k : Nat) (pdf : ℝ) (sample : Fin n → ℝ) (s : Search n) : Search n :=
  let u := updateSize { c with shaping := Ranking.topLinear topFraction } s.dist.fitnesses k (density pdf)
  let s := { s with sizes := u :: s.sizes }
  if 0 < u then
    if c.mutative then moveCenter c o u sample (moveSigma u sample s) else moveSigma u sample (moveCenter c o u sample s)
  else s

/-- what a step is given: the drawn sample, the evaluator, the density of the sample, and the densities for `_updateShaping` -/
structure Given (n : Nat) where
  drawn : Fin n → ℝ
  eval : (Fin n → ℝ) → ℝ
  pdf : ℝ
  density : (Fin n → ℝ) → Matrix (Fin n) (Fin n) ℝ → (Fin n → ℝ) → ℝ

/-- `_learnStep`, fem.py:227-270: the new parameter of the shared ranking function and the new state -/
noncomputable def searchStep (c : Config) (o : Options) (topFraction : ℝ) (s : Search n) (g : Given n) : ℝ × Search n :=
  let k := s.dist.count % c.windowSize
  let sample := chosen c o s g.drawn
  let s := produce c o s g.drawn g.eval
  if s.dist.count < c.windowSize then (topFraction, s)
  else
    let s := updated c o topFraction k g.pdf sample s
    let topFraction := if o.adaptiveShaping then adapted c.windowSize (s.window.map (g.density s.dist.mu s.dist.sigma)) s.dist.fitnesses else topFraction
    (topFraction, oneFifth c o s)

/-- several steps -/
noncomputable def search (c : Config) (o : Options) : ℝ × Search n → List (Given n) → ℝ × Search n
  | s, [] => s
  | s, g :: gs => search c o (searchStep c o s.1 s.2 g) gs

end Verif.FEM
