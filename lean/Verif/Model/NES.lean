import Verif.Model.ImportanceMixing
import Verif.Model.Ranking
import Mathlib.Analysis.Normed.Algebra.MatrixExponential
import Mathlib.LinearAlgebra.Matrix.Trace
/-!
Model of `XNES` (optimization/distributionbased/xnes.py) and `SNES` (optimization/distributionbased/snes.py).

Points are vectors of `n` real numbers, `expm` and `exp` are the exact exponentials. `g` is the function `_oneEvaluation` calls (already opposed
if the task was to minimise, see C30); its NaN checks, the record of the best point and the stopping criterion are those of C30. The standard
normal draws are arguments: `z k` is the `k`-th one of a step. The storage `_allEvaluated`, `_allEvaluations` and the positions into it
(`_pointers`) are kept. The default learning rates and batch sizes are parameters.
-/

namespace Verif.NES
open Matrix Verif.Mixing

abbrev Vec (n : Nat) := Fin n → ℝ

structure Cfg where
  centerLR : ℝ
  covLR : ℝ
  /-- XNES only -/
  scaleLR : ℝ
  uniformBaseline : Bool
  batchSize : Nat
  shaping : List ℝ → List ℝ
  /-- `_wasOpposed` -/
  opposed : Bool
  /-- XNES only -/
  importanceMixing : Bool
  forcedRefresh : ℝ
  /-- XNES only -/
  storeAllDistributions : Bool
  /-- SNES only -/
  clearStorage : Bool

/-- `_allEvaluated` and `_allEvaluations` -/
structure Store (n : Nat) where
  evaluated : List (Vec n)
  evaluations : List ℝ

variable {n : Nat}

/-- what `_oneEvaluation` stores, optimizer.py:251-263 -/
def Store.add (opposed : Bool) (g : Vec n → ℝ) (s : Store n) (x : Vec n) : Store n :=
  { evaluated := s.evaluated ++ [x], evaluations := s.evaluations ++ [if opposed then -(g x) else g x] }

/-- `_population`, xnes.py:85-90 and snes.py:58-63 -/
def Store.population (s : Store n) (pointers : List Nat) : List (Vec n) := pointers.filterMap (fun i => s.evaluated[i]?)

/-- `_currentEvaluations`, xnes.py:92-97 and snes.py:65-70 -/
def Store.currentEvaluations (opposed : Bool) (s : Store n) (pointers : List Nat) : List ℝ :=
  let fits := pointers.filterMap (fun i => s.evaluations[i]?)
  if opposed then fits.map (fun x => -x) else fits

/-- the utilities, xnes.py:58-61 and snes.py:96-99 -/
noncomputable def utilities (c : Cfg) (fits : List ℝ) : List ℝ :=
  let u := c.shaping fits
  let u := u.map (fun x => x / u.sum)
  if c.uniformBaseline then u.map (fun x => x - 1 / c.batchSize) else u

/-- the sum of values weighted by utilities (`dot`) -/
def wsum {V : Type} [AddCommMonoid V] [SMul ℝ V] (u : List ℝ) (xs : List V) : V := (List.zipWith (fun a x => a • x) u xs).sum

/-! ### XNES -/

structure Xnes (n : Nat) where
  center : Vec n
  A : Matrix (Fin n) (Fin n) ℝ
  invA : Matrix (Fin n) (Fin n) ℝ
  logDetA : ℝ
  /-- `_lastLogDetA`, `_lastInvA`: set by the first learning step and not read before -/
  lastLogDetA : ℝ
  lastInvA : Matrix (Fin n) (Fin n) ℝ
  store : Store n
  pointers : List Nat
  allPointers : List (List Nat)
  genSteps : List Nat
  /-- `_allDistributions`: this attribute exists only with `storeAllDistributions` -/
  dists : Option (List (Vec n × Matrix (Fin n) (Fin n) ℝ))
  numLearningSteps : Nat

/-- `_additionalInit`, xnes.py:44-53 -/
def Xnes.init (c : Cfg) (x0 : Vec n) : Xnes n :=
  { center := x0, A := 1, invA := 1, logDetA := 0, lastLogDetA := 0, lastInvA := 1, store := ⟨[], []⟩, pointers := [], allPointers := [],
    genSteps := [0], dists := if c.storeAllDistributions then some [(x0, 1)] else none, numLearningSteps := 0 }

/-- `_sample2base`, xnes.py:102-104 -/
def Xnes.sample2base (s : Xnes n) (z : Vec n) : Vec n := s.A *ᵥ z + s.center

/-- `_base2sample`, xnes.py:110-112 -/
def Xnes.base2sample (s : Xnes n) (x : Vec n) : Vec n := s.invA *ᵥ (x - s.center)

/-- `_lastCenter`, xnes.py:83-84 -/
def Xnes.lastCenter (s : Xnes n) : Except Fail (Vec n) :=
  match s.dists with
  | none => .error .attribute
  | some d => match d[d.length - 2]? with
    | none => .error .attribute
    | some p => .ok p.1

/-- `_oldpdf`, xnes.py:114-116 with `_base2oldsample`, 106-108 -/
noncomputable def Xnes.oldpdf (s : Xnes n) (z : Vec n) : Except Fail ℝ :=
  match s.lastCenter with
  | .error e => .error e
  | .ok lc =>
    let w := s.lastInvA *ᵥ (s.sample2base z - lc)
    .ok (Real.exp (-0.5 * (w ⬝ᵥ w) - s.lastLogDetA))

/-- `_newpdf`, xnes.py:118-119 -/
noncomputable def Xnes.newpdf (s : Xnes n) (z : Vec n) : Except Fail ℝ := .ok (Real.exp (-0.5 * (z ⬝ᵥ z) - s.logDetA))

/-- the random numbers of a step: normal draws, and the draws of importance mixing -/
structure Rand (n : Nat) where
  z : Nat → Vec n
  r : Nat → ℝ
  draws : List (ℝ × Vec n)

/-- the first argument of `importanceMixing`, xnes.py:128: `_base2sample` is mapped over `_currentEvaluations`, the numbers being subtracted
from every coordinate of the center (broadcasting) -/
def Xnes.oldPoints (c : Cfg) (s : Xnes n) : List (Vec n) :=
  (s.store.currentEvaluations c.opposed s.pointers).map (fun e => s.base2sample (fun _ => e))

/-- `_produceSamples`, xnes.py:121-136 -/
noncomputable def Xnes.produceSamples (c : Cfg) (g : Vec n → ℝ) (rnd : Rand n) (s : Xnes n) : Except Fail (Xnes n) :=
  if s.numLearningSteps = 0 ∨ c.importanceMixing = false then
    let st := (List.range c.batchSize).foldl (fun st k => st.add c.opposed g (s.sample2base (rnd.z k))) s.store
    let ptrs := (List.range c.batchSize).map (fun k => st.evaluated.length - c.batchSize + k)
    .ok { s with store := st, pointers := ptrs, genSteps := s.genSteps ++ [s.genSteps.getLastD 0 + c.batchSize], allPointers := s.allPointers ++ [ptrs] }
  else
    match Mixing.importanceMixing (s.oldPoints c) s.oldpdf s.newpdf c.forcedRefresh rnd.r rnd.draws with
    | .error e => .error e
    | .ok (reuse, new) =>
      let st := new.foldl (fun st z => st.add c.opposed g (s.sample2base z)) s.store
      let ptrs := reuse.filterMap (fun i => s.pointers[i]?) ++
        (List.range (c.batchSize - reuse.length)).map (fun k => st.evaluated.length - c.batchSize + reuse.length + k)
      .ok { s with store := st, pointers := ptrs, genSteps := s.genSteps ++ [s.genSteps.getLastD 0 + c.batchSize - reuse.length],
                   allPointers := s.allPointers ++ [ptrs] }

/-- `dA`, xnes.py:64-69, from the utilities and the samples -/
noncomputable def deltaA (c : Cfg) (u : List ℝ) (samples : List (Vec n)) : Matrix (Fin n) (Fin n) ℝ × ℝ :=
  let covGradient : Matrix (Fin n) (Fin n) ℝ := wsum u (samples.map (fun z => vecMulVec z z - 1))
  let covTrace := covGradient.trace
  let covGradient := covGradient - (covTrace / n) • (1 : Matrix (Fin n) (Fin n) ℝ)
  ((0.5 : ℝ) • ((c.scaleLR * covTrace / n) • (1 : Matrix (Fin n) (Fin n) ℝ) + c.covLR • covGradient), covTrace)

/-- `_learnStep` after `_produceSamples`, xnes.py:58-79 -/
noncomputable def Xnes.update (c : Cfg) (s : Xnes n) : Xnes n :=
  let u := utilities c (s.store.currentEvaluations c.opposed s.pointers)
  let samples := (s.store.population s.pointers).map s.base2sample
  let dCenter : Vec n := wsum u samples
  let dA := (deltaA c u samples).1
  let covTrace := (deltaA c u samples).2
  let center := s.center + c.centerLR • (s.A *ᵥ dCenter)
  let A := s.A * NormedSpace.exp dA
  { s with lastLogDetA := s.logDetA, lastInvA := s.invA, center := center, A := A, invA := NormedSpace.exp (-dA) * s.invA,
           logDetA := s.logDetA + 0.5 * c.scaleLR * covTrace,
           dists := if c.storeAllDistributions then s.dists.map (fun d => d ++ [(center, A)]) else s.dists }

/-- one round of `learn`: `_learnStep`, xnes.py:55-79, and the step counter, optimizer.py:200-203 -/
noncomputable def Xnes.step (c : Cfg) (g : Vec n → ℝ) (rnd : Rand n) (s : Xnes n) : Except Fail (Xnes n) :=
  match s.produceSamples c g rnd with
  | .error e => .error e
  | .ok s => .ok { s.update c with numLearningSteps := s.numLearningSteps + 1 }

/-- a run of `learn` -/
noncomputable def Xnes.run (c : Cfg) (g : Vec n → ℝ) : List (Rand n) → Xnes n → Except Fail (Xnes n)
  | [], s => .ok s
  | r :: rs, s =>
    match s.step c g r with
    | .error e => .error e
    | .ok s => s.run c g rs

/-! ### SNES -/

structure Snes (n : Nat) where
  center : Vec n
  sigmas : Vec n
  store : Store n
  pointers : List Nat

/-- `_additionalInit`, snes.py:48-55 -/
def Snes.init (x0 : Vec n) (initVariance : ℝ) : Snes n :=
  { center := x0, sigmas := fun _ => 1 * initVariance, store := ⟨[], []⟩, pointers := [] }

/-- `_sample2base`, snes.py:75-77 -/
def Snes.sample2base (s : Snes n) (z : Vec n) : Vec n := s.sigmas * z + s.center

/-- `_base2sample`, snes.py:79-81 -/
noncomputable def Snes.base2sample (s : Snes n) (x : Vec n) : Vec n := (x - s.center) / s.sigmas

/-- `_produceSamples`, snes.py:83-91 -/
def Snes.produceSamples (c : Cfg) (g : Vec n → ℝ) (z : Nat → Vec n) (s : Snes n) : Snes n :=
  let st : Store n := if c.clearStorage then ⟨[], []⟩ else s.store
  let st := (List.range c.batchSize).foldl (fun st k => st.add c.opposed g (s.sample2base (z k))) st
  { s with store := st, pointers := (List.range c.batchSize).map (fun k => st.evaluated.length - c.batchSize + k) }

/-- `_learnStep`, snes.py:93-109 -/
noncomputable def Snes.step (c : Cfg) (g : Vec n → ℝ) (z : Nat → Vec n) (s : Snes n) : Snes n :=
  let s := s.produceSamples c g z
  let samples := (s.store.population s.pointers).map s.base2sample
  let u := utilities c (s.store.currentEvaluations c.opposed s.pointers)
  let dCenter : Vec n := wsum u samples
  let covGradient : Vec n := wsum u (samples.map (fun z => z ^ 2 - 1))
  let dA : Vec n := (0.5 * c.covLR) • covGradient
  { s with center := s.center + c.centerLR • (s.sigmas * dCenter), sigmas := s.sigmas * (fun i => Real.exp (dA i)) }

/-- a run of `learn` -/
noncomputable def Snes.run (c : Cfg) (g : Vec n → ℝ) : List (Nat → Vec n) → Snes n → Snes n
  | [], s => s
  | z :: zs, s => (s.step c g z).run c g zs

/-- the part of `_stoppingCriterion` that SNES adds, snes.py:34-40 (there are parameters: `n` is not 0) -/
def Snes.stops (cutoff : ℝ) (s : Snes n) : Prop := ∀ i, |s.sigmas i| < cutoff

end Verif.NES
