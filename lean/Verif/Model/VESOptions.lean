import Verif.Model.VES
import Verif.Model.DataSet
/-
Model of the options of pybrain/optimization/distributionbased/ves.py that Verif.Model.VES leaves out: `vanillaScale`, `momentum`, `elitism` and online learning.

The normal noise and the evaluations are given. Fitnesses are those to be maximized (`mustMaximize`, ves.py:45). The parameters of the distribution are indexed by the coordinates of the center and by pairs (row, column)
for the factor; of the latter only those of the upper triangle are in the code's flat vector, and only those change the factor (`step`). The covariance matrix is always computed from the factor. Real numbers stand for
floats, and a division by zero, which in the code gives nan, gives 0: the theorems exclude it.
-/
namespace Verif.VES
open Matrix
open Verif.DataSet (Err)

variable {n : ℕ}

/-- the parameters of the distribution -/
abbrev Par (n : ℕ) := Fin n ⊕ Fin n × Fin n

/-- `_logDerivFactorSigma`, ves.py:226-230, with `vanillaScale` -/
noncomputable def scaledDeriv (vanillaScale : Bool) (sample x : Fin n → ℝ) (invSigma factorSigma : Matrix (Fin n) (Fin n) ℝ) : Matrix (Fin n) (Fin n) ℝ :=
  let logDerivSigma := (0.5 : ℝ) • (invSigma * vecMulVec (sample - x) (sample - x) * invSigma) - (0.5 : ℝ) • invSigma
  let logDerivSigma := if vanillaScale then Matrix.of fun i j => |factorSigma i i| * |factorSigma j j| * logDerivSigma i j else logDerivSigma
  factorSigma * (logDerivSigma + logDerivSigmaᵀ)

/-- all derivatives of one sample, ves.py:237-240, 253-256 -/
noncomputable def derivs (vanillaScale : Bool) (sample x : Fin n → ℝ) (A : Matrix (Fin n) (Fin n) ℝ) : Par n → ℝ :=
  Sum.elim (logDerivX sample x (sigma A)⁻¹) fun p => scaledDeriv vanillaScale sample x (sigma A)⁻¹ A p.1 p.2

/-- the new momentum vector and the update, ves.py:202-207, 211-216 -/
def withMomentum (momentum : Option ℝ) (v g : Par n → ℝ) : (Par n → ℝ) × (Par n → ℝ) :=
  match momentum with
  | some m => (m • v + g, m • v + g)
  | none => (v, g)

/-- the settings -/
structure Settings where
  learningRate : ℝ
  learningRateSigma : ℝ
  batchSize : ℕ
  momentum : Option ℝ
  elitism : Bool
  vanillaScale : Bool
  shaping : List ℝ → List ℝ
  storeAllDistributions : Bool

/-- the state: center and factor, the best point with its fitness, the fitnesses of all samples, the window of squared derivatives and the momentum vector (ves.py:51-52, 69-82) -/
structure St (n : ℕ) where
  x : Fin n → ℝ
  factor : Matrix (Fin n) (Fin n) ℝ
  best : Option ((Fin n → ℝ) × ℝ)
  fitnesses : List ℝ
  window : List (Par n → ℝ)
  momentumVector : Par n → ℝ

/-- `_additionalInit`, ves.py:47-85 -/
def begin (c : Settings) (x : Fin n → ℝ) (factor : Matrix (Fin n) (Fin n) ℝ) : St n :=
  { x := x, factor := factor, best := none, fitnesses := [], window := List.replicate c.batchSize 0, momentumVector := 0 }

/-- the best point after an evaluation, optimizer.py:244-249 -/
noncomputable def bestOf (best : Option ((Fin n → ℝ) × ℝ)) (z : Fin n → ℝ) (fit : ℝ) : Option ((Fin n → ℝ) × ℝ) :=
  match best with
  | none => some (z, fit)
  | some b => if b.2 ≤ fit then some (z, fit) else some b

/-- the update of the distribution, ves.py:155-160: with elitism the center is the best point -/
noncomputable def move (c : Settings) (elitism : Bool) (u : Par n → ℝ) (s : St n) : St n :=
  let new := step c.learningRate c.learningRateSigma (s.x, s.factor) (fun i => u (.inl i)) (Matrix.of fun i j => u (.inr (i, j)))
  { s with x := if elitism then (s.best.map Prod.fst).getD 0 else new.1, factor := new.2 }

/-- one sample of a batch: only new ones (`true`) are evaluated, ves.py:130-135 -/
noncomputable def evaluate (b : Option ((Fin n → ℝ) × ℝ)) (e : Bool × (Fin n → ℝ) × ℝ) : Option ((Fin n → ℝ) × ℝ) := if e.1 then bestOf b e.2.1 e.2.2 else b

/-- `_batchLearn`, ves.py:143-160, with the samples of the batch, with their fitnesses -/
noncomputable def batchLearn (c : Settings) (batch : List (Bool × (Fin n → ℝ) × ℝ)) (s : St n) : St n :=
  let best := batch.foldl evaluate s.best
  let fits := batch.map fun e => e.2.2
  let s := { s with best := best, fitnesses := s.fitnesses ++ fits }
  let shaped := c.shaping fits
  let phi (i : Fin batch.length) (j : Par n) : ℝ := derivs c.vanillaScale batch[i].2.1 s.x s.factor j
  let m := withMomentum c.momentum s.momentumVector fun j => gradient phi (fun i => shaped.getD i 0) j
  move c c.elitism m.2 { s with momentumVector := m.1 }

/-- several batches -/
noncomputable def batchRun (c : Settings) : St n → List (List (Bool × (Fin n → ℝ) × ℝ)) → St n
  | s, [] => s
  | s, b :: bs => batchRun c (batchLearn c b s) bs

/-- `_calcBaseline`, ves.py:263-266 -/
noncomputable def onlineBaseline (shaped : List ℝ) (window : List (Par n → ℝ)) (j : Par n) : ℝ :=
  ((shaped.zip window).map fun p => p.1 * p.2 j).sum / (window.map fun r => 1 * r j).sum

/-- `_calcVanillaOnlineGradient`, ves.py:251-261: the new window and the gradient, for the number `count` of samples so far -/
noncomputable def onlineGradient (c : Settings) (count : ℕ) (shaped : List ℝ) (window : List (Par n → ℝ)) (phi : Par n → ℝ) : List (Par n → ℝ) × (Par n → ℝ) :=
  let window := window.set (count % c.batchSize) fun j => phi j * phi j
  (window, fun j => (1 * (shaped.getLast?).getD 0 - onlineBaseline shaped window j) * phi j)

/-- `_onlineLearn`, ves.py:180-198, with the noise and the evaluator -/
noncomputable def onlineLearn (c : Settings) (s : St n) (p : (Fin n → ℝ) × ((Fin n → ℝ) → ℝ)) : St n :=
  let z := newSample s.factor s.x p.1
  let s := { s with best := bestOf s.best z (p.2 z), fitnesses := s.fitnesses ++ [p.2 z] }
  if s.fitnesses.length ≤ c.batchSize then s
  else
    let shaped := c.shaping (s.fitnesses.drop (s.fitnesses.length - c.batchSize))
    let g := onlineGradient c s.fitnesses.length shaped s.window (derivs c.vanillaScale z s.x s.factor)
    let m := withMomentum c.momentum s.momentumVector g.2
    move c false m.2 { s with window := g.1, momentumVector := m.1 }

/-- several steps -/
noncomputable def onlineRun (c : Settings) : St n → List ((Fin n → ℝ) × ((Fin n → ℝ) → ℝ)) → St n
  | s, [] => s
  | s, p :: ps => onlineRun c (onlineLearn c s p) ps

/-- what a step of online learning gives to its caller, ves.py:197-198: `append` is called with two arguments -/
noncomputable def onlineResult (c : Settings) (s : St n) (p : (Fin n → ℝ) × ((Fin n → ℝ) → ℝ)) : Except Err (St n) :=
  if s.fitnesses.length + 1 ≤ c.batchSize then .ok (onlineLearn c s p)
  else if c.storeAllDistributions then .error .typeError
  else .ok (onlineLearn c s p)

end Verif.VES
