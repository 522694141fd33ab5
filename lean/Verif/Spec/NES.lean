import Verif.Model.NES
import Mathlib.LinearAlgebra.UnitaryGroup
/-!
Specification of natural evolution strategies: what it means that a search does not depend on the coordinate system or on the scale of the fitness.
-/

namespace Verif.NES
open Matrix

variable {n : Nat}

/-- A shaping function looks only at the order of the fitnesses. -/
def RankBased (shaping : List ℝ → List ℝ) : Prop := ∀ φ : ℝ → ℝ, StrictMono φ → ∀ R, shaping (R.map φ) = shaping R

/-- A shaping function gives one non-negative utility per fitness, some of them positive, and larger (or equal) ones to better fitnesses. -/
structure Shaping (shaping : List ℝ → List ℝ) : Prop where
  length : ∀ R, (shaping R).length = R.length
  nonneg : ∀ R, ∀ x ∈ shaping R, 0 ≤ x
  pos : ∀ R, R ≠ [] → ∃ x ∈ shaping R, 0 < x
  order : ∀ (R : List ℝ) (i j : Nat) (v w x y : ℝ), R[i]? = some v → R[j]? = some w → v < w →
    (shaping R)[i]? = some x → (shaping R)[j]? = some y → x ≤ y

/-- The state of XNES in other coordinates: points `x` become `B x + t`, the normal draws `z` become `Q z`. -/
noncomputable def Xnes.transport (B : Matrix (Fin n) (Fin n) ℝ) (t : Vec n) (Q : Matrix (Fin n) (Fin n) ℝ) (s : Xnes n) : Xnes n :=
  { s with center := B *ᵥ s.center + t, A := B * s.A * Qᵀ, invA := Q * s.invA * B⁻¹, logDetA := s.logDetA + Real.log |B.det|,
           lastInvA := Q * s.lastInvA * B⁻¹, lastLogDetA := s.lastLogDetA + Real.log |B.det|,
           store := { s.store with evaluated := s.store.evaluated.map (fun x => B *ᵥ x + t) },
           dists := s.dists.map (fun d => d.map (fun p => (B *ᵥ p.1 + t, B * p.2 * Qᵀ))) }

/-- The stored evaluations if the (maximised) fitness `v` is replaced by `φ v`. -/
def Store.rescale (opposed : Bool) (φ : ℝ → ℝ) (s : Store n) : Store n :=
  { s with evaluations := s.evaluations.map (fun v => if opposed then -φ (-v) else φ v) }

/-- The state of SNES in other coordinates: coordinate `i` of points is multiplied by `d i` and shifted by `t i`. -/
def Snes.transport (d t : Vec n) (s : Snes n) : Snes n :=
  { s with center := d * s.center + t, sigmas := d * s.sigmas,
           store := { s.store with evaluated := s.store.evaluated.map (fun x => d * x + t) } }

/-- The points evaluated in a step of XNES without importance mixing. -/
def Xnes.batch (c : Cfg) (z : Nat → Vec n) (s : Xnes n) : List (Vec n) := (List.range c.batchSize).map (fun k => s.A *ᵥ z k + s.center)

/-- The points evaluated in a step of SNES. -/
def Snes.batch (c : Cfg) (z : Nat → Vec n) (s : Snes n) : List (Vec n) := (List.range c.batchSize).map (fun k => s.sigmas * z k + s.center)

end Verif.NES
