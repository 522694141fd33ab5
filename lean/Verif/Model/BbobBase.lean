import Verif.Model.Bbob
/-
Model of the benchmark functions with random parameters: `StepElliFunction` and `AttractiveSectorFunction` (`pybrain/rl/environments/functions/unimodal.py`) and
`Schwefel20Function`, `GallagherGauss101MeFunction` and `LunacekBiRastriginFunction` (`pybrain/rl/environments/functions/multimodal.py`).

The random parameters are arguments.
-/
namespace Verif.BbobBase

open Verif.FunctionTransform (Vec penalize)
open Verif.Bbob (osc)
open Classical

variable {n : ℕ}

/-- The rounding of one coordinate in `StepElliFunction.f` (unimodal.py:64). -/
noncomputable def stepRound (x : ℝ) : ℝ :=
  (⌊0.5 + x⌋ : ℝ) * (if x > 0.5 then 1 else 0) + (⌊0.5 + 10 * x⌋ : ℝ) / 10 * (if x ≤ 0.5 then 1 else 0)

/-- `ElliFunction.f` with the parameter `a` (unimodal.py:46-51). -/
noncomputable def elliA (a : ℝ) (x : Vec n) : ℝ := ∑ i : Fin n, a ^ (2 * (i : ℝ) / ((n : ℝ) - 1)) * x i * x i

/-- `StepElliFunction.f` (unimodal.py:62-66), with the rotation `R`. -/
noncomputable def stepElli (R : Matrix (Fin (n + 1)) (Fin (n + 1)) ℝ) (x : Vec (n + 1)) : ℝ :=
  let z := Matrix.mulVec R fun i => stepRound (x i)
  0.1 * max (1 / 10 ^ 4 * |z 0|) (elliA 10 z)

/-- `sz` in `AttractiveSectorFunction.f` (unimodal.py:79-80). -/
noncomputable def sector (xopt x : Vec n) : Vec n := fun i =>
  100 * x i * (if x i * xopt i > 0 then 1 else 0) + x i * (if x i * xopt i > 0 then 0 else 1)

/-- `AttractiveSectorFunction.f` (unimodal.py:77-81), for the `xopt` drawn in the constructor (unimodal.py:75). -/
noncomputable def attractiveSector (xopt x : Vec n) : ℝ := (osc (∑ i, sector xopt x i * sector xopt x i)) ^ (0.9 : ℝ)

/-- The constants of `Schwefel20Function` (multimodal.py:129-130). -/
noncomputable def schwefelK : ℝ := 4.189828872724339
noncomputable def schwefelK2 : ℝ := 4.20966874633 / 2

/-- `self.xopt` of `Schwefel20Function` (multimodal.py:136). -/
noncomputable def schwefelOpt (signs : Vec n) : Vec n := fun i => schwefelK2 * signs i

/-- `z` in `Schwefel20Function.f` before scaling (multimodal.py:139-140); the right-hand side of `+=` is computed first. -/
noncomputable def schwefelZ (signs x : Vec n) (i : Fin n) : ℝ :=
  2 * x i * signs i + (if h : 0 < (i : ℕ) then (2 * x ⟨i - 1, by omega⟩ * signs ⟨i - 1, by omega⟩ - schwefelOpt signs ⟨i - 1, by omega⟩) * 0.25 else 0)

/-- `z` after scaling (multimodal.py:141). -/
noncomputable def schwefelZ' (signs x : Vec n) (i : Fin n) : ℝ :=
  100 * ((10 : ℝ) ^ ((i : ℝ) / (2 * n - 2)) * (schwefelZ signs x i - schwefelOpt signs i) + schwefelOpt signs i)

/-- `Schwefel20Function.f` (multimodal.py:138-142). -/
noncomputable def schwefel20 (signs x : Vec n) : ℝ :=
  -1 / n * ∑ i, schwefelZ' signs x i * Real.sin √|schwefelZ' signs x i| + schwefelK + 100 * penalize (fun i => schwefelZ' signs x i / 100) 5

/-- `self._ws` in `GallagherGauss101MeFunction.__init__` (multimodal.py:161), for `m + 1` peaks. -/
noncomputable def peakWeight (m : ℕ) (i : Fin (m + 1)) : ℝ := if (i : ℕ) = 0 then 10 else 1.1 + 8 * ((i : ℕ) - 1 : ℕ) / (((m + 1 : ℕ) : ℝ) - 2)

/-- An entry of `self._covs` (multimodal.py:159): `generateDiags(alpha, xdim, shuffled=True) / power(alpha, 0.25)`. -/
noncomputable def peakCov (alpha : ℝ) (shuffle : Fin n → Fin n) (j : Fin n) : ℝ := alpha ^ ((shuffle j : ℝ) / (2 * n - 2)) / alpha ^ (0.25 : ℝ)

/-- One peak of `GallagherGauss101MeFunction.f` (multimodal.py:165-166). -/
noncomputable def peak {m : ℕ} (opts : Fin (m + 1) → Vec n) (alphas : Fin (m + 1) → ℝ) (shuffle : Fin (m + 1) → Fin n → Fin n) (R : Matrix (Fin n) (Fin n) ℝ) (x : Vec n) (i : Fin (m + 1)) : ℝ :=
  let r := Matrix.mulVec R (x - opts i)
  peakWeight m i * Real.exp (-1 / (2 * n) * ∑ j, r j * (peakCov (alphas i) (shuffle i) j * r j))

/-- `GallagherGauss101MeFunction.f` (multimodal.py:164-167). -/
noncomputable def gallagher {m : ℕ} (opts : Fin (m + 1) → Vec n) (alphas : Fin (m + 1) → ℝ) (shuffle : Fin (m + 1) → Fin n → Fin n) (R : Matrix (Fin n) (Fin n) ℝ) (x : Vec n) : ℝ :=
  (10 - Finset.univ.sup' Finset.univ_nonempty (peak opts alphas shuffle R x)) ^ 2

/-- `self._s` and `self._mu1` of `LunacekBiRastriginFunction` (multimodal.py:193-194). -/
noncomputable def lunacekS (n : ℕ) : ℝ := 1 - 1 / (2 * √((n : ℝ) + 20) - 8.2)
noncomputable def lunacekMu (n : ℕ) : ℝ := -√((2.5 ^ 2 - 1) / lunacekS n)

/-- `LunacekBiRastriginFunction.f` (multimodal.py:200-205). -/
noncomputable def lunacek (R1 R2 : Matrix (Fin n) (Fin n) ℝ) (signs x : Vec n) : ℝ :=
  let x' : Vec n := fun i => x i * signs i * 2
  let z := Matrix.mulVec R1 (Matrix.mulVec (Matrix.diagonal fun i : Fin n => (100 : ℝ) ^ ((i : ℝ) / (2 * n - 2))) (Matrix.mulVec R2 fun i => x' i - 2.5))
  min (∑ i, (x' i - 2.5) * (x' i - 2.5)) (n + lunacekS n * ∑ i, (x' i - lunacekMu n) * (x' i - lunacekMu n)) + 10 * (n - ∑ i, Real.cos (2 * Real.pi * z i))

end Verif.BbobBase
