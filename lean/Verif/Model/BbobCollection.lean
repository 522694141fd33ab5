import Verif.Model.BbobBase
/-
Model of the BBOB collection (`pybrain/rl/environments/functions/bbob2010.py`): `bbob_f1` to `bbob_f24` and the noisy `bbob_f101` to `bbob_f130`.

The dimension is `n + 2`.  The random parameters of the base functions are arguments.
-/
namespace Verif.BbobCollection

open Verif.FunctionTransform (Vec)
open Verif.Bbob (Base Config)
open Verif.Benchmark Verif.BbobBase

variable {n : ℕ}

/-- What the constructors of the base functions draw: signs (unimodal.py:140, multimodal.py:131, 192), numbers in the unit interval (unimodal.py:75), matrices
(unimodal.py:60, multimodal.py:157, 193-194) and the places and shapes of peaks (multimodal.py:152-156; the first is the best one). -/
structure Params (n : ℕ) where
  signs : Vec n
  rand : Vec n
  R : Matrix (Fin n) (Fin n) ℝ
  R2 : Matrix (Fin n) (Fin n) ℝ
  peaks : ℕ → Vec n
  alphas : ℕ → ℝ
  shuffle : ℕ → Fin n → Fin n

/-- `DiffPowFunction.f` with the parameter `a` (unimodal.py:98-102). -/
noncomputable def diffPowA (a : ℝ) (x : Vec n) : ℝ := ∑ i : Fin n, |x i| ^ (2 + a * (i : ℝ) / ((n : ℝ) - 1))

/-- `self._w` of `BoundedLinear` (unimodal.py:139). -/
noncomputable def weights (n : ℕ) : Vec n := fun i => (10 : ℝ) ^ ((i : ℝ) / ((n : ℝ) - 1))

/-- A base function that reports the origin (function.py:37-38). -/
def plain (f : Vec n → ℝ) : Base n := ⟨f, 0, false⟩

/-- `self.xopt` of `AttractiveSectorFunction` (unimodal.py:75). -/
noncomputable def sectorOpt (r : Vec n) : Vec n := fun i => (r i - 0.5) * 9.8

/-- Gallagher's function with `m + 1` peaks (multimodal.py:142-171). -/
noncomputable def peaksBase (m : ℕ) (p : Params n) : Base n :=
  plain (gallagher (m := m) (fun i => p.peaks i) (fun i => p.alphas i) (fun i => p.shuffle i) p.R)

/-- `bbob_f1` to `bbob_f24` (bbob2010.py:18-144) and `bbob_f101` to `bbob_f130` (bbob2010.py:159-320): the base function and the arguments. -/
noncomputable def entry (p : Params (n + 2)) : ℕ → Option (Base (n + 2) × Config)
  | 1 => some (plain sphere, {})
  | 2 => some (plain elli, { oscillate := true })
  | 3 => some (plain (rastrigin 1), { oscillate := true, asymmetry := some 0.2 })
  | 4 => some (plain buche, { oscillate := true, penalized := 100 })
  | 5 => some (plain (boundedLinear (weights (n + 2)) p.signs), { translate := false })
  | 6 => some (⟨attractiveSector (sectorOpt p.rand), sectorOpt p.rand, false⟩, { rotate := true, translate := false })
  | 7 => some (plain (stepElli p.R), { conditioning := some 10, penalized := 1, rotate := true })
  | 8 => some (⟨rosenbrock, 1, false⟩, {})
  | 9 => some (⟨rosenbrock, 1, false⟩, { rotate := true })
  | 10 => some (plain elli, { oscillate := true, rotate := true })
  | 11 => some (plain tablet, { oscillate := true, rotate := true })
  | 12 => some (plain cigar, { asymmetry := some 0.5, rotate := true })
  | 13 => some (plain sharpR, { conditioning := some 10, rotate := true })
  | 14 => some (plain (diffPowA 4), { rotate := true })
  | 15 => some (plain (rastrigin 1), { conditioning := some 10, oscillate := true, asymmetry := some 0.2, rotate := true })
  | 16 => some (plain (weierstrass 11), { conditioning := some 0.01, oscillate := true, rotate := true })
  | 17 => some (plain schaffers, { conditioning := some 10, asymmetry := some 0.5, penalized := 10, rotate := true })
  | 18 => some (plain schaffers, { conditioning := some 1000, asymmetry := some 0.5, penalized := 10, rotate := true })
  | 19 => some (plain griewankRosenbrock, { rotate := true })
  | 20 => some (⟨schwefel20 p.signs, schwefelOpt p.signs, true⟩, { translate := false })
  | 21 => some (peaksBase 100 p, { translate := false })
  | 22 => some (peaksBase 20 p, { translate := false })
  | 23 => some (plain katsuura, { rotate := true, conditioning := some 100 })
  | 24 => some (plain (lunacek p.R p.R2 p.signs), { translate := false })
  | 101 => some (plain sphere, { gnoise := some 0.01, penalized := 1 })
  | 102 => some (plain sphere, { unoise := some 0.01, penalized := 1 })
  | 103 => some (plain sphere, { cnoise := some (0.01, 0.05), penalized := 1 })
  | 104 => some (⟨rosenbrock, 1, false⟩, { gnoise := some 0.01, penalized := 1 })
  | 105 => some (⟨rosenbrock, 1, false⟩, { unoise := some 0.01, penalized := 1 })
  | 106 => some (⟨rosenbrock, 1, false⟩, { cnoise := some (0.01, 0.05), penalized := 1 })
  | 107 => some (plain sphere, { gnoise := some 1, penalized := 1 })
  | 108 => some (plain sphere, { unoise := some 1, penalized := 1 })
  | 109 => some (plain sphere, { cnoise := some (1, 0.2), penalized := 1 })
  | 110 => some (⟨rosenbrock, 1, false⟩, { gnoise := some 1, penalized := 1 })
  | 111 => some (⟨rosenbrock, 1, false⟩, { unoise := some 1, penalized := 1 })
  | 112 => some (⟨rosenbrock, 1, false⟩, { cnoise := some (1, 0.2), penalized := 1 })
  | 113 => some (plain (stepElli p.R), { conditioning := some 10, penalized := 1, rotate := true, gnoise := some 1 })
  | 114 => some (plain (stepElli p.R), { conditioning := some 10, penalized := 1, rotate := true, unoise := some 1 })
  | 115 => some (plain (stepElli p.R), { conditioning := some 10, penalized := 1, rotate := true, cnoise := some (1, 0.2) })
  | 116 => some (plain (elliA 100), { oscillate := true, penalized := 1, rotate := true, gnoise := some 1 })
  | 117 => some (plain (elliA 100), { oscillate := true, penalized := 1, rotate := true, unoise := some 1 })
  | 118 => some (plain (elliA 100), { oscillate := true, penalized := 1, rotate := true, cnoise := some (1, 0.2) })
  | 119 => some (plain (diffPowA 10), { penalized := 1, rotate := true, gnoise := some 1 })
  | 120 => some (plain (diffPowA 10), { penalized := 1, rotate := true, unoise := some 1 })
  | 121 => some (plain (diffPowA 10), { penalized := 1, rotate := true, cnoise := some (1, 0.2) })
  | 122 => some (plain schaffers, { conditioning := some 10, asymmetry := some 0.5, penalized := 1, rotate := true, gnoise := some 1 })
  | 123 => some (plain schaffers, { conditioning := some 10, asymmetry := some 0.5, penalized := 1, rotate := true, unoise := some 1 })
  | 124 => some (plain schaffers, { conditioning := some 10, asymmetry := some 0.5, penalized := 1, rotate := true, cnoise := some (1, 0.2) })
  | 125 => some (plain griewankRosenbrock, { penalized := 1, rotate := true, gnoise := some 1 })
  | 126 => some (plain griewankRosenbrock, { penalized := 1, rotate := true, unoise := some 1 })
  | 127 => some (plain griewankRosenbrock, { penalized := 1, rotate := true, cnoise := some (1, 0.2) })
  | 128 => some (peaksBase 100 p, { translate := false, penalized := 1, gnoise := some 1 })
  | 129 => some (peaksBase 100 p, { translate := false, penalized := 1, unoise := some 1 })
  | 130 => some (peaksBase 100 p, { translate := false, penalized := 1, cnoise := some (1, 0.2) })
  | _ => none

/-- `bbob_collection` (bbob2010.py:148-156) and `bbob_noise_collection` (bbob2010.py:324-334), by number. -/
def numbers : List ℕ := (List.range 24).map (· + 1) ++ (List.range 30).map (· + 101)

end Verif.BbobCollection
