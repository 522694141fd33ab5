import Mathlib.Analysis.SpecialFunctions.Trigonometric.Basic
import Mathlib.Analysis.SpecialFunctions.Pow.Real
import Mathlib.Analysis.SpecialFunctions.Sqrt
/-
Model of the benchmark functions of `pybrain/rl/environments/functions/unimodal.py` and `multimodal.py`.

Points are real vectors; `x[:-1]` and `x[1:]` of a vector with `n + 1` entries are `castSucc` and `succ`.
Divisions are real divisions (Python 3).
-/
namespace Verif.Benchmark

open Finset Real

/-- `SphereFunction.f` (unimodal.py:13-14). -/
def sphere {n : ℕ} (x : Fin n → ℝ) : ℝ := ∑ i, x i * x i

/-- `SchwefelFunction.f` (unimodal.py:18-22): `sum(x[:i])**2` over all `i < len(x)`. -/
def schwefel {n : ℕ} (x : Fin n → ℝ) : ℝ := ∑ i, (∑ j ∈ univ.filter (fun j => j < i), x j) ^ 2

/-- `CigarFunction.f` (unimodal.py:29-30). -/
noncomputable def cigar {n : ℕ} (x : Fin (n + 1) → ℝ) : ℝ := x 0 ^ 2 + 10 ^ 6 * ∑ i : Fin n, x i.succ * x i.succ

/-- `TabletFunction.f` (unimodal.py:37-38). -/
noncomputable def tablet {n : ℕ} (x : Fin (n + 1) → ℝ) : ℝ := 10 ^ 6 * x 0 ^ 2 + ∑ i : Fin n, x i.succ * x i.succ

/-- `ElliFunction` (unimodal.py:46-51), with `a = 1000`. -/
noncomputable def elli {n : ℕ} (x : Fin n → ℝ) : ℝ := ∑ i : Fin n, (1000 : ℝ) ^ (2 * (i : ℝ) / ((n : ℝ) - 1)) * x i * x i

/-- `SharpRFunctionBis.f` (unimodal.py:87-88). -/
noncomputable def sharpR {n : ℕ} (x : Fin (n + 1) → ℝ) : ℝ := x 0 ^ 2 + 100 * √(∑ i : Fin n, x i.succ * x i.succ)

/-- `DiffPowFunction.f` (unimodal.py:98-102), with `a = 10`. -/
noncomputable def diffPow {n : ℕ} (x : Fin n → ℝ) : ℝ := ∑ i : Fin n, |x i| ^ (2 + 10 * (i : ℝ) / ((n : ℝ) - 1))

/-- `RosenbrockFunction.f` (unimodal.py:117-118). -/
def rosenbrock {n : ℕ} (x : Fin (n + 1) → ℝ) : ℝ :=
  ∑ i : Fin n, (100 * (x i.castSucc ^ 2 - x i.succ) ^ 2 + (x i.castSucc - 1) ^ 2)

/-- `GlasmachersFunction.f` (unimodal.py:126-130), with `c = .1`; `m = xdim // 2`. -/
noncomputable def glasmachers {n : ℕ} (x : Fin n → ℝ) : ℝ :=
  let a := (1 / 10) * √(∑ i ∈ univ.filter (fun i : Fin n => (i : ℕ) < n / 2), x i ^ 2)
  let b := √(∑ i ∈ univ.filter (fun i : Fin n => ¬ (i : ℕ) < n / 2), x i ^ 2)
  a + b + √(2 * a * b + b ^ 2)

/-- `BoundedLinear.f` (unimodal.py:142-147): `w` are the weights, `s` the signs; the value computed (the
code also writes the bounded coordinates into the caller's array, because `x[:]` is a view). -/
noncomputable def boundedLinear {n : ℕ} (w s x : Fin n → ℝ) : ℝ :=
  5 * ∑ i, w i - ∑ i, w i * s i * (if x i * s i > 5 then s i * 5 else x i)

/-- The caller's array after `BoundedLinear.f` (unimodal.py:143-146). -/
noncomputable def boundedLinearArg {n : ℕ} (s x : Fin n → ℝ) : Fin n → ℝ := fun i => if x i * s i > 5 then s i * 5 else x i

/-- `FunnelFunction.f` (multimodal.py:25-27), with `funnelSize = funnelDepth = 1`. -/
noncomputable def funnel {n : ℕ} (x : Fin n → ℝ) : ℝ :=
  min (∑ i, (x i - 5 / 2) * (x i - 5 / 2)) (1 * (n : ℝ) + 1 * ∑ i, (x i + 5 / 2) * (x i + 5 / 2))

/-- `RastriginFunction.f` (multimodal.py:38-43); `a` is the additional parameter. -/
noncomputable def rastrigin {n : ℕ} (a : ℝ) (x : Fin n → ℝ) : ℝ :=
  (∑ i : Fin n, (((a ^ (((i : ℝ) - 1) / ((n : ℝ) - 1))) * x i) ^ 2 - 10 * cos (2 * π * (a ^ (((i : ℝ) - 1) / ((n : ℝ) - 1))) * x i))) + 10 * n

/-- `WeierstrassFunction.f` (multimodal.py:53-60). -/
noncomputable def weierstrass {n : ℕ} (kmax : ℕ) (x : Fin n → ℝ) : ℝ :=
  ∑ k ∈ range kmax, ((∑ i, (1 / 2) ^ k * cos (2 * π * 3 ^ k * (x i + 1 / 2))) - (n : ℝ) * (1 / 2) ^ k * cos (2 * π * 3 ^ k * (1 / 2)))

/-- `SchaffersF7Function.f` (multimodal.py:65-67). -/
noncomputable def schaffers {n : ℕ} (x : Fin (n + 1) → ℝ) : ℝ :=
  (∑ i : Fin n, √(√(x i.castSucc ^ 2 + x i.succ ^ 2)) * (1 + sin (50 * (√(x i.castSucc ^ 2 + x i.succ ^ 2)) ^ (0.2 : ℝ)) ^ 2)) ^ 2

/-- `AckleyFunction.f` (multimodal.py:71-75). -/
noncomputable def ackley {n : ℕ} (x : Fin n → ℝ) : ℝ :=
  -20 * exp (-(1 / 5) * √(1 / (n : ℝ) * ∑ i, x i ^ 2)) - exp (1 / (n : ℝ) * ∑ i, cos (2 * π * x i)) + (20 + exp 1)

/-- `GriewankFunction.f` (multimodal.py:79-83). -/
noncomputable def griewank {n : ℕ} (x : Fin n → ℝ) : ℝ :=
  1 + (∑ i, x i ^ 2) / 4000 - ∏ i : Fin n, cos (x i / √((i : ℝ) + 1))

/-- The scaled point of `BucheRastriginFunction.f` (multimodal.py:89-94), which is also what the caller's
array holds afterwards (`x[:]` is a view). -/
noncomputable def bucheArg {n : ℕ} (x : Fin n → ℝ) : Fin n → ℝ := fun i =>
  x i * (10 : ℝ) ^ ((i : ℝ) / ((n : ℝ) - 1) / 2 + (if x i ≤ 0 ∨ (i : ℕ) % 2 = 0 then 1 else 0))

/-- `BucheRastriginFunction.f` (multimodal.py:88-95). -/
noncomputable def buche {n : ℕ} (x : Fin n → ℝ) : ℝ :=
  (∑ i, bucheArg x i * bucheArg x i) + 10 * n - 10 * ∑ i, cos (2 * π * bucheArg x i)

/-- `GriewankRosenbrockFunction.f` (multimodal.py:100-102). -/
noncomputable def griewankRosenbrock {n : ℕ} (x : Fin (n + 1) → ℝ) : ℝ :=
  1 / (((n : ℝ) + 1) - 1) * (∑ i : Fin n, ((100 * (x i.castSucc ^ 2 - x i.succ) ^ 2 + (x i.castSucc - 1) ^ 2) / 4000 -
    cos (100 * (x i.castSucc ^ 2 - x i.succ) ^ 2 + (x i.castSucc - 1) ^ 2))) + 1

/-- `Schwefel_2_13Function.f` (multimodal.py:113-119). -/
noncomputable def schwefel213 {n : ℕ} (A B : Fin n → Fin n → ℝ) (alphas x : Fin n → ℝ) : ℝ :=
  ∑ i, ((∑ j, (A i j * sin (alphas j) + B i j * cos (alphas j))) - ∑ j, (A i j * sin (x j) + B i j * cos (x j))) ^ 2

/-- `KatsuuraFunction.f` (multimodal.py:177-181); `int` truncates towards zero, so that
`2**j * x - int(2**j * x)` has absolute value `fract |2**j * x|`. -/
noncomputable def katsuura {n : ℕ} (x : Fin n → ℝ) : ℝ :=
  -1 + ∏ i : Fin n, (1 + ((i : ℝ) + 1) * ∑ j ∈ Finset.Icc 1 32, Int.fract |2 ^ j * x i| * (1 / 2) ^ j) ^ (10 / (n : ℝ) ^ (1.2 : ℝ))

/-- `BraninFunction.f` (multimodal.py:212-224) on two coordinates. -/
noncomputable def branin (x0 x1 : ℝ) : ℝ :=
  1 * (x1 - 5.1 / (4 * π ^ 2) * x0 ^ 2 + 5 / π * x0 - 6) ^ 2 + 10 * ((1 - 1 / (8 * π)) * cos x0 + 1) - 0.397887

end Verif.Benchmark
