import Mathlib.Analysis.SpecialFunctions.Exp
import Mathlib.Analysis.SpecialFunctions.Sqrt
import Mathlib.Algebra.BigOperators.Fin
/-
Model of pybrain/rl/environments/functions/multiobjective.py, unbounded.py and lennardjones.py, over the reals.

The multi-objective functions return the negatives of the objectives of the literature. The penalties of points (`violation`) are the lists of
the values of the constraints.
-/
namespace Verif.MultiBench

open Finset

/-- `SchBenchmark.f`, multiobjective.py:45-46 (the domain has one dimension) -/
def sch (x : ℝ) : Fin 2 → ℝ := ![-(x ^ 2), -((x - 2) ^ 2)]

/-- `FonBenchmark.f`, multiobjective.py:53-56, for any number of dimensions (`xdim = 3` in the code) -/
noncomputable def fon {n : ℕ} (x : Fin n → ℝ) : Fin 2 → ℝ :=
  ![-(1 - Real.exp (-∑ i, (x i - 1 / √3) ^ 2)), -(1 - Real.exp (-∑ i, (x i + 1 / √3) ^ 2))]

/-- `Deb.f` and `ConstDeb.f`, multiobjective.py:94-97, 115-126 -/
noncomputable def deb (x : Fin 2 → ℝ) : Fin 2 → ℝ := ![-x 0, -((1 + x 1) / x 0)]

/-- `xbound` of `Deb` and `ConstDeb`, multiobjective.py:89-91, 104-106 -/
def debBound (x : Fin 2 → ℝ) : Prop := (1 / 10 ≤ x 0 ∧ x 0 ≤ 1) ∧ 0 ≤ x 1 ∧ x 1 ≤ 5

/-- The result of a function `g` given the values of the constraints, multiobjective.py:112-114, 162-164: whether the point is feasible, and the
violation. (For `ConstOsy` the two zeros do not fit the six constraints.) -/
noncomputable def checked (gs : List ℝ) : Bool × List ℝ := by
  classical exact if ∀ g ∈ gs, 0 ≤ g then (true, [0, 0]) else (false, gs)

/-- `ConstDeb.g`, multiobjective.py:109-114 -/
noncomputable def debG (x : Fin 2 → ℝ) : Bool × List ℝ := checked [x 1 + 9 * x 0 - 6, -x 1 + 9 * x 0 - 1]

/-- `ConstSrn.f`, multiobjective.py:165-171 -/
def srn (x : Fin 2 → ℝ) : Fin 2 → ℝ := ![-(2 + (x 0 - 2) ^ 2 + (x 1 - 1) ^ 2), -(9 * x 0 - (x 1 - 1) ^ 2)]

/-- `ConstSrn.g`, multiobjective.py:159-164 -/
noncomputable def srnG (x : Fin 2 → ℝ) : Bool × List ℝ := checked [225 - (x 1 ^ 2 + x 0 ^ 2), 3 * x 1 - x 0 - 10]

/-- `xbound` of `ConstSrn`, multiobjective.py:154-156 -/
def srnBound (x : Fin 2 → ℝ) : Prop := (-20 ≤ x 0 ∧ x 0 ≤ 20) ∧ -20 ≤ x 1 ∧ x 1 ≤ 20

/-- `ConstBnh.f`, multiobjective.py:249-255 -/
def bnh (x : Fin 2 → ℝ) : Fin 2 → ℝ := ![-(4 * x 0 ^ 2 + 4 * x 1 ^ 2), -((x 0 - 5) ^ 2 + (x 1 - 5) ^ 2)]

/-- `ConstBnh.g`, multiobjective.py:243-248 -/
noncomputable def bnhG (x : Fin 2 → ℝ) : Bool × List ℝ := checked [25 - (x 0 - 5) ^ 2 - x 1 ^ 2, (x 0 - 8) ^ 2 + (x 1 + 3) ^ 2 - 77 / 10]

/-- `xbound` of `ConstBnh`, multiobjective.py:239-240 -/
def bnhBound (x : Fin 2 → ℝ) : Prop := (0 ≤ x 0 ∧ x 0 ≤ 5) ∧ 0 ≤ x 1 ∧ x 1 ≤ 3

/-- `LinearFunction.f`, unbounded.py:17-18 -/
def linear {n : ℕ} (x : Fin n → ℝ) : ℝ := ∑ i, x i

/-- `ParabRFunction.f`, unbounded.py:22-23 -/
def parabR {n : ℕ} (x : Fin (n + 1) → ℝ) : ℝ := -x 0 + 100 * ∑ i : Fin n, x i.succ ^ 2

/-- `SharpRFunction.f`, unbounded.py:27-28 -/
noncomputable def sharpR {n : ℕ} (x : Fin (n + 1) → ℝ) : ℝ := -x 0 + 100 * √(∑ i : Fin n, x i.succ ^ 2)

/-- The matrix `distances` of `LennardJones.f`, lennardjones.py:14-16, for `N` atoms -/
noncomputable def distances {N : ℕ} (coords : Fin N → Fin 3 → ℝ) (i j : Fin N) : ℝ :=
  √(∑ k, (coords j k - coords i k) ^ 2) + (if i = j then 1 else 0)

/-- `LennardJones.f`, lennardjones.py:13-17. (For two atoms at the same place the code computes `nan`; here that pair contributes 0.) -/
noncomputable def lennardJones {N : ℕ} (coords : Fin N → Fin 3 → ℝ) : ℝ :=
  2 * ∑ i, ∑ j, ((distances coords i j) ^ (-12 : ℤ) - (distances coords i j) ^ (-6 : ℤ))

/-- `BEST_KNOWN_TABLE`, lennardjones.py:34-90, in units of 0.000001 -/
def bestKnown : List ℤ := [
  0, 0, -1000000, -3000000, -6000000, -9103852, -12712062, -16505384, -19821489, -24113360,
  -28422532, -32765970, -37967600, -44326801, -47845157, -52322627, -56815742, -61317995, -66530949, -72659782,
  -77177043, -81684571, -86809782, -92844472, -97348815, -102372663, -108315616, -112873584, -117822402, -123587371,
  -128286571, -133586422, -139635524, -144842719, -150044528, -155756643, -161825363, -167033672, -173928427, -180033185,
  -185249839, -190536277, -196277534, -202364664, -207688728, -213784862, -220680330, -226012256, -232199529, -239091864,
  -244549926, -251253964, -258229991, -265203016, -272208631, -279248470, -283643105, -288342625, -294378148, -299738070,
  -305875476, -312008896, -317353901, -323489734, -329620147, -334971532, -341110599, -347252007, -353394542, -359882566,
  -366892251, -373349661, -378637253, -384789377, -390908500, -397492331, -402894866, -409083517, -414794401, -421810897,
  -428083564, -434343643, -440550425, -446924094, -452657214, -459055799, -465384493, -472098165, -479032630, -486053911,
  -492433908, -498811060, -505185309, -510877688, -517264131, -523640211, -529879146, -536681383, -543642957, -550666526,
  -557039820, -563411308, -569363652, -575766131, -582086642, -588266501, -595061072, -602007110, -609033011, -615411166,
  -621788224]

/-- `desiredValue`, lennardjones.py:29-32, in units of 0.000001; `none`: KeyError -/
def desiredValue (N : ℕ) : Option ℤ := bestKnown[N]?.map (· + 10)

end Verif.MultiBench
