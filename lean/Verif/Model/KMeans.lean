import Verif.Model.NES
/-!
Model of the seeding in `pybrain/auxiliary/kmeans.py`. Points are vectors of reals (floats are idealised); the data set has at least one point
(`random.randint(0)` fails). `kmeanspp` passes the seeds to scipy's `kmeans2`, which is not modelled.
-/

namespace Verif.KMeans
open Verif.NES

variable {n d : Nat}

/-- `norm(x - y) ** 2`, kmeans.py:26, 34, 40 -/
def sqDist (x y : Vec d) : ℝ := ∑ a, (x a - y a) ^ 2

/-- `Dsum`, kmeans.py:33-34 -/
noncomputable def dSum (X : Fin n → Vec d) (D : Fin n → ℝ) (i : Fin n) : ℝ := ∑ j, min (D j) (sqDist (X j) (X i))

/-- the loop of kmeans.py:31-37 with `bestDsum` and `bestIdx` (`none` stands for -1) -/
noncomputable def bestLoop (X : Fin n → Vec d) (D : Fin n → ℝ) : List (Fin n) → ℝ × Option (Fin n) → ℝ × Option (Fin n)
  | [], best => best
  | i :: is, best =>
    let s := dSum X D i
    bestLoop X D is (if best.1 < 0 ∨ s < best.1 then (s, some i) else best)

/-- the loop of kmeans.py:28-40, with `rounds` rounds to go; `X[-1]` is the last point -/
noncomputable def seedLoop (X : Fin (n + 1) → Vec d) : Nat → (Fin (n + 1) → ℝ) → List (Vec d) → List (Vec d)
  | 0, _, centers => centers
  | rounds + 1, D, centers =>
    let idx := (bestLoop X D (List.finRange (n + 1)) (-1, none)).2.getD (Fin.last n)
    seedLoop X rounds (fun i => min (D i) (sqDist (X i) (X idx))) (centers ++ [X idx])

/-- `kinit`, kmeans.py:20-42; `first` is the random index -/
noncomputable def kinit (X : Fin (n + 1) → Vec d) (k : Nat) (first : Fin (n + 1)) : List (Vec d) :=
  seedLoop X (k - 1) (fun i => sqDist (X i) (X first)) [X first]

end Verif.KMeans
