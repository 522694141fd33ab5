import Verif.Model.NES
import Verif.Model.DataSet
/-!
Model of `pybrain/auxiliary/pca.py`: `makeCentered`, `pca`, `pPca` and `reduceDim`. Data sets are matrices over the reals (floats are
idealised), the rows are the points. `eig` is an argument (scipy's routine returns complex numbers; the eigenvalues of the symmetric
covariance matrix are real and are modelled as such). `inv` fails on a singular matrix and is the inverse otherwise. The loop of `pPca` has a
bound on the number of rounds.
-/

namespace Verif.PCA
open Matrix Verif.NES
open Verif.DataSet (Err)

variable {n d k : Nat}

/-- `data.mean(axis=0)`, pca.py:35 -/
noncomputable def colMean (X : Matrix (Fin n) (Fin d) ℝ) : Vec d := fun j => (∑ i, X i j) / n

/-- `makeCentered`, pca.py:30-35 -/
noncomputable def makeCentered (X : Matrix (Fin n) (Fin d) ℝ) : Matrix (Fin n) (Fin d) ℝ := Matrix.of fun i j => X i j - colMean X j

/-- `cov(data.T)`, pca.py:50 (numpy's definition: subtract the means, divide by the number of points minus 1) -/
noncomputable def cov (X : Matrix (Fin n) (Fin d) ℝ) : Matrix (Fin d) (Fin d) ℝ :=
  Matrix.of fun a b => (∑ i, (X i a - colMean X a) * (X i b - colMean X b)) / ((n : ℝ) - 1)

/-- the order of the pairs (value, index), pca.py:58-59 -/
noncomputable def valLe (a b : ℝ × Fin d) : Bool := decide (a.1 < b.1) || (decide (a.1 = b.1) && decide (a.2 ≤ b.2))

/-- the reversed order of the pairs (index, value), pca.py:63-64 -/
noncomputable def indGe (a b : Fin d × ℝ) : Bool := decide (b.1 < a.1) || (decide (b.1 = a.1) && decide (b.2 ≤ a.2))

/-- `eigval[:-dim] = []`, pca.py:60: for `dim = 0` this is `eigval[:0] = []` -/
def keepLast {α : Type} (dim : Nat) (l : List α) : List α := if dim = 0 then l else l.drop (l.length - dim)

/-- `eig_indexes`, pca.py:58-65 -/
noncomputable def eigIndexes (Ev : Vec d) (dim : Nat) : List (Fin d) :=
  let eigval := ((List.finRange d).map fun ind => (Ev ind, ind)).mergeSort valLe
  let eigval := keepLast dim eigval
  ((eigval.map fun p => (p.2, p.1)).mergeSort indGe).map Prod.fst

/-- `pca`, pca.py:38-67: the list of the rows of the result. With one column, `cov` returns a number and `eig` raises a ValueError. -/
noncomputable def pca (eig : Matrix (Fin d) (Fin d) ℝ → Vec d × Matrix (Fin d) (Fin d) ℝ) (X : Matrix (Fin n) (Fin d) ℝ) (dim : Nat) :
    Except Err (List (Vec d)) :=
  if dim ≤ d then
    if d = 1 then .error .valueError
    else
      let e := eig (cov (makeCentered X))
      .ok ((eigIndexes e.1 dim).map fun i a => e.2 a i)
  else .error .assertion

/-- the product of pca.py:27: each centered point becomes its products with the rows of `pc` -/
noncomputable def project (X : Matrix (Fin n) (Fin d) ℝ) (pc : List (Vec d)) : List (List ℝ) :=
  List.ofFn fun i => pc.map fun v => v ⬝ᵥ makeCentered X i

/-- `reduceDim` with `func='pca'`, pca.py:16-27 -/
noncomputable def reduceDim (eig : Matrix (Fin d) (Fin d) ℝ → Vec d × Matrix (Fin d) (Fin d) ℝ) (X : Matrix (Fin n) (Fin d) ℝ) (dim : Nat) :
    Except Err (List (List ℝ)) :=
  match pca eig X dim with
  | .error e => .error e
  | .ok pc => .ok (project X pc)

/-- `inv`: scipy raises LinAlgError for a singular matrix -/
noncomputable def inv (A : Matrix (Fin k) (Fin k) ℝ) : Option (Matrix (Fin k) (Fin k) ℝ) := open Classical in if A.det = 0 then none else some A⁻¹

/-- one round of `pPca`, pca.py:84-85; `X` is centered -/
noncomputable def pPcaStep (X : Matrix (Fin n) (Fin d) ℝ) (W : Matrix (Fin d) (Fin k) ℝ) : Option (Matrix (Fin d) (Fin k) ℝ) :=
  match inv (Wᵀ * W) with
  | none => none
  | some I =>
    let E := I * Wᵀ * Xᵀ
    match inv (E * Eᵀ) with
    | none => none
    | some J => some (Xᵀ * Eᵀ * J)

/-- the convergence test, pca.py:86 -/
def close (W W' : Matrix (Fin d) (Fin k) ℝ) : Prop := ∀ i j, |W i j - W' i j| < 0.001

inductive PFail
  /-- a LinAlgError -/
  | singular
  /-- the rounds are used up: not a behaviour of the program -/
  | starved
  deriving DecidableEq, Repr

/-- the loop of `pPca`, pca.py:83-88 -/
noncomputable def pPcaLoop (X : Matrix (Fin n) (Fin d) ℝ) : Nat → Matrix (Fin d) (Fin k) ℝ → Except PFail (Matrix (Fin k) (Fin d) ℝ)
  | 0, _ => .error .starved
  | rounds + 1, W =>
    match pPcaStep X W with
    | none => .error .singular
    | some W' => open Classical in if close W' W then .ok W'ᵀ else pPcaLoop X rounds W'

/-- `pPca`, pca.py:70-88, started with the random matrix `W` -/
noncomputable def pPca (X : Matrix (Fin n) (Fin d) ℝ) (rounds : Nat) (W : Matrix (Fin d) (Fin k) ℝ) : Except PFail (Matrix (Fin k) (Fin d) ℝ) :=
  pPcaLoop (makeCentered X) rounds W

end Verif.PCA
