import Verif.Model.VES
/-
Model of `pybrain/tools/fisher.py`: the Fisher information matrix of a Gaussian distribution and its inverse, as lists of diagonal
blocks.

`inv` is the inverse of a matrix, and the Cholesky factor is an argument (it is either passed by the caller or computed by
`cholesky`).  A block is a matrix with its size.  The trailing submatrices `invSigma[k:, k:]` are taken one row at a time.
`factorSigma[k, k] ** -2` is written `(factorSigma k k ^ 2)⁻¹`.  `blockCombine` is `Verif.VES.combine`, see also C141.
-/
namespace Verif.Fisher

open Matrix Verif.VES

/-- A diagonal block. -/
abbrev Block := Σ m : ℕ, Matrix (Fin m) (Fin m) ℝ

/-- The loop of `calcFisherInformation` (fisher.py:19-22), for the trailing submatrix that remains and the diagonal of the factor. -/
noncomputable def fimLoop : (m : ℕ) → Matrix (Fin m) (Fin m) ℝ → (Fin m → ℝ) → List Block
  | 0, _, _ => []
  | m + 1, invSigma, f =>
    ⟨m + 1, Matrix.of fun i j => invSigma i j + if i = 0 ∧ j = 0 then (f 0 ^ 2)⁻¹ else 0⟩ ::
      fimLoop m (invSigma.submatrix Fin.succ Fin.succ) fun i => f i.succ

/-- `calcFisherInformation` (fisher.py:9-23). -/
noncomputable def calcFisherInformation {n : ℕ} (sigma factorSigma : Matrix (Fin n) (Fin n) ℝ) : List Block :=
  ⟨n, sigma⁻¹⟩ :: fimLoop n sigma⁻¹ factorSigma.diag

/-- The loop of `calcInvFisher` from the last row to the first (fisher.py:36-49): `invF`, with the latest block first, and `invD`. -/
noncomputable def invLoop : (m : ℕ) → Matrix (Fin (m + 1)) (Fin (m + 1)) ℝ → (Fin (m + 1) → ℝ) → List Block × Matrix (Fin (m + 1)) (Fin (m + 1)) ℝ
  | 0, invSigma, f => ([⟨1, Matrix.of fun _ _ => 1 / (invSigma 0 0 + (f 0 ^ 2)⁻¹)⟩], Matrix.of fun _ _ => 1 / invSigma 0 0)
  | m + 1, invSigma, f =>
    let rest := invLoop m (invSigma.submatrix Fin.succ Fin.succ) fun i => f i.succ
    let invD := rest.2
    let v : Fin (m + 1) → ℝ := fun i => invSigma i.succ 0
    let w := invSigma 0 0
    let wr := w + (f 0 ^ 2)⁻¹
    let u := invD *ᵥ v
    let s := v ⬝ᵥ u
    let q := 1 / (w - s)
    let qr := 1 / (wr - s)
    let t := -(1 + q * s) / w
    let tr := -(1 + qr * s) / wr
    (⟨m + 2, combine qr (tr • u) (invD + qr • vecMulVec u u)⟩ :: rest.1, combine q (t • u) (invD + q • vecMulVec u u))

/-- `calcInvFisher` (fisher.py:27-53), for at least one dimension. -/
noncomputable def calcInvFisher {m : ℕ} (sigma factorSigma : Matrix (Fin (m + 1)) (Fin (m + 1)) ℝ) : List Block :=
  ⟨m + 1, sigma⟩ :: (invLoop m sigma⁻¹ factorSigma.diag).1

end Verif.Fisher
