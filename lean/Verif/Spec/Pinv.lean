import Mathlib.Data.Matrix.Mul
import Mathlib.Algebra.Order.Field.Basic
import Mathlib.Algebra.Order.BigOperators.Ring.Finset
import Mathlib.Tactic.Linarith
/-
Specification of the pseudo-inverse (`scipy.linalg.pinv`) and of least squares.
-/
namespace Verif.Pinv
open Matrix

variable {K : Type} [Field K] {m n : Type} [Fintype m] [Fintype n]

/-- the four Penrose conditions -/
structure IsPinv (A : Matrix m n K) (P : Matrix n m K) : Prop where
  apa : A * P * A = A
  pap : P * A * P = P
  ap_symm : (A * P)ᵀ = A * P
  pa_symm : (P * A)ᵀ = P * A

/-- the sum of the squared residuals of `A x = r` -/
def residual (A : Matrix m n K) (r : m → K) (x : n → K) : K := ∑ i, ((A.mulVec x) i - r i) ^ 2

/-- Different inputs give different outputs: the columns are linearly independent. -/
def FullRank (A : Matrix m n K) : Prop := ∀ x y, A.mulVec x = A.mulVec y → x = y

/-- The residual of the solution given by a pseudo-inverse is orthogonal to all values of `A`. -/
theorem normal_equation {A : Matrix m n K} {P : Matrix n m K} (h : IsPinv A P) (r : m → K) (v : n → K) :
    ∑ i, (A.mulVec v) i * ((A.mulVec (P.mulVec r)) i - r i) = 0 := by
  have h1 : Aᵀ * (A * P) = Aᵀ := by
    rw [← h.ap_symm, ← Matrix.transpose_mul, h.apa]
  have h2 : (A.mulVec v) ⬝ᵥ ((A.mulVec (P.mulVec r)) - r) = 0 := by
    rw [← Matrix.vecMul_transpose, ← Matrix.dotProduct_mulVec, Matrix.mulVec_sub, Matrix.mulVec_mulVec, Matrix.mulVec_mulVec, Matrix.mul_assoc, h1, sub_self, dotProduct_zero]
  simpa [dotProduct] using h2

/-- A pseudo-inverse gives a least-squares solution. -/
theorem least_squares [LinearOrder K] [IsStrictOrderedRing K] {A : Matrix m n K} {P : Matrix n m K} (h : IsPinv A P)
    (r : m → K) (x : n → K) : residual A r (P.mulVec r) ≤ residual A r x := by
  have hsplit : ∀ i, (A.mulVec x) i = (A.mulVec (P.mulVec r)) i + (A.mulVec (x - P.mulVec r)) i := by
    intro i
    rw [Matrix.mulVec_sub]; simp
  have h3 := normal_equation h r (x - P.mulVec r)
  unfold residual
  have : ∑ i, ((A.mulVec x) i - r i) ^ 2 = ∑ i, ((A.mulVec (P.mulVec r)) i - r i) ^ 2 + ∑ i, ((A.mulVec (x - P.mulVec r)) i) ^ 2 +
      2 * ∑ i, (A.mulVec (x - P.mulVec r)) i * ((A.mulVec (P.mulVec r)) i - r i) := by
    rw [Finset.mul_sum, ← Finset.sum_add_distrib, ← Finset.sum_add_distrib]
    apply Finset.sum_congr rfl
    intro i _
    rw [hsplit i]; ring
  rw [this, h3]
  have : 0 ≤ ∑ i, ((A.mulVec (x - P.mulVec r)) i) ^ 2 := Finset.sum_nonneg fun i _ => sq_nonneg _
  linarith

/-- With independent columns it is the exact solution when there is one. -/
theorem exact_solution {A : Matrix m n K} {P : Matrix n m K} (h : IsPinv A P) (hr : FullRank A) (x : n → K) :
    P.mulVec (A.mulVec x) = x := by
  apply hr
  rw [Matrix.mulVec_mulVec, Matrix.mulVec_mulVec, h.apa]

end Verif.Pinv
