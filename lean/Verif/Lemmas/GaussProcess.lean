import Verif.Model.GaussProcess
import Mathlib.Analysis.Matrix.Order
import Mathlib.Analysis.SpecialFunctions.Exponential
import Mathlib.Algebra.Order.Star.Real
/-!
The squared exponential kernel gives positive semidefinite matrices.
-/

namespace Verif.GaussP
open Matrix Verif.NES Verif.KMeans

variable {d : Nat} {ι : Type} [Fintype ι]

theorem psd_iff (A : Matrix ι ι ℝ) : A.PosSemidef ↔ A.IsSymm ∧ ∀ v, 0 ≤ v ⬝ᵥ A *ᵥ v := by
  rw [posSemidef_iff_dotProduct_mulVec, Matrix.IsHermitian, conjTranspose_eq_transpose_of_trivial]
  simp [Matrix.IsSymm]

theorem gram_psd (x : ι → Vec d) (c : ℝ) (hc : 0 ≤ c) : (Matrix.of fun i j => c * (x i ⬝ᵥ x j)).PosSemidef := by
  rw [psd_iff]
  refine ⟨?_, fun v => ?_⟩
  · ext i j
    simp [dotProduct_comm]
  · have e : v ⬝ᵥ (Matrix.of fun i j => c * (x i ⬝ᵥ x j)) *ᵥ v = c * ((∑ i, v i • x i) ⬝ᵥ (∑ i, v i • x i)) := by
      rw [sum_dotProduct, Finset.mul_sum]
      simp only [dotProduct_sum, smul_dotProduct, dotProduct_smul, smul_eq_mul, Finset.mul_sum]
      simp only [dotProduct, mulVec, Matrix.of_apply, Finset.mul_sum]
      refine Finset.sum_congr rfl fun i _ => Finset.sum_congr rfl fun j _ => ?_
      rw [Finset.sum_mul, Finset.mul_sum]
      refine Finset.sum_congr rfl fun a _ => ?_
      ring
    rw [e]
    exact mul_nonneg hc (Finset.sum_nonneg fun i _ => mul_self_nonneg _)

theorem pow_psd (H : Matrix ι ι ℝ) (h : H.PosSemidef) (m : Nat) : (Matrix.of fun i j => H i j ^ m).PosSemidef := by
  induction m with
  | zero =>
    rw [psd_iff]
    refine ⟨by ext; simp, fun v => ?_⟩
    have : v ⬝ᵥ (Matrix.of fun i j => H i j ^ 0) *ᵥ v = (∑ i, v i) * (∑ i, v i) := by
      simp only [dotProduct, mulVec, Matrix.of_apply, pow_zero, one_mul]
      rw [Finset.sum_mul]
    rw [this]
    exact mul_self_nonneg _
  | succ m ih =>
    have e : (Matrix.of fun i j => H i j ^ (m + 1)) = (Matrix.of fun i j => H i j ^ m) ⊙ H := by
      ext i j
      simp [pow_succ]
    rw [e]
    exact ih.hadamard h

theorem exp_psd (H : Matrix ι ι ℝ) (h : H.PosSemidef) : (Matrix.of fun i j => Real.exp (H i j)).PosSemidef := by
  rw [psd_iff]
  have hs := ((psd_iff H).1 h).1
  refine ⟨?_, fun v => ?_⟩
  · ext i j
    simp only [transpose_apply, of_apply]
    rw [← hs.apply i j]
  · have key : HasSum (fun m : Nat => v ⬝ᵥ (Matrix.of fun i j => H i j ^ m / (m.factorial : ℝ)) *ᵥ v)
        (v ⬝ᵥ (Matrix.of fun i j => Real.exp (H i j)) *ᵥ v) := by
      simp only [dotProduct, mulVec, Matrix.of_apply]
      refine hasSum_sum fun i _ => HasSum.mul_left _ (hasSum_sum fun j _ => HasSum.mul_right _ ?_)
      rw [Real.exp_eq_exp_ℝ]
      exact NormedSpace.expSeries_div_hasSum_exp (H i j)
    refine key.nonneg fun m => ?_
    have e : (Matrix.of fun i j => H i j ^ m / (m.factorial : ℝ)) = (1 / (m.factorial : ℝ)) • Matrix.of fun i j => H i j ^ m := by
      ext i j
      simp
      ring
    rw [e, Matrix.smul_mulVec, dotProduct_smul]
    exact mul_nonneg (by positivity) (((psd_iff _).1 (pow_psd H h m)).2 v)

theorem kernel_split (l s : ℝ) (a b : Vec d) : kernel l s a b =
    (s * Real.exp (-1 / (2 * l ^ 2) * (a ⬝ᵥ a))) * Real.exp (1 / l ^ 2 * (a ⬝ᵥ b)) * (s * Real.exp (-1 / (2 * l ^ 2) * (b ⬝ᵥ b))) := by
  have e : sqDist a b = a ⬝ᵥ a - 2 * (a ⬝ᵥ b) + b ⬝ᵥ b := by
    simp only [sqDist, dotProduct, Finset.mul_sum, ← Finset.sum_sub_distrib, ← Finset.sum_add_distrib]
    exact Finset.sum_congr rfl fun i _ => by ring
  rw [kernel, e]
  have : -1 / (2 * l ^ 2) * (a ⬝ᵥ a - 2 * (a ⬝ᵥ b) + b ⬝ᵥ b) =
      -1 / (2 * l ^ 2) * (a ⬝ᵥ a) + 1 / l ^ 2 * (a ⬝ᵥ b) + -1 / (2 * l ^ 2) * (b ⬝ᵥ b) := by
    by_cases h : l = 0
    · simp [h]
    · field_simp
      ring
  rw [this, Real.exp_add, Real.exp_add]
  ring

theorem kernel_psd (l s : ℝ) (x : ι → Vec d) : (Matrix.of fun i j => kernel l s (x i) (x j)).PosSemidef := by
  have h := exp_psd _ (gram_psd x (1 / l ^ 2) (by positivity))
  rw [psd_iff] at h ⊢
  refine ⟨?_, fun v => ?_⟩
  · ext i j
    simp only [transpose_apply, of_apply, kernel_split, dotProduct_comm (x j) (x i)]
    ring
  · have := h.2 fun i => v i * (s * Real.exp (-1 / (2 * l ^ 2) * (x i ⬝ᵥ x i)))
    refine this.trans_eq ?_
    simp only [dotProduct, mulVec, Matrix.of_apply, kernel_split, Finset.mul_sum]
    refine Finset.sum_congr rfl fun i _ => Finset.sum_congr rfl fun j _ => ?_
    ring

theorem kernel_comm (l s : ℝ) (a b : Vec d) : kernel l s a b = kernel l s b a := by
  simp only [kernel_split, dotProduct_comm b a]
  ring

theorem kernel_self (l s : ℝ) (a : Vec d) : kernel l s a a = s ^ 2 := by simp [kernel, sqDist]

end Verif.GaussP
