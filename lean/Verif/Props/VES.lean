import Verif.Lemmas.VES
import Verif.Spec.VES
import Mathlib.Analysis.Real.Sqrt
import Mathlib.Tactic.FinCases
/-
C137: gradients of evolution strategies.
-/
namespace Verif.VES
open Matrix

section
variable {P ι : Type} [Fintype ι]

/-- sums over copies -/
theorem sum_copies {κ : Type} [Fintype κ] (g : ι → ℝ) : ∑ x : ι × κ, g x.1 = Fintype.card κ * ∑ i, g i := by
  rw [Fintype.sum_prod_type]
  simp [Finset.mul_sum]

theorem baseline_shift (phi : ι → P → ℝ) (f : ι → ℝ) (c : ℝ) (j : P) (h : ∑ i, phi i j * phi i j ≠ 0) : baseline phi (fun i => f i + c) j = baseline phi f j + c := by
  unfold baseline
  have : ∑ i, (f i + c) * (phi i j * phi i j) = ∑ i, f i * (phi i j * phi i j) + c * ∑ i, phi i j * phi i j := by
    rw [Finset.mul_sum, ← Finset.sum_add_distrib]
    exact Finset.sum_congr rfl fun i _ => by ring
  simp only [one_mul]
  rw [this, add_div, mul_div_cancel_right₀ _ h]

end

theorem natural_D (d : ℕ) : ∀ (S : Matrix (Fin (d + 1)) (Fin (d + 1)) ℝ) (a : Fin (d + 1) → ℝ) (R R' : Matrix (Fin (d + 1)) (Fin (d + 1)) ℝ), (natural d S a R).1 = (natural d S a R').1 := by
  induction d with
  | zero => intros; rfl
  | succ d ih =>
    intro S a R R'
    rw [natural, natural, ih _ _ (R.submatrix Fin.succ Fin.succ) (R'.submatrix Fin.succ Fin.succ)]

theorem natural_row (d : ℕ) (S : Matrix (Fin (d + 2)) (Fin (d + 2)) ℝ) (a : Fin (d + 2) → ℝ) :
    ∃ G : Matrix (Fin (d + 2)) (Fin (d + 2)) ℝ, ∀ R : Matrix (Fin (d + 2)) (Fin (d + 2)) ℝ, ∀ l, (natural (d + 1) S a R).2 0 l = (G *ᵥ R 0) l := by
  refine ⟨?_, fun R l => ?_⟩
  rotate_left
  · rw [natural, natural_D _ _ _ (R.submatrix Fin.succ Fin.succ) 0]
    rfl

/-- The loop is linear in the column -/
theorem natural_linear (d : ℕ) {ι : Type} [Fintype ι] : ∀ (S : Matrix (Fin (d + 1)) (Fin (d + 1)) ℝ) (a : Fin (d + 1) → ℝ) (R : ι → Matrix (Fin (d + 1)) (Fin (d + 1)) ℝ) (f : ι → ℝ) (k l : Fin (d + 1)),
    (natural d S a (∑ i, f i • R i)).2 k l = ∑ i, f i * (natural d S a (R i)).2 k l := by
  induction d with
  | zero =>
    intro S a R f k l
    simp only [natural, of_apply, Matrix.sum_apply, Matrix.smul_apply, smul_eq_mul, Finset.mul_sum]
    exact Finset.sum_congr rfl fun i _ => by ring
  | succ d ih =>
    intro S a R f k l
    refine Fin.cases ?_ (fun k => ?_) k
    · obtain ⟨G, hG⟩ := natural_row d S a
      simp only [hG]
      have : (∑ i, f i • R i) 0 = ∑ i, f i • R i 0 := by
        ext l
        rw [Matrix.sum_apply, Finset.sum_apply]
        rfl
      rw [this, mulVec_sum, Finset.sum_apply]
      exact Finset.sum_congr rfl fun i _ => by rw [mulVec_smul]; rfl
    · have hsub : (∑ i, f i • R i).submatrix Fin.succ Fin.succ = ∑ i, f i • (R i).submatrix Fin.succ Fin.succ := by
        ext i j
        simp [Matrix.sum_apply]
      refine Fin.cases ?_ (fun l => ?_) l
      · simp [natural]
      · have := ih (S.submatrix Fin.succ Fin.succ) (fun i => a i.succ) (fun i => (R i).submatrix Fin.succ Fin.succ) f k l
        rw [← hsub] at this
        exact this

end Verif.VES

namespace Verif.Props
open Matrix Verif.VES Verif.VES.Spec

variable {n : ℕ}

/-- **C137, derivatives.** For an upper triangular factor, what VES and NES compute from a sample are the exact derivatives of the logarithm of the sample's density with respect to the center and to the entries of the factor
(in its upper triangle); the two formulas for the factor agree. -/
theorem C137_derivatives (A : Matrix (Fin n) (Fin n) ℝ) (hA : A.det ≠ 0) (ht : ∀ i j, j < i → A i j = 0) (x z : Fin n → ℝ) :
    (∀ i, HasDerivAt (fun t : ℝ => logDensity (sigma A) (x + t • Pi.single i 1) z) (logDerivX z x (sigma A)⁻¹ i) 0) ∧
    ∀ i j, i ≤ j → HasDerivAt (fun t : ℝ => logDensity (sigma (A + t • single i j (1 : ℝ))) x z) (logDerivFactorSigma z x (sigma A)⁻¹ A i j) 0 ∧
      logDerivNES z x A i j = logDerivFactorSigma z x (sigma A)⁻¹ A i j := by
  have hu : IsUnit A.det := isUnit_iff_ne_zero.2 hA
  constructor
  · intro i
    have hsym : (sigma A)⁻¹ᵀ = (sigma A)⁻¹ := by rw [inv_sigma, transpose_mul, transpose_transpose]
    generalize hM : (sigma A)⁻¹ = M at *
    have heq : (fun t : ℝ => logDensity (sigma A) (x + t • Pi.single i 1) z) = fun t =>
        -(1 / 2) * ((z - x) ⬝ᵥ (M *ᵥ (z - x)) - 2 * t * (M *ᵥ (z - x)) i + t ^ 2 * M i i) - 1 / 2 * Real.log (sigma A).det - n / 2 * Real.log (2 * Real.pi) := by
      funext t
      unfold logDensity
      rw [hM]
      have e : z - (x + t • Pi.single i (1 : ℝ)) = (z - x) - t • Pi.single i 1 := by rw [sub_sub]
      rw [e]
      have q : ∀ (u v : Fin n → ℝ), (u - t • v) ⬝ᵥ (M *ᵥ (u - t • v)) = u ⬝ᵥ (M *ᵥ u) - 2 * t * (v ⬝ᵥ (M *ᵥ u)) + t ^ 2 * (v ⬝ᵥ (M *ᵥ v)) := by
        intro u v
        have hc : u ⬝ᵥ (M *ᵥ v) = v ⬝ᵥ (M *ᵥ u) := by
          rw [dotProduct_mulVec, ← mulVec_transpose, hsym, dotProduct_comm]
        simp only [mulVec_sub, mulVec_smul, sub_dotProduct, dotProduct_sub, smul_dotProduct, dotProduct_smul, smul_eq_mul, hc]
        ring
      rw [q]
      simp
    rw [heq]
    unfold logDerivX
    have h0 := hasDerivAt_id' (0 : ℝ)
    have h4 := ((((h0.const_mul 2).mul_const ((M *ᵥ (z - x)) i)).const_sub ((z - x) ⬝ᵥ (M *ᵥ (z - x)))).add ((h0.pow 2).mul_const (M i i))).const_mul (-(1 / 2))
    have h5 := (h4.sub_const (1 / 2 * Real.log (sigma A).det)).sub_const (n / 2 * Real.log (2 * Real.pi))
    exact h5.congr_deriv (by simp)
  · intro i j hij
    set B := A⁻¹ with hB
    set s := Bᵀ *ᵥ (z - x) with hs
    have e : logDerivFactorSigma z x (sigma A)⁻¹ A i j = s i * (B *ᵥ s) j - B j i := by
      have h1 : A * (sigma A)⁻¹ = Bᵀ := by rw [inv_sigma, ← Matrix.mul_assoc, mul_nonsing_inv _ hu, Matrix.one_mul]
      have hsym : (sigma A)⁻¹ᵀ = (sigma A)⁻¹ := by rw [inv_sigma, transpose_mul, transpose_transpose]
      have h2 : (sigma A)⁻¹ *ᵥ (z - x) = B *ᵥ s := by rw [inv_sigma, ← mulVec_mulVec]
      have h3 : (sigma A)⁻¹ * vecMulVec (z - x) (z - x) * (sigma A)⁻¹ = vecMulVec (B *ᵥ s) (B *ᵥ s) := by
        rw [mul_vecMulVec, vecMulVec_mul, ← mulVec_transpose, hsym, h2]
      have h4 : A *ᵥ (B *ᵥ s) = s := by rw [mulVec_mulVec, hB, mul_nonsing_inv _ hu, one_mulVec]
      unfold logDerivFactorSigma
      rw [h3, transpose_sub, transpose_smul, transpose_smul, transpose_vecMulVec, hsym]
      have h5 : ((0.5 : ℝ) • vecMulVec (B *ᵥ s) (B *ᵥ s) - (0.5 : ℝ) • (sigma A)⁻¹ + ((0.5 : ℝ) • vecMulVec (B *ᵥ s) (B *ᵥ s) - (0.5 : ℝ) • (sigma A)⁻¹)) = vecMulVec (B *ᵥ s) (B *ᵥ s) - (sigma A)⁻¹ := by
        ext a b
        simp only [Matrix.add_apply, Matrix.sub_apply, Matrix.smul_apply, smul_eq_mul]
        ring
      rw [h5, Matrix.mul_sub, h1, mul_vecMulVec, h4]
      rfl
    refine ⟨e ▸ deriv_factor A hA x z i j, ?_⟩
    rw [e]
    unfold logDerivNES
    simp only [← hB, ← hs, Matrix.sub_apply, vecMulVec_apply, diagonal_apply, diag_apply]
    congr 1
    split_ifs with h
    · rw [h]
    · exact (inv_upper A hA ht j i (lt_of_le_of_ne hij h)).symm

/-- **C137, natural gradient.** What ExactNES computes for the factor is the natural gradient: multiplied by the Fisher information (the expectation of products of derivatives over samples of the current
distribution), it gives the derivatives. `E` is the expectation over the standard normal noise of a sample. -/
theorem C137_natural {d : ℕ} (E : ((Fin (d + 1) → ℝ) → ℝ) →ₗ[ℝ] ℝ) (hE : StandardNormal E) (A : Matrix (Fin (d + 1)) (Fin (d + 1)) ℝ) (hA : A.det ≠ 0) (ht : ∀ i j, j < i → A i j = 0)
    (x z : Fin (d + 1) → ℝ) (k j : Fin (d + 1)) (hkj : k ≤ j) :
    (∑ k', ∑ l, if k' ≤ l then E (fun s => logDerivNES (newSample A x s) x A k j * logDerivNES (newSample A x s) x A k' l) * (natural d (sigma A)⁻¹ (A⁻¹).diag (logDerivNES z x A)).2 k' l else 0) =
      logDerivNES z x A k j := by
  have hp : ((sigma A)⁻¹).PosDef := (sigma_posDef A hA).inv
  have h3 := (natural_spec d (sigma A)⁻¹ (A⁻¹).diag (logDerivNES z x A) hp).2.2 k j hkj
  rw [← h3]
  rw [Finset.sum_eq_single k]
  · refine Finset.sum_congr rfl fun l _ => ?_
    by_cases h : k ≤ l
    · rw [if_pos h, if_pos h, fisher hE A hA (inv_upper A hA ht) x k j k l hkj h, if_pos rfl, inv_sigma]
      rfl
    · rw [if_neg h, if_neg h]
  · intro k' _ hne
    refine Finset.sum_eq_zero fun l _ => ?_
    split_ifs with h
    · rw [fisher hE A hA (inv_upper A hA ht) x k j k' l hkj h, if_neg (Ne.symm hne), zero_mul]
    · rfl
  · intro h; exact absurd (Finset.mem_univ k) h

/-- **C137, natural gradient of the center.** The Fisher information of the center is the inverse of the covariance, so that the natural gradient is the distance of the sample from the center. -/
theorem C137_natural_center (E : ((Fin n → ℝ) → ℝ) →ₗ[ℝ] ℝ) (hE : StandardNormal E) (A : Matrix (Fin n) (Fin n) ℝ) (hA : A.det ≠ 0) (x z : Fin n → ℝ) (i : Fin n) :
    (∑ j, E (fun s => logDerivX (newSample A x s) x (sigma A)⁻¹ i * logDerivX (newSample A x s) x (sigma A)⁻¹ j) * (z - x) j) = logDerivX z x (sigma A)⁻¹ i := by
  have hu : IsUnit A.det := isUnit_iff_ne_zero.2 hA
  have e : ∀ s j, logDerivX (newSample A x s) x (sigma A)⁻¹ j = (A⁻¹ *ᵥ s) j := by
    intro s j
    unfold logDerivX newSample
    rw [add_sub_cancel_right, inv_sigma, mulVec_mulVec, Matrix.mul_assoc, ← transpose_mul, mul_nonsing_inv _ hu, transpose_one, Matrix.mul_one]
  have e2 : ∀ i j, E (fun s => (A⁻¹ *ᵥ s) i * (A⁻¹ *ᵥ s) j) = (sigma A)⁻¹ i j := by
    intro i j
    have : (fun s => (A⁻¹ *ᵥ s) i * (A⁻¹ *ᵥ s) j) = ∑ m, A⁻¹ i m • fun s : Fin n → ℝ => s m * (A⁻¹ *ᵥ s) j := by
      funext s
      simp only [mulVec, dotProduct, Finset.sum_apply, Pi.smul_apply, smul_eq_mul, Finset.sum_mul, Finset.mul_sum]
      rw [Finset.sum_comm]
      exact Finset.sum_congr rfl fun m _ => Finset.sum_congr rfl fun m _ => by ring
    rw [this, map_sum, inv_sigma, mul_apply]
    exact Finset.sum_congr rfl fun m _ => by rw [map_smul, E_two hE]; rfl
  simp only [e, e2]
  rfl

section
variable {P ι : Type} [Fintype ι]

/-- **C137, optimal baseline.** The baseline of each parameter minimizes the sum of squared contributions to the gradient. -/
theorem C137_baseline (phi : ι → P → ℝ) (f : ι → ℝ) (j : P) (h : ∑ i, phi i j * phi i j ≠ 0) (b : ℝ) :
    ∑ i, (phi i j * (f i - baseline phi f j)) ^ 2 ≤ ∑ i, (phi i j * (f i - b)) ^ 2 := by
  set b0 := baseline phi f j with hb
  have h0 : b0 * ∑ i, phi i j * phi i j = ∑ i, f i * (phi i j * phi i j) := by
    rw [hb]
    unfold baseline
    simp only [one_mul]
    rw [div_mul_cancel₀ _ h]
  have e : ∑ i, (phi i j * (f i - b)) ^ 2 = ∑ i, (phi i j * (f i - b0)) ^ 2 + (b0 - b) ^ 2 * ∑ i, phi i j * phi i j := by
    have e1 : ∑ i, (phi i j * (f i - b)) ^ 2 = ∑ i, (phi i j * (f i - b0)) ^ 2 + (b0 - b) ^ 2 * ∑ i, phi i j * phi i j + 2 * (b0 - b) * (∑ i, f i * (phi i j * phi i j) - b0 * ∑ i, phi i j * phi i j) := by
      rw [Finset.mul_sum, Finset.mul_sum, ← Finset.sum_sub_distrib, Finset.mul_sum, ← Finset.sum_add_distrib, ← Finset.sum_add_distrib]
      exact Finset.sum_congr rfl fun i _ => by ring
    rw [e1, h0]
    ring
  rw [e]
  have : 0 ≤ ∑ i, phi i j * phi i j := Finset.sum_nonneg fun i _ => mul_self_nonneg _
  nlinarith [sq_nonneg (b0 - b)]

/-- **C137, offsets.** Adding a constant to all fitnesses changes no update: of VES, of ExactNES with any of its baselines, and of OriginalNES if the derivatives (with the additional ones) are linearly independent. -/
theorem C137_offset [Fintype P] [DecidableEq P] {B : Type} [DecidableEq B] (f : ι → ℝ) (c : ℝ) (j : P) :
    (∀ phi : ι → P → ℝ, ∑ i, phi i j * phi i j ≠ 0 → gradient phi (fun i => f i + c) j = gradient phi f j) ∧
    (∀ (block : P → B) (V : P → ι → ℝ), (∑ i, ∑ k with block k = block j, V k i * V k i ≠ 0) →
      exactUpdate .block block V (fun k => ∑ i, (f i + c) * V k i) (fun i => f i + c) j = exactUpdate .block block V (fun k => ∑ i, f i * V k i) f j) ∧
    (∀ (block : P → B) (V : P → ι → ℝ), ∑ i, V j i * V j i ≠ 0 →
      exactUpdate .specific block V (fun k => ∑ i, (f i + c) * V k i) (fun i => f i + c) j = exactUpdate .specific block V (fun k => ∑ i, f i * V k i) f j) ∧
    (∀ (block : P → B) (V : P → ι → ℝ), (∑ k, (∑ i, V k i) * ∑ i, V k i ≠ 0) →
      exactUpdate .uniform block V (fun k => ∑ i, (f i + c) * V k i) (fun i => f i + c) j = exactUpdate .uniform block V (fun k => ∑ i, f i * V k i) f j) ∧
    (∀ (pinv2 : (ι → Option P → ℝ) → Option P → ι → ℝ) (phi : ι → P → ℝ), (∀ a b : Option P, ∑ i, pinv2 (fun i k => k.elim 1 (phi i)) a i * b.elim 1 (phi i) = if a = b then 1 else 0) →
      originalUpdate pinv2 phi (fun i => f i + c) j = originalUpdate pinv2 phi f j) := by
  have wmean : ∀ (w : ι → ℝ), ∑ i, w i ≠ 0 → (∑ i, w i * (f i + c)) / ∑ i, w i = (∑ i, w i * f i) / (∑ i, w i) + c := by
    intro w hw
    have : ∑ i, w i * (f i + c) = ∑ i, w i * f i + c * ∑ i, w i := by
      rw [Finset.mul_sum, ← Finset.sum_add_distrib]
      exact Finset.sum_congr rfl fun i _ => by ring
    rw [this, add_div, mul_div_cancel_right₀ _ hw]
  refine ⟨fun phi h => ?_, fun block V h => ?_, fun block V h => ?_, fun block V h => ?_, fun pinv2 phi h => ?_⟩
  · unfold gradient
    rw [baseline_shift _ _ _ _ h]
    exact Finset.sum_congr rfl fun i _ => by ring
  · unfold exactUpdate
    simp only
    rw [wmean _ h]
    congr 1
    exact Finset.sum_congr rfl fun i _ => by ring
  · unfold exactUpdate
    simp only
    rw [wmean _ h]
    congr 1
    exact Finset.sum_congr rfl fun i _ => by ring
  · unfold exactUpdate
    simp only
    have e : ∀ k, ∑ i, (f i + c) * V k i = ∑ i, f i * V k i + c * ∑ i, V k i := by
      intro k
      rw [Finset.mul_sum, ← Finset.sum_add_distrib]
      exact Finset.sum_congr rfl fun i _ => by ring
    simp only [e, mul_add, Finset.sum_add_distrib]
    have e2 : ∑ k, (∑ i, V k i) * (c * ∑ i, V k i) = c * ∑ k, (∑ i, V k i) * ∑ i, V k i := by
      rw [Finset.mul_sum]
      exact Finset.sum_congr rfl fun i _ => by ring
    rw [e2, add_div, mul_div_cancel_right₀ _ h]
    ring
  · unfold originalUpdate
    have e := h (some j) none
    simp only [Option.elim_none, mul_one, reduceCtorEq, if_false] at e
    simp only [mul_add, Finset.sum_add_distrib, ← Finset.sum_mul, e, zero_mul, add_zero]

/-- **C137, the uniform baseline** of ExactNES uses a vector `u` that goes through the same loop: it is the sum of the columns weighted by the fitnesses. -/
theorem C137_uniform (d : ℕ) (A : Matrix (Fin (d + 1)) (Fin (d + 1)) ℝ) (R : ι → Matrix (Fin (d + 1)) (Fin (d + 1)) ℝ) (f : ι → ℝ) (k l : Fin (d + 1)) :
    (natural d (sigma A)⁻¹ (A⁻¹).diag (∑ i, f i • R i)).2 k l = ∑ i, f i * (natural d (sigma A)⁻¹ (A⁻¹).diag (R i)).2 k l := natural_linear d _ _ _ _ _ _

/-- **C137, batches.** The update of ExactNES is a mean over the batch: if every sample is repeated equally often, it stays the same. -/
theorem C137_batch [Fintype P] {κ B : Type} [Fintype κ] [Nonempty κ] [DecidableEq B] (type : Baseline) (block : P → B) (V : P → ι → ℝ) (f : ι → ℝ) (j : P) :
    exactUpdate type block (fun k (x : ι × κ) => V k x.1) (fun k => ∑ x : ι × κ, f x.1 * V k x.1) (fun x => f x.1) j = exactUpdate type block V (fun k => ∑ i, f i * V k i) f j := by
  have hc : (Fintype.card κ : ℝ) ≠ 0 := by exact_mod_cast Fintype.card_ne_zero
  have hs := fun g : ι → ℝ => sum_copies (κ := κ) g
  cases type <;> simp only [exactUpdate, Fintype.card_prod, Nat.cast_mul]
  · rw [hs fun i => V j i * f i, mul_comm (Fintype.card ι : ℝ), mul_div_mul_left _ _ hc]
  · have s1 : ∀ k, ∑ x : ι × κ, V k x.1 = Fintype.card κ * ∑ i, V k i := fun k => hs (V k)
    have s2 : ∀ k, ∑ x : ι × κ, f x.1 * V k x.1 = Fintype.card κ * ∑ i, f i * V k i := fun k => hs fun i => f i * V k i
    simp only [s1, s2]
    have e1 : ∀ g : P → ℝ, ∀ h : P → ℝ, ∑ k, (Fintype.card κ * g k) * (Fintype.card κ * h k) = (Fintype.card κ * Fintype.card κ : ℝ) * ∑ k, g k * h k := by
      intro g h
      rw [Finset.mul_sum]
      exact Finset.sum_congr rfl fun i _ => by ring
    rw [e1, e1, mul_div_mul_left _ _ (mul_ne_zero hc hc), mul_comm (Fintype.card ι : ℝ)]
    rw [← mul_div_mul_left _ (Fintype.card ι : ℝ) hc]
    congr 1
    ring
  · rw [hs fun i => V j i * V j i * f i, hs fun i => V j i * V j i, mul_div_mul_left _ _ hc, hs fun i => V j i * (f i - _), mul_comm (Fintype.card ι : ℝ), mul_div_mul_left _ _ hc]
  · rw [hs fun i => (∑ k with block k = block j, V k i * V k i) * f i, hs fun i => (∑ k with block k = block j, V k i * V k i), mul_div_mul_left _ _ hc, hs fun i => V j i * (f i - _),
      mul_comm (Fintype.card ι : ℝ), mul_div_mul_left _ _ hc]

/-- **C137 violated: batches of VES.** Its update, which is to be divided by the size of the batch according to the comment in the code, is not: if every sample is repeated, it is multiplied. -/
theorem C137_negation_batch {κ : Type} [Fintype κ] [Nonempty κ] (phi : ι → P → ℝ) (f : ι → ℝ) (j : P) :
    gradient (fun (x : ι × κ) => phi x.1) (fun x => f x.1) j = Fintype.card κ * gradient phi f j := by
  have hc : (Fintype.card κ : ℝ) ≠ 0 := by exact_mod_cast Fintype.card_ne_zero
  have hs := fun g : ι → ℝ => sum_copies (κ := κ) g
  unfold gradient baseline
  rw [hs fun i => f i * (phi i j * phi i j), hs fun i => 1 * (phi i j * phi i j), mul_div_mul_left _ _ hc, hs fun i => phi i j * (f i - _)]

end

/-- **C137, the factor** stays upper triangular in every update, so that samples have the covariance that is stored, and the covariance is positive definite unless the factor becomes singular. -/
theorem C137_factor (lo hi : Fin n → ℝ) (chol : Matrix (Fin n) (Fin n) ℝ) (hc : ∀ i j, j < i → chol i j = 0) (x0 r : Fin n → ℝ) (us : List (ℝ × ℝ × (Fin n → ℝ) × Matrix (Fin n) (Fin n) ℝ)) :
    let s := us.foldl (fun s u => step u.1 u.2.1 s u.2.2.1 u.2.2.2) (start lo hi chol x0 r)
    (∀ i j, j < i → s.2 i j = 0) ∧ (sigma s.2).PosSemidef ∧ (s.2.det ≠ 0 → (sigma s.2).PosDef) ∧
    ∀ E : ((Fin n → ℝ) → ℝ) →ₗ[ℝ] ℝ, StandardNormal E → ∀ i j, E (fun p => (newSample s.2 s.1 p - s.1) i * (newSample s.2 s.1 p - s.1) j) = sigma s.2 i j := by
  intro s
  refine ⟨?_, ?_, sigma_posDef _, ?_⟩
  · have key : ∀ (us : List (ℝ × ℝ × (Fin n → ℝ) × Matrix (Fin n) (Fin n) ℝ)) (s : (Fin n → ℝ) × Matrix (Fin n) (Fin n) ℝ), (∀ i j, j < i → s.2 i j = 0) →
        ∀ i j, j < i → (us.foldl (fun s u => step u.1 u.2.1 s u.2.2.1 u.2.2.2) s).2 i j = 0 := by
      intro us
      induction us with
      | nil => intro s h; exact h
      | cons u us ih =>
        intro s h
        refine ih _ fun i j hij => ?_
        simp [step, h i j hij, not_le.2 hij]
    exact key us _ hc
  · have := posSemidef_conjTranspose_mul_self s.2
    simpa [sigma, conjTranspose_eq_transpose_of_trivial] using this
  · intro E hE i j
    have : (fun p => (newSample s.2 s.1 p - s.1) i * (newSample s.2 s.1 p - s.1) j) = ∑ m, s.2 m i • fun p : Fin n → ℝ => p m * (s.2ᵀ *ᵥ p) j := by
      funext p
      simp only [newSample, add_sub_cancel_right, Finset.sum_apply, Pi.smul_apply, smul_eq_mul]
      have : (s.2ᵀ *ᵥ p) i = ∑ m, s.2 m i * p m := rfl
      rw [this, Finset.sum_mul]
      exact Finset.sum_congr rfl fun m _ => by ring
    rw [this, map_sum]
    unfold sigma
    rw [mul_apply]
    exact Finset.sum_congr rfl fun m _ => by rw [map_smul, E_two hE]; rfl

/-- **C137, densities for importance mixing.** They are the densities of the normal distribution, up to a constant factor and the sign of the determinant. -/
theorem C137_pdf (A : Matrix (Fin n) (Fin n) ℝ) (hA : A.det ≠ 0) (x z : Fin n → ℝ) :
    pdf A x z = (if 0 < A.det then 1 else -1) * Real.exp (logDensity (sigma A) x z + n / 2 * Real.log (2 * Real.pi)) := by
  rw [logDensity_factor]
  unfold pdf
  simp only
  generalize ((A⁻¹)ᵀ *ᵥ (z - x)) ⬝ᵥ ((A⁻¹)ᵀ *ᵥ (z - x)) = q
  rw [sub_add_cancel, Real.exp_sub, show (-0.5 * q : ℝ) = -(1 / 2) * q by norm_num]
  split_ifs with h
  · rw [Real.exp_log h, one_mul]
  · have : A.det < 0 := lt_of_le_of_ne (not_lt.1 h) hA
    rw [← Real.log_neg_eq_log, Real.exp_log (by linarith)]
    rw [div_neg, neg_one_mul, neg_neg]

/-- **C137 violated: negative densities.** The determinant can become negative, and with it the densities: here in one step with a learning rate of 1 from the identity, with two samples. -/
theorem C137_negation_pdf :
    let phi : Fin 2 → Fin 1 × Fin 1 → ℝ := fun i p => logDerivFactorSigma (![![0], ![2]] i) 0 (sigma 1)⁻¹ (1 : Matrix (Fin 1) (Fin 1) ℝ) p.1 p.2
    let s := step 1 1 ((0 : Fin 1 → ℝ), (1 : Matrix (Fin 1) (Fin 1) ℝ)) 0 (Matrix.of fun i j => gradient phi ![1, 0] (i, j))
    s.2.det = -1 / 5 ∧ ∀ z, pdf s.2 s.1 z < 0 := by
  intro phi s
  have h : s.2.det = -1 / 5 := by
    have hp : ∀ i p, phi i p = (![-1, 3] : Fin 2 → ℝ) i := by
      intro i p
      have h1 : (sigma (1 : Matrix (Fin 1) (Fin 1) ℝ))⁻¹ = 1 := by simp [sigma]
      obtain ⟨a, b⟩ := p
      fin_cases i <;> fin_cases a <;> fin_cases b <;> simp [phi, logDerivFactorSigma, h1, vecMulVec_apply] <;> norm_num
    rw [det_unique]
    simp [s, step, gradient, baseline, hp, Fin.sum_univ_two]
    norm_num
  refine ⟨h, fun z => ?_⟩
  unfold pdf
  simp only
  rw [h]
  exact div_neg_of_pos_of_neg (Real.exp_pos _) (by norm_num)

/-- **C137 violated: the initial point** is not where the search starts. -/
theorem C137_negation_start (lo hi : Fin n → ℝ) (chol : Matrix (Fin n) (Fin n) ℝ) (x0 x0' r : Fin n → ℝ) : start lo hi chol x0 r = start lo hi chol x0' r := rfl

/-- expectations by nine points in the plane -/
noncomputable def ninePoints : ((Fin 2 → ℝ) → ℝ) →ₗ[ℝ] ℝ where
  toFun f := ∑ i : Fin 3, ∑ j : Fin 3, ![1 / 6, 2 / 3, 1 / 6] i * ![1 / 6, 2 / 3, 1 / 6] j * f ![![-√3, 0, √3] i, ![-√3, 0, √3] j]
  map_add' f g := by simp only [Pi.add_apply, mul_add, Finset.sum_add_distrib]
  map_smul' c f := by simp only [Pi.smul_apply, smul_eq_mul, Finset.mul_sum, RingHom.id_apply]; exact Finset.sum_congr rfl fun i _ => Finset.sum_congr rfl fun j _ => by ring

/-- the hypotheses are met: such an expectation exists, and an upper triangular factor with a determinant that is not zero -/
example : StandardNormal ninePoints ∧ (!![2, 1; 0, 3] : Matrix (Fin 2) (Fin 2) ℝ).det ≠ 0 ∧ ∀ i j : Fin 2, j < i → (!![2, 1; 0, 3] : Matrix (Fin 2) (Fin 2) ℝ) i j = 0 := by
  have h3 : √(3 : ℝ) * √3 = 3 := Real.mul_self_sqrt (by norm_num)
  have h4 : √(3 : ℝ) ^ 2 = 3 := Real.sq_sqrt (by norm_num)
  have h5 : √(3 : ℝ) ^ 4 = 9 := by rw [show 4 = 2 * 2 by rfl, pow_mul, h4]; norm_num
  refine ⟨⟨?_, ?_, ?_⟩, by simp [det_fin_two], ?_⟩
  · simp [ninePoints, Fin.sum_univ_three]; norm_num
  · intro a b
    fin_cases a <;> fin_cases b <;> simp [ninePoints, Fin.sum_univ_three] <;> ring_nf <;> (try rw [h4]) <;> norm_num
  · intro a b c d
    fin_cases a <;> fin_cases b <;> fin_cases c <;> fin_cases d <;> simp [ninePoints, Fin.sum_univ_three] <;> ring_nf <;> (try rw [h5]) <;> (try rw [h4]) <;> norm_num
  · intro i j h
    fin_cases i <;> fin_cases j <;> simp_all

end Verif.Props
