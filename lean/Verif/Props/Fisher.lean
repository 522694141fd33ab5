import Verif.Model.Fisher
import Verif.Lemmas.VES
import Verif.Props.VES
/-
Properties of the Fisher information of Gaussian distributions.
-/
namespace Verif.Fisher

open Matrix Verif.VES Verif.VES.Spec

/-- Two blocks are inverse to each other. -/
def Inverse (a b : Block) : Prop := ∃ (m : ℕ) (A B : Matrix (Fin m) (Fin m) ℝ), a = ⟨m, A⟩ ∧ b = ⟨m, B⟩ ∧ A * B = 1 ∧ B * A = 1

theorem invLoop_spec (d : ℕ) : ∀ (S : Matrix (Fin (d + 1)) (Fin (d + 1)) ℝ) (f : Fin (d + 1) → ℝ), S.PosDef →
    S * (invLoop d S f).2 = 1 ∧ (∀ i j, (invLoop d S f).2 i j = (invLoop d S f).2 j i) ∧ List.Forall₂ Inverse (fimLoop (d + 1) S f) (invLoop d S f).1 := by
  induction d with
  | zero =>
    intro S f hS
    have h0 : 0 < S 0 0 := hS.diag_pos
    have hz : ∀ i : Fin (0 + 1), i = 0 := fun i => Fin.ext (by omega)
    have hp : S 0 0 + (f 0 ^ 2)⁻¹ ≠ 0 := by positivity
    refine ⟨?_, ?_, ?_⟩
    · ext i j
      rw [hz i, hz j, mul_apply]
      simp [invLoop, h0.ne']
    · intro i j; rfl
    · refine .cons ⟨1, _, _, rfl, rfl, ?_, ?_⟩ .nil <;> ext i j <;> rw [hz i, hz j, mul_apply] <;> simp [hp]
  | succ d ih =>
    intro S f hS
    have hsym : ∀ i j, S i j = S j i := fun i j => by have := hS.isHermitian.apply i j; simpa using this.symm
    have hS' : (S.submatrix Fin.succ Fin.succ).PosDef := hS.submatrix (Fin.succ_injective _)
    obtain ⟨i1, i2, i3⟩ := ih (S.submatrix Fin.succ Fin.succ) (fun i => f i.succ) hS'
    have h0 : 0 < S 0 0 := hS.diag_pos
    generalize hn : invLoop d (S.submatrix Fin.succ Fin.succ) (fun i => f i.succ) = rest at *
    obtain ⟨V, D⟩ := rest
    simp only at i1 i2 i3
    have hpos : 0 < S 0 0 - (fun i : Fin (d + 1) => S i.succ 0) ⬝ᵥ (D *ᵥ fun i => S i.succ 0) := by
      set p : Fin (d + 1) → ℝ := fun i => S i.succ 0 with hp
      have hMq : (S.submatrix Fin.succ Fin.succ) *ᵥ (D *ᵥ p) = p := by rw [mulVec_mulVec, i1, one_mulVec]
      generalize D *ᵥ p = q at *
      have hx := hS.dotProduct_mulVec_pos (x := Fin.cons 1 (fun i => -q i)) (by intro h; have := congrFun h 0; simp at this)
      have e0 : (S *ᵥ Fin.cons 1 (fun i => -q i)) 0 = S 0 0 - p ⬝ᵥ q := by
        simp only [mulVec, dotProduct, Fin.sum_univ_succ (n := d + 1), Fin.cons_zero, Fin.cons_succ, mul_one]
        rw [sub_eq_add_neg, ← Finset.sum_neg_distrib]
        congr 1
        exact Finset.sum_congr rfl fun i _ => by rw [hp, hsym 0 i.succ]; ring
      have e1 : ∀ i : Fin (d + 1), (S *ᵥ Fin.cons 1 (fun i => -q i)) i.succ = 0 := by
        intro i
        have hi := congrFun hMq i
        simp only [mulVec, dotProduct, submatrix_apply] at hi
        simp only [mulVec, dotProduct, Fin.sum_univ_succ (n := d + 1), Fin.cons_zero, Fin.cons_succ, mul_one]
        have : ∑ x : Fin (d + 1), S i.succ x.succ * -q x = -∑ x : Fin (d + 1), S i.succ x.succ * q x := by
          rw [← Finset.sum_neg_distrib]
          exact Finset.sum_congr rfl fun i _ => by ring
        rw [this, hi, hp]
        ring
      rw [dotProduct, Fin.sum_univ_succ, e0] at hx
      simpa [e1] using hx
    have hposg : 0 < S 0 0 + (f 0 ^ 2)⁻¹ - (fun i : Fin (d + 1) => S i.succ 0) ⬝ᵥ (D *ᵥ fun i => S i.succ 0) := by
      have : 0 ≤ (f 0 ^ 2)⁻¹ := by positivity
      linarith
    have inv0 := combine_inv (S 0 0) (fun i : Fin (d + 1) => S i.succ 0) _ D i1 h0.ne' hpos.ne' i2
    have invg := combine_inv (S 0 0 + (f 0 ^ 2)⁻¹) (fun i : Fin (d + 1) => S i.succ 0) _ D i1 (by positivity) hposg.ne' i2
    have c0 := combine_self S hsym 0
    simp only [add_zero, ite_self] at c0
    rw [c0] at inv0
    rw [combine_self S hsym] at invg
    have hzero : (S + Matrix.of fun _ _ => (0 : ℝ)) = S := by ext; simp
    rw [hzero] at inv0
    refine ⟨?_, ?_, ?_⟩
    · rw [invLoop, hn]
      exact inv0
    · rw [invLoop, hn]
      intro i j
      refine Fin.cases ?_ (fun i => ?_) i <;> refine Fin.cases ?_ (fun j => ?_) j <;> simp [combine, vecMulVec_apply]
      rw [i2 i j]
      ring
    · rw [invLoop, hn, fimLoop]
      refine .cons ⟨d + 2, _, _, rfl, rfl, invg, mul_eq_one_comm.1 invg⟩ i3

/-- The blocks of the loop. -/
theorem fimLoop_get : ∀ (n : ℕ) (S : Matrix (Fin n) (Fin n) ℝ) (f : Fin n → ℝ) (k : ℕ) (_ : k < n), ∃ (m : ℕ) (hm : k + m = n) (B : Matrix (Fin m) (Fin m) ℝ), (fimLoop n S f)[k]? = some ⟨m, B⟩ ∧
    ∀ a b : Fin m, B a b = S ⟨k + a, by omega⟩ ⟨k + b, by omega⟩ + if a.val = 0 ∧ b.val = 0 then (f ⟨k, by omega⟩ ^ 2)⁻¹ else 0
  | 0, _, _, k, h => absurd h (by omega)
  | n + 1, S, f, 0, _ => ⟨n + 1, by omega, _, rfl, fun a b => by
      have e : ∀ a : Fin (n + 1), (⟨0 + a.val, by omega⟩ : Fin (n + 1)) = a := fun a => Fin.ext (by simp)
      rw [e a, e b, of_apply]
      simp only [Fin.ext_iff]
      rfl⟩
  | n + 1, S, f, k + 1, h => by
    obtain ⟨m, hm, B, h1, h2⟩ := fimLoop_get n (S.submatrix Fin.succ Fin.succ) (fun i => f i.succ) k (by omega)
    refine ⟨m, by omega, B, h1, fun a b => ?_⟩
    rw [h2 a b]
    have e : ∀ (x : ℕ) (hx : k + x < n), (⟨k + x, hx⟩ : Fin n).succ = ⟨k + 1 + x, by omega⟩ := fun x hx => Fin.ext (by simp; omega)
    simp only [submatrix_apply, e]
    rfl

theorem fimLoop_length : ∀ (n : ℕ) (S : Matrix (Fin n) (Fin n) ℝ) (f : Fin n → ℝ), (fimLoop n S f).length = n
  | 0, _, _ => rfl
  | n + 1, S, f => by simp [fimLoop, fimLoop_length n]

theorem inv_diag {n : ℕ} (A : Matrix (Fin n) (Fin n) ℝ) (hA : A.det ≠ 0) (h : ∀ i j, j < i → A i j = 0) (k : Fin n) : A⁻¹ k k ^ 2 = (A k k ^ 2)⁻¹ := by
  have hu : IsUnit A.det := isUnit_iff_ne_zero.2 hA
  have h1 : (A * A⁻¹) k k = 1 := by rw [mul_nonsing_inv _ hu, one_apply_eq]
  rw [mul_apply, Finset.sum_eq_single k] at h1
  · rw [← inv_pow]
    congr 1
    exact eq_inv_of_mul_eq_one_right h1
  · intro l _ hl
    rcases lt_or_gt_of_ne hl with h' | h'
    · rw [h k l h', zero_mul]
    · rw [inv_upper A hA h l k h', mul_zero]
  · intro h; exact absurd (Finset.mem_univ k) h

end Verif.Fisher

namespace Verif.Props

open Matrix Verif.VES Verif.VES.Spec Verif.Fisher

/-- **C144, inverse.** For every covariance matrix of any dimension, the blocks of `calcInvFisher` are the inverses of the blocks of
`calcFisherInformation`, in the same order, whatever the diagonal of the factor. -/
theorem C144_inverse {m : ℕ} (sigma factorSigma : Matrix (Fin (m + 1)) (Fin (m + 1)) ℝ) (h : sigma.PosDef) :
    List.Forall₂ Inverse (calcFisherInformation sigma factorSigma) (calcInvFisher sigma factorSigma) := by
  have hu : IsUnit sigma.det := (isUnit_iff_isUnit_det _).1 h.isUnit
  exact .cons ⟨m + 1, _, _, rfl, rfl, nonsing_inv_mul _ hu, mul_nonsing_inv _ hu⟩ (invLoop_spec m sigma⁻¹ factorSigma.diag h.inv).2.2

example : (1 : Matrix (Fin 3) (Fin 3) ℝ).PosDef := PosDef.one

/-- **C144, information.** Let the covariance have the invertible upper triangular factor `A`, as computed by `cholesky`.  The first block of
`calcFisherInformation` contains the expectations of the products of the derivatives of the log density with respect to the center, and the
following blocks those for the rows of the factor: the block of row `k` has the size `n - k`, and its entries belong to the elements of the row
from the diagonal on.  `E` is the expectation over the standard normal noise of the samples. -/
theorem C144_information {n : ℕ} (E : ((Fin n → ℝ) → ℝ) →ₗ[ℝ] ℝ) (hE : StandardNormal E) (A : Matrix (Fin n) (Fin n) ℝ) (hA : A.det ≠ 0) (ht : ∀ i j, j < i → A i j = 0) (x : Fin n → ℝ) :
    (calcFisherInformation (sigma A) A).length = n + 1 ∧
    (∃ B : Matrix (Fin n) (Fin n) ℝ, (calcFisherInformation (sigma A) A)[0]? = some ⟨n, B⟩ ∧
      ∀ i j, B i j = E (fun s => logDerivX (newSample A x s) x (sigma A)⁻¹ i * logDerivX (newSample A x s) x (sigma A)⁻¹ j)) ∧
    ∀ k : Fin n, ∃ (m : ℕ) (hm : k.val + m = n) (B : Matrix (Fin m) (Fin m) ℝ), (calcFisherInformation (sigma A) A)[k.val + 1]? = some ⟨m, B⟩ ∧
      ∀ a b : Fin m, B a b = E (fun s => logDerivNES (newSample A x s) x A k ⟨k + a, by omega⟩ * logDerivNES (newSample A x s) x A k ⟨k + b, by omega⟩) := by
  have hu : IsUnit A.det := isUnit_iff_ne_zero.2 hA
  refine ⟨by simp [calcFisherInformation, fimLoop_length], ⟨_, rfl, fun i j => ?_⟩, fun k => ?_⟩
  · have e : ∀ s j, logDerivX (newSample A x s) x (sigma A)⁻¹ j = (A⁻¹ *ᵥ s) j := by
      intro s j
      unfold logDerivX newSample
      rw [add_sub_cancel_right, inv_sigma, mulVec_mulVec, Matrix.mul_assoc, ← transpose_mul, mul_nonsing_inv _ hu, transpose_one, Matrix.mul_one]
    simp only [e]
    have : (fun s => (A⁻¹ *ᵥ s) i * (A⁻¹ *ᵥ s) j) = ∑ m, A⁻¹ i m • fun s : Fin n → ℝ => s m * (A⁻¹ *ᵥ s) j := by
      funext s
      simp only [mulVec, dotProduct, Finset.sum_apply, Pi.smul_apply, smul_eq_mul, Finset.sum_mul, Finset.mul_sum]
      rw [Finset.sum_comm]
      exact Finset.sum_congr rfl fun a _ => Finset.sum_congr rfl fun b _ => by ring
    rw [this, map_sum, inv_sigma, mul_apply]
    exact Finset.sum_congr rfl fun m _ => by rw [map_smul, E_two hE, smul_eq_mul, transpose_apply]
  · obtain ⟨m, hm, B, h1, h2⟩ := fimLoop_get n (sigma A)⁻¹ A.diag k.val k.isLt
    refine ⟨m, hm, B, h1, fun a b => ?_⟩
    rw [h2 a b, fisher hE A hA (inv_upper A hA ht) x k _ k _ (by simp [Fin.le_def]) (by simp [Fin.le_def]), if_pos rfl, inv_sigma, inv_diag A hA ht]
    congr 1
    have e : ∀ a : Fin m, ((⟨k.val + a.val, by omega⟩ : Fin n) = k) ↔ a.val = 0 := fun a => by rw [Fin.ext_iff]; simp
    simp only [e]
    rfl

/-- **C144, block structure.** The information between elements of different rows of the factor is zero, and, as the odd moments of the noise
vanish, so is the information between the center and the factor: the full matrix consists of the blocks. -/
theorem C144_blocks {n : ℕ} (E : ((Fin n → ℝ) → ℝ) →ₗ[ℝ] ℝ) (hE : StandardNormal E) (h1 : ∀ a, E (fun s => s a) = 0) (h3 : ∀ a b c, E (fun s => s a * s b * s c) = 0)
    (A : Matrix (Fin n) (Fin n) ℝ) (hA : A.det ≠ 0) (ht : ∀ i j, j < i → A i j = 0) (x : Fin n → ℝ) :
    (∀ k j k' l, k ≤ j → k' ≤ l → k ≠ k' → E (fun s => logDerivNES (newSample A x s) x A k j * logDerivNES (newSample A x s) x A k' l) = 0) ∧
    ∀ i k j, k ≤ j → E (fun s => logDerivX (newSample A x s) x (sigma A)⁻¹ i * logDerivNES (newSample A x s) x A k j) = 0 := by
  have hu : IsUnit A.det := isUnit_iff_ne_zero.2 hA
  refine ⟨fun k j k' l hj hl hne => by rw [fisher hE A hA (inv_upper A hA ht) x k j k' l hj hl, if_neg hne], fun i k j _ => ?_⟩
  have e : ∀ s j, logDerivX (newSample A x s) x (sigma A)⁻¹ j = (A⁻¹ *ᵥ s) j := by
    intro s j
    unfold logDerivX newSample
    rw [add_sub_cancel_right, inv_sigma, mulVec_mulVec, Matrix.mul_assoc, ← transpose_mul, mul_nonsing_inv _ hu, transpose_one, Matrix.mul_one]
  have : (fun s => logDerivX (newSample A x s) x (sigma A)⁻¹ i * logDerivNES (newSample A x s) x A k j) =
      (∑ m, ∑ l, (A⁻¹ i m * A⁻¹ j l) • fun s : Fin n → ℝ => s m * s k * s l) - ∑ m, ((if k = j then A⁻¹ k k else 0) * A⁻¹ i m) • fun s : Fin n → ℝ => s m := by
    funext s
    rw [e, logDeriv_sample A hA]
    simp only [Pi.sub_apply, Finset.sum_apply, Pi.smul_apply, smul_eq_mul, mulVec, dotProduct, Finset.mul_sum, Finset.sum_mul, mul_sub]
    congr 1
    · rw [Finset.sum_comm]
      exact Finset.sum_congr rfl fun a _ => Finset.sum_congr rfl fun b _ => by ring
    · exact Finset.sum_congr rfl fun a _ => by ring
  rw [this, map_sub, map_sum, map_sum]
  simp only [map_sum, map_smul, h1, h3, smul_zero, Finset.sum_const_zero, sub_zero]

example : (∀ a, ninePoints (fun s => s a) = 0) ∧ ∀ a b c, ninePoints (fun s => s a * s b * s c) = 0 := by
  constructor
  · intro a
    fin_cases a <;> simp [ninePoints, Fin.sum_univ_three]
    ring
  · intro a b c
    fin_cases a <;> fin_cases b <;> fin_cases c <;> simp [ninePoints, Fin.sum_univ_three] <;> ring

end Verif.Props
