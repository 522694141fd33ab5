import Verif.Model.VES
import Verif.Spec.VES
import Mathlib.LinearAlgebra.Matrix.PosDef
import Mathlib.LinearAlgebra.Matrix.SchurComplement
import Mathlib.LinearAlgebra.Matrix.Block
import Mathlib.Algebra.Order.Star.Real
import Mathlib.Analysis.SpecialFunctions.Log.Deriv
import Mathlib.Tactic.FieldSimp
import Mathlib.Tactic.LinearCombination
/-
Lemmas for C137.
-/
namespace Verif.VES
open Matrix

/-- The inverse of a matrix with a border: number `w`, vector `p` and matrix `M`, where `D` is the inverse of `M` -/
theorem combine_inv {d : ℕ} (w : ℝ) (p : Fin d → ℝ) (M D : Matrix (Fin d) (Fin d) ℝ) (hD : M * D = 1) (hw : w ≠ 0) (hc : w - p ⬝ᵥ (D *ᵥ p) ≠ 0) (hs : ∀ i j, D i j = D j i) :
    combine w p M * combine (1 / (w - p ⬝ᵥ (D *ᵥ p))) ((-(1 + 1 / (w - p ⬝ᵥ (D *ᵥ p)) * (p ⬝ᵥ (D *ᵥ p))) / w) • (D *ᵥ p)) (D + (1 / (w - p ⬝ᵥ (D *ᵥ p))) • vecMulVec (D *ᵥ p) (D *ᵥ p)) = 1 := by
  have hMq : M *ᵥ (D *ᵥ p) = p := by rw [mulVec_mulVec, hD, one_mulVec]
  have hq : ∀ j, p ⬝ᵥ (fun i => D i j) = (D *ᵥ p) j := by
    intro j
    unfold mulVec dotProduct
    exact Finset.sum_congr rfl fun i _ => by show p i * D i j = D j i * p i; rw [hs j i, mul_comm]
  generalize D *ᵥ p = q at *
  have ht : -(1 + 1 / (w - p ⬝ᵥ q) * (p ⬝ᵥ q)) / w = -(1 / (w - p ⬝ᵥ q)) := by field_simp; ring
  rw [ht]
  generalize hr : 1 / (w - p ⬝ᵥ q) = r
  have hr1 : r * (w - p ⬝ᵥ q) = 1 := by rw [← hr]; field_simp
  ext i j
  rw [mul_apply, Fin.sum_univ_succ]
  refine Fin.cases ?_ (fun i => ?_) i <;> refine Fin.cases ?_ (fun j => ?_) j
  · simp only [combine, of_apply, Fin.cons_zero, Fin.cons_succ, one_apply_eq, Pi.smul_apply, smul_eq_mul]
    have : ∑ i, p i * (-r * q i) = -r * (p ⬝ᵥ q) := by
      unfold dotProduct
      rw [Finset.mul_sum]
      exact Finset.sum_congr rfl fun i _ => by ring
    rw [this]
    linear_combination hr1
  · simp only [combine, of_apply, Fin.cons_zero, Fin.cons_succ, Pi.smul_apply, smul_eq_mul, Matrix.add_apply, Matrix.smul_apply, vecMulVec_apply]
    rw [one_apply_ne (Fin.succ_ne_zero j).symm]
    have : ∑ i, p i * (D i j + r * (q i * q j)) = q j + r * q j * (p ⬝ᵥ q) := by
      rw [← hq j]
      unfold dotProduct
      rw [Finset.mul_sum, ← Finset.sum_add_distrib]
      exact Finset.sum_congr rfl fun i _ => by ring
    rw [this]
    linear_combination -q j * hr1
  · simp only [combine, of_apply, Fin.cons_zero, Fin.cons_succ, Pi.smul_apply, smul_eq_mul]
    rw [one_apply_ne (Fin.succ_ne_zero i)]
    have : ∑ k, M i k * (-r * q k) = -r * p i := by
      rw [← congrFun hMq i]
      unfold mulVec dotProduct
      rw [Finset.mul_sum]
      exact Finset.sum_congr rfl fun i _ => by ring
    rw [this]
    ring
  · simp only [combine, of_apply, Fin.cons_zero, Fin.cons_succ, Pi.smul_apply, smul_eq_mul, Matrix.add_apply, Matrix.smul_apply, vecMulVec_apply]
    have h1 : (1 : Matrix (Fin (d + 1)) (Fin (d + 1)) ℝ) i.succ j.succ = (M * D) i j := by
      rw [hD, one_apply, one_apply]; simp
    have : ∑ k, M i k * (D k j + r * (q k * q j)) = (M * D) i j + r * q j * p i := by
      rw [← congrFun hMq i, mul_apply]
      unfold mulVec dotProduct
      rw [Finset.mul_sum, ← Finset.sum_add_distrib]
      exact Finset.sum_congr rfl fun i _ => by ring
    rw [this, h1]
    ring

/-- A symmetric matrix is a combination -/
theorem combine_self {d : ℕ} (S : Matrix (Fin (d + 1)) (Fin (d + 1)) ℝ) (hs : ∀ i j, S i j = S j i) (e : ℝ) :
    combine (S 0 0 + e) (fun i => S i.succ 0) (S.submatrix Fin.succ Fin.succ) = S + Matrix.of fun i j => if i = 0 ∧ j = 0 then e else 0 := by
  ext i j
  refine Fin.cases ?_ (fun i => ?_) i <;> refine Fin.cases ?_ (fun j => ?_) j <;> simp [combine]
  exact hs _ _

theorem sum_le_zero {d : ℕ} (f : Fin (d + 1) → ℝ) : (∑ l, if 0 ≤ l then f l else 0) = ∑ l, f l := Finset.sum_congr rfl fun l _ => if_pos (Fin.zero_le l)

theorem sum_le_succ {d : ℕ} (k : Fin d) (f : Fin (d + 1) → ℝ) : (∑ l, if k.succ ≤ l then f l else 0) = ∑ l : Fin d, if k ≤ l then f l.succ else 0 := by
  rw [Fin.sum_univ_succ, if_neg (by simp), zero_add]
  exact Finset.sum_congr rfl fun l _ => by simp

/-- The loop computes the inverse of `invSigma`, and every row of the new column solves the equations of its block. -/
theorem natural_spec (d : ℕ) : ∀ (S : Matrix (Fin (d + 1)) (Fin (d + 1)) ℝ) (a : Fin (d + 1) → ℝ) (R : Matrix (Fin (d + 1)) (Fin (d + 1)) ℝ), S.PosDef →
    S * (natural d S a R).1 = 1 ∧ (∀ i j, (natural d S a R).1 i j = (natural d S a R).1 j i) ∧
    ∀ k j, k ≤ j → (∑ l, if k ≤ l then (S j l + if j = k ∧ l = k then a k ^ 2 else 0) * (natural d S a R).2 k l else 0) = R k j := by
  induction d with
  | zero =>
    intro S a R hS
    have h0 : 0 < S 0 0 := hS.diag_pos
    have hz : ∀ i : Fin (0 + 1), i = 0 := fun i => Fin.ext (by omega)
    refine ⟨?_, ?_, ?_⟩
    · ext i j
      rw [hz i, hz j, mul_apply]
      simp [natural, h0.ne']
    · intro i j; rfl
    · intro k j _
      rw [hz k, hz j]
      have : S 0 0 + a 0 ^ 2 ≠ 0 := by positivity
      simp [natural]
      field_simp
  | succ d ih =>
    intro S a R hS
    have hsym : ∀ i j, S i j = S j i := fun i j => by have := hS.isHermitian.apply i j; simpa using this.symm
    have hS' : (S.submatrix Fin.succ Fin.succ).PosDef := hS.submatrix (Fin.succ_injective _)
    obtain ⟨i1, i2, i3⟩ := ih (S.submatrix Fin.succ Fin.succ) (fun i => a i.succ) (R.submatrix Fin.succ Fin.succ) hS'
    have h0 : 0 < S 0 0 := hS.diag_pos
    generalize hn : natural d (S.submatrix Fin.succ Fin.succ) (fun i => a i.succ) (R.submatrix Fin.succ Fin.succ) = rest at *
    obtain ⟨D, V⟩ := rest
    simp only at i1 i2 i3
    -- the Schur complement is positive
    have hpos : 0 < S 0 0 - (fun i : Fin (d + 1) => S i.succ 0) ⬝ᵥ (D *ᵥ fun i => S i.succ 0) := by
      set p : Fin (d + 1) → ℝ := fun i => S i.succ 0 with hp
      have hMq : (S.submatrix Fin.succ Fin.succ) *ᵥ (D *ᵥ p) = p := by rw [mulVec_mulVec, i1, one_mulVec]
      generalize D *ᵥ p = q at *
      have hx := hS.dotProduct_mulVec_pos (x := Fin.cons 1 (fun i => -q i)) (by intro h; have := congrFun h 0; simp at this)
      have e0 : (S *ᵥ Fin.cons 1 (fun i => -q i)) 0 = S 0 0 - p ⬝ᵥ q := by
        simp only [mulVec, dotProduct, Fin.sum_univ_succ (n := d + 1), Fin.cons_zero, Fin.cons_succ, mul_one]
        rw [sub_eq_add_neg, ← Finset.sum_neg_distrib]
        congr 1
        exact Finset.sum_congr rfl fun i _ => by rw [hp, hsym 0 i.succ]; ring
      have e1 : ∀ i : Fin (d + 1), (S *ᵥ Fin.cons 1 (fun i => -q i)) i.succ = 0 := by
        intro i
        have hi := congrFun hMq i
        simp only [mulVec, dotProduct, submatrix_apply] at hi
        simp only [mulVec, dotProduct, Fin.sum_univ_succ (n := d + 1), Fin.cons_zero, Fin.cons_succ, mul_one]
        have : ∑ x : Fin (d + 1), S i.succ x.succ * -q x = -∑ x : Fin (d + 1), S i.succ x.succ * q x := by
          rw [← Finset.sum_neg_distrib]
          exact Finset.sum_congr rfl fun i _ => by ring
        rw [this, hi, hp]
        ring
      rw [dotProduct, Fin.sum_univ_succ, e0] at hx
      simpa [e1] using hx
    have hposg : 0 < S 0 0 + a 0 ^ 2 - (fun i : Fin (d + 1) => S i.succ 0) ⬝ᵥ (D *ᵥ fun i => S i.succ 0) := by have := sq_nonneg (a 0); linarith
    have inv0 := combine_inv (S 0 0) (fun i : Fin (d + 1) => S i.succ 0) _ D i1 h0.ne' hpos.ne' i2
    have invg := combine_inv (S 0 0 + a 0 ^ 2) (fun i : Fin (d + 1) => S i.succ 0) _ D i1 (by positivity) hposg.ne' i2
    have c0 := combine_self S hsym 0
    simp only [add_zero, ite_self] at c0
    rw [c0] at inv0
    rw [combine_self S hsym] at invg
    have hzero : (S + Matrix.of fun _ _ => (0 : ℝ)) = S := by ext; simp
    rw [hzero] at inv0
    refine ⟨?_, ?_, ?_⟩
    · rw [natural, hn]
      exact inv0
    · rw [natural, hn]
      intro i j
      refine Fin.cases ?_ (fun i => ?_) i <;> refine Fin.cases ?_ (fun j => ?_) j <;> simp [combine, vecMulVec_apply]
      rw [i2 i j]
      ring
    · intro k j hkj
      rw [natural, hn]
      simp only [of_apply]
      generalize combine (1 / (S 0 0 + a 0 ^ 2 - _)) _ _ = G at *
      revert hkj
      refine Fin.cases ?_ (fun k => ?_) k
      · intro _
        rw [sum_le_zero]
        simp only [Fin.cons_zero]
        have : ((S + Matrix.of fun i j => if i = 0 ∧ j = 0 then a 0 ^ 2 else 0) * G) *ᵥ R 0 = R 0 := by rw [invg, one_mulVec]
        rw [← mulVec_mulVec] at this
        exact congrFun this j
      · refine Fin.cases ?_ (fun j => ?_) j
        · intro h; simp at h
        · intro h
          rw [sum_le_succ]
          simp only [Fin.cons_succ, Fin.succ_inj]
          exact i3 k j (by simpa using h)

section Fisher
variable {n : ℕ}
open Verif.VES.Spec

theorem E_two {E : ((Fin n → ℝ) → ℝ) →ₗ[ℝ] ℝ} (hE : StandardNormal E) (B : Matrix (Fin n) (Fin n) ℝ) (a j : Fin n) : E (fun s => s a * (B *ᵥ s) j) = B j a := by
  have : (fun s : Fin n → ℝ => s a * (B *ᵥ s) j) = ∑ m, B j m • fun s : Fin n → ℝ => s a * s m := by
    funext s
    simp only [mulVec, dotProduct, Finset.sum_apply, Pi.smul_apply, smul_eq_mul, Finset.mul_sum]
    exact Finset.sum_congr rfl fun m _ => by ring
  rw [this, map_sum]
  simp only [map_smul, hE.two, smul_eq_mul]
  simp

theorem E_four {E : ((Fin n → ℝ) → ℝ) →ₗ[ℝ] ℝ} (hE : StandardNormal E) (B : Matrix (Fin n) (Fin n) ℝ) (a b j l : Fin n) :
    E (fun s => s a * (B *ᵥ s) j * (s b * (B *ᵥ s) l)) = (if a = b then (B * Bᵀ) j l else 0) + B j a * B l b + B j b * B l a := by
  have : (fun s : Fin n → ℝ => s a * (B *ᵥ s) j * (s b * (B *ᵥ s) l)) = ∑ m, ∑ m', (B j m * B l m') • fun s : Fin n → ℝ => s a * s m * s b * s m' := by
    funext s
    simp only [mulVec, dotProduct, Finset.sum_apply, Pi.smul_apply, smul_eq_mul, Finset.mul_sum, Finset.sum_mul]
    rw [Finset.sum_comm]
    exact Finset.sum_congr rfl fun m _ => Finset.sum_congr rfl fun m' _ => by ring
  rw [this, map_sum]
  simp only [map_sum, map_smul, hE.four, smul_eq_mul, mul_add, Finset.sum_add_distrib]
  simp only [mul_ite, ite_mul, mul_one, mul_zero, zero_mul, one_mul, Finset.sum_ite_eq, Finset.sum_ite_eq', Finset.mem_univ, if_true]
  have e : ∀ (c : Prop) [Decidable c] (f : Fin n → Fin n → ℝ), (∑ x, ∑ y, if c then (if x = y then f x y else 0) else 0) = if c then ∑ x, f x x else 0 := by
    intro c _ f
    split_ifs <;> simp
  simp [mul_apply]
  split_ifs <;> ring_nf

/-- what is computed from a sample that was drawn with noise `s` -/
theorem logDeriv_sample (A : Matrix (Fin n) (Fin n) ℝ) (hA : A.det ≠ 0) (x s : Fin n → ℝ) (i j : Fin n) :
    logDerivNES (newSample A x s) x A i j = s i * (A⁻¹ *ᵥ s) j - if i = j then A⁻¹ i i else 0 := by
  have hu : IsUnit A.det := isUnit_iff_ne_zero.2 hA
  have e : (A⁻¹)ᵀ *ᵥ (newSample A x s - x) = s := by
    unfold newSample
    rw [add_sub_cancel_right, mulVec_mulVec, ← transpose_mul, mul_nonsing_inv _ hu, transpose_one, one_mulVec]
  unfold logDerivNES
  rw [e]
  simp only [Matrix.sub_apply, vecMulVec_apply, diagonal_apply, diag_apply]

/-- The Fisher information of two entries of the upper triangle -/
theorem fisher {E : ((Fin n → ℝ) → ℝ) →ₗ[ℝ] ℝ} (hE : StandardNormal E) (A : Matrix (Fin n) (Fin n) ℝ) (hA : A.det ≠ 0) (ht : ∀ i j, j < i → A⁻¹ i j = 0) (x : Fin n → ℝ) (k j k' l : Fin n) (hj : k ≤ j)
    (hl : k' ≤ l) : E (fun s => logDerivNES (newSample A x s) x A k j * logDerivNES (newSample A x s) x A k' l) =
      if k = k' then (A⁻¹ * (A⁻¹)ᵀ) j l + (if j = k ∧ l = k then A⁻¹ k k ^ 2 else 0) else 0 := by
  have : (fun s => logDerivNES (newSample A x s) x A k j * logDerivNES (newSample A x s) x A k' l) =
      (fun s => s k * (A⁻¹ *ᵥ s) j * (s k' * (A⁻¹ *ᵥ s) l)) - (if k' = l then A⁻¹ k' k' else 0) • (fun s => s k * (A⁻¹ *ᵥ s) j) - (if k = j then A⁻¹ k k else 0) • (fun s => s k' * (A⁻¹ *ᵥ s) l) +
      ((if k = j then A⁻¹ k k else 0) * (if k' = l then A⁻¹ k' k' else 0)) • fun _ => 1 := by
    funext s
    simp only [logDeriv_sample A hA, Pi.add_apply, Pi.sub_apply, Pi.smul_apply, smul_eq_mul]
    ring
  rw [this, map_add, map_sub, map_sub, map_smul, map_smul, map_smul, E_four hE, E_two hE, E_two hE, hE.one]
  generalize A⁻¹ = B at *
  have d : ∀ a b : Fin n, a ≤ b → B b a = if a = b then B a a else 0 := by
    intro a b h
    split_ifs with he
    · rw [he]
    · exact ht b a (lt_of_le_of_ne h he)
  rw [d k j hj, d k' l hl]
  simp only [smul_eq_mul, mul_one]
  by_cases hk : k = k'
  · subst hk
    rw [d k j hj, d k l hl, if_pos rfl, if_pos rfl]
    by_cases h1 : k = j <;> by_cases h2 : k = l
    · subst h1; subst h2; simp; ring
    · subst h1; simp [h2, Ne.symm h2]
    · subst h2; simp [h1, Ne.symm h1]
    · simp [h1, h2, Ne.symm h1]
  · rw [if_neg hk, if_neg hk]
    have : B j k' * B l k = 0 := by
      rcases lt_or_gt_of_ne hk with h | h
      · rw [ht l k (lt_of_lt_of_le h hl), mul_zero]
      · rw [ht j k' (lt_of_lt_of_le h hj), zero_mul]
    rw [this]
    ring

theorem inv_upper (A : Matrix (Fin n) (Fin n) ℝ) (hA : A.det ≠ 0) (h : ∀ i j, j < i → A i j = 0) : ∀ i j, j < i → A⁻¹ i j = 0 := by
  have hu : IsUnit A.det := isUnit_iff_ne_zero.2 hA
  haveI := A.invertibleOfIsUnitDet hu
  have : BlockTriangular A id := fun i j hij => h i j hij
  have := blockTriangular_inv_of_blockTriangular this
  intro i j hij
  exact this hij

theorem inv_sigma (A : Matrix (Fin n) (Fin n) ℝ) : (sigma A)⁻¹ = A⁻¹ * (A⁻¹)ᵀ := by
  unfold sigma
  rw [Matrix.mul_inv_rev, transpose_nonsing_inv]

theorem sigma_posDef (A : Matrix (Fin n) (Fin n) ℝ) (hA : A.det ≠ 0) : (sigma A).PosDef := by
  have hu : IsUnit A.det := isUnit_iff_ne_zero.2 hA
  have := Matrix.PosDef.conjTranspose_mul_self A (mulVec_injective_iff_isUnit.2 ((isUnit_iff_isUnit_det A).2 hu))
  simpa [sigma, conjTranspose_eq_transpose_of_trivial] using this

end Fisher

section Density
variable {n : ℕ}
open Verif.VES.Spec

/-- The inverse and the determinant after a change of one entry -/
theorem change_entry (A : Matrix (Fin n) (Fin n) ℝ) (hA : A.det ≠ 0) (i j : Fin n) (t : ℝ) (ht : 1 + t * A⁻¹ j i ≠ 0) :
    (A + t • single i j (1 : ℝ)).det = A.det * (1 + t * A⁻¹ j i) ∧
    (A + t • single i j (1 : ℝ))⁻¹ = A⁻¹ - (t / (1 + t * A⁻¹ j i)) • vecMulVec (fun a => A⁻¹ a i) (fun b => A⁻¹ j b) := by
  have hu : IsUnit A.det := isUnit_iff_ne_zero.2 hA
  have hs : single i j (1 : ℝ) = vecMulVec (Pi.single i 1) (Pi.single j 1) := by
    ext a b
    simp only [vecMulVec_apply, single_apply, Pi.single_apply]
    by_cases h1 : a = i
    · subst h1
      by_cases h2 : b = j
      · subst h2; simp
      · simp [h2, Ne.symm h2]
    · simp [h1, Ne.symm h1]
  constructor
  · have hr : t • single i j (1 : ℝ) = replicateCol Unit (t • Pi.single i (1 : ℝ)) * replicateRow Unit (Pi.single j (1 : ℝ)) := by
      rw [hs]
      ext a b
      simp [vecMulVec_apply, mul_apply]
      ring
    rw [hr, det_add_replicateCol_mul_replicateRow hu]
    congr 1
    rw [det_unique (n := Unit)]
    simp [mul_apply, Pi.single_apply]
  · refine inv_eq_left_inv ?_
    rw [hs]
    have h1 : A⁻¹ * A = 1 := nonsing_inv_mul _ hu
    have e1 : vecMulVec (fun a => A⁻¹ a i) (fun b => A⁻¹ j b) * A = vecMulVec (fun a => A⁻¹ a i) (Pi.single j 1) := by
      ext a b
      have := congrFun (congrFun h1 j) b
      rw [mul_apply] at this
      simp only [mul_apply, vecMulVec_apply, mul_assoc, ← Finset.mul_sum]
      rw [this, one_apply, Pi.single_apply]
      simp only [eq_comm]
    have e2 : A⁻¹ * vecMulVec (Pi.single i (1 : ℝ)) (Pi.single j 1) = vecMulVec (fun a => A⁻¹ a i) (Pi.single j 1) := by
      ext a b
      simp only [mul_apply, vecMulVec_apply, Pi.single_apply]
      simp
    have e3 : vecMulVec (fun a => A⁻¹ a i) (fun b => A⁻¹ j b) * vecMulVec (Pi.single i (1 : ℝ)) (Pi.single j 1) = A⁻¹ j i • vecMulVec (fun a => A⁻¹ a i) (Pi.single j (1 : ℝ)) := by
      ext a b
      simp only [mul_apply, vecMulVec_apply, Pi.single_apply, Matrix.smul_apply, smul_eq_mul]
      simp [mul_comm]
    rw [sub_mul, mul_add, mul_add, h1, Matrix.smul_mul, Matrix.smul_mul, Matrix.mul_smul, Matrix.mul_smul, e1, e2, e3]
    ext a b
    simp only [Matrix.add_apply, Matrix.sub_apply, Matrix.smul_apply, smul_eq_mul]
    field_simp
    ring

/-- The logarithm of the density in terms of the inverse factor -/
theorem logDensity_factor (A : Matrix (Fin n) (Fin n) ℝ) (mu x : Fin n → ℝ) :
    logDensity (sigma A) mu x = -(1 / 2) * (((A⁻¹)ᵀ *ᵥ (x - mu)) ⬝ᵥ ((A⁻¹)ᵀ *ᵥ (x - mu))) - Real.log A.det - n / 2 * Real.log (2 * Real.pi) := by
  unfold logDensity
  rw [inv_sigma]
  have h1 : (x - mu) ⬝ᵥ ((A⁻¹ * (A⁻¹)ᵀ) *ᵥ (x - mu)) = ((A⁻¹)ᵀ *ᵥ (x - mu)) ⬝ᵥ ((A⁻¹)ᵀ *ᵥ (x - mu)) := by
    rw [← mulVec_mulVec, dotProduct_mulVec, ← mulVec_transpose]
  have h2 : Real.log (sigma A).det = 2 * Real.log A.det := by
    unfold sigma
    rw [det_mul, det_transpose, ← pow_two, Real.log_pow]
    norm_num
  rw [h1, h2]
  ring

theorem deriv_factor (A : Matrix (Fin n) (Fin n) ℝ) (hA : A.det ≠ 0) (mu x : Fin n → ℝ) (i j : Fin n) :
    HasDerivAt (fun t : ℝ => logDensity (sigma (A + t • single i j (1 : ℝ))) mu x)
      (((A⁻¹)ᵀ *ᵥ (x - mu)) i * (A⁻¹ *ᵥ ((A⁻¹)ᵀ *ᵥ (x - mu))) j - A⁻¹ j i) 0 := by
  set s := (A⁻¹)ᵀ *ᵥ (x - mu) with hs
  set β := A⁻¹ j i with hβ
  have hev : ∀ᶠ t : ℝ in nhds 0, 1 + t * β ≠ 0 := by
    have : ContinuousAt (fun t : ℝ => 1 + t * β) 0 := by fun_prop
    exact this.eventually_ne (by simp)
  have heq : (fun t : ℝ => logDensity (sigma (A + t • single i j (1 : ℝ))) mu x) =ᶠ[nhds 0] fun t =>
      -(1 / 2) * (s ⬝ᵥ s - 2 * (t / (1 + t * β)) * (s i * (A⁻¹ *ᵥ s) j) + (t / (1 + t * β)) ^ 2 * (s i ^ 2 * ((fun b => A⁻¹ j b) ⬝ᵥ fun b => A⁻¹ j b))) -
      Real.log (A.det * (1 + t * β)) - n / 2 * Real.log (2 * Real.pi) := by
    filter_upwards [hev] with t ht
    obtain ⟨hd, hi⟩ := change_entry A hA i j t ht
    rw [logDensity_factor, hd, hi]
    have e : (A⁻¹ - (t / (1 + t * A⁻¹ j i)) • vecMulVec (fun a => A⁻¹ a i) (fun b => A⁻¹ j b))ᵀ *ᵥ (x - mu) = s - (t / (1 + t * β) * s i) • fun b => A⁻¹ j b := by
      rw [transpose_sub, sub_mulVec, ← hs, transpose_smul, smul_mulVec, transpose_vecMulVec]
      have : vecMulVec (fun b => A⁻¹ j b) (fun a => A⁻¹ a i) *ᵥ (x - mu) = s i • fun b => A⁻¹ j b := by
        ext b
        simp only [mulVec, dotProduct, vecMulVec_apply, Pi.smul_apply, smul_eq_mul, hs, transpose_apply, mul_assoc, ← Finset.mul_sum]
        ring
      rw [this, smul_smul]
    rw [e]
    have q : ∀ (c : ℝ) (v : Fin n → ℝ), (s - c • v) ⬝ᵥ (s - c • v) = s ⬝ᵥ s - 2 * c * (v ⬝ᵥ s) + c ^ 2 * (v ⬝ᵥ v) := by
      intro c v
      simp only [sub_dotProduct, dotProduct_sub, smul_dotProduct, dotProduct_smul, smul_eq_mul, dotProduct_comm s v]
      ring
    rw [q]
    have : (fun b => A⁻¹ j b) ⬝ᵥ s = (A⁻¹ *ᵥ s) j := rfl
    rw [this]
    ring
  refine HasDerivAt.congr_of_eventuallyEq ?_ heq
  have h1 : HasDerivAt (fun t : ℝ => 1 + t * β) β 0 := by simpa using ((hasDerivAt_id (0 : ℝ)).mul_const β).const_add 1
  have h2 : HasDerivAt (fun t : ℝ => t / (1 + t * β)) 1 0 := by
    have := (hasDerivAt_id' (0 : ℝ)).fun_div h1 (by simp)
    simpa only [zero_mul, add_zero, one_mul, mul_one, sub_zero, one_pow, div_one] using this
  have h3 : HasDerivAt (fun t : ℝ => Real.log (A.det * (1 + t * β))) β 0 := by
    have := (h1.const_mul A.det).log (by simpa using hA)
    simpa [hA] using this
  have h4 := ((((h2.const_mul 2).mul_const (s i * (A⁻¹ *ᵥ s) j)).const_sub (s ⬝ᵥ s)).add ((h2.pow 2).mul_const (s i ^ 2 * ((fun b => A⁻¹ j b) ⬝ᵥ fun b => A⁻¹ j b)))).const_mul (-(1 / 2))
  have h5 := (h4.sub h3).sub_const (n / 2 * Real.log (2 * Real.pi))
  convert h5 using 1
  simp
  ring

end Density

end Verif.VES
