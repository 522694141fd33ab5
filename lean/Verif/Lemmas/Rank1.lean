import Verif.Model.Rank1
import Verif.Lemmas.VES
/-
Lemmas for C138.
-/
namespace Verif.Rank1
open Matrix Verif.VES.Spec

variable {n : ℕ}

/-- the covariance of `w`, and its inverse -/
def cov (u : Fin n → ℝ) : Matrix (Fin n) (Fin n) ℝ := 1 + vecMulVec u u
noncomputable def prec (u : Fin n → ℝ) : Matrix (Fin n) (Fin n) ℝ := 1 - (1 / (1 + u ⬝ᵥ u)) • vecMulVec u u

theorem dot_nonneg (u : Fin n → ℝ) : 0 ≤ u ⬝ᵥ u := by
  unfold dotProduct
  exact Finset.sum_nonneg fun i _ => mul_self_nonneg _

theorem one_add_pos (u : Fin n → ℝ) : 0 < 1 + u ⬝ᵥ u := by have := dot_nonneg u; linarith

theorem prec_mul_cov (u : Fin n → ℝ) : prec u * cov u = 1 := by
  unfold prec cov
  have h := (one_add_pos u).ne'
  have e : vecMulVec u u * vecMulVec u u = (u ⬝ᵥ u) • vecMulVec u u := by
    rw [vecMulVec_mul_vecMulVec]
    ext i j
    simp [vecMulVec_apply]
    ring
  rw [Matrix.mul_add, Matrix.mul_one, Matrix.sub_mul, Matrix.one_mul, Matrix.smul_mul, e]
  ext i j
  simp only [Matrix.add_apply, Matrix.sub_apply, Matrix.smul_apply, smul_eq_mul]
  field_simp
  ring

theorem prec_symm (u : Fin n → ℝ) : (prec u)ᵀ = prec u := by
  unfold prec
  rw [transpose_sub, transpose_one, transpose_smul, transpose_vecMulVec]

theorem cov_symm (u : Fin n → ℝ) : (cov u)ᵀ = cov u := by
  unfold cov
  rw [transpose_add, transpose_one, transpose_vecMulVec]

theorem cov_mul_prec (u : Fin n → ℝ) : cov u * prec u = 1 := by
  have := congrArg transpose (prec_mul_cov u)
  rwa [transpose_mul, prec_symm, cov_symm, transpose_one] at this

theorem prec_mulVec (u x : Fin n → ℝ) : prec u *ᵥ x = x - ((u ⬝ᵥ x) / (1 + u ⬝ᵥ u)) • u := by
  unfold prec
  rw [sub_mulVec, one_mulVec, smul_mulVec, vecMulVec_mulVec]
  ext i
  simp
  ring

section Moments
variable {m : ℕ} {E : ((Fin m → ℝ) → ℝ) →ₗ[ℝ] ℝ}

theorem E_two' (hE : StandardNormal E) (L : Matrix (Fin n) (Fin m) ℝ) (i j : Fin n) : E (fun s => (L *ᵥ s) i * (L *ᵥ s) j) = (L * Lᵀ) i j := by
  have : (fun s : Fin m → ℝ => (L *ᵥ s) i * (L *ᵥ s) j) = ∑ a, ∑ b, (L i a * L j b) • fun s : Fin m → ℝ => s a * s b := by
    funext s
    simp only [mulVec, dotProduct, Finset.sum_apply, Pi.smul_apply, smul_eq_mul, Finset.sum_mul_sum]
    exact Finset.sum_congr rfl fun a _ => Finset.sum_congr rfl fun b _ => by ring
  rw [this, map_sum]
  simp only [map_sum, map_smul, hE.two, smul_eq_mul]
  simp [mul_apply]

theorem E_four' (hE : StandardNormal E) (L : Matrix (Fin n) (Fin m) ℝ) (i j k l : Fin n) : E (fun s => (L *ᵥ s) i * (L *ᵥ s) j * ((L *ᵥ s) k * (L *ᵥ s) l)) =
    (L * Lᵀ) i j * (L * Lᵀ) k l + (L * Lᵀ) i k * (L * Lᵀ) j l + (L * Lᵀ) i l * (L * Lᵀ) j k := by
  have : (fun s : Fin m → ℝ => (L *ᵥ s) i * (L *ᵥ s) j * ((L *ᵥ s) k * (L *ᵥ s) l)) =
      ∑ a, ∑ b, ∑ c, ∑ d, (L i a * L j b * L k c * L l d) • fun s : Fin m → ℝ => s a * s b * s c * s d := by
    funext s
    simp only [mulVec, dotProduct, Finset.sum_apply, Pi.smul_apply, smul_eq_mul]
    rw [Finset.sum_mul_sum, Finset.sum_mul_sum, Finset.sum_mul]
    refine Finset.sum_congr rfl fun a _ => ?_
    rw [Finset.sum_mul]
    refine Finset.sum_congr rfl fun b _ => ?_
    rw [Finset.mul_sum]
    refine Finset.sum_congr rfl fun c _ => ?_
    rw [Finset.mul_sum]
    exact Finset.sum_congr rfl fun d _ => by ring
  rw [this, map_sum]
  simp only [map_sum, map_smul, hE.four, smul_eq_mul, mul_add, Finset.sum_add_distrib]
  congr 1
  · congr 1
    · simp only [mul_ite, ite_mul, mul_one, mul_zero, zero_mul, one_mul, Finset.sum_ite_eq, Finset.sum_ite_eq', Finset.mem_univ, if_true, mul_apply, transpose_apply, Finset.sum_mul_sum]
      refine Finset.sum_congr rfl fun a _ => ?_
      rw [Finset.sum_eq_single a]
      · refine Finset.sum_congr rfl fun b _ => ?_
        simp
        ring
      · intro b _ hb
        simp [Ne.symm hb]
      · simp
    · simp only [mul_ite, ite_mul, mul_one, mul_zero, zero_mul, one_mul, mul_apply, transpose_apply, Finset.sum_mul_sum]
      refine Finset.sum_congr rfl fun a _ => Finset.sum_congr rfl fun b _ => ?_
      simp
      ring
  · simp only [mul_ite, ite_mul, mul_one, mul_zero, zero_mul, one_mul, mul_apply, transpose_apply, Finset.sum_mul_sum]
    refine Finset.sum_congr rfl fun a _ => Finset.sum_congr rfl fun b _ => ?_
    simp
    ring

/-- Expectations of products of centered quadratic forms -/
theorem E_quad (hE : StandardNormal E) (L : Matrix (Fin n) (Fin m) ℝ) (P Q : Matrix (Fin n) (Fin n) ℝ) :
    E (fun s => ((L *ᵥ s) ⬝ᵥ (P *ᵥ (L *ᵥ s)) - (P * (L * Lᵀ)).trace) * ((L *ᵥ s) ⬝ᵥ (Q *ᵥ (L *ᵥ s)) - (Q * (L * Lᵀ)).trace)) =
      (P * (L * Lᵀ) * Qᵀ * (L * Lᵀ)).trace + (P * (L * Lᵀ) * Q * (L * Lᵀ)).trace := by
  have hsym : ∀ i j, (L * Lᵀ) i j = (L * Lᵀ) j i := by
    intro i j
    have : (L * Lᵀ)ᵀ = L * Lᵀ := by rw [transpose_mul, transpose_transpose]
    exact congrFun (congrFun this j) i
  have q : ∀ (P : Matrix (Fin n) (Fin n) ℝ) (s : Fin m → ℝ), (L *ᵥ s) ⬝ᵥ (P *ᵥ (L *ᵥ s)) = ∑ i, ∑ j, P i j * ((L *ᵥ s) i * (L *ᵥ s) j) := by
    intro P s
    simp only [dotProduct, mulVec, Finset.mul_sum]
    exact Finset.sum_congr rfl fun i _ => Finset.sum_congr rfl fun j _ => by ring
  have tr : ∀ P : Matrix (Fin n) (Fin n) ℝ, (P * (L * Lᵀ)).trace = ∑ i, ∑ j, P i j * (L * Lᵀ) i j := by
    intro P
    unfold trace
    simp only [diag_apply]
    refine Finset.sum_congr rfl fun i _ => ?_
    rw [mul_apply]
    exact Finset.sum_congr rfl fun j _ => by rw [hsym j i]
  have e : (fun s => ((L *ᵥ s) ⬝ᵥ (P *ᵥ (L *ᵥ s)) - (P * (L * Lᵀ)).trace) * ((L *ᵥ s) ⬝ᵥ (Q *ᵥ (L *ᵥ s)) - (Q * (L * Lᵀ)).trace)) =
      (∑ i, ∑ j, ∑ k, ∑ l, (P i j * Q k l) • fun s : Fin m → ℝ => (L *ᵥ s) i * (L *ᵥ s) j * ((L *ᵥ s) k * (L *ᵥ s) l)) -
      (Q * (L * Lᵀ)).trace • (∑ i, ∑ j, P i j • fun s : Fin m → ℝ => (L *ᵥ s) i * (L *ᵥ s) j) - (P * (L * Lᵀ)).trace • (∑ i, ∑ j, Q i j • fun s : Fin m → ℝ => (L *ᵥ s) i * (L *ᵥ s) j) +
      ((P * (L * Lᵀ)).trace * (Q * (L * Lᵀ)).trace) • fun _ => 1 := by
    funext s
    rw [q, q]
    simp only [Pi.add_apply, Pi.sub_apply, Pi.smul_apply, smul_eq_mul, Finset.sum_apply]
    have : ∑ i, ∑ j, ∑ k, ∑ l, P i j * Q k l * ((L *ᵥ s) i * (L *ᵥ s) j * ((L *ᵥ s) k * (L *ᵥ s) l)) =
        (∑ i, ∑ j, P i j * ((L *ᵥ s) i * (L *ᵥ s) j)) * ∑ i, ∑ j, Q i j * ((L *ᵥ s) i * (L *ᵥ s) j) := by
      rw [Finset.sum_mul]
      refine Finset.sum_congr rfl fun i _ => ?_
      rw [Finset.sum_mul]
      refine Finset.sum_congr rfl fun j _ => ?_
      rw [Finset.mul_sum]
      refine Finset.sum_congr rfl fun k _ => ?_
      rw [Finset.mul_sum]
      exact Finset.sum_congr rfl fun l _ => by ring
    rw [this]
    ring
  rw [e, map_add, map_sub, map_sub, map_smul, map_smul, map_smul, hE.one]
  simp only [map_sum, map_smul, E_two' hE, E_four' hE, smul_eq_mul, ← tr]
  have s1 : ∑ i, ∑ j, ∑ k, ∑ l, P i j * Q k l * ((L * Lᵀ) i j * (L * Lᵀ) k l + (L * Lᵀ) i k * (L * Lᵀ) j l + (L * Lᵀ) i l * (L * Lᵀ) j k) =
      (P * (L * Lᵀ)).trace * (Q * (L * Lᵀ)).trace + (P * (L * Lᵀ) * Qᵀ * (L * Lᵀ)).trace + (P * (L * Lᵀ) * Q * (L * Lᵀ)).trace := by
    generalize L * Lᵀ = C at *
    have t1 : (P * C).trace * (Q * C).trace = ∑ i, ∑ j, ∑ k, ∑ l, P i j * Q k l * (C i j * C k l) := by
      rw [tr, tr, Finset.sum_mul]
      refine Finset.sum_congr rfl fun i _ => ?_
      rw [Finset.sum_mul]
      refine Finset.sum_congr rfl fun j _ => ?_
      rw [Finset.mul_sum]
      refine Finset.sum_congr rfl fun k _ => ?_
      rw [Finset.mul_sum]
      exact Finset.sum_congr rfl fun l _ => by ring
    have t2 : ∀ R : Matrix (Fin n) (Fin n) ℝ, (P * C * R * C).trace = ∑ i, ∑ j, ∑ k, ∑ l, P i j * R k l * (C j k * C l i) := by
      intro R
      unfold trace
      simp only [diag_apply]
      refine Finset.sum_congr rfl fun i _ => ?_
      simp only [mul_apply, Finset.sum_mul]
      have c1 : ∑ l, ∑ k, ∑ j, P i j * C j k * R k l * C l i = ∑ k, ∑ l, ∑ j, P i j * C j k * R k l * C l i := Finset.sum_comm
      rw [c1]
      have c2 : ∀ k, ∑ l, ∑ j, P i j * C j k * R k l * C l i = ∑ j, ∑ l, P i j * C j k * R k l * C l i := fun k => Finset.sum_comm
      simp only [c2]
      rw [Finset.sum_comm]
      exact Finset.sum_congr rfl fun j _ => Finset.sum_congr rfl fun k _ => Finset.sum_congr rfl fun l _ => by ring
    rw [t1, t2, t2]
    have t3 : ∑ i, ∑ j, ∑ k, ∑ l, P i j * Qᵀ k l * (C j k * C l i) = ∑ i, ∑ j, ∑ k, ∑ l, P i j * Q k l * (C i k * C j l) := by
      refine Finset.sum_congr rfl fun i _ => Finset.sum_congr rfl fun j _ => ?_
      rw [Finset.sum_comm]
      exact Finset.sum_congr rfl fun k _ => Finset.sum_congr rfl fun l _ => by rw [transpose_apply, hsym i k]; ring
    rw [t3]
    simp only [← Finset.sum_add_distrib]
    exact Finset.sum_congr rfl fun i _ => Finset.sum_congr rfl fun j _ => Finset.sum_congr rfl fun k _ => Finset.sum_congr rfl fun l _ => by rw [hsym i l]; ring
  rw [s1]
  ring

end Moments

/-- `w` is a linear function of the noise -/
def lift (u : Fin n → ℝ) : Matrix (Fin n) (Fin (n + 1)) ℝ := Matrix.of fun i => Fin.snoc (fun j => if i = j then 1 else 0) (u i)

theorem w_eq (u : Fin n → ℝ) (s : Fin (n + 1) → ℝ) : w u s = lift u *ᵥ s := by
  ext i
  simp only [w, lift, mulVec, dotProduct, Pi.add_apply, Pi.smul_apply, smul_eq_mul, of_apply, Fin.sum_univ_castSucc, Fin.snoc_castSucc, Fin.snoc_last]
  simp [mul_comm]

theorem lift_mul (u : Fin n → ℝ) : lift u * (lift u)ᵀ = cov u := by
  ext i j
  simp only [mul_apply, lift, transpose_apply, of_apply, Fin.sum_univ_castSucc, Fin.snoc_castSucc, Fin.snoc_last, cov, Matrix.add_apply, vecMulVec_apply, one_apply]
  simp [eq_comm]

/-- the derivatives of the logarithm of the density, in terms of `w` -/
noncomputable def scoreA (u w : Fin n → ℝ) : ℝ := w ⬝ᵥ (prec u *ᵥ w) - n
noncomputable def scoreQ (u : Fin n → ℝ) (k : Fin n) : Matrix (Fin n) (Fin n) ℝ := vecMulVec (prec u *ᵥ u) (fun j => prec u k j)
noncomputable def scoreU (u w : Fin n → ℝ) (k : Fin n) : ℝ := w ⬝ᵥ (scoreQ u k *ᵥ w) - (prec u *ᵥ u) k

theorem prec_u (u : Fin n → ℝ) : prec u *ᵥ u = (1 / (1 + u ⬝ᵥ u)) • u := by
  rw [prec_mulVec]
  have h := (one_add_pos u).ne'
  ext i
  simp only [Pi.sub_apply, Pi.smul_apply, smul_eq_mul]
  field_simp
  ring

theorem prec_row_cov (u : Fin n → ℝ) (k : Fin n) : (fun j => prec u k j) ᵥ* cov u = Pi.single k 1 := by
  have h := congrFun (prec_mul_cov u) k
  funext j
  have := congrFun h j
  rw [mul_apply] at this
  rw [vecMul, dotProduct, this, one_apply, Pi.single_apply]
  simp [eq_comm]

theorem trace_vec (a b : Fin n → ℝ) : (vecMulVec a b).trace = a ⬝ᵥ b := by
  simp [trace, vecMulVec_apply, dotProduct]

theorem trace_A (u : Fin n → ℝ) : (prec u * cov u).trace = n := by rw [prec_mul_cov]; simp

theorem scoreQ_cov (u : Fin n → ℝ) (k : Fin n) : scoreQ u k * cov u = vecMulVec (prec u *ᵥ u) (Pi.single k 1) := by
  unfold scoreQ
  rw [vecMulVec_mul, prec_row_cov]

theorem trace_U (u : Fin n → ℝ) (k : Fin n) : (scoreQ u k * cov u).trace = (prec u *ᵥ u) k := by
  rw [scoreQ_cov, trace_vec]
  simp

variable {E : ((Fin (n + 1) → ℝ) → ℝ) →ₗ[ℝ] ℝ}

theorem fisher_AA (hE : StandardNormal E) (u : Fin n → ℝ) : E (fun s => scoreA u (w u s) * scoreA u (w u s)) = 2 * n := by
  have := E_quad hE (lift u) (prec u) (prec u)
  simp only [lift_mul, ← w_eq, trace_A] at this
  unfold scoreA
  rw [this, prec_symm, Matrix.mul_assoc, prec_mul_cov]
  simp
  ring

theorem fisher_AU (hE : StandardNormal E) (u : Fin n → ℝ) (k : Fin n) : E (fun s => scoreA u (w u s) * scoreU u (w u s) k) = 2 * (prec u *ᵥ u) k := by
  have := E_quad hE (lift u) (prec u) (scoreQ u k)
  simp only [lift_mul, ← w_eq, trace_A, trace_U] at this
  unfold scoreA scoreU
  rw [this, prec_mul_cov, Matrix.one_mul, Matrix.one_mul, trace_U, ← trace_transpose, transpose_mul, transpose_transpose, cov_symm, trace_mul_comm, trace_U]
  ring

theorem fisher_UU (hE : StandardNormal E) (u : Fin n → ℝ) (k l : Fin n) : E (fun s => scoreU u (w u s) k * scoreU u (w u s) l) =
    prec u k l * (u ⬝ᵥ (prec u *ᵥ u)) + (prec u *ᵥ u) k * (prec u *ᵥ u) l := by
  have := E_quad hE (lift u) (scoreQ u k) (scoreQ u l)
  simp only [lift_mul, ← w_eq, trace_U] at this
  unfold scoreU
  rw [this]
  congr 1
  · rw [scoreQ_cov, Matrix.mul_assoc]
    have : (scoreQ u l)ᵀ * cov u = vecMulVec (fun j => prec u l j) u := by
      unfold scoreQ
      rw [transpose_vecMulVec, vecMulVec_mul]
      congr 1
      rw [← vecMul_transpose, prec_symm, vecMul_vecMul, prec_mul_cov, vecMul_one]
    rw [this, vecMulVec_mul_vecMulVec, trace_vec]
    have hs : prec u l k = prec u k l := congrFun (congrFun (prec_symm u) k) l
    simp [hs, dotProduct_comm]
  · rw [Matrix.mul_assoc, scoreQ_cov, scoreQ_cov, vecMulVec_mul_vecMulVec, trace_vec]
    simp

/-- one sample's share of the gradients, without roots -/
noncomputable def shareA (u w : Fin n → ℝ) : ℝ := ((w ⬝ᵥ w - n) - ((u ⬝ᵥ w) ^ 2 / (u ⬝ᵥ u) - 1)) / (2 * ((n : ℝ) - 1))
noncomputable def shareU (u w : Fin n → ℝ) : Fin n → ℝ :=
  (((u ⬝ᵥ u - n + 2) * ((u ⬝ᵥ w) ^ 2 / (u ⬝ᵥ u)) - (u ⬝ᵥ u + 1) * (w ⬝ᵥ w)) / (2 * (u ⬝ᵥ u) * (n - 1))) • u + (u ⬝ᵥ w / (u ⬝ᵥ u)) • w

section
variable {ι : Type} [Fintype ι]

theorem v_dot (u x : Fin n → ℝ) (hu : u ≠ 0) : 0 < u ⬝ᵥ u ∧ 0 < √(u ⬝ᵥ u) ∧ ((1 / √(u ⬝ᵥ u)) • u ⬝ᵥ x) ^ 2 = (u ⬝ᵥ x) ^ 2 / (u ⬝ᵥ u) ∧ √(u ⬝ᵥ u) ^ 2 = u ⬝ᵥ u := by
  have h0 : 0 < u ⬝ᵥ u := lt_of_le_of_ne (dot_nonneg u) (fun h => hu (dotProduct_self_eq_zero.1 h.symm))
  have hr : √(u ⬝ᵥ u) ^ 2 = u ⬝ᵥ u := Real.sq_sqrt h0.le
  refine ⟨h0, Real.sqrt_pos.2 h0, ?_, hr⟩
  rw [smul_dotProduct, smul_eq_mul, mul_pow, div_pow, hr]
  ring

theorem gradA_eq (u : Fin n → ℝ) (hu : u ≠ 0) (W : ι → Fin n → ℝ) (util : ι → ℝ) : gradA u W util = ∑ i, util i * shareA u (W i) := by
  unfold gradA shareA
  simp only
  rw [Finset.mul_sum]
  refine Finset.sum_congr rfl fun i _ => ?_
  rw [(v_dot u (W i) hu).2.2.1]
  ring

theorem gradU_eq (u : Fin n → ℝ) (hu : u ≠ 0) (W : ι → Fin n → ℝ) (util : ι → ℝ) : gradU u W util = ∑ i, util i • shareU u (W i) := by
  obtain ⟨h0, hr0, -, hr⟩ := v_dot u u hu
  have hn : √(u ⬝ᵥ u) ≠ 0 := hr0.ne'
  unfold gradU shareU
  simp only [(v_dot u _ hu).2.2.1]
  simp only [smul_add, Finset.sum_add_distrib]
  congr 1
  · simp only [smul_smul]
    rw [← Finset.sum_smul, Finset.sum_mul]
    congr 1
    refine Finset.sum_congr rfl fun i _ => ?_
    generalize (u ⬝ᵥ W i) ^ 2 / (u ⬝ᵥ u) = q
    generalize √(u ⬝ᵥ u) = r at *
    generalize u ⬝ᵥ u = ρ at *
    subst hr
    field_simp
  · refine Finset.sum_congr rfl fun i _ => ?_
    rw [smul_smul, smul_dotProduct, smul_eq_mul]
    congr 1
    generalize √(u ⬝ᵥ u) = r at *
    generalize u ⬝ᵥ u = ρ at *
    subst hr
    field_simp

end

end Verif.Rank1
