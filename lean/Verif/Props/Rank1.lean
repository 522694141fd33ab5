import Verif.Lemmas.Rank1
import Mathlib.Analysis.Convex.Combination
import Mathlib.Analysis.InnerProductSpace.Basic
/-
C138: natural evolution strategies with covariances of rank one.
-/
namespace Verif.Rank1
open Matrix Verif.VES.Spec

variable {n : ℕ}

/-- the density of the distribution with vector `u` and scale `exp a` -/
theorem logDensity_rank1 (u : Fin n → ℝ) (a : ℝ) (x z : Fin n → ℝ) : logDensity (Real.exp (2 * a) • cov u) x z =
    -(1 / 2) * (Real.exp (-2 * a) * ((z - x) ⬝ᵥ (z - x) - (u ⬝ᵥ (z - x)) ^ 2 / (1 + u ⬝ᵥ u))) - n * a - 1 / 2 * Real.log (1 + u ⬝ᵥ u) - n / 2 * Real.log (2 * Real.pi) := by
  have hinv : (Real.exp (2 * a) • cov u)⁻¹ = Real.exp (-2 * a) • prec u := by
    refine inv_eq_left_inv ?_
    rw [Matrix.smul_mul, Matrix.mul_smul, smul_smul, prec_mul_cov, ← Real.exp_add]
    simp
  have hdet : (Real.exp (2 * a) • cov u).det = Real.exp (2 * a) ^ n * (1 + u ⬝ᵥ u) := by
    rw [det_smul, Fintype.card_fin]
    congr 1
    unfold cov
    have : vecMulVec u u = replicateCol Unit u * replicateRow Unit u := by
      ext i j
      simp [vecMulVec_apply, mul_apply]
    rw [this, det_one_add_replicateCol_mul_replicateRow]
  unfold logDensity
  rw [hinv, hdet, Real.log_mul (by positivity) (one_add_pos u).ne', Real.log_pow, Real.log_exp, smul_mulVec, dotProduct_smul, prec_mulVec, dotProduct_sub, dotProduct_smul, smul_eq_mul, smul_eq_mul,
    dotProduct_comm (z - x) u]
  ring

theorem scoreA_eq (u w : Fin n → ℝ) : scoreA u w = w ⬝ᵥ w - (u ⬝ᵥ w) ^ 2 / (1 + u ⬝ᵥ u) - n := by
  unfold scoreA
  rw [prec_mulVec, dotProduct_sub, dotProduct_smul, smul_eq_mul, dotProduct_comm w u]
  ring

theorem scoreU_eq (u w : Fin n → ℝ) (k : Fin n) : scoreU u w k = (u ⬝ᵥ w) * w k / (1 + u ⬝ᵥ u) - (u ⬝ᵥ w) ^ 2 * u k / (1 + u ⬝ᵥ u) ^ 2 - u k / (1 + u ⬝ᵥ u) := by
  have h := (one_add_pos u).ne'
  have hp : (fun j => prec u k j) ⬝ᵥ w = w k - u ⬝ᵥ w / (1 + u ⬝ᵥ u) * u k := congrFun (prec_mulVec u w) k
  unfold scoreU scoreQ
  rw [vecMulVec_mulVec, hp, prec_u]
  simp only [dotProduct_smul, smul_eq_mul, Pi.smul_apply, MulOpposite.smul_eq_mul_unop, MulOpposite.unop_op, dotProduct_comm w u]
  field_simp

theorem deriv_a (u : Fin n → ℝ) (a : ℝ) (x z : Fin n → ℝ) : HasDerivAt (fun t : ℝ => logDensity (Real.exp (2 * (a + t)) • cov u) x z) (scoreA u (Real.exp (-a) • (z - x))) 0 := by
  have heq : (fun t : ℝ => logDensity (Real.exp (2 * (a + t)) • cov u) x z) = fun t => -(1 / 2) * (Real.exp (-2 * (a + t)) * ((z - x) ⬝ᵥ (z - x) - (u ⬝ᵥ (z - x)) ^ 2 / (1 + u ⬝ᵥ u))) - n * (a + t) -
      1 / 2 * Real.log (1 + u ⬝ᵥ u) - n / 2 * Real.log (2 * Real.pi) := by
    funext t
    rw [logDensity_rank1]
  rw [heq]
  have h0 := (hasDerivAt_id' (0 : ℝ)).const_add a
  have h1 := ((((h0.const_mul (-2)).exp.mul_const ((z - x) ⬝ᵥ (z - x) - (u ⬝ᵥ (z - x)) ^ 2 / (1 + u ⬝ᵥ u))).const_mul (-(1 / 2))).sub (h0.const_mul (n : ℝ))).sub_const (1 / 2 * Real.log (1 + u ⬝ᵥ u))
  refine (h1.sub_const (n / 2 * Real.log (2 * Real.pi))).congr_deriv ?_
  rw [scoreA_eq]
  have e : Real.exp (-2 * (a + 0)) = Real.exp (-a) * Real.exp (-a) := by rw [← Real.exp_add]; congr 1; ring
  simp only [smul_dotProduct, dotProduct_smul, smul_eq_mul]
  rw [e]
  ring

theorem deriv_u (u : Fin n → ℝ) (a : ℝ) (x z : Fin n → ℝ) (k : Fin n) :
    HasDerivAt (fun t : ℝ => logDensity (Real.exp (2 * a) • cov (u + t • Pi.single k 1)) x z) (scoreU u (Real.exp (-a) • (z - x)) k) 0 := by
  have heq : (fun t : ℝ => logDensity (Real.exp (2 * a) • cov (u + t • Pi.single k 1)) x z) = fun t =>
      -(1 / 2) * (Real.exp (-2 * a) * ((z - x) ⬝ᵥ (z - x) - (u ⬝ᵥ (z - x) + t * (z - x) k) ^ 2 / (1 + u ⬝ᵥ u + 2 * t * u k + t ^ 2))) - n * a -
      1 / 2 * Real.log (1 + u ⬝ᵥ u + 2 * t * u k + t ^ 2) - n / 2 * Real.log (2 * Real.pi) := by
    funext t
    rw [logDensity_rank1]
    have e1 : (u + t • Pi.single k 1) ⬝ᵥ (z - x) = u ⬝ᵥ (z - x) + t * (z - x) k := by rw [add_dotProduct, smul_dotProduct, single_one_dotProduct]; rfl
    have e2 : 1 + (u + t • Pi.single k 1) ⬝ᵥ (u + t • Pi.single k 1) = 1 + u ⬝ᵥ u + 2 * t * u k + t ^ 2 := by
      simp only [add_dotProduct, dotProduct_add, smul_dotProduct, dotProduct_smul, single_one_dotProduct, dotProduct_single_one, smul_eq_mul, Pi.add_apply, Pi.smul_apply, Pi.single_eq_same]
      ring
    rw [e1, e2]
  rw [heq]
  have hpos := one_add_pos u
  have h0 := hasDerivAt_id' (0 : ℝ)
  have hd : HasDerivAt (fun t : ℝ => 1 + u ⬝ᵥ u + 2 * t * u k + t ^ 2) (2 * u k) 0 := by
    have := (((h0.const_mul 2).mul_const (u k)).const_add (1 + u ⬝ᵥ u)).add (h0.pow 2)
    exact this.congr_deriv (by simp)
  have hn : HasDerivAt (fun t : ℝ => (u ⬝ᵥ (z - x) + t * (z - x) k) ^ 2) (2 * (u ⬝ᵥ (z - x)) * (z - x) k) 0 := by
    have := ((h0.mul_const ((z - x) k)).const_add (u ⬝ᵥ (z - x))).pow 2
    exact this.congr_deriv (by simp)
  have hne : (1 + u ⬝ᵥ u + 2 * (0 : ℝ) * u k + 0 ^ 2) ≠ 0 := by simpa using hpos.ne'
  have h1 := (((((hn.fun_div hd hne).const_sub ((z - x) ⬝ᵥ (z - x))).const_mul (Real.exp (-2 * a))).const_mul (-(1 / 2))).sub_const (n * a)).sub ((hd.log hne).const_mul (1 / 2))
  refine (h1.sub_const (n / 2 * Real.log (2 * Real.pi))).congr_deriv ?_
  rw [scoreU_eq]
  have e : Real.exp (-2 * a) = Real.exp (-a) * Real.exp (-a) := by rw [← Real.exp_add]; congr 1; ring
  simp only [dotProduct_smul, smul_eq_mul, Pi.smul_apply]
  rw [e]
  simp only [mul_zero, zero_mul, add_zero, ne_eq, OfNat.ofNat_ne_zero, not_false_eq_true, zero_pow]
  have := hpos.ne'
  field_simp

/-- multiplied by the Fisher information, the shares of one sample are the derivatives -/
theorem share_spec (hn : n ≠ 1) (u w : Fin n → ℝ) (hu : u ≠ 0) :
    2 * n * shareA u w + ∑ l, 2 * (prec u *ᵥ u) l * shareU u w l = scoreA u w ∧
    ∀ k, 2 * (prec u *ᵥ u) k * shareA u w + ∑ l, (prec u k l * (u ⬝ᵥ (prec u *ᵥ u)) + (prec u *ᵥ u) k * (prec u *ᵥ u) l) * shareU u w l = scoreU u w k := by
  obtain ⟨h0, -⟩ := v_dot u u hu
  have hn1 : (n : ℝ) - 1 ≠ 0 := sub_ne_zero.2 (by exact_mod_cast hn)
  have hp := (one_add_pos u).ne'
  have hdot : u ⬝ᵥ shareU u w = ((u ⬝ᵥ u - n + 2) * ((u ⬝ᵥ w) ^ 2 / (u ⬝ᵥ u)) - (u ⬝ᵥ u + 1) * (w ⬝ᵥ w)) / (2 * (n - 1)) + (u ⬝ᵥ w) ^ 2 / (u ⬝ᵥ u) := by
    unfold shareU
    rw [dotProduct_add, dotProduct_smul, dotProduct_smul, smul_eq_mul, smul_eq_mul]
    field_simp
  have hs : ∀ c : ℝ, ∑ l, c * (prec u *ᵥ u) l * shareU u w l = c / (1 + u ⬝ᵥ u) * (u ⬝ᵥ shareU u w) := by
    intro c
    rw [prec_u]
    unfold dotProduct
    rw [Finset.mul_sum]
    refine Finset.sum_congr rfl fun l _ => ?_
    simp only [Pi.smul_apply, smul_eq_mul]
    ring
  constructor
  · rw [hs, hdot, scoreA_eq]
    unfold shareA
    generalize u ⬝ᵥ u = ρ at *
    field_simp
    ring
  · intro k
    have e : ∑ l, (prec u k l * (u ⬝ᵥ (prec u *ᵥ u)) + (prec u *ᵥ u) k * (prec u *ᵥ u) l) * shareU u w l =
        (u ⬝ᵥ (prec u *ᵥ u)) * (prec u *ᵥ shareU u w) k + (prec u *ᵥ u) k / (1 + u ⬝ᵥ u) * (u ⬝ᵥ shareU u w) := by
      rw [← hs]
      have : (prec u *ᵥ shareU u w) k = ∑ l, prec u k l * shareU u w l := rfl
      rw [this, Finset.mul_sum, ← Finset.sum_add_distrib]
      exact Finset.sum_congr rfl fun l _ => by ring
    rw [e, prec_mulVec u (shareU u w), prec_u, scoreU_eq]
    simp only [Pi.sub_apply, Pi.smul_apply, smul_eq_mul, dotProduct_smul]
    rw [hdot]
    have ek : shareU u w k = (((u ⬝ᵥ u - n + 2) * ((u ⬝ᵥ w) ^ 2 / (u ⬝ᵥ u)) - (u ⬝ᵥ u + 1) * (w ⬝ᵥ w)) / (2 * (u ⬝ᵥ u) * (n - 1))) * u k + (u ⬝ᵥ w / (u ⬝ᵥ u)) * w k := rfl
    rw [ek]
    unfold shareA
    generalize u ⬝ᵥ u = ρ at *
    generalize u ⬝ᵥ w = p at *
    generalize w ⬝ᵥ w = q at *
    field_simp
    ring

end Verif.Rank1

namespace Verif.Props
open Matrix Verif.Rank1 Verif.VES.Spec
open Verif.DataSet (Err)

variable {n : ℕ} {ι : Type} [Fintype ι]

/-- **C138, samples.** The points have the mean and the covariance of the distribution: the center, and the scale `exp (2 a)` times identity plus the outer product of the principal vector. -/
theorem C138_samples (E : ((Fin (n + 1) → ℝ) → ℝ) →ₗ[ℝ] ℝ) (hE : StandardNormal E) (st : St n) (i j : Fin n) :
    E (fun s => (point st (w st.u s) - st.center) i * (point st (w st.u s) - st.center) j) = Real.exp (2 * st.a) * (1 + vecMulVec st.u st.u) i j := by
  have : (fun s => (point st (w st.u s) - st.center) i * (point st (w st.u s) - st.center) j) = Real.exp (2 * st.a) • fun s => (lift st.u *ᵥ s) i * (lift st.u *ᵥ s) j := by
    funext s
    simp only [point, add_sub_cancel_left, Pi.smul_apply, smul_eq_mul, w_eq]
    have : Real.exp (2 * st.a) = Real.exp st.a * Real.exp st.a := by rw [← Real.exp_add]; congr 1; ring
    rw [this]
    ring
  rw [this, map_smul, E_two' hE, lift_mul]
  rfl

/-- **C138, natural gradient.** With the derivatives `sa` and `su` of the logarithm of the density at a point (as functions of the vector `w` from which the point is made), the gradients that are computed from a batch are its
natural gradients: multiplied by the Fisher information of the distribution they give the sum of the derivatives, weighted by the utilities. -/
theorem C138_natural (hn : n ≠ 1) (E : ((Fin (n + 1) → ℝ) → ℝ) →ₗ[ℝ] ℝ) (hE : StandardNormal E) (u : Fin n → ℝ) (hu : u ≠ 0) (W : ι → Fin n → ℝ) (util : ι → ℝ) :
    ∃ (sa : (Fin n → ℝ) → ℝ) (su : (Fin n → ℝ) → Fin n → ℝ),
      (∀ (x : Fin n → ℝ) (a : ℝ) (v : Fin n → ℝ), HasDerivAt (fun t : ℝ => logDensity (Real.exp (2 * (a + t)) • (1 + vecMulVec u u)) x (point ⟨x, u, a⟩ v)) (sa v) 0) ∧
      (∀ (x : Fin n → ℝ) (a : ℝ) (v : Fin n → ℝ) (k : Fin n), HasDerivAt (fun t : ℝ =>
        logDensity (Real.exp (2 * a) • (1 + vecMulVec (u + t • Pi.single k 1) (u + t • Pi.single k 1))) x (point ⟨x, u, a⟩ v)) (su v k) 0) ∧
      E (fun s => sa (w u s) * sa (w u s)) * gradA u W util + ∑ l, E (fun s => sa (w u s) * su (w u s) l) * gradU u W util l = ∑ i, util i * sa (W i) ∧
      ∀ k, E (fun s => sa (w u s) * su (w u s) k) * gradA u W util + ∑ l, E (fun s => su (w u s) k * su (w u s) l) * gradU u W util l = ∑ i, util i * su (W i) k := by
  have hpt : ∀ (x : Fin n → ℝ) (a : ℝ) (v : Fin n → ℝ), Real.exp (-a) • (point ⟨x, u, a⟩ v - x) = v := by
    intro x a v
    simp only [point, add_sub_cancel_left, smul_smul, ← Real.exp_add]
    simp
  refine ⟨scoreA u, scoreU u, fun x a v => ?_, fun x a v k => ?_, ?_, fun k => ?_⟩
  · have := deriv_a u a x (point ⟨x, u, a⟩ v)
    rwa [hpt] at this
  · have := deriv_u u a x (point ⟨x, u, a⟩ v) k
    rwa [hpt] at this
  · simp only [fisher_AA hE, fisher_AU hE, gradA_eq u hu, gradU_eq u hu]
    simp only [← fun i => (share_spec hn u (W i) hu).1]
    simp only [mul_add, Finset.sum_add_distrib, Finset.sum_apply, Pi.smul_apply, smul_eq_mul, Finset.mul_sum]
    congr 1
    · exact Finset.sum_congr rfl fun i _ => by ring
    · rw [Finset.sum_comm]
      exact Finset.sum_congr rfl fun i _ => Finset.sum_congr rfl fun l _ => by ring
  · simp only [fisher_AU hE, fisher_UU hE, gradA_eq u hu, gradU_eq u hu]
    simp only [← fun i => (share_spec hn u (W i) hu).2 k]
    simp only [mul_add, Finset.sum_add_distrib (s := (Finset.univ : Finset ι)), Finset.sum_apply, Pi.smul_apply, smul_eq_mul, Finset.mul_sum]
    congr 1
    · exact Finset.sum_congr rfl fun i _ => by ring
    · rw [Finset.sum_comm]
      exact Finset.sum_congr rfl fun i _ => Finset.sum_congr rfl fun l _ => by ring

/-- **C138, center.** With a learning rate of 1 (the default) and utilities from fitnesses shaped to numbers that are not negative, the new center is the mean of the points weighted by their utilities, and so
lies among them. -/
theorem C138_center (c : Used) (hc : c.centerLearningRate = 1) (hn : n ≠ 1) (s s' : St n) (W : ι → Fin n → ℝ) (shaped : ι → ℝ) (h0 : ∀ i, 0 ≤ shaped i) (h1 : 0 < ∑ i, shaped i)
    (h : learnStep c W (utilities false shaped) s = .ok s') :
    s'.center = ∑ i, (shaped i / ∑ j, shaped j) • point s (W i) ∧ s'.center ∈ convexHull ℝ (Set.range fun i => point s (W i)) := by
  unfold learnStep at h
  rw [if_neg hn] at h
  have hs := Except.ok.inj h
  have hu : ∀ i, utilities false shaped i = shaped i / ∑ j, shaped j := fun i => by simp [utilities]
  have hsum : ∑ i, shaped i / ∑ j, shaped j = 1 := by rw [← Finset.sum_div, div_self h1.ne']
  have e : s'.center = ∑ i, (shaped i / ∑ j, shaped j) • point s (W i) := by
    rw [← hs]
    simp only [hc, one_smul, hu, point, smul_add, Finset.sum_add_distrib]
    rw [← Finset.sum_smul, hsum, one_smul, Finset.smul_sum]
    congr 1
    exact Finset.sum_congr rfl fun i _ => smul_comm _ _ _
  refine ⟨e, ?_⟩
  rw [e]
  refine (convex_convexHull ℝ _).sum_mem (fun i _ => div_nonneg (h0 i) h1.le) hsum fun i _ => subset_convexHull ℝ _ ⟨i, rfl⟩

/-- **C138, stability.** The principal vector never becomes zero, and in one step its length is multiplied by a factor between `exp (-2)` and 3, whatever the samples are. -/
theorem C138_length (c : Used) (hc : 0 ≤ c.covLearningRate) (hn : n ≠ 1) (s s' : St n) (hs : s.u ≠ 0) (W : ι → Fin n → ℝ) (util : ι → ℝ) (h : learnStep c W util s = .ok s') :
    s'.u ≠ 0 ∧ Real.exp (-2) * √(s.u ⬝ᵥ s.u) ≤ √(s'.u ⬝ᵥ s'.u) ∧ √(s'.u ⬝ᵥ s'.u) ≤ 3 * √(s.u ⬝ᵥ s.u) := by
  unfold learnStep at h
  rw [if_neg hn] at h
  rw [← Except.ok.inj h]
  simp only
  generalize gradU s.u W util = du
  generalize s.u = u at *
  suffices hb : Real.exp (-2) * √(u ⬝ᵥ u) ≤ √(updateU c.covLearningRate u du ⬝ᵥ updateU c.covLearningRate u du) ∧ √(updateU c.covLearningRate u du ⬝ᵥ updateU c.covLearningRate u du) ≤ 3 * √(u ⬝ᵥ u) by
    refine ⟨fun h0 => ?_, hb⟩
    have := hb.1
    rw [h0] at this
    simp only [dotProduct_zero, Real.sqrt_zero] at this
    have := mul_pos (Real.exp_pos (-2)) (v_dot u u hs).2.1
    linarith
  obtain ⟨hρ, hr, -, hr2⟩ := v_dot u u hs
  have cs : ∀ a b : Fin n → ℝ, (a ⬝ᵥ b) ^ 2 ≤ (a ⬝ᵥ a) * (b ⬝ᵥ b) := by
    intro a b
    have := Finset.sum_mul_sq_le_sq_mul_sq Finset.univ a b
    simpa [dotProduct, pow_two] using this
  have e2 : Real.exp (-2) ≤ 1 := Real.exp_le_one_iff.2 (by norm_num)
  unfold updateU
  simp only
  set r := √(u ⬝ᵥ u) with hrdef
  generalize hε : (if du ⬝ᵥ du = 0 then c.covLearningRate else min c.covLearningRate (2 * √(r ^ 2 / (du ⬝ᵥ du)))) = ε
  have hd0 := dot_nonneg du
  have ε0 : 0 ≤ ε := by
    rw [← hε]
    split_ifs
    · exact hc
    · exact le_min hc (by positivity)
  have ε2 : ε ^ 2 * (du ⬝ᵥ du) ≤ 4 * r ^ 2 := by
    by_cases hz : du ⬝ᵥ du = 0
    · rw [hz, mul_zero]; positivity
    · have hle : ε ≤ 2 * √(r ^ 2 / (du ⬝ᵥ du)) := by rw [← hε, if_neg hz]; exact min_le_right _ _
      have hsq : √(r ^ 2 / (du ⬝ᵥ du)) ^ 2 = r ^ 2 / (du ⬝ᵥ du) := Real.sq_sqrt (by positivity)
      have h1 : ε ^ 2 ≤ 4 * (r ^ 2 / (du ⬝ᵥ du)) := by
        rw [← hsq]
        nlinarith [Real.sqrt_nonneg (r ^ 2 / (du ⬝ᵥ du))]
      calc ε ^ 2 * (du ⬝ᵥ du) ≤ 4 * (r ^ 2 / (du ⬝ᵥ du)) * (du ⬝ᵥ du) := mul_le_mul_of_nonneg_right h1 hd0
        _ = 4 * r ^ 2 := by field_simp
  -- the projection of the step
  have hproj : (ε * (du ⬝ᵥ u)) ^ 2 ≤ (2 * r ^ 2) ^ 2 := by
    have := cs du u
    calc (ε * (du ⬝ᵥ u)) ^ 2 = ε ^ 2 * (du ⬝ᵥ u) ^ 2 := by ring
      _ ≤ ε ^ 2 * ((du ⬝ᵥ du) * (u ⬝ᵥ u)) := mul_le_mul_of_nonneg_left this (sq_nonneg _)
      _ = (ε ^ 2 * (du ⬝ᵥ du)) * r ^ 2 := by rw [hr2]; ring
      _ ≤ (4 * r ^ 2) * r ^ 2 := mul_le_mul_of_nonneg_right ε2 (sq_nonneg _)
      _ = (2 * r ^ 2) ^ 2 := by ring
  have habs : |ε * (du ⬝ᵥ u)| ≤ 2 * r ^ 2 := abs_le_of_sq_le_sq hproj (by positivity)
  have hdc : du ⬝ᵥ ((1 / r) • u) / r = (du ⬝ᵥ u) / r ^ 2 := by
    rw [dotProduct_smul, smul_eq_mul]
    field_simp
  rw [hdc]
  split_ifs with hpos
  · have hdu : 0 < du ⬝ᵥ u := by
      by_contra hcon
      exact absurd hpos (not_lt.2 (div_nonpos_of_nonpos_of_nonneg (not_lt.1 hcon) (sq_nonneg r)))
    have hexp : (u + ε • du) ⬝ᵥ (u + ε • du) = r ^ 2 + 2 * (ε * (du ⬝ᵥ u)) + ε ^ 2 * (du ⬝ᵥ du) := by
      simp only [add_dotProduct, dotProduct_add, smul_dotProduct, dotProduct_smul, smul_eq_mul, dotProduct_comm u du, hr2]
      ring
    rw [hexp]
    have h1 : 0 ≤ ε * (du ⬝ᵥ u) := mul_nonneg ε0 hdu.le
    have h2 := (abs_le.1 habs).2
    constructor
    · refine Real.le_sqrt_of_sq_le ?_
      have : (Real.exp (-2) * r) ^ 2 ≤ r ^ 2 := by
        have : Real.exp (-2) * r ≤ r := by nlinarith [Real.exp_pos (-2)]
        exact pow_le_pow_left₀ (by positivity) this 2
      have := mul_nonneg (sq_nonneg ε) hd0
      linarith
    · rw [show (3 : ℝ) * r = √((3 * r) ^ 2) by rw [Real.sqrt_sq (by positivity)]]
      refine Real.sqrt_le_sqrt ?_
      nlinarith
  · have hle : (du ⬝ᵥ u) / r ^ 2 ≤ 0 := not_lt.1 hpos
    set dc := (du ⬝ᵥ u) / r ^ 2 with hdcd
    set v' := (1 / r) • u + ε • ((1 / r) • du - dc • (1 / r) • u) with hv'
    have hv0 : v' ⬝ᵥ v' ≠ 0 := by
      intro h0
      have hz : v' = 0 := dotProduct_self_eq_zero.1 h0
      have h1 : v' ⬝ᵥ u = r := by
        rw [hv', add_dotProduct, smul_dotProduct, smul_dotProduct, sub_dotProduct, smul_dotProduct, smul_dotProduct, smul_dotProduct, ← hr2, hdcd]
        simp only [smul_eq_mul]
        field_simp
        ring
      rw [hz, zero_dotProduct] at h1
      linarith
    have hvpos : 0 < v' ⬝ᵥ v' := lt_of_le_of_ne (dot_nonneg v') (Ne.symm hv0)
    have hlen : √((Real.exp (Real.log r + ε * dc) • (1 / √(v' ⬝ᵥ v')) • v') ⬝ᵥ (Real.exp (Real.log r + ε * dc) • (1 / √(v' ⬝ᵥ v')) • v')) = r * Real.exp (ε * dc) := by
      rw [smul_smul, smul_dotProduct, dotProduct_smul, smul_eq_mul, smul_eq_mul, ← mul_assoc, Real.exp_add, Real.exp_log hr]
      have : r * Real.exp (ε * dc) * (1 / √(v' ⬝ᵥ v')) * (r * Real.exp (ε * dc) * (1 / √(v' ⬝ᵥ v'))) * v' ⬝ᵥ v' = (r * Real.exp (ε * dc)) ^ 2 := by
        have hq : √(v' ⬝ᵥ v') ^ 2 = v' ⬝ᵥ v' := Real.sq_sqrt hvpos.le
        have hq0 : √(v' ⬝ᵥ v') ≠ 0 := (Real.sqrt_pos.2 hvpos).ne'
        generalize √(v' ⬝ᵥ v') = q at *
        rw [← hq]
        field_simp
      rw [this, Real.sqrt_sq (by positivity)]
    rw [hlen]
    have hε1 : ε * dc ≤ 0 := mul_nonpos_of_nonneg_of_nonpos ε0 hle
    have hε2 : -2 ≤ ε * dc := by
      have := (abs_le.1 habs).1
      rw [hdcd, ← mul_div_assoc, le_div_iff₀ (by positivity)]
      linarith
    constructor
    · rw [mul_comm]
      exact mul_le_mul_of_nonneg_left (Real.exp_le_exp.2 hε2) hr.le
    · have : Real.exp (ε * dc) ≤ 1 := Real.exp_le_one_iff.2 hε1
      nlinarith

/-- **C138 violated: settings.** The learning rates for scale and covariance, the size of the batch and the kind of baseline that the user sets have no effect: they are overwritten. -/
theorem C138_negation_settings (c c' : Config) (h : c.centerLearningRate = c'.centerLearningRate) (rate rate' : ℝ) (size size' late : ℕ) : settings c rate size late = settings c' rate' size' late := by
  simp [settings, h]

/-- **C138 violated: one dimension.** Every step fails (`ZeroDivisionError`). -/
theorem C138_negation_one (c : Used) (s : St 1) (W : ι → Fin 1 → ℝ) (util : ι → ℝ) : learnStep c W util s = .error .zeroDivision := by simp [learnStep]

/-- **C138 violated: the stopping criterion.** The search is to end when the largest variance is below the cutoff of 1e-20, but the number that is compared is not the largest variance: there are distributions (for example in two dimensions) whose
variance in every direction is below the cutoff while that number is still above it. -/
theorem C138_negation_variance : ∃ s : St 2, (∀ v : Fin 2 → ℝ, v ⬝ᵥ v = 1 → Real.exp (2 * s.a) * (v ⬝ᵥ ((1 + vecMulVec s.u s.u) *ᵥ v)) < 1 / 10 ^ 20) ∧ ¬ maxVariance s < 1 / 10 ^ 20 := by
  refine ⟨⟨0, ![1, 0], Real.log (1 / 10 ^ 11)⟩, ?_, ?_⟩
  · intro v hv
    have e : Real.exp (2 * Real.log (1 / 10 ^ 11)) = 1 / 10 ^ 22 := by
      rw [two_mul, Real.exp_add, Real.exp_log (by positivity)]
      norm_num
    rw [e, add_mulVec, one_mulVec, dotProduct_add, hv, vecMulVec_mulVec]
    have h2 : v 0 * v 0 + v 1 * v 1 = 1 := by simpa [dotProduct, Fin.sum_univ_two] using hv
    simp [dotProduct, Fin.sum_univ_two]
    nlinarith [mul_self_nonneg (v 1)]
  · unfold maxVariance
    simp only
    rw [show Real.log (1 / 10 ^ 11) * 2 / ((2 : ℕ) : ℝ) = Real.log (1 / 10 ^ 11) by push_cast; ring, Real.exp_log (by positivity)]
    norm_num

/-- the hypotheses are met: a step in two dimensions, with two samples -/
example : ∃ s' : St 2, learnStep (settings ⟨1, none, none, none, true⟩ 1 4 5) (fun i : Fin 2 => ![![1, 2], ![0, 1]] i) (utilities false ![1, 0]) ⟨0, ![1, 0], 0⟩ = .ok s' ∧ s'.center = ![1, 2] := by
  refine ⟨_, rfl, ?_⟩
  simp only [utilities, settings, Fin.sum_univ_two]
  ext i
  fin_cases i <;> simp

end Verif.Props
