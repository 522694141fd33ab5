import Verif.Model.Cauchy
import Mathlib.Probability.Distributions.Cauchy
import Mathlib.Probability.CDF
import Mathlib.MeasureTheory.Integral.IntegralEqImproper
import Mathlib.MeasureTheory.Constructions.Pi
import Mathlib.Analysis.SpecialFunctions.Trigonometric.ArctanDeriv
import Mathlib.MeasureTheory.Function.SpecialFunctions.Basic
import Mathlib.Tactic.FieldSimp
/-
Properties of the sampling of Cauchy distributions.
-/
namespace Verif.Spec
open MeasureTheory

/-- `rand()`: uniformly distributed numbers from 0 to 1 -/
noncomputable def uniform01 : Measure ℝ := volume.restrict (Set.Ico 0 1)

/-- `u`, `s`, `d` is a singular value decomposition of the matrix -/
def IsSvd {n : Nat} (sigma u : Matrix (Fin n) (Fin n) ℝ) (s : Fin n → ℝ) (d : Matrix (Fin n) (Fin n) ℝ) : Prop :=
  u * u.transpose = 1 ∧ u.transpose * u = 1 ∧ d * d.transpose = 1 ∧ d.transpose * d = 1 ∧ (∀ i, 0 ≤ s i) ∧ Antitone s ∧ sigma = u * Matrix.diagonal s * d

end Verif.Spec

namespace Verif.Cauchy
open Verif.Spec
open MeasureTheory ProbabilityTheory Set Filter Topology
open scoped NNReal

instance : IsProbabilityMeasure uniform01 := ⟨by simp [uniform01]⟩

/-- the distribution function of the Cauchy distribution -/
theorem cauchy_Iic (mu : ℝ) (γ : ℝ≥0) (hγ : γ ≠ 0) (x : ℝ) : cauchyMeasure mu γ (Iic x) = ENNReal.ofReal (Real.arctan ((x - mu) / γ) / Real.pi + 1 / 2) := by
  have hγ' : (0 : ℝ) < γ := by positivity
  rw [cauchyMeasure_of_scale_ne_zero mu hγ, withDensity_apply _ measurableSet_Iic]
  unfold cauchyPDF
  rw [← ofReal_integral_eq_lintegral_ofReal (integrable_cauchyPDFReal mu).integrableOn (ae_of_all _ fun x => (cauchyPDF_pos mu hγ x).le)]
  congr 1
  have hd : ∀ t ∈ Iic x, HasDerivAt (fun t : ℝ => Real.arctan ((t - mu) / γ) / Real.pi) (cauchyPDFReal mu γ t) t := by
    intro t _
    have h1 : HasDerivAt (fun t : ℝ => (t - mu) / γ) (1 / (γ : ℝ)) t := ((hasDerivAt_id t).sub_const mu).div_const _
    have h2 := (h1.arctan).div_const Real.pi
    have e : cauchyPDFReal mu γ t = 1 / (1 + ((t - mu) / γ) ^ 2) * (1 / (γ : ℝ)) / Real.pi := by
      rw [cauchyPDFReal_def', NNReal.coe_inv]
      field_simp
    rw [e]
    exact h2
  have hl : Tendsto (fun t : ℝ => Real.arctan ((t - mu) / γ) / Real.pi) atBot (𝓝 (-(Real.pi / 2) / Real.pi)) := by
    refine Tendsto.div_const ?_ _
    have h3 : Tendsto (fun t : ℝ => (t - mu) / γ) atBot atBot := Tendsto.atBot_div_const hγ' (tendsto_atBot_add_const_right _ (-mu) tendsto_id)
    exact (tendsto_nhds_of_tendsto_nhdsWithin Real.tendsto_arctan_atBot).comp h3
  rw [integral_Iic_of_hasDerivAt_of_tendsto' hd (integrable_cauchyPDFReal mu).integrableOn hl]
  have := Real.pi_pos
  field_simp
  ring

theorem measurable_tan : Measurable Real.tan := by
  have : Real.tan = fun x => Real.sin x / Real.cos x := funext Real.tan_eq_sin_div_cos
  rw [this]
  fun_prop

theorem measurable_draw (mu γ : ℝ) : Measurable fun r : ℝ => γ * Real.tan (Real.pi * (r - 1 / 2)) + mu :=
  ((measurable_tan.comp (by fun_prop)).const_mul γ).add_const mu

/-- which random numbers give small samples -/
theorem draw_le (mu γ x r : ℝ) (hγ : 0 < γ) (h0 : 0 < r) (h1 : r < 1) :
    γ * Real.tan (Real.pi * (r - 1 / 2)) + mu ≤ x ↔ r ≤ Real.arctan ((x - mu) / γ) / Real.pi + 1 / 2 := by
  have hp := Real.pi_pos
  have ha : -(Real.pi / 2) < Real.pi * (r - 1 / 2) := by nlinarith
  have hb : Real.pi * (r - 1 / 2) < Real.pi / 2 := by nlinarith
  have e1 : γ * Real.tan (Real.pi * (r - 1 / 2)) + mu ≤ x ↔ Real.tan (Real.pi * (r - 1 / 2)) ≤ (x - mu) / γ := by
    rw [le_div_iff₀ hγ, mul_comm]
    constructor <;> intro h <;> linarith
  rw [e1, ← Real.arctan_le_arctan_iff, Real.arctan_tan ha hb]
  have e2 : r ≤ Real.arctan ((x - mu) / γ) / Real.pi + 1 / 2 ↔ (r - 1 / 2) ≤ Real.arctan ((x - mu) / γ) / Real.pi := by
    constructor <;> intro h <;> linarith
  rw [e2, le_div_iff₀ hp, mul_comm]

/-- one number -/
theorem draw_map (mu : ℝ) (γ : ℝ≥0) : uniform01.map (fun r : ℝ => γ * Real.tan (Real.pi * (r - 1 / 2)) + mu) = cauchyMeasure mu γ := by
  by_cases hγ : γ = 0
  · subst hγ
    simp [Measure.map_const]
  have hγ' : (0 : ℝ) < γ := by positivity
  have hprob : IsProbabilityMeasure (uniform01.map (fun r : ℝ => γ * Real.tan (Real.pi * (r - 1 / 2)) + mu)) := Measure.isProbabilityMeasure_map (measurable_draw mu γ).aemeasurable
  refine Measure.ext_of_Iic _ _ fun x => ?_
  rw [cauchy_Iic mu γ hγ x, Measure.map_apply (measurable_draw mu γ) measurableSet_Iic]
  unfold uniform01
  rw [Measure.restrict_congr_set (Ioo_ae_eq_Ico (μ := volume) (a := (0 : ℝ)) (b := 1)).symm, Measure.restrict_apply ((measurable_draw mu γ) measurableSet_Iic)]
  have hp := Real.pi_pos
  have ha1 : Real.arctan ((x - mu) / γ) / Real.pi < 1 / 2 := by rw [div_lt_iff₀ hp]; linarith [Real.arctan_lt_pi_div_two ((x - mu) / γ)]
  have hset : (fun r : ℝ => γ * Real.tan (Real.pi * (r - 1 / 2)) + mu) ⁻¹' Iic x ∩ Ioo 0 1 = Ioc 0 (Real.arctan ((x - mu) / γ) / Real.pi + 1 / 2) := by
    ext r
    simp only [mem_inter_iff, mem_preimage, mem_Iic, mem_Ioo, mem_Ioc]
    constructor
    · rintro ⟨h, h0, h1⟩
      exact ⟨h0, (draw_le mu γ x r hγ' h0 h1).1 h⟩
    · rintro ⟨h0, h⟩
      have h1 : r < 1 := by linarith
      exact ⟨(draw_le mu γ x r hγ' h0 h1).2 h, h0, h1⟩
  rw [hset, Real.volume_Ioc, sub_zero]

end Verif.Cauchy

namespace Verif.Props
open Verif.Cauchy Verif.Spec
open MeasureTheory ProbabilityTheory
open scoped NNReal

/-- C200 (distribution of samples). With independent random numbers, uniformly distributed from 0 to 1, and a matrix without negative entries on its diagonal, the components of a sample are independent, and each one has the Cauchy distribution
around its mean with the entry of the diagonal as scale. -/
theorem C200_diagonal_partial {n : Nat} (mu : Fin n → ℝ) (sigma : Matrix (Fin n) (Fin n) ℝ) (γ : Fin n → ℝ≥0) (hγ : ∀ i, sigma i i = γ i) :
    (Measure.pi fun _ : Fin n => uniform01).map (sampleDiagonal mu sigma) = Measure.pi fun i => cauchyMeasure (mu i) (γ i) := by
  have h : sampleDiagonal mu sigma = fun r i => (fun (i : Fin n) (t : ℝ) => γ i * Real.tan (Real.pi * (t - 1 / 2)) + mu i) i (r i) := by
    funext r i
    simp only [sampleDiagonal, tangents, hγ]
  have hp : ∀ i, IsProbabilityMeasure (uniform01.map ((fun (i : Fin n) (t : ℝ) => γ i * Real.tan (Real.pi * (t - 1 / 2)) + mu i) i)) := fun i => Measure.isProbabilityMeasure_map (measurable_draw (mu i) (γ i)).aemeasurable
  rw [h, Measure.pi_map_pi fun i => (measurable_draw (mu i) (γ i)).aemeasurable]
  congr 1
  funext i
  exact draw_map (mu i) (γ i)

/-- two components with the scales 1 and 4 -/
example : ∀ i, (!![1, 7; 7, 4] : Matrix (Fin 2) (Fin 2) ℝ) i i = ((![1, 4] : Fin 2 → ℝ≥0) i : ℝ) := by
  intro i
  fin_cases i <;> simp

/-- sampling with one dimension and the full matrix -/
private theorem full_one (mu : Fin 1 → ℝ) (a : ℝ) (u : Matrix (Fin 1) (Fin 1) ℝ) (s : Fin 1 → ℝ) (d : Matrix (Fin 1) (Fin 1) ℝ) (h : IsSvd !![a] u s d) (ha : 0 ≤ a) :
    sampleFull mu u s d = sampleDiagonal mu !![√a] := by
  obtain ⟨h1, -, h3, -, h5, -, h7⟩ := h
  have e1 := congrFun (congrFun h1 0) 0
  have e3 := congrFun (congrFun h3 0) 0
  have e7 := congrFun (congrFun h7 0) 0
  simp [Matrix.mul_apply, Matrix.diagonal] at e1 e3 e7
  have hsq : (u 0 0 * d 0 0) * (u 0 0 * d 0 0) = 1 := by
    calc (u 0 0 * d 0 0) * (u 0 0 * d 0 0) = (u 0 0 * u 0 0) * (d 0 0 * d 0 0) := by ring
      _ = 1 := by rw [e1, e3, one_mul]
  have hs : s 0 * (u 0 0 * d 0 0) = a := by rw [e7]; ring
  have h50 := h5 0
  have key : √(s 0) * (u 0 0 * d 0 0) = √a := by
    rcases mul_self_eq_one_iff.1 hsq with h | h
    · rw [h, mul_one] at hs
      rw [h, hs, mul_one]
    · rw [h] at hs
      have h0 : s 0 = 0 := by linarith
      have h0' : a = 0 := by linarith
      simp [h0, h0']
  funext r i
  have hi : i = 0 := Subsingleton.elim _ _
  subst hi
  simp only [sampleFull, sampleDiagonal, Pi.add_apply, Matrix.mulVec, Matrix.vecMul, dotProduct, Fin.sum_univ_one]
  rw [show d 0 0 * (√(s 0) * tangents r 0 * u 0 0) = √(s 0) * (u 0 0 * d 0 0) * tangents r 0 by ring, key]
  rfl

/-- C200 (violation). The scale depends on the way of sampling: for the matrix with the single entry 4 the samples do not have the same distribution with the full matrix, for every singular value decomposition, as with its diagonal only
(the scales are 2 and 4). -/
theorem C200_negation_scale (mu : Fin 1 → ℝ) (u : Matrix (Fin 1) (Fin 1) ℝ) (s : Fin 1 → ℝ) (d : Matrix (Fin 1) (Fin 1) ℝ) (h : IsSvd !![4] u s d) :
    (Measure.pi fun _ : Fin 1 => uniform01).map (sampleFull mu u s d) ≠ (Measure.pi fun _ : Fin 1 => uniform01).map (sampleDiagonal mu !![4]) := by
  have h4 : √(4 : ℝ) = 2 := by rw [show (4 : ℝ) = 2 ^ 2 by norm_num]; exact Real.sqrt_sq (by norm_num)
  rw [full_one mu 4 u s d h (by norm_num), h4, C200_diagonal_partial mu !![2] (fun _ => 2) (by intro i; fin_cases i; simp), C200_diagonal_partial mu !![4] (fun _ => 4) (by intro i; fin_cases i; simp)]
  intro he
  have hset := congrArg (fun m => m (Set.univ.pi fun i => Set.Iic (mu i + 2))) he
  simp only [Measure.pi_pi, Fin.prod_univ_one] at hset
  rw [cauchy_Iic (mu 0) 2 (by norm_num), cauchy_Iic (mu 0) 4 (by norm_num)] at hset
  have hp := Real.pi_pos
  have hnn : ∀ y : ℝ, 0 ≤ Real.arctan y / Real.pi + 1 / 2 := by
    intro y
    have : -(1 / 2) ≤ Real.arctan y / Real.pi := by rw [le_div_iff₀ hp]; linarith [Real.neg_pi_div_two_lt_arctan y]
    linarith
  rw [ENNReal.ofReal_eq_ofReal_iff (hnn _) (hnn _)] at hset
  have h2 : Real.arctan ((mu 0 + 2 - mu 0) / ((2 : ℝ≥0) : ℝ)) = Real.arctan ((mu 0 + 2 - mu 0) / ((4 : ℝ≥0) : ℝ)) := by
    have h3 : Real.arctan ((mu 0 + 2 - mu 0) / ((2 : ℝ≥0) : ℝ)) / Real.pi = Real.arctan ((mu 0 + 2 - mu 0) / ((4 : ℝ≥0) : ℝ)) / Real.pi := by linarith
    exact (div_left_inj' hp.ne').1 h3
  have h3 := Real.arctan_injective h2
  norm_num at h3

/-- C200 (violation). With the full matrix samples lie in a wrong direction: for the matrix of ones in two dimensions the distribution lies on the diagonal through the mean, but whatever singular value decomposition is used, no sample is on it, if only the first random
number is not 1/2. -/
theorem C200_negation_direction (mu : Fin 2 → ℝ) (u : Matrix (Fin 2) (Fin 2) ℝ) (s : Fin 2 → ℝ) (d : Matrix (Fin 2) (Fin 2) ℝ) (h : IsSvd !![1, 1; 1, 1] u s d) (r : Fin 2 → ℝ) (h0 : 0 < r 0) (h1 : r 0 < 1) (hr : r 0 ≠ 1 / 2) :
    ¬ ∃ t : ℝ, sampleFull mu u s d r = fun i => mu i + t := by
  obtain ⟨u1, u2, d1, d2, hs, hanti, he⟩ := h
  have hs01 : s 1 ≤ s 0 := hanti (by decide)
  have hs0 := hs 0
  have hs1 := hs 1
  -- the products with the transposes
  have k1 : !![1, 1; 1, 1] * d.transpose = u * Matrix.diagonal s := by rw [he, Matrix.mul_assoc, d1, Matrix.mul_one]
  have k2 : u.transpose * !![1, 1; 1, 1] = Matrix.diagonal s * d := by rw [he, ← Matrix.mul_assoc, ← Matrix.mul_assoc, u2, Matrix.one_mul]
  have a00 := congrFun (congrFun k1 0) 0
  have a01 := congrFun (congrFun k1 0) 1
  have a10 := congrFun (congrFun k1 1) 0
  have a11 := congrFun (congrFun k1 1) 1
  have b00 := congrFun (congrFun k2 0) 0
  have b01 := congrFun (congrFun k2 0) 1
  have v00 := congrFun (congrFun u1 0) 0
  have v01 := congrFun (congrFun u1 0) 1
  have v11 := congrFun (congrFun u1 1) 1
  have w00 := congrFun (congrFun d1 0) 0
  have w01 := congrFun (congrFun d1 0) 1
  have w11 := congrFun (congrFun d1 1) 1
  have c00 := congrFun (congrFun he 0) 0
  simp [Matrix.mul_apply, Fin.sum_univ_two, Matrix.diagonal] at a00 a01 a10 a11 b00 b01 v00 v01 v11 w00 w01 w11 c00
  have s0 : s 0 ≠ 0 := by
    intro h
    have h' : s 1 = 0 := by linarith
    rw [h, h'] at c00
    simp at c00
  have eu : u 1 0 = u 0 0 := mul_right_cancel₀ s0 (by linarith)
  have ed : d 0 1 = d 0 0 := mul_left_cancel₀ s0 (by linarith)
  rw [eu] at v01 v11
  rw [ed] at w00 w01
  have du : u 0 0 * u 0 0 = 1 / 2 := by
    have h2 : (u 0 1 * u 1 1) ^ 2 = (u 0 1 * u 0 1) * (u 1 1 * u 1 1) := by ring
    have h3 : u 0 1 * u 1 1 = -(u 0 0 * u 0 0) := by linarith
    have h4 : u 0 1 * u 0 1 = 1 - u 0 0 * u 0 0 := by linarith
    have h5 : u 1 1 * u 1 1 = 1 - u 0 0 * u 0 0 := by linarith
    rw [h3, h4, h5] at h2
    linarith [h2, show (-(u 0 0 * u 0 0)) ^ 2 - (1 - u 0 0 * u 0 0) * (1 - u 0 0 * u 0 0) = 2 * (u 0 0 * u 0 0) - 1 by ring]
  have dd : d 0 0 * d 0 0 = 1 / 2 := by linarith
  have d0 : d 0 0 ≠ 0 := by intro h; rw [h] at dd; norm_num at dd
  have e11 : d 1 1 = -d 1 0 := by
    have : d 0 0 * (d 1 0 + d 1 1) = 0 := by linarith
    rcases mul_eq_zero.1 this with h | h
    · exact absurd h d0
    · linarith
  rw [e11] at w11 a01
  have d10 : d 1 0 * d 1 0 = 1 / 2 := by linarith
  have u01 : u 0 1 * u 0 1 = 1 / 2 := by linarith
  have u0 : u 0 1 ≠ 0 := by intro h; rw [h] at u01; norm_num at u01
  have s1 : s 1 = 0 := by
    have : u 0 1 * s 1 = 0 := by linarith
    exact (mul_eq_zero.1 this).resolve_left u0
  have ht : tangents r 0 ≠ 0 := by
    intro h
    have hp := Real.pi_pos
    have := Real.arctan_tan (show -(Real.pi / 2) < Real.pi * (r 0 - 1 / 2) by nlinarith) (show Real.pi * (r 0 - 1 / 2) < Real.pi / 2 by nlinarith)
    rw [tangents] at h
    rw [h, Real.arctan_zero] at this
    rcases mul_eq_zero.1 this.symm with h' | h'
    · exact hp.ne' h'
    · exact hr (by linarith)
  have hx : √(s 0) * tangents r 0 ≠ 0 := mul_ne_zero (Real.sqrt_ne_zero'.2 (lt_of_le_of_ne hs0 (Ne.symm s0))) ht
  rintro ⟨t, hst⟩
  have f0 := congrFun hst 0
  have f1 := congrFun hst 1
  simp [sampleFull, Matrix.mulVec, Matrix.vecMul, dotProduct, Fin.sum_univ_two, s1, ed, e11] at f0 f1
  have g : (√(s 0) * tangents r 0) * (d 0 0 * (u 0 0 + u 0 1)) = (√(s 0) * tangents r 0) * (d 1 0 * (u 0 0 - u 0 1)) := by linarith
  have g := mul_left_cancel₀ hx g
  have g2 : (d 0 0 * (u 0 0 + u 0 1)) * (d 0 0 * (u 0 0 + u 0 1)) = (d 1 0 * (u 0 0 - u 0 1)) * (d 1 0 * (u 0 0 - u 0 1)) := by rw [g]
  have g3 : (d 0 0 * d 0 0) * (u 0 0 * u 0 0 + 2 * (u 0 0 * u 0 1) + u 0 1 * u 0 1) = (d 1 0 * d 1 0) * (u 0 0 * u 0 0 - 2 * (u 0 0 * u 0 1) + u 0 1 * u 0 1) := by linarith
  rw [dd, d10] at g3
  have g4 : u 0 0 * u 0 1 = 0 := by linarith
  rcases mul_eq_zero.1 g4 with h | h
  · rw [h] at du; norm_num at du
  · exact u0 h

/-- a decomposition of the matrix of ones -/
example : IsSvd !![1, 1; 1, 1] !![1 / √2, 1 / √2; 1 / √2, -(1 / √2)] ![2, 0] !![1 / √2, 1 / √2; 1 / √2, -(1 / √2)] := by
  have h : 1 / √2 * (1 / √2) = (1 / 2 : ℝ) := by rw [div_mul_div_comm, Real.mul_self_sqrt (by norm_num)]; norm_num
  generalize 1 / √2 = w at h
  have ht : (!![w, w; w, -w] : Matrix (Fin 2) (Fin 2) ℝ).transpose = !![w, w; w, -w] := by
    ext i j; fin_cases i <;> fin_cases j <;> rfl
  have hm : (!![w, w; w, -w] : Matrix (Fin 2) (Fin 2) ℝ) * !![w, w; w, -w] = 1 := by
    ext i j
    fin_cases i <;> fin_cases j <;> simp [Matrix.mul_apply, Fin.sum_univ_two, h] <;> norm_num
  rw [IsSvd, ht]
  refine ⟨hm, hm, hm, hm, ?_, ?_, ?_⟩
  · intro i; fin_cases i <;> simp
  · intro i j hij
    fin_cases i <;> fin_cases j <;> simp at hij ⊢
  · have hd : (Matrix.diagonal ![2, 0] : Matrix (Fin 2) (Fin 2) ℝ) = !![2, 0; 0, 0] := by
      ext i j; fin_cases i <;> fin_cases j <;> rfl
    rw [hd]
    ext i j
    fin_cases i <;> fin_cases j <;> simp [Matrix.mul_apply, Fin.sum_univ_two] <;> linarith

end Verif.Props
