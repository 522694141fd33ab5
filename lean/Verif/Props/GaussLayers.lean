import Verif.Model.GaussLayers
import Verif.Spec.GaussLayers
import Verif.Lemmas.Layers
import Mathlib.Analysis.Calculus.Deriv.Basic
import Mathlib.Analysis.Calculus.Deriv.Add
import Mathlib.Analysis.Calculus.Deriv.Mul
import Mathlib.Analysis.Calculus.Deriv.Pow
import Mathlib.Analysis.SpecialFunctions.Log.Deriv
import Mathlib.Analysis.SpecialFunctions.ExpDeriv
import Mathlib.Tactic.Linarith
import Mathlib.Tactic.FieldSimp
import Mathlib.Tactic.NormNum
import Mathlib.Tactic.Positivity
/-
C125: layers with Gaussian exploration. C126: mixture density networks. C127: softmax over slices.
-/
namespace Verif.GaussLayers
open Verif.GaussLayers.Spec Verif.Net Finset

theorem expln_pos (p : ℝ) : 0 < expln p := by
  unfold expln
  split_ifs with h
  · exact Real.exp_pos p
  · have := Real.log_nonneg (show (1 : ℝ) ≤ p + 1 by linarith)
    linarith

theorem log_density (u v x : ℝ) (hv : 0 < v) : Real.log (density u v x) = -(x - u) ^ 2 / (2 * v) - Real.log (2 * Real.pi * v) / 2 := by
  unfold density
  have := Real.pi_pos
  rw [Real.log_div (Real.exp_ne_zero _) (Real.sqrt_ne_zero'.2 (by positivity)), Real.log_exp, Real.log_sqrt (by positivity)]

theorem hasDerivAt_logDensity {u v : ℝ → ℝ} {u' v' t : ℝ} (hu : HasDerivAt u u' t) (hv : HasDerivAt v v' t) (hp : 0 < v t) (x : ℝ) :
    HasDerivAt (fun t => Real.log (density (u t) (v t) x)) ((x - u t) / v t * u' + ((x - u t) ^ 2 - v t) / (2 * v t ^ 2) * v') t := by
  have hpi := Real.pi_pos
  have he : (fun t => Real.log (density (u t) (v t) x)) =ᶠ[nhds t]
      fun t => -(x - u t) ^ 2 / (2 * v t) - Real.log (2 * Real.pi * v t) / 2 := by
    filter_upwards [hv.continuousAt.eventually (lt_mem_nhds hp)] with s hs
    exact log_density _ _ _ hs
  refine HasDerivAt.congr_of_eventuallyEq ?_ he
  have h1 := (((hu.const_sub x).fun_pow 2).fun_neg).fun_div (hv.const_mul 2) (by positivity)
  have h2 := ((hv.const_mul (2 * Real.pi)).log (by positivity)).div_const 2
  refine (h1.fun_sub h2).congr_deriv ?_
  field_simp
  ring

theorem hasDerivAt_sum_update {n : ℕ} (g : Fin n → ℝ → ℝ) (f : Fin n → ℝ) (i : Fin n) (g' : ℝ) (h : HasDerivAt (g i) g' (f i)) :
    HasDerivAt (fun t => ∑ j, g j (Function.update f i t j)) g' (f i) := by
  have hsum : ∀ j : Fin n, HasDerivAt (fun t => g j (Function.update f i t j)) (if j = i then g' else 0) (f i) := by
    intro j
    by_cases hij : j = i
    · subst hij; simpa using h
    · simp only [Function.update_of_ne hij, if_neg hij]
      exact hasDerivAt_const _ _
  refine (HasDerivAt.fun_sum (u := Finset.univ) fun j _ => hsum j).congr_deriv ?_
  simp

theorem hasDerivAt_sq {f : ℝ → ℝ} {f' t : ℝ} (h : HasDerivAt f f' t) : HasDerivAt (fun t => f t ^ 2) (2 * f t * f') t :=
  (h.fun_pow 2).congr_deriv (by simp)

end Verif.GaussLayers

namespace Verif.Props
open Verif.GaussLayers Verif.GaussLayers.Spec Verif.Net Finset

/-- **C125, exploration.** Disabled Gaussian layers hand on their input; enabled ones add noise with a positive standard deviation that depends on the
parameter only. -/
theorem C125_forward {n : ℕ} (l : Gauss n) (noise x : Fin n → ℝ) (i : Fin n) :
    (l.enabled = false → l.forward noise x = x) ∧
    (l.enabled = true → ∃ sd, 0 < sd ∧ sd = expln (l.params i) ∧ l.forward noise x i = x i + sd * noise i) :=
  ⟨fun h => by simp [Gauss.forward, h], fun h => ⟨_, expln_pos _, rfl, by simp [Gauss.forward, h]⟩⟩

/-- **C125, gradient.** After the derivatives were reset, the backward pass gives the exact gradient of the log-likelihood of the output that was
drawn, with respect to the input (the mean) and to the parameters; with `autoalpha`, each times the variance. -/
theorem C125_gradient {n : ℕ} (l : Gauss n) (h0 : ∀ i, l.derivs i = 0) (out x : Fin n → ℝ) (i : Fin n) :
    let scale := if l.autoalpha then expln (l.params i) ^ 2 else 1
    HasDerivAt (fun t => logLik (Function.update x i t) (fun j => expln (l.params j) ^ 2) out) ((l.backward out x).2 i / scale) (x i) ∧
    HasDerivAt (fun t => logLik x (fun j => expln (Function.update l.params i t j) ^ 2) out) ((l.backward out x).1.derivs i / scale) (l.params i) := by
  have hp := expln_pos (l.params i)
  constructor
  · unfold logLik
    have h := hasDerivAt_logDensity (hasDerivAt_id (x i)) (hasDerivAt_const (x i) (expln (l.params i) ^ 2)) (by positivity) (out i)
    refine (hasDerivAt_sum_update (fun j u => Real.log (density u (expln (l.params j) ^ 2) (out j))) x i _ h).congr_deriv ?_
    unfold Gauss.backward
    cases l.autoalpha <;> simp
  · unfold logLik
    have h := hasDerivAt_logDensity (hasDerivAt_const (l.params i) (x i)) (hasDerivAt_sq (hasDerivAt_expln (l.params i))) (by positivity) (out i)
    refine (hasDerivAt_sum_update (fun j p => Real.log (density (x j) (expln p ^ 2) (out j))) l.params i _ h).congr_deriv ?_
    unfold Gauss.backward
    cases l.autoalpha <;> simp [h0] <;> field_simp

/-- **C125, accumulation with `autoalpha`.** The derivatives of several samples add up. -/
theorem C125_accumulate {n : ℕ} (l : Gauss n) (ha : l.autoalpha = true) (out x : Fin n → ℝ) (i : Fin n) :
    (l.backward out x).1.derivs i = l.derivs i + ({ l with derivs := fun _ => 0 }.backward out x : Gauss n × (Fin n → ℝ)).1.derivs i := by
  simp [Gauss.backward, ha]

/-- **C125 violated: accumulation (default).** Each backward pass divides the sum of all derivatives by the variance, also what was accumulated before:
the derivatives of the samples do not add up, unless the standard deviation is 1 or there were none before. -/
theorem C125_negation_accumulate {n : ℕ} (l : Gauss n) (ha : l.autoalpha = false) (out x : Fin n → ℝ) (i : Fin n) :
    (l.backward out x).1.derivs i = l.derivs i / expln (l.params i) ^ 2 + ({ l with derivs := fun _ => 0 }.backward out x : Gauss n × (Fin n → ℝ)).1.derivs i ∧
    ((l.backward out x).1.derivs i = l.derivs i + ({ l with derivs := fun _ => 0 }.backward out x : Gauss n × (Fin n → ℝ)).1.derivs i ↔
      l.derivs i = 0 ∨ expln (l.params i) = 1) := by
  have h1 : (l.backward out x).1.derivs i = l.derivs i / expln (l.params i) ^ 2 +
      ({ l with derivs := fun _ => 0 }.backward out x : Gauss n × (Fin n → ℝ)).1.derivs i := by
    simp [Gauss.backward, ha, add_div]
  refine ⟨h1, ?_⟩
  rw [h1, add_left_inj]
  have hp := expln_pos (l.params i)
  constructor
  · intro h
    by_cases hd : l.derivs i = 0
    · exact Or.inl hd
    · right
      rw [div_eq_iff (by positivity)] at h
      have h2 : expln (l.params i) ^ 2 = 1 := mul_left_cancel₀ hd (by rw [mul_one]; exact h.symm)
      nlinarith
  · rintro (h | h) <;> simp [h]

/-- **C125 violated: disabled layers are not transparent for errors.** The backward pass ignores the error of the output: after a disabled layer, the
error of the input is 0 whatever error arrives, so that nothing before the layer is trained, and the parameters get a derivative
although they had no influence. -/
theorem C125_negation_disabled {n : ℕ} (l : Gauss n) (h0 : ∀ i, l.derivs i = 0) (hd : l.enabled = false) (noise x : Fin n → ℝ) (i : Fin n) :
    (l.backward (l.forward noise x) x).2 i = 0 ∧ (l.backward (l.forward noise x) x).1.derivs i < 0 := by
  have hp := expln_pos (l.params i)
  have hp' : 0 < explnPrime (l.params i) := by
    unfold explnPrime
    split_ifs with h
    · exact Real.exp_pos _
    · push Not at h; positivity
  rw [(C125_forward l noise x i).1 hd]
  unfold Gauss.backward
  have e : ((0 ^ 2 - expln (l.params i) ^ 2) / expln (l.params i) * explnPrime (l.params i)) = -(expln (l.params i) * explnPrime (l.params i)) := by
    field_simp; ring
  cases l.autoalpha
  · simp only [Bool.false_eq_true, if_false, h0, zero_add, sub_self, e, zero_div, true_and]
    exact div_neg_of_neg_of_pos (by nlinarith) (by positivity)
  · simp only [if_true, h0, zero_add, sub_self, e, true_and]
    nlinarith

/-- **C125, state-dependent exploration.** The layer adds the exploration of the current state to its input, once: further activations without
`setState` are without exploration. -/
theorem C125_once {n m : ℕ} (module : (Fin m → ℝ) → Fin n → ℝ) (l : OneSigma n m) (s : Fin m → ℝ) (x y : Fin n → ℝ) (he : l.enabled = true) :
    ((l.setState module s).forward x).2 = (fun j => x j + module s j) ∧ (((l.setState module s).forward x).1.forward y).2 = y := by
  simp [OneSigma.forward, OneSigma.setState, he]

/-- **C125, state-dependent exploration with one sigma.** After a reset, and for a state that is not zero, the backward pass gives the exact gradient of
the log-likelihood, where the variance is that of a linear module with random weights; with `autoalpha`, each times the variance. -/
theorem C125_state {n m : ℕ} (l : OneSigma n m) (h0 : l.deriv = 0) (hs : 0 < ∑ i, l.state i * l.state i) (out x : Fin n → ℝ) :
    let scale := if l.autoalpha then expln l.param ^ 2 * ∑ i, l.state i * l.state i else 1
    (∀ i, HasDerivAt (fun t => logLik (Function.update x i t) (fun _ => expln l.param ^ 2 * ∑ i, l.state i * l.state i) out) ((l.backward out x).2 i / scale) (x i)) ∧
    HasDerivAt (fun t => logLik x (fun _ => expln t ^ 2 * ∑ i, l.state i * l.state i) out) ((l.backward out x).1.deriv / scale) l.param := by
  have hp := expln_pos l.param
  generalize hS : ∑ i, l.state i * l.state i = S at *
  constructor
  · intro i
    unfold logLik
    have h := hasDerivAt_logDensity (hasDerivAt_id (x i)) (hasDerivAt_const (x i) (expln l.param ^ 2 * S)) (by positivity) (out i)
    refine (hasDerivAt_sum_update (fun j u => Real.log (density u (expln l.param ^ 2 * S) (out j))) x i _ h).congr_deriv ?_
    unfold OneSigma.backward
    rw [hS]
    cases l.autoalpha <;> simp [hs.ne']
  · unfold logLik
    have h : ∀ j : Fin n, HasDerivAt (fun t => Real.log (density (x j) (expln t ^ 2 * S) (out j)))
        (((out j - x j) ^ 2 - expln l.param ^ 2 * S) / expln l.param * explnPrime l.param / (expln l.param ^ 2 * S)) l.param := fun j => by
      have := hasDerivAt_logDensity (hasDerivAt_const l.param (x j)) ((hasDerivAt_sq (hasDerivAt_expln l.param)).mul_const S) (by positivity) (out j)
      refine this.congr_deriv ?_
      field_simp; ring
    refine (HasDerivAt.fun_sum (u := Finset.univ) fun j _ => h j).congr_deriv ?_
    rw [← sum_div, ← sum_mul, ← sum_div]
    unfold OneSigma.backward
    rw [hS]
    cases l.autoalpha <;> simp [hs.ne', h0]

/-- **C125 violated: separate sigmas.** In whatever way `autoalpha` is set, the errors of the input and the derivatives of the parameters do not belong
together: one of them is the exact gradient of the log-likelihood and the other one is the gradient times the variance. (The condition is inverted
for the derivatives; moreover they replace what was accumulated.) -/
theorem C125_negation_separate {n m : ℕ} (autoalpha : Bool) (params : Fin n → Fin m → ℝ) (state : Fin m → ℝ) (out x : Fin n → ℝ) (j : Fin n) (i : Fin m)
    (hs : ∀ j, 0 < subst2 params state j) :
    HasDerivAt (fun t => logLik x (fun k => subst2 (Function.update params j (Function.update (params j) i t)) state k) out)
      ((separateBackward autoalpha params state out x).1 j i / if autoalpha then 1 else subst2 params state j) (params j i) ∧
    HasDerivAt (fun t => logLik (Function.update x j t) (subst2 params state) out)
      ((separateBackward autoalpha params state out x).2 j / if autoalpha then subst2 params state j else 1) (x j) := by
  have hS := hs j
  constructor
  · have hv : HasDerivAt (fun t => ∑ k, state k ^ 2 * expln (Function.update (params j) i t k) ^ 2)
        (state i ^ 2 * (2 * expln (params j i) * explnPrime (params j i))) (params j i) :=
      hasDerivAt_sum_update (fun k p => state k ^ 2 * expln p ^ 2) (params j) i _ ((hasDerivAt_sq (hasDerivAt_expln (params j i))).const_mul _)
    have hat : ∑ k, state k ^ 2 * expln (Function.update (params j) i (params j i) k) ^ 2 = subst2 params state j := by
      rw [Function.update_eq_self]; rfl
    have h := hasDerivAt_logDensity (hasDerivAt_const (params j i) (x j)) hv (by rw [hat]; exact hS) (out j)
    rw [hat] at h
    have hsum : ∀ k : Fin n, HasDerivAt (fun t => Real.log (density (x k) (subst2 (Function.update params j (Function.update (params j) i t)) state k) (out k)))
        (if k = j then (out j - x j) / subst2 params state j * 0 + ((out j - x j) ^ 2 - subst2 params state j) / (2 * subst2 params state j ^ 2) *
          (state i ^ 2 * (2 * expln (params j i) * explnPrime (params j i))) else 0) (params j i) := by
      intro k
      by_cases hk : k = j
      · subst hk
        rw [if_pos rfl]
        refine h.congr_of_eventuallyEq (Filter.Eventually.of_forall fun t => ?_)
        simp [subst2]
      · rw [if_neg hk]
        simp only [subst2, Function.update_of_ne hk]
        exact hasDerivAt_const _ _
    refine (HasDerivAt.fun_sum (u := Finset.univ) fun k _ => hsum k).congr_deriv ?_
    simp only [sum_ite_eq', mem_univ, if_true, separateBackward]
    generalize subst2 params state j = S at *
    cases autoalpha
    · simp; field_simp
    · simp [hS.ne']; field_simp
  · unfold logLik
    have h := hasDerivAt_logDensity (hasDerivAt_id (x j)) (hasDerivAt_const (x j) (subst2 params state j)) hS (out j)
    refine (hasDerivAt_sum_update (fun k u => Real.log (density u (subst2 params state k) (out k))) x j _ h).congr_deriv ?_
    simp only [separateBackward]
    cases autoalpha <;> simp [hS.ne']

example : ∃ (params : Fin 2 → Fin 2 → ℝ) (state : Fin 2 → ℝ), ∀ j, 0 < subst2 params state j := by
  refine ⟨fun _ _ => 0, fun _ => 1, fun j => ?_⟩
  simp [subst2, expln]

theorem mixForward_at (K : ℕ) (A : ℕ → ℝ) (k : ℕ) (hk : k < K) :
    mixForward K A k = safeExp (A k) / ∑ k ∈ range K, safeExp (A k) ∧ mixForward K A (k + K) = safeExp (A (k + K)) := by
  unfold mixForward
  exact ⟨by rw [if_pos hk], by rw [if_neg (by omega), if_pos (by omega)]⟩

/-- **C126, the layer.** The mixing coefficients are positive and sum to 1, the standard deviations are positive, the means are the activations. -/
theorem C126_layer (K : ℕ) (hK : 0 < K) (A : ℕ → ℝ) : (∀ k < K, 0 < mixForward K A k) ∧ ∑ k ∈ range K, mixForward K A k = 1 ∧
    (∀ k < K, 0 < mixForward K A (k + K)) ∧ ∀ i, 2 * K ≤ i → mixForward K A i = A i := by
  have hZ : 0 < ∑ k ∈ range K, safeExp (A k) := sum_pos (fun k _ => safeExp_pos _) ⟨0, mem_range.2 hK⟩
  refine ⟨fun k hk => ?_, ?_, fun k hk => ?_, fun i hi => ?_⟩
  · rw [(mixForward_at K A k hk).1]; exact div_pos (safeExp_pos _) hZ
  · rw [sum_congr rfl fun k hk => (mixForward_at K A k (mem_range.1 hk)).1, ← sum_div, div_self hZ.ne']
  · rw [(mixForward_at K A k hk).2]; exact safeExp_pos _
  · unfold mixForward; rw [if_neg (by omega), if_neg (by omega)]

theorem gaussian_density (d : ℕ) (x par : ℕ → ℝ) (o : ℕ) (s : ℝ) (hs : 0 < s) :
    gaussian d x par o s = s ^ d / s * ∏ i ∈ range d, density (par (o + i)) (s ^ 2) (x i) := by
  have hpi := Real.pi_pos
  have e1 : ∀ i, density (par (o + i)) (s ^ 2) (x i) = Real.exp (-(1 / 2) * ((x i - par (o + i)) / s) ^ 2) * (Real.sqrt (2 * Real.pi) * s)⁻¹ := by
    intro i
    unfold density
    rw [Real.sqrt_mul (by positivity), Real.sqrt_sq hs.le, div_eq_mul_inv]
    congr 2
    field_simp
  have e2 : (2 * Real.pi) ^ ((1 / 2 : ℝ) * d) = Real.sqrt (2 * Real.pi) ^ d := by
    rw [Real.sqrt_eq_rpow, ← Real.rpow_natCast, ← Real.rpow_mul (by positivity)]
  rw [prod_congr rfl fun i _ => e1 i, prod_mul_distrib, prod_const, card_range, ← Real.exp_sum, ← mul_sum]
  unfold gaussian
  rw [e2]
  have : Real.sqrt (2 * Real.pi) ≠ 0 := Real.sqrt_ne_zero'.2 (by positivity)
  rw [inv_pow, mul_pow]
  field_simp

/-- **C126, the error** of a sample with a target of one dimension is the negative logarithm of the mixture density. -/
theorem C126_error (K : ℕ) (hK : 0 < K) (A target : ℕ → ℝ) : mixError K 1 target (mixForward K A) =
    -Real.log (mixture K 1 (mixForward K A) (fun k => mixForward K A (k + K)) (fun k i => mixForward K A (2 * K + k + i)) target) := by
  unfold mixError mixture contribution
  congr 2
  refine sum_congr rfl fun k hk => ?_
  have hs := (C126_layer K hK A).2.2.1 k (mem_range.1 hk)
  rw [gaussian_density _ _ _ _ _ hs]
  simp [hs.ne']

/-- **C126 violated: targets of more dimensions.** The function `gaussian` is not the density, but has the factor `s ^ (d - 1)` too much. The error
(here for one Gaussian) is not the negative log-likelihood: larger standard deviations are rewarded. -/
theorem C126_negation_density (d : ℕ) (A target : ℕ → ℝ) : mixError 1 d target (mixForward 1 A) =
    -Real.log (mixture 1 d (mixForward 1 A) (fun k => mixForward 1 A (k + 1)) (fun k i => mixForward 1 A (2 + k * d + i)) target)
      - ((d : ℝ) - 1) * Real.log (mixForward 1 A 1) := by
  have hs := (C126_layer 1 one_pos A).2.2.1 0 one_pos
  have hc := (C126_layer 1 one_pos A).1 0 one_pos
  unfold mixError mixture contribution
  simp only [sum_range_one, Nat.zero_mul, Nat.add_zero, Nat.zero_add] at hs ⊢
  rw [gaussian_density _ _ _ _ _ hs]
  have hpi := Real.pi_pos
  have hprod : 0 < ∏ i ∈ range d, density (mixForward 1 A (2 + i)) (mixForward 1 A 1 ^ 2) (target i) :=
    prod_pos fun i _ => div_pos (Real.exp_pos _) (Real.sqrt_pos.2 (by positivity))
  rw [Real.log_mul hc.ne' (by positivity), Real.log_mul (by positivity) hprod.ne', Real.log_div (by positivity) hs.ne', Real.log_pow,
    Real.log_mul hc.ne' hprod.ne']
  ring

theorem contribution_pos (K d : ℕ) (hK : 0 < K) (A target : ℕ → ℝ) (k : ℕ) (hk : k < K) : 0 < contribution K d target (mixForward K A) k := by
  have hpi := Real.pi_pos
  obtain ⟨h1, -, h2, -⟩ := C126_layer K hK A
  have := h2 k hk
  exact mul_pos (h1 k hk) (div_pos (Real.exp_pos _) (by positivity))

/-- The derivative of the error from those of the contributions -/
theorem hasDerivAt_mixError (K d : ℕ) (hK : 0 < K) (A target : ℕ → ℝ) (i : ℕ) (D : ℕ → ℝ)
    (h : ∀ k < K, HasDerivAt (fun t => contribution K d target (mixForward K (Function.update A i t)) k) (D k) (A i)) :
    HasDerivAt (fun t => mixError K d target (mixForward K (Function.update A i t)))
      (-((∑ k ∈ range K, D k) / ∑ k ∈ range K, contribution K d target (mixForward K A) k)) (A i) := by
  unfold mixError
  have h1 := HasDerivAt.fun_sum (u := range K) fun k hk => h k (mem_range.1 hk)
  have hpos : 0 < ∑ k ∈ range K, contribution K d target (mixForward K A) k :=
    sum_pos (fun k hk => contribution_pos K d hK A target k (mem_range.1 hk)) ⟨0, mem_range.2 hK⟩
  have h2 := (h1.log (by rw [Function.update_eq_self]; exact hpos.ne')).fun_neg
  rw [Function.update_eq_self] at h2
  exact h2

/-- **C126, gradient for the mixing coefficients.** The output error is the exact negative derivative of the error (as the code computes it) with respect
to the activations of the mixing coefficients. -/
theorem C126_coefficients (K d : ℕ) (A target : ℕ → ℝ) (j : ℕ) (hj : j < K) (hA : |A j| < 500) :
    HasDerivAt (fun t => mixError K d target (mixForward K (Function.update A j t))) (-mixOutputError K d target (mixForward K A) j) (A j) := by
  have hK : 0 < K := by omega
  have hZ : 0 < ∑ k ∈ range K, safeExp (A k) := sum_pos (fun k _ => safeExp_pos _) ⟨0, mem_range.2 hK⟩
  have he : ∀ k, HasDerivAt (fun t => safeExp (Function.update A j t k)) (if k = j then safeExp (A j) else 0) (A j) := by
    intro k
    by_cases hk : k = j
    · subst hk; simpa using hasDerivAt_safeExp hA
    · simp only [Function.update_of_ne hk, if_neg hk]; exact hasDerivAt_const _ _
  have hS := HasDerivAt.fun_sum (u := range K) fun k _ => he k
  rw [sum_ite_eq' (range K) j fun _ => safeExp (A j), if_pos (mem_range.2 hj)] at hS
  have hc : ∀ k < K, HasDerivAt (fun t => contribution K d target (mixForward K (Function.update A j t)) k)
      (contribution K d target (mixForward K A) k * ((if k = j then 1 else 0) - mixForward K A j)) (A j) := by
    intro k hk
    have h1 := (he k).fun_div hS (by rw [Function.update_eq_self]; exact hZ.ne')
    rw [Function.update_eq_self] at h1
    have h2 : (fun t => contribution K d target (mixForward K (Function.update A j t)) k) =
        fun t => safeExp (Function.update A j t k) / (∑ k ∈ range K, safeExp (Function.update A j t k)) *
          gaussian d target (mixForward K A) (2 * K + k * d) (mixForward K A (k + K)) := by
      funext t
      unfold contribution
      have hsd : mixForward K (Function.update A j t) (k + K) = mixForward K A (k + K) := by
        rw [(mixForward_at K _ k hk).2, (mixForward_at K _ k hk).2, Function.update_of_ne (by omega)]
      rw [(mixForward_at K _ k hk).1, hsd]
      congr 1
      unfold gaussian
      congr 3
      refine sum_congr rfl fun i _ => ?_
      have hm : mixForward K (Function.update A j t) (2 * K + k * d + i) = mixForward K A (2 * K + k * d + i) := by
        rw [(C126_layer K hK _).2.2.2 _ (by omega), (C126_layer K hK _).2.2.2 _ (by omega), Function.update_of_ne (by omega)]
      rw [hm]
    rw [h2]
    refine (h1.mul_const _).congr_deriv ?_
    unfold contribution
    rw [(mixForward_at K A k hk).1, (mixForward_at K A j hj).1]
    by_cases hkj : k = j
    · subst hkj
      simp only [if_true]; field_simp
    · simp only [if_neg hkj]; field_simp; ring
  refine (hasDerivAt_mixError K d hK A target j _ hc).congr_deriv ?_
  have hpos : 0 < ∑ k ∈ range K, contribution K d target (mixForward K A) k :=
    sum_pos (fun k hk => contribution_pos K d hK A target k (mem_range.1 hk)) ⟨0, mem_range.2 hK⟩
  unfold mixOutputError posterior
  rw [if_pos hj]
  have : ∑ k ∈ range K, contribution K d target (mixForward K A) k * ((if k = j then 1 else 0) - mixForward K A j) =
      contribution K d target (mixForward K A) j - mixForward K A j * ∑ k ∈ range K, contribution K d target (mixForward K A) k := by
    simp only [mul_sub, mul_ite, mul_one, mul_zero]
    rw [sum_sub_distrib, sum_ite_eq' (range K) j, if_pos (mem_range.2 hj), ← sum_mul, mul_comm]
  rw [this]
  field_simp
  ring

/-- **C126, gradient for the means.** The output error is the exact negative derivative of the error with respect to the means. -/
theorem C126_means (K d : ℕ) (A target : ℕ → ℝ) (j q : ℕ) (hj : j < K) (hq : q < d) :
    HasDerivAt (fun t => mixError K d target (mixForward K (Function.update A (2 * K + j * d + q) t)))
      (-mixOutputError K d target (mixForward K A) (2 * K + j * d + q)) (A (2 * K + j * d + q)) := by
  have hK : 0 < K := by omega
  have hpi := Real.pi_pos
  set ix := 2 * K + j * d + q with hix
  have hge : 2 * K ≤ ix := by rw [hix, Nat.add_assoc]; exact Nat.le_add_right _ _
  have hdec : (ix - 2 * K) / d = j ∧ (ix - 2 * K) % d = q := by
    have : ix - 2 * K = q + d * j := by rw [hix, Nat.mul_comm d j]; omega
    rw [this, Nat.add_mul_div_left _ _ (by omega), Nat.add_mul_mod_self_left, Nat.div_eq_of_lt hq, Nat.mod_eq_of_lt hq]; simp
  have hc : ∀ k < K, HasDerivAt (fun t => contribution K d target (mixForward K (Function.update A ix t)) k)
      (if k = j then contribution K d target (mixForward K A) j * ((target q - A ix) / mixForward K A (j + K) ^ 2) else 0) (A ix) := by
    intro k hk
    have hco : ∀ t, mixForward K (Function.update A ix t) k = mixForward K A k := by
      intro t
      rw [(mixForward_at K _ k hk).1, (mixForward_at K _ k hk).1, Function.update_of_ne (by omega)]
      congr 1
      exact sum_congr rfl fun k' hk' => by rw [Function.update_of_ne (by have := mem_range.1 hk'; omega)]
    have hsd : ∀ t, mixForward K (Function.update A ix t) (k + K) = mixForward K A (k + K) := by
      intro t
      rw [(mixForward_at K _ k hk).2, (mixForward_at K _ k hk).2, Function.update_of_ne (by omega)]
    have hmean : ∀ t i, i < d → mixForward K (Function.update A ix t) (2 * K + k * d + i) = if k = j ∧ i = q then t else A (2 * K + k * d + i) := by
      intro t i hi
      rw [(C126_layer K hK _).2.2.2 _ (by omega)]
      by_cases h : k = j ∧ i = q
      · obtain ⟨rfl, rfl⟩ := h; rw [if_pos ⟨rfl, rfl⟩, ← hix, Function.update_self]
      · rw [if_neg h, Function.update_of_ne]
        intro he
        apply h
        have he2 : i + d * k = q + d * j := by rw [Nat.mul_comm d k, Nat.mul_comm d j]; omega
        have h1 := congrArg (· / d) he2
        have h2 := congrArg (· % d) he2
        simp only [Nat.add_mul_div_left _ _ (show 0 < d by omega), Nat.add_mul_mod_self_left, Nat.div_eq_of_lt hi, Nat.div_eq_of_lt hq,
          Nat.mod_eq_of_lt hi, Nat.mod_eq_of_lt hq] at h1 h2
        omega
    by_cases hkj : k = j
    · subst hkj
      rw [if_pos rfl]
      have hs : 0 < mixForward K A (k + K) := (C126_layer K hK A).2.2.1 k hk
      have hin : HasDerivAt (fun t => ∑ i ∈ range d, ((target i - if i = q then t else A (2 * K + k * d + i)) / mixForward K A (k + K)) ^ 2)
          (2 * ((target q - A ix) / mixForward K A (k + K)) * (-1 / mixForward K A (k + K))) (A ix) := by
        have hi : ∀ i ∈ range d, HasDerivAt (fun t => ((target i - if i = q then t else A (2 * K + k * d + i)) / mixForward K A (k + K)) ^ 2)
            (if i = q then 2 * ((target q - A ix) / mixForward K A (k + K)) * (-1 / mixForward K A (k + K)) else 0) (A ix) := by
          intro i _
          by_cases hi : i = q
          · subst hi
            simp only [if_true]
            exact hasDerivAt_sq (((hasDerivAt_id (A ix)).const_sub (target i)).div_const _)
          · simp only [if_neg hi]; exact hasDerivAt_const _ _
        have := HasDerivAt.fun_sum (u := range d) hi
        rwa [sum_ite_eq' (range d) q, if_pos (mem_range.2 hq)] at this
      have h2 : (fun t => contribution K d target (mixForward K (Function.update A ix t)) k) = fun t => mixForward K A k *
          (Real.exp (-(1 / 2) * ∑ i ∈ range d, ((target i - if i = q then t else A (2 * K + k * d + i)) / mixForward K A (k + K)) ^ 2) /
            ((2 * Real.pi) ^ ((1 / 2 : ℝ) * d) * mixForward K A (k + K))) := by
        funext t
        unfold contribution gaussian
        rw [hco, hsd]
        congr 4
        refine sum_congr rfl fun i hi => ?_
        rw [hmean t i (mem_range.1 hi)]
        simp
      have h3 : contribution K d target (mixForward K A) k = mixForward K A k *
          (Real.exp (-(1 / 2) * ∑ i ∈ range d, ((target i - if i = q then A ix else A (2 * K + k * d + i)) / mixForward K A (k + K)) ^ 2) /
            ((2 * Real.pi) ^ ((1 / 2 : ℝ) * d) * mixForward K A (k + K))) := by
        have := congrFun h2 (A ix)
        rwa [Function.update_eq_self] at this
      rw [h2, h3]
      refine ((((hin.const_mul (-(1 / 2))).exp).div_const _).const_mul _).congr_deriv ?_
      field_simp
    · rw [if_neg hkj]
      have h2 : (fun t => contribution K d target (mixForward K (Function.update A ix t)) k) = fun _ => contribution K d target (mixForward K A) k := by
        funext t
        unfold contribution gaussian
        rw [hco, hsd]
        congr 4
        refine sum_congr rfl fun i hi => ?_
        have hm : mixForward K A (2 * K + k * d + i) = A (2 * K + k * d + i) := (C126_layer K hK A).2.2.2 _ (by omega)
        rw [hmean t i (mem_range.1 hi), if_neg (by tauto), hm]
      rw [h2]; exact hasDerivAt_const _ _
  refine (hasDerivAt_mixError K d hK A target ix _ hc).congr_deriv ?_
  rw [sum_ite_eq' (range K) j, if_pos (mem_range.2 hj)]
  unfold mixOutputError posterior
  rw [if_neg (by omega), if_neg (by omega)]
  simp only [hdec.1, hdec.2, (C126_layer K hK A).2.2.2 ix hge]
  ring

/-- **C126 violated: gradient for the standard deviations.** The output error lacks the derivative of the exponential function: the exact
derivative with respect to the activation is the given one times the standard deviation. -/
theorem C126_negation_deviations (K d : ℕ) (A target : ℕ → ℝ) (j : ℕ) (hj : j < K) (hA : |A (j + K)| < 500) :
    HasDerivAt (fun t => mixError K d target (mixForward K (Function.update A (j + K) t)))
      (-mixOutputError K d target (mixForward K A) (j + K) * mixForward K A (j + K)) (A (j + K)) := by
  have hK : 0 < K := by omega
  have hpi := Real.pi_pos
  have hc : ∀ k < K, HasDerivAt (fun t => contribution K d target (mixForward K (Function.update A (j + K) t)) k)
      (if k = j then contribution K d target (mixForward K A) j *
        ((∑ q ∈ range d, (target q - A (2 * K + j * d + q)) ^ 2) / mixForward K A (j + K) ^ 2 - 1) else 0) (A (j + K)) := by
    intro k hk
    have hco : ∀ t, mixForward K (Function.update A (j + K) t) k = mixForward K A k := by
      intro t
      rw [(mixForward_at K _ k hk).1, (mixForward_at K _ k hk).1, Function.update_of_ne (by omega)]
      congr 1
      exact sum_congr rfl fun k' hk' => by rw [Function.update_of_ne (by have := mem_range.1 hk'; omega)]
    have hmean : ∀ t i, mixForward K (Function.update A (j + K) t) (2 * K + k * d + i) = A (2 * K + k * d + i) := by
      intro t i
      rw [(C126_layer K hK _).2.2.2 _ (by omega), Function.update_of_ne (by omega)]
    by_cases hkj : k = j
    · subst hkj
      rw [if_pos rfl]
      have h2 : (fun t => contribution K d target (mixForward K (Function.update A (k + K) t)) k) = fun t => mixForward K A k *
          (Real.exp (-(1 / 2) * ((∑ i ∈ range d, (target i - A (2 * K + k * d + i)) ^ 2) / safeExp t ^ 2)) /
            ((2 * Real.pi) ^ ((1 / 2 : ℝ) * d) * safeExp t)) := by
        funext t
        unfold contribution gaussian
        rw [hco, (mixForward_at K _ k hk).2, Function.update_self, sum_div]
        congr 4
        refine sum_congr rfl fun i _ => ?_
        rw [hmean, div_pow]
      have h3 : contribution K d target (mixForward K A) k = mixForward K A k *
          (Real.exp (-(1 / 2) * ((∑ i ∈ range d, (target i - A (2 * K + k * d + i)) ^ 2) / safeExp (A (k + K)) ^ 2)) /
            ((2 * Real.pi) ^ ((1 / 2 : ℝ) * d) * safeExp (A (k + K)))) := by
        have := congrFun h2 (A (k + K))
        rwa [Function.update_eq_self] at this
      rw [h2, h3, (mixForward_at K A k hk).2]
      have hs := safeExp_pos (A (k + K))
      have hd := hasDerivAt_safeExp hA
      generalize ∑ i ∈ range d, (target i - A (2 * K + k * d + i)) ^ 2 = Q
      have h4 := (hasDerivAt_const (A (k + K)) Q).fun_div (hasDerivAt_sq hd) (by positivity)
      have h5 := ((h4.const_mul (-(1 / 2))).exp).fun_div (hd.const_mul ((2 * Real.pi) ^ ((1 / 2 : ℝ) * d))) (by positivity)
      refine (h5.const_mul _).congr_deriv ?_
      have : (0 : ℝ) < (2 * Real.pi) ^ ((1 / 2 : ℝ) * d) := by positivity
      field_simp
      ring
    · rw [if_neg hkj]
      have h2 : (fun t => contribution K d target (mixForward K (Function.update A (j + K) t)) k) = fun _ => contribution K d target (mixForward K A) k := by
        funext t
        unfold contribution gaussian
        rw [hco, (mixForward_at K _ k hk).2, (mixForward_at K _ k hk).2, Function.update_of_ne (by omega)]
        congr 4
        refine sum_congr rfl fun i _ => ?_
        rw [hmean, (C126_layer K hK A).2.2.2 _ (by omega)]
      rw [h2]; exact hasDerivAt_const _ _
  refine (hasDerivAt_mixError K d hK A target _ _ hc).congr_deriv ?_
  rw [sum_ite_eq' (range K) j, if_pos (mem_range.2 hj)]
  unfold mixOutputError posterior
  rw [if_neg (by omega), if_pos (by omega)]
  simp only [Nat.add_sub_cancel]
  have hQ : ∑ q ∈ range d, (mixForward K A (2 * K + j * d + q) - target q) * (mixForward K A (2 * K + j * d + q) - target q) =
      ∑ q ∈ range d, (target q - A (2 * K + j * d + q)) ^ 2 := by
    refine sum_congr rfl fun q _ => ?_
    rw [(C126_layer K hK A).2.2.2 _ (by omega)]; ring
  rw [hQ]
  have hs : 0 < mixForward K A (j + K) := (C126_layer K hK A).2.2.1 j hj
  field_simp

/-- **C127 violated: softmax over slices.** The outputs of a slice do not sum to 1: the normalised values are thrown away. For inputs that are not negative
and slices of at least two units, the sum is greater than 1. -/
theorem C127_negation_partial (inbuf : ℕ → ℝ) (start len : ℕ) (hl : 2 ≤ len) (h : ∀ i, 0 ≤ inbuf i) :
    1 < ∑ i ∈ range len, partialSoftmax inbuf (start + i) := by
  have h1 : ∀ i, 1 ≤ partialSoftmax inbuf (start + i) := by
    intro i
    unfold partialSoftmax safeExp
    rw [← Real.exp_zero]
    exact Real.exp_le_exp.2 (le_max_of_le_right (le_min (by norm_num) (h _)))
  calc (1 : ℝ) < len := by exact_mod_cast hl
    _ = ∑ i ∈ range len, (1 : ℝ) := by simp
    _ ≤ _ := sum_le_sum fun i _ => h1 i

end Verif.Props
