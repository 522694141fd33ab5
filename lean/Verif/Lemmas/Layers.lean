import Verif.Model.Layers
import Verif.Model.Connections
import Verif.Lemmas.Gradient
import Mathlib.Analysis.SpecialFunctions.ExpDeriv
import Mathlib.Analysis.SpecialFunctions.Log.Deriv
import Mathlib.Analysis.SpecialFunctions.Trigonometric.DerivHyp
import Mathlib.Analysis.Calculus.Deriv.Inv
import Mathlib.Analysis.Calculus.Deriv.Abs
import Mathlib.Tactic.FieldSimp
import Mathlib.Tactic.Positivity
/-
Lemmas: derivatives of the transfer functions; vector-Jacobian products of layers and connections.
-/
namespace Verif.Net
open Verif.Net.Spec Finset

theorem safeExp_eq {x : ℝ} (h : |x| ≤ 500) : safeExp x = Real.exp x := by
  obtain ⟨h1, h2⟩ := abs_le.1 h
  unfold safeExp
  rw [min_eq_right h2, max_eq_right h1]

theorem safeExp_pos (x : ℝ) : 0 < safeExp x := Real.exp_pos _

theorem safeExp_eventually {x : ℝ} (h : |x| < 500) : safeExp =ᶠ[nhds x] Real.exp := by
  have : ∀ᶠ y in nhds x, |y| < 500 := continuous_abs.continuousAt.eventually (gt_mem_nhds h)
  filter_upwards [this] with y hy
  exact safeExp_eq hy.le

theorem hasDerivAt_safeExp {x : ℝ} (h : |x| < 500) : HasDerivAt safeExp (safeExp x) x := by
  rw [safeExp_eq h.le]
  exact (Real.hasDerivAt_exp x).congr_of_eventuallyEq (safeExp_eventually h)

theorem hasDerivAt_sigmoid {x : ℝ} (h : |x| < 500) : HasDerivAt sigmoid (sigmoidPrime x) x := by
  have h' : |-x| < 500 := by rwa [abs_neg]
  have h1 : HasDerivAt (fun y : ℝ => safeExp (-y)) (safeExp (-x) * (-1)) x :=
    HasDerivAt.comp x (h₂ := safeExp) (h := fun y => -y) (hasDerivAt_safeExp h') (hasDerivAt_neg x)
  have hpos : (1 : ℝ) + safeExp (-x) ≠ 0 := by have := safeExp_pos (-x); positivity
  have h2 := (h1.const_add 1).inv hpos
  have he : sigmoid = fun y => (1 + safeExp (-y))⁻¹ := by funext y; simp [sigmoid]
  rw [he]
  refine HasDerivAt.congr_deriv h2 ?_
  unfold sigmoidPrime sigmoid
  field_simp
  ring

theorem hasDerivAt_tanh (x : ℝ) : HasDerivAt Real.tanh (1 - Real.tanh x ^ 2) x := by
  have hc : Real.cosh x ≠ 0 := (Real.cosh_pos x).ne'
  have h := (Real.hasDerivAt_sinh x).div (Real.hasDerivAt_cosh x) hc
  have he : Real.tanh = fun y => Real.sinh y / Real.cosh y := by funext y; exact Real.tanh_eq_sinh_div_cosh y
  rw [he]
  refine HasDerivAt.congr_deriv h ?_
  field_simp

theorem hasDerivAt_relu {x : ℝ} (h : x ≠ 0) :
    HasDerivAt (fun y : ℝ => y * (if y > 0 then 1 else 0)) (if x > 0 then 1 else 0) x := by
  rcases lt_or_gt_of_ne h with h | h
  · have : (fun y : ℝ => y * (if y > 0 then (1 : ℝ) else 0)) =ᶠ[nhds x] fun _ => 0 := by
      filter_upwards [gt_mem_nhds h] with y hy
      rw [if_neg (by linarith)]; ring
    rw [if_neg (by linarith)]
    exact (hasDerivAt_const x (0 : ℝ)).congr_of_eventuallyEq this
  · have : (fun y : ℝ => y * (if y > 0 then (1 : ℝ) else 0)) =ᶠ[nhds x] fun y => y := by
      filter_upwards [lt_mem_nhds h] with y hy
      rw [if_pos hy]; ring
    rw [if_pos h]
    exact (hasDerivAt_id x).congr_of_eventuallyEq this

theorem hasDerivAt_softsign (x : ℝ) :
    HasDerivAt (fun y : ℝ => y / (1 + |y|)) ((1 - |x / (1 + |x|)|) ^ 2) x := by
  have hval : (1 - |x / (1 + |x|)|) ^ 2 = 1 / (1 + |x|) ^ 2 := by
    have hp : (0 : ℝ) < 1 + |x| := by have := abs_nonneg x; linarith
    rw [abs_div, abs_of_pos hp]
    field_simp
    ring
  rw [hval]
  rcases lt_trichotomy x 0 with h | h | h
  · have hne : (1 : ℝ) - x ≠ 0 := by linarith
    have h1 : HasDerivAt (fun y : ℝ => y / (1 - y)) ((1 * (1 - x) - x * (-1)) / (1 - x) ^ 2) x := by
      exact HasDerivAt.div (c := fun y => y) (hasDerivAt_id' x) ((hasDerivAt_id' x).const_sub 1) hne
    have he : (fun y : ℝ => y / (1 + |y|)) =ᶠ[nhds x] fun y => y / (1 - y) := by
      filter_upwards [gt_mem_nhds h] with y hy
      rw [abs_of_neg hy, sub_eq_add_neg]
    have h2 := h1.congr_of_eventuallyEq he
    rw [abs_of_neg h, ← sub_eq_add_neg]
    refine HasDerivAt.congr_deriv h2 ?_
    congr 1
    ring
  · subst h
    rw [hasDerivAt_iff_tendsto_slope]
    simp only [abs_zero, add_zero, one_pow, div_one]
    have hs : slope (fun y : ℝ => y / (1 + |y|)) 0 =ᶠ[nhdsWithin 0 {0}ᶜ] fun y => 1 / (1 + |y|) := by
      filter_upwards [self_mem_nhdsWithin] with y hy
      have hy' : y ≠ 0 := hy
      have : (1 : ℝ) + |y| ≠ 0 := by positivity
      rw [slope_def_field]
      simp only [abs_zero, zero_div, sub_zero]
      field_simp
    rw [Filter.tendsto_congr' hs]
    have hc : ContinuousAt (fun y : ℝ => 1 / (1 + |y|)) 0 := by
      apply ContinuousAt.div continuousAt_const
      · exact (continuous_const.add continuous_abs).continuousAt
      · simp
    have := hc.tendsto
    simp only [abs_zero, add_zero, div_one] at this
    exact this.mono_left nhdsWithin_le_nhds
  · have hne : (1 : ℝ) + x ≠ 0 := by linarith
    have h1 : HasDerivAt (fun y : ℝ => y / (1 + y)) ((1 * (1 + x) - x * 1) / (1 + x) ^ 2) x := by
      exact HasDerivAt.div (c := fun y => y) (hasDerivAt_id' x) ((hasDerivAt_id' x).const_add 1) hne
    have he : (fun y : ℝ => y / (1 + |y|)) =ᶠ[nhds x] fun y => y / (1 + y) := by
      filter_upwards [lt_mem_nhds h] with y hy
      rw [abs_of_pos hy]
    have h2 := h1.congr_of_eventuallyEq he
    rw [abs_of_pos h]
    refine HasDerivAt.congr_deriv h2 ?_
    congr 1
    ring

/-- two one-sided derivatives with the same value glue -/
theorem hasDerivAt_glue {f g : ℝ → ℝ} {d x : ℝ} (hf : HasDerivAt f d x) (hg : HasDerivAt g d x) (hfg : f x = g x) :
    HasDerivAt (fun y => if y < x then f y else g y) d x := by
  have h1 : HasDerivWithinAt (fun y => if y < x then f y else g y) d (Set.Iio x) x := by
    refine (hf.hasDerivWithinAt (s := Set.Iio x)).congr ?_ ?_
    · intro y hy; simp [Set.mem_Iio.1 hy]
    · simp [hfg]
  have h2 : HasDerivWithinAt (fun y => if y < x then f y else g y) d (Set.Ici x) x := by
    refine (hg.hasDerivWithinAt (s := Set.Ici x)).congr ?_ ?_
    · intro y hy; simp [not_lt.2 (Set.mem_Ici.1 hy)]
    · simp
  have := h1.union h2
  rw [Set.Iio_union_Ici] at this
  exact hasDerivWithinAt_univ.1 this

theorem hasDerivAt_expln (x : ℝ) : HasDerivAt expln (explnPrime x) x := by
  rcases lt_trichotomy x 0 with h | h | h
  · have he : expln =ᶠ[nhds x] Real.exp := by
      filter_upwards [gt_mem_nhds h] with y hy
      simp [expln, hy]
    rw [explnPrime, if_pos h]
    exact (Real.hasDerivAt_exp x).congr_of_eventuallyEq he
  · subst h
    have h1 : HasDerivAt Real.exp 1 0 := by simpa using Real.hasDerivAt_exp 0
    have h2 : HasDerivAt (fun y : ℝ => Real.log (y + 1) + 1) 1 0 := by
      have := (((hasDerivAt_id (0 : ℝ)).add_const 1).log (by simp)).add_const 1
      simpa using this
    have := hasDerivAt_glue h1 h2 (by simp)
    simp only [explnPrime, lt_irrefl, if_false, zero_add, div_one]
    exact this
  · have he : expln =ᶠ[nhds x] fun y => Real.log (y + 1) + 1 := by
      filter_upwards [lt_mem_nhds h] with y hy
      simp [expln, not_lt.2 hy.le]
    rw [explnPrime, if_neg (not_lt.2 h.le)]
    have := (((hasDerivAt_id x).add_const 1).log (by simp only [id]; linarith)).add_const 1
    exact (by simpa using this : HasDerivAt (fun y : ℝ => Real.log (y + 1) + 1) (1 / (x + 1)) x).congr_of_eventuallyEq he

theorem hasDerivAt_semilinear {x : ℝ} (hx : -500 < x) : HasDerivAt semilinear (semilinearPrime x) x := by
  rcases lt_trichotomy x 0 with h | h | h
  · have he : semilinear =ᶠ[nhds x] safeExp := by
      filter_upwards [gt_mem_nhds h] with y hy
      simp [semilinear, hy]
    rw [semilinearPrime, if_pos h]
    exact (hasDerivAt_safeExp (abs_lt.2 ⟨hx, by linarith⟩)).congr_of_eventuallyEq he
  · subst h
    have h0 : |(0 : ℝ)| < 500 := by norm_num
    have h1 : HasDerivAt safeExp 1 0 := by
      have := hasDerivAt_safeExp h0
      rwa [safeExp_eq h0.le, Real.exp_zero] at this
    have h2 : HasDerivAt (fun y : ℝ => y + 1) 1 0 := (hasDerivAt_id (0 : ℝ)).add_const 1
    have := hasDerivAt_glue h1 h2 (by rw [safeExp_eq h0.le]; simp)
    simp only [semilinearPrime, lt_irrefl, if_false]
    exact this
  · have he : semilinear =ᶠ[nhds x] fun y => y + 1 := by
      filter_upwards [lt_mem_nhds h] with y hy
      simp [semilinear, not_lt.2 hy.le]
    rw [semilinearPrime, if_neg (not_lt.2 h.le)]
    exact ((hasDerivAt_id x).add_const 1).congr_of_eventuallyEq he

/-! ### vector-Jacobian products -/

variable {V P : Type}

/-- A layer that applies `f` to every coordinate. -/
theorem elementwise_diff (M : Mod P ℝ) (pd : Nat) (p x : Vec ℝ) (f : ℝ → ℝ) (D : Vec ℝ)
    (hdim : M.indim = M.outdim)
    (hf : ∀ p y o j, j < M.outdim → M.fwd p y o j = f (y j))
    (hb : ∀ e i, i < M.outdim → M.bwdErr p e (fun _ => 0) (tr M.outdim (M.fwd p x (fun _ => 0))) x i = D i * e i)
    (hp : ∀ e o y k, M.bwdPar p e o y k = 0)
    (hD : ∀ i, i < M.outdim → HasDerivAt f (D i) (x i)) : ModDiff M pd p x := by
  intro pcv xcv t0 p' x' _ hx _ hx' e
  have h1 : HasDerivAt (fun t => ∑ j ∈ range M.outdim, e j * M.fwd (pcv t) (xcv t) (fun _ => 0) j)
      (∑ j ∈ range M.outdim, e j * (D j * x' j)) t0 := by
    have heq : (fun t => ∑ j ∈ range M.outdim, e j * M.fwd (pcv t) (xcv t) (fun _ => 0) j) =
        fun t => ∑ j ∈ range M.outdim, e j * f (xcv t j) := by
      funext t
      apply sum_congr rfl
      intro j hj
      rw [hf _ _ _ _ (mem_range.1 hj)]
    rw [heq]
    apply hasDerivAt_rangeSum M.outdim (fun j t => e j * f (xcv t j))
    intro j hj
    apply HasDerivAt.const_mul
    have hDj := hD j hj
    rw [← hx] at hDj
    exact HasDerivAt.comp t0 (h₂ := f) (h := fun t => xcv t j) hDj (hx' j)
  convert h1 using 1
  rw [hdim]
  have hz : ∑ k ∈ range pd, M.bwdPar p e (tr M.outdim (M.fwd p x (fun _ => 0))) x k * p' k = 0 := by
    apply sum_eq_zero; intro k _; rw [hp]; ring
  rw [hz, add_zero]
  apply sum_congr rfl
  intro i hi
  rw [hb e i (mem_range.1 hi)]
  ring

/-- General form: the derivative of each coordinate of the output is given. -/
theorem coords_diff (M : Mod P ℝ) (pd : Nat) (p x : Vec ℝ)
    (hp : ∀ e o y k, M.bwdPar p e o y k = 0)
    (dF : Vec ℝ → Vec ℝ)
    (hF : ∀ (pcv xcv : ℝ → Vec ℝ) (t0 : ℝ) (x' : Vec ℝ), xcv t0 = x → (∀ i, HasDerivAt (fun t => xcv t i) (x' i) t0) →
      ∀ j, j < M.outdim → HasDerivAt (fun t => M.fwd (pcv t) (xcv t) (fun _ => 0) j) (dF x' j) t0)
    (hadj : ∀ e x' : Vec ℝ, ∑ j ∈ range M.outdim, e j * dF x' j =
      ∑ i ∈ range M.indim, M.bwdErr p e (fun _ => 0) (tr M.outdim (M.fwd p x (fun _ => 0))) x i * x' i) : ModDiff M pd p x := by
  intro pcv xcv t0 p' x' _ hx _ hx' e
  have h1 := hasDerivAt_rangeSum M.outdim (fun j t => e j * M.fwd (pcv t) (xcv t) (fun _ => 0) j) (fun j => e j * dF x' j) t0
    (fun j hj => (hF pcv xcv t0 x' hx hx' j hj).const_mul _)
  convert h1 using 1
  have hz : ∑ k ∈ range pd, M.bwdPar p e (tr M.outdim (M.fwd p x (fun _ => 0))) x k * p' k = 0 := by
    apply sum_eq_zero; intro k _; rw [hp]; ring
  rw [hz, add_zero, hadj]

theorem sum_two_mul (n : Nat) (f : Nat → ℝ) :
    ∑ i ∈ range (2 * n), f i = ∑ i ∈ range n, (f i + f (n + i)) := by
  rw [two_mul, sum_range_add, sum_add_distrib]

theorem linearLayer_diff (pc : P) (n pd : Nat) (p x : Vec ℝ) : ModDiff (linearLayer pc n) pd p x :=
  elementwise_diff _ pd p x (fun y => y) (fun _ => 1) rfl (fun _ _ _ _ _ => rfl)
    (fun e i _ => by simp [linearLayer]) (fun _ _ _ _ => rfl) (fun i _ => hasDerivAt_id _)

theorem sigmoidLayer_diff (pc : P) (n pd : Nat) (p x : Vec ℝ) (hx : ∀ i < n, |x i| < 500) :
    ModDiff (sigmoidLayer pc n) pd p x :=
  elementwise_diff _ pd p x sigmoid (fun i => sigmoidPrime (x i)) rfl (fun _ _ _ _ _ => rfl)
    (fun e i hi => by
      have hi' : i < n := hi
      simp [sigmoidLayer, tr, hi', sigmoidPrime]) (fun _ _ _ _ => rfl) (fun i hi => hasDerivAt_sigmoid (hx i hi))

theorem tanhLayer_diff (pc : P) (n pd : Nat) (p x : Vec ℝ) : ModDiff (tanhLayer pc n) pd p x :=
  elementwise_diff _ pd p x Real.tanh (fun i => 1 - Real.tanh (x i) ^ 2) rfl (fun _ _ _ _ _ => rfl)
    (fun e i hi => by
      have hi' : i < n := hi
      simp [tanhLayer, tr, hi']) (fun _ _ _ _ => rfl) (fun i _ => hasDerivAt_tanh _)

theorem reluLayer_diff (pc : P) (n pd : Nat) (p x : Vec ℝ) (hx : ∀ i < n, x i ≠ 0) : ModDiff (reluLayer pc n) pd p x :=
  elementwise_diff _ pd p x (fun y : ℝ => y * (if y > 0 then 1 else 0)) (fun i => if x i > 0 then 1 else 0) rfl (fun _ _ _ _ _ => rfl)
    (fun e i _ => by simp only [reluLayer]; ring) (fun _ _ _ _ => rfl) (fun i hi => hasDerivAt_relu (hx i hi))

theorem softSignLayer_diff (pc : P) (n pd : Nat) (p x : Vec ℝ) : ModDiff (softSignLayer pc n) pd p x :=
  elementwise_diff _ pd p x (fun y : ℝ => y / (1 + |y|)) (fun i => (1 - |x i / (1 + |x i|)|) ^ 2) rfl (fun _ _ _ _ _ => rfl)
    (fun e i hi => by
      have hi' : i < n := hi
      simp [softSignLayer, tr, hi']) (fun _ _ _ _ => rfl) (fun i _ => hasDerivAt_softsign _)

theorem biasUnit_diff (pc : P) (pd : Nat) (p x : Vec ℝ) : ModDiff (biasUnit pc) pd p x :=
  coords_diff _ pd p x (fun _ _ _ _ => rfl) (fun _ _ => 0) (fun _ _ _ _ _ _ _ _ => hasDerivAt_const _ _)
    (fun e x' => by simp [biasUnit])

theorem multiplicationLayer_diff (pc : P) (n pd : Nat) (p x : Vec ℝ) : ModDiff (multiplicationLayer pc n) pd p x := by
  refine coords_diff _ pd p x (fun _ _ _ _ => rfl) (fun x' j => x' j * x (n + j) + x j * x' (n + j)) ?_ ?_
  · intro pcv xcv t0 x' hx hx' j _
    simp only [multiplicationLayer, zero_add]
    rw [← hx]
    exact (hx' j).mul (hx' (n + j))
  · intro e x'
    simp only [multiplicationLayer]
    rw [sum_two_mul]
    apply sum_congr rfl
    intro j hj
    have hj' := mem_range.1 hj
    have h2 : ¬ (n + j < n) := by omega
    have h3 : n + j - n = j := by omega
    simp only [hj', if_true, h2, if_false, h3]
    ring

theorem gateLayer_diff (pc : P) (n pd : Nat) (p x : Vec ℝ) (hx5 : ∀ i < n, |x i| < 500) : ModDiff (gateLayer pc n) pd p x := by
  refine coords_diff _ pd p x (fun _ _ _ _ => rfl)
    (fun x' j => sigmoidPrime (x j) * x' j * x (n + j) + sigmoid (x j) * x' (n + j)) ?_ ?_
  · intro pcv xcv t0 x' hx hx' j hj
    simp only [gateLayer, zero_add]
    have hs := hasDerivAt_sigmoid (hx5 j hj)
    rw [← hx] at hs ⊢
    exact (HasDerivAt.comp t0 (h₂ := sigmoid) (h := fun t => xcv t j) hs (hx' j)).mul (hx' (n + j))
  · intro e x'
    simp only [gateLayer]
    rw [sum_two_mul]
    apply sum_congr rfl
    intro j hj
    have hj' := mem_range.1 hj
    have h2 : ¬ (n + j < n) := by omega
    have h3 : n + j - n = j := by omega
    simp only [hj', if_true, h2, if_false, h3]
    ring

theorem doubleGateLayer_diff (pc : P) (n pd : Nat) (p x : Vec ℝ) (hx5 : ∀ i < n, |x i| < 500) :
    ModDiff (doubleGateLayer pc n) pd p x := by
  refine coords_diff _ pd p x (fun _ _ _ _ => rfl)
    (fun x' j => if j < n then sigmoidPrime (x j) * x' j * x (n + j) + sigmoid (x j) * x' (n + j)
      else -(sigmoidPrime (x (j - n)) * x' (j - n)) * x (n + (j - n)) + (1 - sigmoid (x (j - n))) * x' (n + (j - n))) ?_ ?_
  · intro pcv xcv t0 x' hx hx' j hj
    have hj2 : j < 2 * n := hj
    simp only [doubleGateLayer, zero_add]
    by_cases hjn : j < n
    · simp only [hjn, if_true]
      have hs := hasDerivAt_sigmoid (hx5 j hjn)
      rw [← hx] at hs ⊢
      exact (HasDerivAt.comp t0 (h₂ := sigmoid) (h := fun t => xcv t j) hs (hx' j)).mul (hx' (n + j))
    · simp only [hjn, if_false]
      have hs := hasDerivAt_sigmoid (hx5 (j - n) (by omega))
      rw [← hx] at hs ⊢
      exact ((HasDerivAt.comp t0 (h₂ := sigmoid) (h := fun t => xcv t (j - n)) hs (hx' (j - n))).const_sub 1).mul (hx' (n + (j - n)))
  · intro e x'
    simp only [doubleGateLayer]
    rw [sum_two_mul, sum_two_mul]
    apply sum_congr rfl
    intro j hj
    have hj' := mem_range.1 hj
    have h2 : ¬ (n + j < n) := by omega
    have h3 : n + j - n = j := by omega
    simp only [hj', if_true, h2, if_false, h3]
    ring

theorem switchLayer_diff (pc : P) (n pd : Nat) (p x : Vec ℝ) (hx5 : ∀ i < n, |x i| < 500) :
    ModDiff (switchLayer pc n) pd p x := by
  refine coords_diff _ pd p x (fun _ _ _ _ => rfl)
    (fun x' j => if j < n then sigmoidPrime (x j) * x' j else -(sigmoidPrime (x (j - n)) * x' (j - n))) ?_ ?_
  · intro pcv xcv t0 x' hx hx' j hj
    have hj2 : j < 2 * n := hj
    simp only [switchLayer, zero_add]
    by_cases hjn : j < n
    · simp only [hjn, if_true]
      have hs := hasDerivAt_sigmoid (hx5 j hjn)
      rw [← hx] at hs ⊢
      exact HasDerivAt.comp t0 (h₂ := sigmoid) (h := fun t => xcv t j) hs (hx' j)
    · simp only [hjn, if_false]
      have hs := hasDerivAt_sigmoid (hx5 (j - n) (by omega))
      rw [← hx] at hs ⊢
      exact (HasDerivAt.comp t0 (h₂ := sigmoid) (h := fun t => xcv t (j - n)) hs (hx' (j - n))).const_sub 1
  · intro e x'
    simp only [switchLayer]
    rw [sum_two_mul]
    apply sum_congr rfl
    intro j hj
    have hj' := mem_range.1 hj
    have h2 : ¬ (n + j < n) := by omega
    have h3 : n + j - n = j := by omega
    simp only [hj', if_true, h2, if_false, h3]
    ring

end Verif.Net
