import Verif.Spec.PolicyIteration
import Mathlib.LinearAlgebra.FiniteDimensional.Basic
import Mathlib.LinearAlgebra.Matrix.ToLin
import Mathlib.Data.Finset.Max
import Mathlib.Analysis.Complex.ExponentialBounds
import Mathlib.Algebra.Order.BigOperators.Ring.Finset
import Mathlib.Tactic.Linarith
import Mathlib.Tactic.Ring
import Mathlib.Tactic.FieldSimp
import Mathlib.Tactic.Positivity
/-
Lemmas on stochastic matrices, discounted values and greedy policies.
-/
namespace Verif.Policy
open Verif.DataSet (Err)
open Matrix Spec

variable {n k : Nat}

theorem foldl_add (l : List (Fin k)) (f : Fin k → Fin n → Fin n → ℝ) (init : Fin n → Fin n → ℝ) (s s' : Fin n) :
    (l.foldl (fun res ai => fun s s' => res s s' + f ai s s') init) s s' = init s s' + (l.map (fun a => f a s s')).sum := by
  induction l generalizing init with
  | nil => simp
  | cons a l ih => rw [List.foldl_cons, ih, List.map_cons, List.sum_cons]; ring

theorem collapsed_eq (Ts : Fin k → Mat n n) (policy : Mat n k) (s s' : Fin n) : collapsed Ts policy s s' = Dynamics Ts policy s s' := by
  have h : collapsed Ts policy s s' = _ := foldl_add (List.finRange k) (fun ai s s' => Ts ai s s' * policy s ai) (fun _ _ => 0) s s'
  rw [h, zero_add, Dynamics, ← List.ofFn_eq_map, List.sum_ofFn]
  exact Finset.sum_congr rfl (fun a _ => mul_comm _ _)

theorem collapsed_stochastic (Ts : Fin k → Mat n n) (policy : Mat n k) (hT : ∀ a, Stochastic (Ts a)) (hp : Stochastic policy) :
    Stochastic (collapsed Ts policy) := by
  constructor
  · intro s s'
    rw [collapsed_eq]
    exact Finset.sum_nonneg (fun a _ => mul_nonneg (hp.1 s a) ((hT a).1 s s'))
  · intro s
    simp only [collapsed_eq, Dynamics]
    rw [Finset.sum_comm]
    have : ∀ a, ∑ s', policy s a * Ts a s s' = policy s a := by
      intro a; rw [← Finset.mul_sum, (hT a).2 s, mul_one]
    rw [Finset.sum_congr rfl (fun a _ => this a), hp.2 s]

/-! ### averages -/

theorem avg_le {m : Nat} (P : Mat n m) (hP : Stochastic P) (s : Fin n) (v : Fin m → ℝ) (c : ℝ) (h : ∀ a, v a ≤ c) : ∑ a, P s a * v a ≤ c := by
  calc ∑ a, P s a * v a ≤ ∑ a, P s a * c := Finset.sum_le_sum (fun a _ => mul_le_mul_of_nonneg_left (h a) (hP.1 s a))
    _ = c := by rw [← Finset.sum_mul, hP.2 s, one_mul]

theorem le_avg {m : Nat} (P : Mat n m) (hP : Stochastic P) (s : Fin n) (v : Fin m → ℝ) (c : ℝ) (h : ∀ a, c ≤ v a) : c ≤ ∑ a, P s a * v a := by
  calc c = ∑ a, P s a * c := by rw [← Finset.sum_mul, hP.2 s, one_mul]
    _ ≤ ∑ a, P s a * v a := Finset.sum_le_sum (fun a _ => mul_le_mul_of_nonneg_left (h a) (hP.1 s a))

theorem abs_avg_le {m : Nat} (P : Mat n m) (hP : Stochastic P) (s : Fin n) (v : Fin m → ℝ) (c : ℝ) (h : ∀ a, |v a| ≤ c) : |∑ a, P s a * v a| ≤ c := by
  rw [abs_le]
  exact ⟨le_avg P hP s v (-c) (fun a => (abs_le.1 (h a)).1), avg_le P hP s v c (fun a => (abs_le.1 (h a)).2)⟩

/-- comparison: what is below its own discounted average is nonpositive -/
theorem comparison (T : Mat n n) (hT : Stochastic T) (gamma : ℝ) (h0 : 0 ≤ gamma) (h1 : gamma < 1) (D : Vec n)
    (h : ∀ s, D s ≤ gamma * ∑ s', T s s' * D s') (s : Fin n) : D s ≤ 0 := by
  obtain ⟨m, _, hm⟩ := Finset.exists_max_image (Finset.univ : Finset (Fin n)) D ⟨s, Finset.mem_univ _⟩
  have h2 : ∑ s', T m s' * D s' ≤ D m := avg_le T hT m D (D m) (fun a => hm a (Finset.mem_univ _))
  have h3 := mul_le_mul_of_nonneg_left h2 h0
  have h4 := h m
  have h5 : D m ≤ 0 := by nlinarith
  exact (hm s (Finset.mem_univ _)).trans h5

theorem value_le (T : Mat n n) (hT : Stochastic T) (R : Vec n) (gamma : ℝ) (h0 : 0 ≤ gamma) (h1 : gamma < 1) (V W : Vec n)
    (hV : ∀ s, V s ≤ ∑ s', T s s' * (R s' + gamma * V s')) (hW : ∀ s, ∑ s', T s s' * (R s' + gamma * W s') ≤ W s) (s : Fin n) : V s ≤ W s := by
  have := comparison T hT gamma h0 h1 (fun s => V s - W s) (fun s => by
    have e : gamma * ∑ s', T s s' * (V s' - W s') = ∑ s', T s s' * (R s' + gamma * V s') - ∑ s', T s s' * (R s' + gamma * W s') := by
      rw [Finset.mul_sum, ← Finset.sum_sub_distrib]
      exact Finset.sum_congr rfl (fun s' _ => by ring)
    rw [e]
    have := hV s
    have := hW s
    linarith) s
  linarith

theorem value_unique (T : Mat n n) (hT : Stochastic T) (R : Vec n) (gamma : ℝ) (h0 : 0 ≤ gamma) (h1 : gamma < 1) (V W : Vec n)
    (hV : IsValue T R gamma V) (hW : IsValue T R gamma W) : V = W := by
  funext s
  exact le_antisymm (value_le T hT R gamma h0 h1 V W (fun s => (hV s).le) (fun s => (hW s).ge) s)
    (value_le T hT R gamma h0 h1 W V (fun s => (hW s).le) (fun s => (hV s).ge) s)

theorem value_exists (T : Mat n n) (hT : Stochastic T) (R : Vec n) (gamma : ℝ) (h0 : 0 ≤ gamma) (h1 : gamma < 1) : ∃ V, IsValue T R gamma V := by
  let f : Vec n →ₗ[ℝ] Vec n := LinearMap.id - gamma • Matrix.mulVecLin T
  have hf : ∀ V s, f V s = V s - gamma * ∑ s', T s s' * V s' := by
    intro V s
    simp [f, Matrix.mulVec, dotProduct]
  have hinj : Function.Injective f := by
    rw [injective_iff_map_eq_zero]
    intro V hV
    have h2 : ∀ s, V s = gamma * ∑ s', T s s' * V s' := by
      intro s
      have := congrFun hV s
      rw [hf] at this
      simp only [Pi.zero_apply] at this
      linarith
    have h3 := comparison T hT gamma h0 h1 V (fun s => (h2 s).le)
    have h4 := comparison T hT gamma h0 h1 (fun s => - V s) (fun s => by
      have e : gamma * ∑ s', T s s' * -V s' = -(gamma * ∑ s', T s s' * V s') := by
        simp [Finset.sum_neg_distrib]
      rw [e, ← h2 s])
    funext s
    have := h3 s
    have := h4 s
    simp only [Pi.zero_apply]
    linarith
  obtain ⟨V, hV⟩ := LinearMap.injective_iff_surjective.1 hinj (T *ᵥ R)
  refine ⟨V, fun s => ?_⟩
  have h5 := congrFun hV s
  rw [hf] at h5
  have e : ∑ s', T s s' * (R s' + gamma * V s') = (T *ᵥ R) s + gamma * ∑ s', T s s' * V s' := by
    simp only [Matrix.mulVec, dotProduct]
    rw [Finset.mul_sum, ← Finset.sum_add_distrib]
    exact Finset.sum_congr rfl (fun s' _ => by ring)
  rw [e]
  linarith

theorem value_bound (T : Mat n n) (hT : Stochastic T) (R : Vec n) (M gamma : ℝ) (h0 : 0 ≤ gamma) (h1 : gamma < 1) (hR : ∀ s, |R s| ≤ M) (V : Vec n)
    (hV : IsValue T R gamma V) (s : Fin n) : |V s| ≤ M / (1 - gamma) := by
  have hg : (0 : ℝ) < 1 - gamma := by linarith
  have key : ∀ c : ℝ, c = M / (1 - gamma) → M + gamma * c = c := by
    intro c hc; subst hc; field_simp; ring
  rw [abs_le]
  constructor
  · have := value_le T hT R gamma h0 h1 (fun _ => -(M / (1 - gamma))) V (fun s => by
      apply le_avg T hT s
      intro a
      have := (abs_le.1 (hR a)).1
      have := key _ rfl
      nlinarith) (fun s => (hV s).ge) s
    exact this
  · have := value_le T hT R gamma h0 h1 V (fun _ => M / (1 - gamma)) (fun s => (hV s).le) (fun s => by
      apply avg_le T hT s
      intro a
      have := (abs_le.1 (hR a)).2
      have := key _ rfl
      nlinarith) s
    exact this

theorem pow_stochastic (T : Mat n n) (hT : Stochastic T) (m : Nat) : Stochastic (T ^ m) := by
  induction m with
  | zero =>
    constructor
    · intro s a; simp only [pow_zero, Matrix.one_apply]; split <;> norm_num
    · intro s; simp [Matrix.one_apply]
  | succ m ih =>
    rw [pow_succ]
    constructor
    · intro s a
      rw [Matrix.mul_apply]
      exact Finset.sum_nonneg (fun j _ => mul_nonneg (ih.1 s j) (hT.1 j a))
    · intro s
      simp only [Matrix.mul_apply]
      rw [Finset.sum_comm]
      have : ∀ j, ∑ a, (T ^ m) s j * T j a = (T ^ m) s j := by intro j; rw [← Finset.mul_sum, hT.2 j, mul_one]
      rw [Finset.sum_congr rfl (fun j _ => this j), ih.2 s]

/-! ### the truncated sum -/

/-- the partial sums of the discounted expected rewards -/
noncomputable def partialSum (T : Mat n n) (R : Vec n) (gamma : ℝ) (m : Nat) : Vec n :=
  ∑ i ∈ Finset.range m, gamma ^ i • ((T ^ (i + 1)) *ᵥ R)

theorem tvLoop_eq (T : Mat n n) (R : Vec n) (gamma : ℝ) (c i : Nat) :
    tvLoop T R gamma c i (T ^ i) (partialSum T R gamma i) = partialSum T R gamma (i + c) := by
  induction c generalizing i with
  | zero => rfl
  | succ c ih =>
    rw [tvLoop]
    have e1 : T ^ i * T = T ^ (i + 1) := (pow_succ T i).symm
    have e2 : partialSum T R gamma i + gamma ^ i • ((T ^ (i + 1)) *ᵥ R) = partialSum T R gamma (i + 1) := by
      rw [partialSum, partialSum, Finset.sum_range_succ]
    simp only [e1, e2]
    rw [ih]
    congr 1
    omega

theorem value_remainder (T : Mat n n) (R : Vec n) (gamma : ℝ) (V : Vec n) (hV : IsValue T R gamma V) (m : Nat) :
    V = partialSum T R gamma m + gamma ^ m • ((T ^ m) *ᵥ V) := by
  have hV' : V = T *ᵥ R + gamma • (T *ᵥ V) := by
    funext s
    simp only [Pi.add_apply, Pi.smul_apply, smul_eq_mul, Matrix.mulVec, dotProduct]
    rw [Finset.mul_sum, ← Finset.sum_add_distrib]
    refine (hV s).trans (Finset.sum_congr rfl (fun s' _ => by ring))
  induction m with
  | zero => simp [partialSum]
  | succ m ih =>
    have e : (T ^ m) *ᵥ V = (T ^ (m + 1)) *ᵥ R + gamma • ((T ^ (m + 1)) *ᵥ V) := by
      conv_lhs => rw [hV']
      rw [Matrix.mulVec_add, Matrix.mulVec_smul, Matrix.mulVec_mulVec, Matrix.mulVec_mulVec, ← pow_succ]
    conv_lhs => rw [ih, e]
    rw [partialSum, partialSum, Finset.sum_range_succ, smul_add, smul_smul, ← pow_succ, add_assoc]

theorem horizon_ge (gamma : ℝ) (h0 : 0 ≤ gamma) (h1 : gamma < 1) : 10 ≤ horizon gamma := by
  have hg : (0 : ℝ) < 1 - gamma := by linarith
  have h2 : (10 : ℝ) ≤ 10 / (1 - gamma) := by
    rw [le_div_iff₀ hg]; nlinarith
  have : (10 : Int) ≤ ⌊10 / (1 - gamma)⌋ := Int.le_floor.2 (by exact_mod_cast h2)
  unfold horizon
  omega

theorem trueValues_eq (T : Mat n n) (R : Vec n) (gamma : ℝ) (h0 : 0 ≤ gamma) (h1 : gamma < 1) :
    trueValues T R gamma = .ok (partialSum T R gamma (horizon gamma)) := by
  rw [trueValues, if_pos h1]
  congr 1
  have h2 := tvLoop_eq T R gamma (horizon gamma - 1) 1
  have e : partialSum T R gamma 1 = T *ᵥ R := by simp [partialSum]
  rw [e, pow_one] at h2
  rw [h2]
  congr 1
  have := horizon_ge gamma h0 h1
  omega

theorem gamma_pow_horizon (gamma : ℝ) (h0 : 0 ≤ gamma) (h1 : gamma < 1) : gamma ^ horizon gamma ≤ Real.exp (-9) := by
  have hg : (0 : ℝ) < 1 - gamma := by linarith
  have h2 : gamma ≤ Real.exp (-(1 - gamma)) := by
    have := Real.add_one_le_exp (-(1 - gamma))
    linarith
  have h3 : gamma ^ horizon gamma ≤ Real.exp (-(1 - gamma)) ^ horizon gamma := pow_le_pow_left₀ h0 h2 _
  rw [← Real.exp_nat_mul] at h3
  refine h3.trans (Real.exp_le_exp.2 ?_)
  have h4 : 10 / (1 - gamma) < (horizon gamma : ℝ) + 1 := by
    have h5 := Int.lt_floor_add_one (10 / (1 - gamma))
    have h6 : ((⌊10 / (1 - gamma)⌋ : Int) : ℝ) = (horizon gamma : ℝ) := by
      have : (0 : Int) ≤ ⌊10 / (1 - gamma)⌋ := Int.floor_nonneg.2 (by positivity)
      unfold horizon
      exact_mod_cast (Int.toNat_of_nonneg this).symm
    linarith
  rw [div_lt_iff₀ hg] at h4
  nlinarith

/-! ### greedy policies -/

theorem mem_allArgmax (x : Fin k → ℝ) (a : Fin k) : a ∈ allArgmax x ↔ Best x a := by
  simp [allArgmax, Best]

theorem allArgmax_nodup (x : Fin k → ℝ) : (allArgmax x).Nodup := (List.nodup_finRange k).filter _

theorem allArgmax_ne_nil (hk : 0 < k) (x : Fin k → ℝ) : 0 < (allArgmax x).length := by
  obtain ⟨a, _, ha⟩ := Finset.exists_max_image (Finset.univ : Finset (Fin k)) x ⟨⟨0, hk⟩, Finset.mem_univ _⟩
  exact List.length_pos_of_mem ((mem_allArgmax x a).2 (fun b => ha b (Finset.mem_univ _)))

theorem greedyQ_sum (hk : 0 < k) (Qs : Mat n k) (s : Fin n) : ∑ a, greedyQPolicy Qs s a = 1 := by
  classical
  have h1 : ∑ a, greedyQPolicy Qs s a = ∑ a ∈ (allArgmax (Qs s)).toFinset, 1 / ((allArgmax (Qs s)).length : ℝ) := by
    simp only [greedyQPolicy]
    rw [← Finset.sum_filter]
    apply Finset.sum_congr _ (fun _ _ => rfl)
    ext a
    simp
  rw [h1, Finset.sum_const, List.toFinset_card_of_nodup (allArgmax_nodup _)]
  have : ((allArgmax (Qs s)).length : ℝ) ≠ 0 := by exact_mod_cast (allArgmax_ne_nil hk (Qs s)).ne'
  rw [nsmul_eq_mul]
  field_simp

theorem greedyQ_stochastic (hk : 0 < k) (Qs : Mat n k) : Stochastic (greedyQPolicy Qs) := by
  refine ⟨fun s a => ?_, greedyQ_sum hk Qs⟩
  unfold greedyQPolicy
  split <;> positivity

theorem greedyQ_support (hk : 0 < k) (Qs : Mat n k) (s : Fin n) (a : Fin k) : 0 < greedyQPolicy Qs s a ↔ Best (Qs s) a := by
  rw [← mem_allArgmax]
  unfold greedyQPolicy
  have : (0 : ℝ) < (allArgmax (Qs s)).length := by exact_mod_cast allArgmax_ne_nil hk (Qs s)
  split
  · rename_i h; simp only [h, iff_true]; positivity
  · rename_i h; simp [h]

theorem lookahead_eq (Ts : Fin k → Mat n n) (R : Vec n) (gamma : ℝ) (V : Vec n) (s : Fin n) (a : Fin k) :
    lookahead Ts R gamma V s a = actionValue Ts R gamma V s a := by
  simp only [lookahead, actionValue, dotProduct, Pi.add_apply, Pi.smul_apply, smul_eq_mul]
  exact Finset.sum_congr rfl (fun s' _ => by ring)

theorem dynamics_value (Ts : Fin k → Mat n n) (policy : Mat n k) (R : Vec n) (gamma : ℝ) (V : Vec n) (s : Fin n) :
    ∑ s', collapsed Ts policy s s' * (R s' + gamma * V s') = ∑ a, policy s a * actionValue Ts R gamma V s a := by
  simp only [collapsed_eq, Dynamics, actionValue, Finset.sum_mul, Finset.mul_sum]
  rw [Finset.sum_comm]
  exact Finset.sum_congr rfl (fun a _ => Finset.sum_congr rfl (fun s' _ => by ring))

/-- a policy supported on best actions attains the best action value -/
theorem greedy_attains (P : Mat n k) (hP : Stochastic P) (s : Fin n) (x : Fin k → ℝ) (hb : ∀ a, P s a ≠ 0 → Best x a) (b : Fin k) : x b ≤ ∑ a, P s a * x a := by
  have : ∀ a, P s a * x b ≤ P s a * x a := by
    intro a
    by_cases h : P s a = 0
    · rw [h]; simp
    · exact mul_le_mul_of_nonneg_left (hb a h b) (hP.1 s a)
  calc x b = ∑ a, P s a * x b := by rw [← Finset.sum_mul, hP.2 s, one_mul]
    _ ≤ _ := Finset.sum_le_sum (fun a _ => this a)

end Verif.Policy
