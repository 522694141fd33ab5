import Verif.Model.Benchmark
import Verif.Spec.Benchmark
import Mathlib.Analysis.Real.Pi.Bounds
import Mathlib.Analysis.SpecialFunctions.Trigonometric.Bounds
import Mathlib.Tactic.Linarith
import Mathlib.Tactic.NormNum
import Mathlib.Tactic.Positivity
import Mathlib.Tactic.FieldSimp
import Mathlib.Tactic.FinCases
/-
C74: the benchmark functions have a single minimum of value zero, at the optimum they report.
-/
namespace Verif.Benchmark

open Finset Real

/-- A sum of non-negative terms is zero exactly when all are. -/
theorem sum_zero_iff {ι : Type*} (s : Finset ι) (f : ι → ℝ) (h : ∀ i ∈ s, 0 ≤ f i) :
    (∑ i ∈ s, f i = 0) ↔ ∀ i ∈ s, f i = 0 := Finset.sum_eq_zero_iff_of_nonneg h

/-- From a non-negative sum with terms vanishing exactly at `p i`. -/
theorem single_of_terms {n : ℕ} (g : Fin n → ℝ → ℝ) (p : Fin n → ℝ) (h0 : ∀ i t, 0 ≤ g i t) (h1 : ∀ i t, g i t = 0 ↔ t = p i) :
    SingleZeroMin (fun x : Fin n → ℝ => ∑ i, g i (x i)) p := by
  refine ⟨fun x => Finset.sum_nonneg fun i _ => h0 i _, fun x => ?_⟩
  show (∑ i, g i (x i) = 0) ↔ _
  rw [sum_zero_iff _ _ (fun i _ => h0 i _), funext_iff]
  simp [h1]

theorem head_tail {n : ℕ} (x : Fin (n + 1) → ℝ) : x = 0 ↔ x 0 = 0 ∧ ∀ i : Fin n, x i.succ = 0 := by
  rw [funext_iff, Fin.forall_fin_succ]; rfl

theorem sq_sum_zero {n : ℕ} (y : Fin n → ℝ) : (∑ i, y i * y i = 0) ↔ ∀ i, y i = 0 := by
  rw [sum_zero_iff _ _ (fun i _ => mul_self_nonneg _)]; simp

theorem sq_sum_nonneg {n : ℕ} (y : Fin n → ℝ) : 0 ≤ ∑ i, y i * y i := Finset.sum_nonneg fun i _ => mul_self_nonneg _

/-- Two non-negative numbers sum to zero exactly when both are zero. -/
theorem add_zero_iff {a b : ℝ} (ha : 0 ≤ a) (hb : 0 ≤ b) : a + b = 0 ↔ a = 0 ∧ b = 0 := by
  constructor
  · intro h; constructor <;> linarith
  · rintro ⟨rfl, rfl⟩; simp

end Verif.Benchmark

namespace Verif.Props

open Verif.Benchmark Finset Real

/-- C74: the sphere function has a single minimum of value zero, at the origin. -/
theorem C74_sphere (n : ℕ) : SingleZeroMin (sphere (n := n)) 0 :=
  single_of_terms (fun _ t => t * t) 0 (fun _ t => mul_self_nonneg t) (fun _ t => by simp)

/-- C74: so has the bent cigar function. -/
theorem C74_cigar (n : ℕ) : SingleZeroMin (cigar (n := n)) 0 := by
  refine ⟨fun x => ?_, fun x => ?_⟩
  · have := sq_sum_nonneg (fun i : Fin n => x i.succ); unfold cigar; positivity
  · have h := sq_sum_nonneg (fun i : Fin n => x i.succ)
    rw [head_tail]; unfold cigar
    rw [add_zero_iff (by positivity) (by positivity), mul_eq_zero, sq_sum_zero (fun i : Fin n => x i.succ)]
    norm_num

/-- C74: so has the discus (tablet) function. -/
theorem C74_tablet (n : ℕ) : SingleZeroMin (tablet (n := n)) 0 := by
  refine ⟨fun x => ?_, fun x => ?_⟩
  · have := sq_sum_nonneg (fun i : Fin n => x i.succ); unfold tablet; positivity
  · have h := sq_sum_nonneg (fun i : Fin n => x i.succ)
    rw [head_tail]; unfold tablet
    rw [add_zero_iff (by positivity) (by positivity), mul_eq_zero, sq_sum_zero (fun i : Fin n => x i.succ)]
    norm_num

/-- C74: so has the ellipsoid. -/
theorem C74_elli (n : ℕ) : SingleZeroMin (elli (n := n)) 0 := by
  refine single_of_terms (fun i t => (1000 : ℝ) ^ (2 * (i : ℝ) / ((n : ℝ) - 1)) * t * t) 0 (fun i t => ?_) (fun i t => ?_)
  · beta_reduce; rw [mul_assoc]; exact mul_nonneg (rpow_nonneg (by norm_num) _) (mul_self_nonneg t)
  · beta_reduce
    have : (0 : ℝ) < (1000 : ℝ) ^ (2 * (i : ℝ) / ((n : ℝ) - 1)) := rpow_pos_of_pos (by norm_num) _
    simp [this.ne']

/-- C74: so has the sharp ridge. -/
theorem C74_sharpR (n : ℕ) : SingleZeroMin (sharpR (n := n)) 0 := by
  refine ⟨fun x => ?_, fun x => ?_⟩
  · unfold sharpR; positivity
  · have h := sq_sum_nonneg (fun i : Fin n => x i.succ)
    rw [head_tail]; unfold sharpR
    rw [add_zero_iff (by positivity) (by positivity), mul_eq_zero, Real.sqrt_eq_zero h, sq_sum_zero (fun i : Fin n => x i.succ)]
    norm_num

/-- C74: so has the sum of different powers (in two or more dimensions). -/
theorem C74_diffPow (n : ℕ) (hn : 2 ≤ n) : SingleZeroMin (diffPow (n := n)) 0 := by
  refine single_of_terms (fun i t => |t| ^ (2 + 10 * (i : ℝ) / ((n : ℝ) - 1))) 0 (fun i t => ?_) (fun i t => ?_)
  · exact rpow_nonneg (abs_nonneg _) _
  · have h1 : (0 : ℝ) < (n : ℝ) - 1 := by
      have : (2 : ℝ) ≤ n := by exact_mod_cast hn
      linarith
    have h2 : (0 : ℝ) < 2 + 10 * (i : ℝ) / ((n : ℝ) - 1) := by positivity
    beta_reduce
    rw [rpow_eq_zero (abs_nonneg _) h2.ne']; simp

/-- C74: Rosenbrock's function has a single minimum of value zero, at the point of ones (two or more dimensions). -/
theorem C74_rosenbrock (n : ℕ) (hn : 1 ≤ n) : SingleZeroMin (rosenbrock (n := n)) 1 := by
  have hnn : ∀ (x : Fin (n + 1) → ℝ) (i : Fin n), 0 ≤ 100 * (x i.castSucc ^ 2 - x i.succ) ^ 2 + (x i.castSucc - 1) ^ 2 :=
    fun x i => by positivity
  refine ⟨fun x => Finset.sum_nonneg fun i _ => hnn x i, fun x => ?_⟩
  unfold rosenbrock
  rw [sum_zero_iff _ _ (fun i _ => hnn x i)]
  constructor
  · intro h
    have h' : ∀ i : Fin n, x i.castSucc = 1 ∧ x i.succ = 1 := by
      intro i
      have hi := h i (mem_univ i)
      rw [add_zero_iff (by positivity) (by positivity)] at hi
      have h2 : x i.castSucc = 1 := by have := pow_eq_zero_iff (two_ne_zero) |>.1 hi.2; linarith
      have h3 : x i.castSucc ^ 2 - x i.succ = 0 := by
        have := hi.1
        rw [mul_eq_zero] at this
        rcases this with h | h
        · norm_num at h
        · exact pow_eq_zero_iff (two_ne_zero) |>.1 h
      refine ⟨h2, ?_⟩
      rw [h2] at h3; linarith
    funext i
    refine Fin.cases ?_ (fun j => ?_) i
    · exact (h' ⟨0, hn⟩).1
    · exact (h' j).2
  · rintro rfl i _
    simp

/-- C74 fails for Rosenbrock's function in one dimension, which it accepts: it is zero everywhere. -/
theorem C74_negation_rosenbrock : ¬ SingleZeroMin (rosenbrock (n := 0)) 1 := by
  intro h
  have := (h.2 0).1 (by simp [rosenbrock])
  have h0 := congrFun this 0
  simp at h0

/-- C74: Glasmachers' function has a single minimum of value zero, at the origin. -/
theorem C74_glasmachers (n : ℕ) : SingleZeroMin (glasmachers (n := n)) 0 := by
  refine ⟨fun x => ?_, fun x => ?_⟩
  · unfold glasmachers; positivity
  · unfold glasmachers
    simp only
    rw [add_zero_iff (by positivity) (by positivity), add_zero_iff (by positivity) (by positivity), mul_eq_zero,
      Real.sqrt_eq_zero (Finset.sum_nonneg fun i _ => sq_nonneg _), Real.sqrt_eq_zero (Finset.sum_nonneg fun i _ => sq_nonneg _),
      sum_zero_iff _ _ (fun i _ => sq_nonneg _), sum_zero_iff _ _ (fun i _ => sq_nonneg _)]
    constructor
    · rintro ⟨⟨h1, h2⟩, -⟩
      have h1 := h1.resolve_left (by norm_num)
      funext i
      by_cases hi : (i : ℕ) < n / 2
      · exact pow_eq_zero_iff two_ne_zero |>.1 (h1 i (by simp [hi]))
      · exact pow_eq_zero_iff two_ne_zero |>.1 (h2 i (by simp; omega))
    · rintro rfl
      simp

/-- C74 fails for Schwefel's function: the last coordinate never matters, so there are many minima. -/
theorem C74_negation_schwefel (n : ℕ) : ¬ SingleZeroMin (schwefel (n := n + 1)) 0 := by
  intro h
  have := (h.2 (Pi.single (Fin.last n) 1)).1 (by
    unfold schwefel
    apply Finset.sum_eq_zero
    intro i _
    rw [Finset.sum_eq_zero, zero_pow two_ne_zero]
    intro j hj
    rw [Finset.mem_filter] at hj
    have : j ≠ Fin.last n := by
      intro e; subst e
      exact absurd hj.2 (not_lt.2 (Fin.le_last i))
    simp [this])
  have h0 := congrFun this (Fin.last n)
  simp at h0

/-- C74 for Schwefel's function: the value is zero exactly when all but the last coordinate are. -/
theorem C74_schwefel_partial (n : ℕ) (x : Fin (n + 1) → ℝ) :
    0 ≤ schwefel x ∧ (schwefel x = 0 ↔ ∀ i : Fin n, x i.castSucc = 0) := by
  refine ⟨Finset.sum_nonneg fun i _ => sq_nonneg _, ?_⟩
  unfold schwefel
  rw [sum_zero_iff _ _ (fun i _ => sq_nonneg _)]
  constructor
  · intro h
    have h' : ∀ k : Fin (n + 1), ∑ j ∈ univ.filter (fun j => j < k), x j = 0 :=
      fun k => pow_eq_zero_iff two_ne_zero |>.1 (h k (mem_univ k))
    intro i
    have e : univ.filter (fun j : Fin (n + 1) => j < i.succ) = insert i.castSucc (univ.filter (fun j => j < i.castSucc)) := by
      ext j; simp [Fin.lt_def, Fin.ext_iff]; omega
    have h1 := h' i.succ
    rw [e, Finset.sum_insert (by simp), h' i.castSucc] at h1
    linarith
  · intro h i _
    rw [Finset.sum_eq_zero, zero_pow two_ne_zero]
    intro j hj
    have hj' : j < i := (Finset.mem_filter.1 hj).2
    have : (j : ℕ) < n := by have h2 := i.isLt; have h3 := Fin.lt_def.1 hj'; omega
    exact h ⟨j, this⟩

/-- C74: the bounded linear function is non-negative, and zero exactly beyond the best corner (signs are `±1`, weights positive). -/
theorem C74_boundedLinear_partial (n : ℕ) (w s x : Fin n → ℝ) (hw : ∀ i, 0 < w i) (hs : ∀ i, s i = 1 ∨ s i = -1) :
    0 ≤ boundedLinear w s x ∧ (boundedLinear w s x = 0 ↔ ∀ i, 5 ≤ x i * s i) := by
  have e : boundedLinear w s x = ∑ i, w i * (if x i * s i > 5 then 0 else 5 - x i * s i) := by
    unfold boundedLinear
    rw [Finset.mul_sum, ← Finset.sum_sub_distrib]
    refine Finset.sum_congr rfl fun i _ => ?_
    split <;> rcases hs i with h | h <;> rw [h] <;> ring
  have hnn : ∀ i ∈ (univ : Finset (Fin n)), 0 ≤ w i * (if x i * s i > 5 then 0 else 5 - x i * s i) := by
    intro i _
    refine mul_nonneg (hw i).le ?_
    split <;> linarith
  rw [e]
  refine ⟨Finset.sum_nonneg hnn, ?_⟩
  rw [sum_zero_iff _ _ hnn]
  constructor
  · intro h i
    have := h i (mem_univ i)
    rw [mul_eq_zero] at this
    have := this.resolve_left (hw i).ne'
    split at this <;> linarith
  · intro h i _
    split
    · simp
    · have := h i
      rw [mul_eq_zero]; right; linarith

/-- C74 fails for the bounded linear function: the reported optimum (the origin) is no minimum, and evaluating
changes the caller's array. -/
theorem C74_negation_boundedLinear (n : ℕ) (w s : Fin (n + 1) → ℝ) (hw : ∀ i, 0 < w i) (hs : ∀ i, s i = 1 ∨ s i = -1) :
    0 < boundedLinear w s 0 ∧ ∃ x, boundedLinear w s x = 0 ∧ boundedLinearArg s x ≠ x := by
  constructor
  · have h := C74_boundedLinear_partial (n + 1) w s 0 hw hs
    refine lt_of_le_of_ne h.1 fun h0 => ?_
    have := h.2.1 h0.symm 0
    norm_num at this
  · refine ⟨fun i => 6 * s i, ?_, ?_⟩
    · refine (C74_boundedLinear_partial (n + 1) w s _ hw hs).2.2 fun i => ?_
      rcases hs i with h | h <;> rw [h] <;> norm_num
    · intro h
      have h0 := congrFun h 0
      simp only [boundedLinearArg] at h0
      rcases hs 0 with h | h <;> rw [h] at h0 <;> norm_num at h0

/-- C74: Rastrigin's function has a single minimum of value zero, at the origin. -/
theorem C74_rastrigin (n : ℕ) (a : ℝ) (ha : 0 < a) : SingleZeroMin (rastrigin (n := n) a) 0 := by
  have e : rastrigin (n := n) a = fun x : Fin n → ℝ => ∑ i : Fin n, (fun (i : Fin n) (t : ℝ) =>
      (a ^ (((i : ℝ) - 1) / ((n : ℝ) - 1)) * t) ^ 2 + 10 * (1 - cos (2 * π * a ^ (((i : ℝ) - 1) / ((n : ℝ) - 1)) * t))) i (x i) := by
    funext x
    unfold rastrigin
    have : (10 * (n : ℝ)) = ∑ _i : Fin n, (10 : ℝ) := by simp [mul_comm]
    rw [this, ← Finset.sum_add_distrib]
    exact Finset.sum_congr rfl fun i _ => by ring
  rw [e]
  refine single_of_terms (fun (i : Fin n) (t : ℝ) =>
      (a ^ (((i : ℝ) - 1) / ((n : ℝ) - 1)) * t) ^ 2 + 10 * (1 - cos (2 * π * a ^ (((i : ℝ) - 1) / ((n : ℝ) - 1)) * t))) 0 (fun i t => ?_) (fun i t => ?_)
  · have := cos_le_one (2 * π * a ^ (((i : ℝ) - 1) / ((n : ℝ) - 1)) * t)
    have := sq_nonneg (a ^ (((i : ℝ) - 1) / ((n : ℝ) - 1)) * t)
    beta_reduce; linarith
  · have h1 := cos_le_one (2 * π * a ^ (((i : ℝ) - 1) / ((n : ℝ) - 1)) * t)
    have hp : (0 : ℝ) < a ^ (((i : ℝ) - 1) / ((n : ℝ) - 1)) := rpow_pos_of_pos ha _
    beta_reduce
    rw [add_zero_iff (sq_nonneg _) (by linarith)]
    constructor
    · rintro ⟨h, -⟩
      have := pow_eq_zero_iff two_ne_zero |>.1 h
      simpa [hp.ne'] using this
    · intro h
      simp only [Pi.zero_apply] at h
      subst h; simp

/-- C74: the Weierstrass function is non-negative and zero at the origin (its documentation says that there are
further minima). -/
theorem C74_weierstrass (n kmax : ℕ) : HasZeroMin (weierstrass (n := n) kmax) 0 := by
  have hc : ∀ k : ℕ, cos (2 * π * 3 ^ k * (1 / 2)) = -1 := by
    intro k
    have hodd : Odd (3 ^ k : ℕ) := Odd.pow (by decide)
    obtain ⟨m, hm⟩ := hodd
    have : (3 : ℝ) ^ k = 2 * (m : ℝ) + 1 := by exact_mod_cast hm
    rw [this, show 2 * π * (2 * (m : ℝ) + 1) * (1 / 2) = π + (m : ℝ) * (2 * π) by ring, cos_add_nat_mul_two_pi, cos_pi]
  constructor
  · intro x
    refine Finset.sum_nonneg fun k _ => ?_
    have : ∑ i : Fin n, (-((1 : ℝ) / 2) ^ k) ≤ ∑ i, (1 / 2) ^ k * cos (2 * π * 3 ^ k * (x i + 1 / 2)) := by
      refine Finset.sum_le_sum fun i _ => ?_
      have h1 := neg_one_le_cos (2 * π * 3 ^ k * (x i + 1 / 2))
      have h2 : (0 : ℝ) < (1 / 2) ^ k := by positivity
      nlinarith
    rw [hc]
    simp only [sum_const, card_univ, Fintype.card_fin, nsmul_eq_mul] at this
    nlinarith
  · refine Finset.sum_eq_zero fun k _ => ?_
    simp only [Pi.zero_apply, zero_add, sum_const, card_univ, Fintype.card_fin, nsmul_eq_mul]
    ring

/-- C74: Weierstrass' minimum is not the only one. -/
theorem C74_negation_weierstrass (n kmax : ℕ) : ¬ SingleZeroMin (weierstrass (n := n + 1) kmax) 0 := by
  intro h
  have := (h.2 1).1 (by
    rw [← (C74_weierstrass (n + 1) kmax).2]
    unfold weierstrass
    refine Finset.sum_congr rfl fun k _ => ?_
    congr 1
    refine Finset.sum_congr rfl fun i _ => ?_
    congr 1
    simp only [Pi.one_apply, Pi.zero_apply]
    rw [show 2 * π * 3 ^ k * (1 + 1 / 2) = 2 * π * 3 ^ k * (0 + 1 / 2) + ((3 ^ k : ℕ) : ℝ) * (2 * π) by push_cast; ring,
      cos_add_nat_mul_two_pi])
  have h0 := congrFun this 0
  simp at h0

/-- C74: Schaffers' F7 has a single minimum of value zero, at the origin (two or more dimensions). -/
theorem C74_schaffers (n : ℕ) (hn : 1 ≤ n) : SingleZeroMin (schaffers (n := n)) 0 := by
  refine ⟨fun x => sq_nonneg _, fun x => ?_⟩
  unfold schaffers
  rw [pow_eq_zero_iff two_ne_zero, sum_zero_iff _ _ (fun i _ => by positivity)]
  constructor
  · intro h
    have h' : ∀ i : Fin n, x i.castSucc = 0 ∧ x i.succ = 0 := by
      intro i
      have := h i (mem_univ i)
      rw [mul_eq_zero] at this
      have := this.resolve_right (by positivity)
      rw [Real.sqrt_eq_zero (by positivity), Real.sqrt_eq_zero (by positivity), add_zero_iff (sq_nonneg _) (sq_nonneg _)] at this
      simpa using this
    funext i
    refine Fin.cases ?_ (fun j => ?_) i
    · exact (h' ⟨0, hn⟩).1
    · exact (h' j).2
  · rintro rfl i _
    simp

/-- C74: Ackley's function has a single minimum of value zero, at the origin. -/
theorem C74_ackley (n : ℕ) (hn : 1 ≤ n) : SingleZeroMin (ackley (n := n)) 0 := by
  have hn' : (0 : ℝ) < n := by exact_mod_cast hn
  have hA : ∀ x : Fin n → ℝ, exp (-(1 / 5) * √(1 / (n : ℝ) * ∑ i, x i ^ 2)) ≤ 1 := by
    intro x
    rw [exp_le_one_iff]
    have := Real.sqrt_nonneg (1 / (n : ℝ) * ∑ i, x i ^ 2)
    linarith
  have hB : ∀ x : Fin n → ℝ, exp (1 / (n : ℝ) * ∑ i, cos (2 * π * x i)) ≤ exp 1 := by
    intro x
    rw [exp_le_exp]
    have : ∑ i, cos (2 * π * x i) ≤ ∑ _i : Fin n, (1 : ℝ) := Finset.sum_le_sum fun i _ => cos_le_one _
    simp only [sum_const, card_univ, Fintype.card_fin, nsmul_eq_mul, mul_one] at this
    rw [one_div, inv_mul_le_iff₀ hn', mul_one]
    exact this
  refine ⟨fun x => ?_, fun x => ?_⟩
  · have := hA x; have := hB x; unfold ackley; linarith
  · constructor
    · intro h
      unfold ackley at h
      have h1 := hA x
      have h2 := hB x
      have h3 : exp (-(1 / 5) * √(1 / (n : ℝ) * ∑ i, x i ^ 2)) = 1 := by linarith
      rw [exp_eq_one_iff, mul_eq_zero] at h3
      have h4 := h3.resolve_left (by norm_num)
      have hs : 0 ≤ ∑ i, x i ^ 2 := Finset.sum_nonneg fun i _ => sq_nonneg _
      rw [Real.sqrt_eq_zero (by positivity), mul_eq_zero] at h4
      have h5 := h4.resolve_left (by positivity)
      rw [sum_zero_iff _ _ (fun i _ => sq_nonneg _)] at h5
      funext i
      exact pow_eq_zero_iff two_ne_zero |>.1 (h5 i (mem_univ i))
    · rintro rfl
      simp [ackley, hn'.ne']

/-- C74: Griewank's function has a single minimum of value zero, at the origin. -/
theorem C74_griewank (n : ℕ) : SingleZeroMin (griewank (n := n)) 0 := by
  have hp : ∀ x : Fin n → ℝ, ∏ i : Fin n, cos (x i / √((i : ℝ) + 1)) ≤ 1 := by
    intro x
    refine (le_abs_self _).trans ?_
    rw [Finset.abs_prod]
    exact Finset.prod_le_one (fun i _ => abs_nonneg _) (fun i _ => abs_cos_le_one _)
  have hs : ∀ x : Fin n → ℝ, 0 ≤ ∑ i, x i ^ 2 := fun x => Finset.sum_nonneg fun i _ => sq_nonneg _
  refine ⟨fun x => ?_, fun x => ?_⟩
  · have := hp x; have := hs x; unfold griewank; linarith
  · constructor
    · intro h
      unfold griewank at h
      have h1 := hp x
      have h2 := hs x
      have h3 : ∑ i, x i ^ 2 = 0 := by linarith
      rw [sum_zero_iff _ _ (fun i _ => sq_nonneg _)] at h3
      funext i
      exact pow_eq_zero_iff two_ne_zero |>.1 (h3 i (mem_univ i))
    · rintro rfl
      simp [griewank]

/-- C74: the Büche-Rastrigin function has a single minimum of value zero, at the origin. -/
theorem C74_buche (n : ℕ) : SingleZeroMin (buche (n := n)) 0 := by
  have e : ∀ x : Fin n → ℝ, buche x = ∑ i : Fin n, (bucheArg x i * bucheArg x i + 10 * (1 - cos (2 * π * bucheArg x i))) := by
    intro x
    unfold buche
    rw [Finset.sum_add_distrib, ← Finset.mul_sum, Finset.sum_sub_distrib]
    simp only [sum_const, card_univ, Fintype.card_fin, nsmul_eq_mul, mul_one]
    ring
  have hnn : ∀ (x : Fin n → ℝ) (i : Fin n), 0 ≤ bucheArg x i * bucheArg x i + 10 * (1 - cos (2 * π * bucheArg x i)) := by
    intro x i
    have := cos_le_one (2 * π * bucheArg x i)
    have := mul_self_nonneg (bucheArg x i)
    linarith
  refine ⟨fun x => ?_, fun x => ?_⟩
  · rw [e]; exact Finset.sum_nonneg fun i _ => hnn x i
  · rw [e, sum_zero_iff _ _ (fun i _ => hnn x i)]
    constructor
    · intro h
      funext i
      have h1 := h i (mem_univ i)
      have h2 := cos_le_one (2 * π * bucheArg x i)
      have h3 := mul_self_nonneg (bucheArg x i)
      have h4 : bucheArg x i = 0 := by
        have : bucheArg x i * bucheArg x i = 0 := by linarith
        simpa using this
      unfold bucheArg at h4
      rw [mul_eq_zero] at h4
      exact h4.resolve_right (rpow_pos_of_pos (by norm_num) _).ne'
    · rintro rfl i _
      simp [bucheArg]

/-- C74: evaluating the Büche-Rastrigin function changes the caller's array. -/
theorem C74_negation_buche (n : ℕ) : ∃ x : Fin (n + 1) → ℝ, bucheArg x ≠ x := by
  refine ⟨fun _ => 1, fun h => ?_⟩
  have h0 := congrFun h 0
  simp [bucheArg] at h0

/-- C74 fails for the funnel function: its single minimum is at `2.5`, but it reports the origin. -/
theorem C74_negation_funnel (n : ℕ) : SingleZeroMin (funnel (n := n + 1)) (fun _ => 5 / 2) ∧ 0 < funnel (n := n + 1) 0 := by
  have hs : ∀ (x : Fin (n + 1) → ℝ) (c : ℝ), 0 ≤ ∑ i, (x i + c) * (x i + c) := fun x c => sq_sum_nonneg fun i => x i + c
  have hs' : ∀ (x : Fin (n + 1) → ℝ), 0 ≤ ∑ i, (x i - 5 / 2) * (x i - 5 / 2) := fun x => sq_sum_nonneg fun i => x i - 5 / 2
  have hpos : ∀ x : Fin (n + 1) → ℝ, 0 < 1 * ((n + 1 : ℕ) : ℝ) + 1 * ∑ i, (x i + 5 / 2) * (x i + 5 / 2) := by
    intro x
    have := hs x (5 / 2)
    positivity
  have key : SingleZeroMin (funnel (n := n + 1)) (fun _ => 5 / 2) := by
    refine ⟨fun x => le_min (hs' x) (hpos x).le, fun x => ?_⟩
    unfold funnel
    constructor
    · intro h
      rcases min_choice (∑ i, (x i - 5 / 2) * (x i - 5 / 2)) (1 * ((n + 1 : ℕ) : ℝ) + 1 * ∑ i, (x i + 5 / 2) * (x i + 5 / 2)) with h' | h'
      · rw [h'] at h
        rw [sq_sum_zero (fun i => x i - 5 / 2)] at h
        funext i
        have := h i
        linarith
      · rw [h'] at h
        exact absurd h (hpos x).ne'
    · rintro rfl
      rw [min_eq_left]
      · simp
      · simp only [sub_self, mul_zero, sum_const_zero]
        exact (hpos _).le
  refine ⟨key, lt_of_le_of_ne (key.1 0) fun h => ?_⟩
  have := (key.2 0).1 h.symm
  have h0 := congrFun this 0
  norm_num at h0

/-- C74 fails for the Griewank-Rosenbrock function: the minimum of value zero is at the point of ones, but it reports
the origin, where the value is larger. -/
theorem C74_negation_griewankRosenbrock (n : ℕ) (hn : 1 ≤ n) :
    SingleZeroMin (griewankRosenbrock (n := n)) 1 ∧ 0 < griewankRosenbrock (n := n) 0 := by
  have hn' : (0 : ℝ) < n := by exact_mod_cast hn
  have e : ∀ x : Fin (n + 1) → ℝ, griewankRosenbrock x = 1 / (n : ℝ) * ∑ i : Fin n,
      ((100 * (x i.castSucc ^ 2 - x i.succ) ^ 2 + (x i.castSucc - 1) ^ 2) / 4000 +
        (1 - cos (100 * (x i.castSucc ^ 2 - x i.succ) ^ 2 + (x i.castSucc - 1) ^ 2))) := by
    intro x
    unfold griewankRosenbrock
    simp only [Finset.sum_add_distrib, Finset.sum_sub_distrib, sum_const, card_univ, Fintype.card_fin, nsmul_eq_mul, mul_one,
      add_sub_cancel_right]
    field_simp
    ring
  have hnn : ∀ (x : Fin (n + 1) → ℝ) (i : Fin n), 0 ≤ (100 * (x i.castSucc ^ 2 - x i.succ) ^ 2 + (x i.castSucc - 1) ^ 2) / 4000 +
        (1 - cos (100 * (x i.castSucc ^ 2 - x i.succ) ^ 2 + (x i.castSucc - 1) ^ 2)) := by
    intro x i
    have := cos_le_one (100 * (x i.castSucc ^ 2 - x i.succ) ^ 2 + (x i.castSucc - 1) ^ 2)
    have : 0 ≤ (100 * (x i.castSucc ^ 2 - x i.succ) ^ 2 + (x i.castSucc - 1) ^ 2) / 4000 := by positivity
    linarith
  have key : SingleZeroMin (griewankRosenbrock (n := n)) 1 := by
    refine ⟨fun x => ?_, fun x => ?_⟩
    · rw [e]
      exact mul_nonneg (by positivity) (Finset.sum_nonneg fun i _ => hnn x i)
    · rw [← (C74_rosenbrock n hn).2, e, mul_eq_zero, sum_zero_iff _ _ (fun i _ => hnn x i)]
      unfold rosenbrock
      rw [sum_zero_iff _ _ (fun i _ => by positivity)]
      constructor
      · intro h i _
        have := (h.resolve_left (by positivity)) i (mem_univ i)
        have hc := cos_le_one (100 * (x i.castSucc ^ 2 - x i.succ) ^ 2 + (x i.castSucc - 1) ^ 2)
        have hq : 0 ≤ (100 * (x i.castSucc ^ 2 - x i.succ) ^ 2 + (x i.castSucc - 1) ^ 2) := by positivity
        linarith
      · intro h
        right
        intro i hi
        rw [h i hi]
        simp
  refine ⟨key, lt_of_le_of_ne (key.1 0) fun h => ?_⟩
  have := (key.2 0).1 h.symm
  have h0 := congrFun this 0
  norm_num at h0

/-- C74: Schwefel's problem 2.13 is non-negative and zero at its hidden point `alphas`. -/
theorem C74_schwefel213 (n : ℕ) (A B : Fin n → Fin n → ℝ) (alphas : Fin n → ℝ) :
    HasZeroMin (schwefel213 A B alphas) alphas :=
  ⟨fun _ => Finset.sum_nonneg fun _ _ => sq_nonneg _, by simp [schwefel213]⟩

/-- C74 fails for Schwefel's problem 2.13: the reported optimum is the origin, whose value need not be zero. -/
theorem C74_negation_schwefel213 : ∃ (A B : Fin 2 → Fin 2 → ℝ) (alphas : Fin 2 → ℝ), 0 < schwefel213 A B alphas 0 := by
  refine ⟨fun _ _ => 1, fun _ _ => 0, fun _ => π / 2, ?_⟩
  simp [schwefel213]

/-- C74: Katsuura's function is non-negative and zero at the origin (its documentation says that it has many minima). -/
theorem C74_katsuura (n : ℕ) : HasZeroMin (katsuura (n := n)) 0 := by
  constructor
  · intro x
    have h1 : ∀ i : Fin n, (1 : ℝ) ≤ 1 + ((i : ℝ) + 1) * ∑ j ∈ Finset.Icc 1 32, Int.fract |2 ^ j * x i| * (1 / 2) ^ j := by
      intro i
      have : 0 ≤ ∑ j ∈ Finset.Icc 1 32, Int.fract |2 ^ j * x i| * (1 / 2) ^ j :=
        Finset.sum_nonneg fun j _ => mul_nonneg (Int.fract_nonneg _) (by positivity)
      have : 0 ≤ ((i : ℝ) + 1) * ∑ j ∈ Finset.Icc 1 32, Int.fract |2 ^ j * x i| * (1 / 2) ^ j := by positivity
      linarith
    have h2 : (1 : ℝ) ≤ ∏ i : Fin n, (1 + ((i : ℝ) + 1) * ∑ j ∈ Finset.Icc 1 32, Int.fract |2 ^ j * x i| * (1 / 2) ^ j) ^ (10 / (n : ℝ) ^ (1.2 : ℝ)) :=
      calc (1 : ℝ) = ∏ _i : Fin n, (1 : ℝ) := by simp
        _ ≤ _ := Finset.prod_le_prod (fun _ _ => zero_le_one) fun i _ => one_le_rpow (h1 i) (by positivity)
    unfold katsuura
    linarith
  · simp [katsuura]

/-- C74 fails for Branin's function: the reported optimum (the origin) is much worse than the documented one. -/
theorem C74_negation_branin : branin π 2.275 < branin 0 0 := by
  have hpi := pi_gt_three
  have e1 : branin π 2.275 = 10 / (8 * π) - 0.397887 := by
    unfold branin
    rw [cos_pi]
    field_simp
    ring
  have e2 : branin 0 0 = 36 + 10 * ((1 - 1 / (8 * π)) + 1) - 0.397887 := by
    unfold branin
    rw [cos_zero]
    ring
  rw [e1, e2]
  have h : 1 / (8 * π) ≤ 1 := by
    rw [div_le_one (by positivity)]; linarith
  have h' : 10 / (8 * π) = 10 * (1 / (8 * π)) := by ring
  rw [h']
  linarith

-- the hypotheses are met
example : SingleZeroMin (rosenbrock (n := 1)) 1 := C74_rosenbrock 1 le_rfl
example : sphere ![1, 2] = 5 := by simp [sphere, Fin.sum_univ_two]; norm_num
example : SingleZeroMin (rastrigin (n := 3) 1) 0 := C74_rastrigin 3 1 one_pos
example : 0 < boundedLinear (n := 2) ![1, 10] ![1, -1] 0 :=
  (C74_negation_boundedLinear 1 ![1, 10] ![1, -1] (by intro i; fin_cases i <;> simp) (by intro i; fin_cases i <;> simp)).1

end Verif.Props
