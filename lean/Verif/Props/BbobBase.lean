import Verif.Model.BbobBase
import Verif.Props.Bbob
import Mathlib.Analysis.Real.Pi.Bounds
import Mathlib.Analysis.Complex.ExponentialBounds
/-
Properties of the benchmark functions with random parameters.
-/
namespace Verif.BbobBase

open Verif.FunctionTransform (Vec penalize penalize_eq)
open Verif.Bbob
open Verif.Benchmark

variable {n : ℕ}

theorem stepRound_zero_iff (x : ℝ) : stepRound x = 0 ↔ -1 / 20 ≤ x ∧ x < 1 / 20 := by
  unfold stepRound
  by_cases h : x > 0.5
  · rw [if_pos h, if_neg (not_le.2 h), mul_one, mul_zero, add_zero]
    have hx : (1 : ℝ) ≤ (⌊0.5 + x⌋ : ℝ) := by
      have : (1 : ℤ) ≤ ⌊0.5 + x⌋ := Int.le_floor.2 (by norm_num at *; linarith)
      exact_mod_cast this
    constructor
    · intro e; linarith
    · rintro ⟨-, b⟩; norm_num at h b; linarith
  · rw [if_neg h, if_pos (not_lt.1 h), mul_one, mul_zero, zero_add, div_eq_zero_iff]
    simp only [OfNat.ofNat_ne_zero, or_false, Int.cast_eq_zero, Int.floor_eq_zero_iff, Set.mem_Ico]
    constructor
    · rintro ⟨a, b⟩; constructor <;> norm_num at * <;> linarith
    · rintro ⟨a, b⟩; constructor <;> norm_num at * <;> linarith

theorem elliA_zero (a : ℝ) (ha : 0 < a) (x : Vec n) : 0 ≤ elliA a x ∧ (elliA a x = 0 ↔ x = 0) := by
  unfold elliA
  have hp : ∀ i : Fin n, 0 < a ^ (2 * (i : ℝ) / ((n : ℝ) - 1)) := fun i => Real.rpow_pos_of_pos ha _
  have h0 : ∀ i ∈ (Finset.univ : Finset (Fin n)), 0 ≤ a ^ (2 * (i : ℝ) / ((n : ℝ) - 1)) * x i * x i := fun i _ => by
    rw [mul_assoc]; exact mul_nonneg (hp i).le (mul_self_nonneg _)
  refine ⟨Finset.sum_nonneg h0, ?_⟩
  rw [Finset.sum_eq_zero_iff_of_nonneg h0, funext_iff]
  simp [(hp _).ne']

theorem sector_zero_iff (xopt x : Vec n) : ∑ i, sector xopt x i * sector xopt x i = 0 ↔ x = 0 := by
  rw [sq_sum_zero, funext_iff]
  refine forall_congr' fun i => ?_
  unfold sector
  split_ifs <;> simp

theorem osc_upper (y : ℝ) : osc y ≤ (|y| + tiny) * Real.exp 0.098 := by
  have hp : 0 < |y| + tiny := by have := tiny_pos; positivity
  unfold osc
  rw [add_assoc, Real.exp_add, Real.exp_log hp]
  refine mul_le_mul_of_nonneg_left (Real.exp_le_exp.2 ?_) hp.le
  have a := Real.sin_le_one (10 * y)
  have b := Real.sin_le_one (7.9 * y)
  have c := Real.sin_le_one (5.5 * y)
  have d := Real.sin_le_one (3.1 * y)
  rcases lt_trichotomy y 0 with h | h | h
  · rw [if_neg (not_lt.2 h.le), if_pos h]; norm_num at c d ⊢; linarith
  · rw [if_neg (by linarith), if_neg (by linarith)]; norm_num
  · rw [if_pos h, if_neg (not_lt.2 h.le)]; norm_num at a b ⊢; linarith

/-- The solution of the triangular system of Schwefel's function for the values `t`. -/
noncomputable def solve (o : ℕ → ℝ) (t : ℕ → ℝ) : ℕ → ℝ
  | 0 => t 0
  | i + 1 => t (i + 1) - (solve o t i - o i) * 0.25

end Verif.BbobBase

namespace Verif.Props

open Verif.FunctionTransform (Vec penalize penalize_eq)
open Verif.Bbob Verif.BbobBase Verif.Benchmark

variable {n : ℕ}

/-- The step ellipsoid is nowhere negative, and zero exactly on the plateau of points whose coordinates are all between -1/20 and 1/20, around the
reported optimum, the origin. -/
theorem C148_step (R : Matrix (Fin (n + 1)) (Fin (n + 1)) ℝ) (hR : IsUnit R.det) (x : Vec (n + 1)) :
    0 ≤ stepElli R x ∧ (stepElli R x = 0 ↔ ∀ i, -1 / 20 ≤ x i ∧ x i < 1 / 20) := by
  unfold stepElli
  obtain ⟨h1, h2⟩ := elliA_zero 10 (by norm_num) (Matrix.mulVec R fun i => stepRound (x i))
  have hm := le_trans h1 (le_max_right (1 / 10 ^ 4 * |Matrix.mulVec R (fun i => stepRound (x i)) 0|) (elliA 10 (Matrix.mulVec R fun i => stepRound (x i))))
  refine ⟨mul_nonneg (by norm_num) hm, ?_⟩
  have hiff : ∀ i, stepRound (x i) = 0 ↔ -1 / 20 ≤ x i ∧ x i < 1 / 20 := fun i => stepRound_zero_iff (x i)
  rw [mul_eq_zero, or_iff_right (by norm_num : ¬(0.1 : ℝ) = 0)]
  constructor
  · intro h
    have h3 : elliA 10 (Matrix.mulVec R fun i => stepRound (x i)) = 0 := le_antisymm (h ▸ le_max_right _ _) h1
    rw [h2, mulVec_zero_iff R hR] at h3
    exact fun i => (hiff i).1 (congrFun h3 i)
  · intro h
    have h3 : (fun i => stepRound (x i)) = 0 := funext fun i => (hiff i).2 (h i)
    rw [h3, Matrix.mulVec_zero, (elliA_zero 10 (by norm_num) (0 : Vec (n + 1))).2.2 rfl]
    simp

example : IsUnit (1 : Matrix (Fin 3) (Fin 3) ℝ).det := by simp

/-- The steps are not symmetric: coordinates above 1/2 are rounded to integers, but coordinates below -1/2 still to tenths. -/
theorem C148_negation_step : (∀ x : ℝ, 1 / 2 < x → ∃ k : ℤ, stepRound x = k) ∧ stepRound (-1.3) = -1.3 := by
  constructor
  · intro x hx
    refine ⟨⌊0.5 + x⌋, ?_⟩
    unfold stepRound
    rw [if_pos (by norm_num at *; linarith), if_neg (by norm_num at *; linarith)]
    ring
  · unfold stepRound
    rw [if_neg (by norm_num), if_pos (by norm_num)]
    have : ⌊(0.5 + 10 * (-1.3) : ℝ)⌋ = -13 := by rw [Int.floor_eq_iff]; norm_num
    rw [this]
    norm_num

/-- The attractive sector function is smallest at the origin, and there close to zero, and of two opposite points
the one in the quadrant of `xopt` is worse (unless both are closer to the origin than the square root of 1e-100). -/
theorem C148_sector (xopt x : Vec n) : (x ≠ 0 → attractiveSector xopt 0 < attractiveSector xopt x) ∧ attractiveSector xopt (0 : Vec n) = (1 / 10 ^ 100 : ℝ) ^ (0.9 : ℝ) ∧
    ((∀ i, 0 < x i * xopt i) → 1 / 10 ^ 100 ≤ ∑ i, x i * x i → attractiveSector xopt (-x) < attractiveSector xopt x) := by
  have h0 : attractiveSector xopt (0 : Vec n) = tiny ^ (0.9 : ℝ) := by
    unfold attractiveSector
    rw [(sector_zero_iff xopt 0).2 rfl, osc_zero]
  refine ⟨fun h => ?_, h0, fun hq ht => ?_⟩
  · rw [h0]
    unfold attractiveSector
    exact Real.rpow_lt_rpow tiny_pos.le (osc_gt _ fun e => h ((sector_zero_iff xopt x).1 e)) (by norm_num)
  · unfold attractiveSector
    refine Real.rpow_lt_rpow (Real.exp_pos _).le ?_ (by norm_num)
    have e1 : ∑ i, sector xopt (-x) i * sector xopt (-x) i = ∑ i, x i * x i := by
      refine Finset.sum_congr rfl fun i _ => ?_
      unfold sector
      have : ¬(-x) i * xopt i > 0 := by rw [Pi.neg_apply]; linarith [hq i]
      rw [if_neg this, if_neg this, Pi.neg_apply]
      ring
    have e2 : ∑ i, sector xopt x i * sector xopt x i = 10 ^ 4 * ∑ i, x i * x i := by
      rw [Finset.mul_sum]
      refine Finset.sum_congr rfl fun i _ => ?_
      unfold sector
      rw [if_pos (hq i), if_pos (hq i)]
      ring
    rw [e1, e2]
    generalize ∑ i, x i * x i = S at *
    have ht' : tiny ≤ S := ht
    have hS : 0 < S := lt_of_lt_of_le tiny_pos ht'
    obtain ⟨e, he, -, he2⟩ := osc_eq (10 ^ 4 * S)
    refine lt_of_le_of_lt (osc_upper S) ?_
    rw [he, abs_of_pos hS, abs_of_pos (by positivity)]
    have h1 : Real.exp 0.098 ≤ 3 := by
      have : Real.exp 0.098 ≤ Real.exp 1 := Real.exp_le_exp.2 (by norm_num)
      linarith [Real.exp_one_lt_d9]
    have h2 : 0.9 ≤ Real.exp e := by
      have := Real.add_one_le_exp e
      norm_num at *
      linarith
    have h3 : (S + tiny) * Real.exp 0.098 ≤ (S + tiny) * 3 := mul_le_mul_of_nonneg_left h1 (by linarith [tiny_pos])
    have h4 : (10 ^ 4 * S + tiny) * 0.9 ≤ (10 ^ 4 * S + tiny) * Real.exp e := mul_le_mul_of_nonneg_left h2 (by linarith [tiny_pos])
    norm_num at *
    linarith

example : (∀ i, 0 < (![1, -1] : Vec 2) i * (![2, -3] : Vec 2) i) ∧ 1 / 10 ^ 100 ≤ ∑ i, (![1, -1] : Vec 2) i * (![1, -1] : Vec 2) i := by
  constructor
  · intro i; fin_cases i <;> norm_num
  · simp [Fin.sum_univ_two]; norm_num

/-- The `xopt` it reports, a random point, is not the optimum of the attractive sector function. -/
theorem C148_negation_sector (xopt : Vec n) (h : xopt ≠ 0) : attractiveSector xopt 0 < attractiveSector xopt xopt := (C148_sector xopt xopt).1 h

example : (![2, -3] : Vec 2) ≠ 0 := fun h => by simpa using congrFun h 0

/-- Gallagher's functions, for any number of peaks (the library uses 101 and 21), are nowhere negative and zero exactly at the first peak. -/
theorem C148_gallagher {m : ℕ} (hm : 2 ≤ m) (opts : Fin (m + 1) → Vec n) (alphas : Fin (m + 1) → ℝ) (ha : ∀ i, 0 < alphas i) (shuffle : Fin (m + 1) → Fin n → Fin n) (R : Matrix (Fin n) (Fin n) ℝ) (hR : IsUnit R.det) :
    SingleZeroMin (gallagher opts alphas shuffle R) (opts 0) := by
  refine ⟨fun x => sq_nonneg _, fun x => ?_⟩
  unfold gallagher
  have hcov : ∀ i j, 0 < peakCov (alphas i) (shuffle i) j := fun i j => div_pos (Real.rpow_pos_of_pos (ha i) _) (Real.rpow_pos_of_pos (ha i) _)
  have hterm : ∀ (i : Fin (m + 1)) (r : Vec n) (j : Fin n), 0 ≤ r j * (peakCov (alphas i) (shuffle i) j * r j) := by
    intro i r j
    rw [show r j * (peakCov (alphas i) (shuffle i) j * r j) = peakCov (alphas i) (shuffle i) j * (r j * r j) by ring]
    exact mul_nonneg (hcov i j).le (mul_self_nonneg _)
  have hexp : ∀ i, Real.exp (-1 / (2 * n) * ∑ j, Matrix.mulVec R (x - opts i) j * (peakCov (alphas i) (shuffle i) j * Matrix.mulVec R (x - opts i) j)) ≤ 1 := by
    intro i
    rw [Real.exp_le_one_iff]
    exact mul_nonpos_of_nonpos_of_nonneg (div_nonpos_of_nonpos_of_nonneg (by norm_num) (by positivity)) (Finset.sum_nonneg fun j _ => hterm i _ j)
  have hw : ∀ i : Fin (m + 1), i ≠ 0 → 0 ≤ peakWeight m i ∧ peakWeight m i ≤ 9.1 := by
    intro i hi
    have hi0 : (i : ℕ) ≠ 0 := fun e => hi (Fin.ext e)
    unfold peakWeight
    rw [if_neg hi0]
    have hm1 : (0 : ℝ) < ((m + 1 : ℕ) : ℝ) - 2 := by
      have : (2 : ℝ) ≤ m := by exact_mod_cast hm
      push_cast
      linarith
    have hle : (((i : ℕ) - 1 : ℕ) : ℝ) ≤ ((m + 1 : ℕ) : ℝ) - 2 := by
      have h2 : (i : ℕ) - 1 + 2 ≤ m + 1 := by have := i.2; omega
      have : (((i : ℕ) - 1 : ℕ) : ℝ) + 2 ≤ ((m + 1 : ℕ) : ℝ) := by exact_mod_cast h2
      linarith
    have h0 : (0 : ℝ) ≤ (((i : ℕ) - 1 : ℕ) : ℝ) := Nat.cast_nonneg _
    have hd : 8 * (((i : ℕ) - 1 : ℕ) : ℝ) / (((m + 1 : ℕ) : ℝ) - 2) ≤ 8 := by rw [div_le_iff₀ hm1]; linarith
    have hd0 : 0 ≤ 8 * (((i : ℕ) - 1 : ℕ) : ℝ) / (((m + 1 : ℕ) : ℝ) - 2) := by positivity
    constructor
    · norm_num at *; linarith
    · norm_num at *; linarith
  have hother : ∀ i : Fin (m + 1), i ≠ 0 → peak opts alphas shuffle R x i < 10 := by
    intro i hi
    obtain ⟨a, b⟩ := hw i hi
    have : peak opts alphas shuffle R x i ≤ peakWeight m i * 1 := mul_le_mul_of_nonneg_left (hexp i) a
    norm_num at *
    linarith
  have hfirst : peak opts alphas shuffle R x 0 = 10 * Real.exp (-1 / (2 * n) * ∑ j, Matrix.mulVec R (x - opts 0) j * (peakCov (alphas 0) (shuffle 0) j * Matrix.mulVec R (x - opts 0) j)) := by
    unfold peak peakWeight
    simp
  have hfle : peak opts alphas shuffle R x 0 ≤ 10 := by rw [hfirst]; linarith [hexp 0]
  have hsup : Finset.univ.sup' Finset.univ_nonempty (peak opts alphas shuffle R x) = 10 ↔ peak opts alphas shuffle R x 0 = 10 := by
    constructor
    · intro h
      obtain ⟨i, -, hi⟩ := Finset.exists_mem_eq_sup' Finset.univ_nonempty (peak opts alphas shuffle R x)
      by_cases h0 : i = 0
      · rw [← h0, ← hi, h]
      · have := hother i h0
        rw [← hi, h] at this
        exact absurd this (lt_irrefl _)
    · intro h
      refine le_antisymm (Finset.sup'_le _ _ fun i _ => ?_) (h ▸ Finset.le_sup' (peak opts alphas shuffle R x) (Finset.mem_univ 0))
      by_cases h0 : i = 0
      · rw [h0]; exact hfle
      · exact (hother i h0).le
  rw [pow_eq_zero_iff (by norm_num), sub_eq_zero, eq_comm, hsup, hfirst]
  have hiff : (10 : ℝ) * Real.exp (-1 / (2 * n) * ∑ j, Matrix.mulVec R (x - opts 0) j * (peakCov (alphas 0) (shuffle 0) j * Matrix.mulVec R (x - opts 0) j)) = 10 ↔
      -1 / (2 * (n : ℝ)) * ∑ j, Matrix.mulVec R (x - opts 0) j * (peakCov (alphas 0) (shuffle 0) j * Matrix.mulVec R (x - opts 0) j) = 0 := by
    rw [← Real.exp_eq_one_iff]
    constructor
    · intro h; linarith
    · intro h; rw [h]; norm_num
  rw [hiff, mul_eq_zero]
  constructor
  · rintro (h | h)
    · have hn : (n : ℝ) = 0 := by
        by_contra hn
        rw [div_eq_zero_iff] at h
        rcases h with h | h
        · norm_num at h
        · exact hn (by linarith)
      have : n = 0 := by exact_mod_cast hn
      subst this
      exact funext fun i => i.elim0
    · rw [Finset.sum_eq_zero_iff_of_nonneg fun j _ => hterm 0 _ j] at h
      have h2 : Matrix.mulVec R (x - opts 0) = 0 := by
        funext j
        have h3 := h j (Finset.mem_univ j)
        rw [show ∀ a b : ℝ, a * (b * a) = b * (a * a) by intros; ring, mul_eq_zero, mul_self_eq_zero] at h3
        exact h3.resolve_left (hcov 0 j).ne'
      exact sub_eq_zero.1 ((mulVec_zero_iff R hR _).1 h2)
  · rintro rfl
    right
    simp

example : (2 : ℕ) ≤ 100 ∧ (2 : ℕ) ≤ 20 ∧ IsUnit (1 : Matrix (Fin 2) (Fin 2) ℝ).det := by simp

/-- The `xopt` they report is the origin, where the value is positive unless the first peak happens to be there. -/
theorem C148_negation_gallagher {m : ℕ} (hm : 2 ≤ m) (opts : Fin (m + 1) → Vec n) (alphas : Fin (m + 1) → ℝ) (ha : ∀ i, 0 < alphas i) (shuffle : Fin (m + 1) → Fin n → Fin n) (R : Matrix (Fin n) (Fin n) ℝ) (hR : IsUnit R.det)
    (h : opts 0 ≠ 0) : 0 < gallagher opts alphas shuffle R 0 := by
  obtain ⟨h1, h2⟩ := C148_gallagher hm opts alphas ha shuffle R hR
  exact lt_of_le_of_ne (h1 0) fun e => h ((h2 0).1 e.symm).symm

/-- In two and more dimensions Lunacek's function is nowhere negative and zero exactly at the point whose coordinates are the random signs times 5/4. -/
theorem C148_lunacek (hn : 2 ≤ n) (R1 R2 : Matrix (Fin n) (Fin n) ℝ) (signs : Vec n) (hs : ∀ i, signs i = 1 ∨ signs i = -1) :
    SingleZeroMin (lunacek R1 R2 signs) fun i => signs i * (5 / 4) := by
  have hS : 0 ≤ lunacekS n := by
    unfold lunacekS
    have hn' : (2 : ℝ) ≤ n := by exact_mod_cast hn
    have h1 : (4.6 : ℝ) ≤ √((n : ℝ) + 20) := Real.le_sqrt_of_sq_le (by norm_num; linarith)
    have h2 : (1 : ℝ) ≤ 2 * √((n : ℝ) + 20) - 8.2 := by norm_num at *; linarith
    have h3 : 1 / (2 * √((n : ℝ) + 20) - 8.2) ≤ 1 := by rw [div_le_one (by linarith)]; exact h2
    linarith
  have hnp : (0 : ℝ) < n := by exact_mod_cast (by omega : 0 < n)
  have hcos : ∀ z : Vec n, 0 ≤ (n : ℝ) - ∑ i, Real.cos (2 * Real.pi * z i) := by
    intro z
    have : ∑ i, Real.cos (2 * Real.pi * z i) ≤ ∑ _i : Fin n, (1 : ℝ) := Finset.sum_le_sum fun i _ => Real.cos_le_one _
    simp at this
    linarith
  have hB : ∀ x : Vec n, 0 < (n : ℝ) + lunacekS n * ∑ i, (x i * signs i * 2 - lunacekMu n) * (x i * signs i * 2 - lunacekMu n) := fun x =>
    add_pos_of_pos_of_nonneg hnp (mul_nonneg hS (sq_sum_nonneg _))
  have hA : ∀ x : Vec n, 0 ≤ ∑ i, (x i * signs i * 2 - 2.5) * (x i * signs i * 2 - 2.5) := fun x => sq_sum_nonneg _
  have hmin : ∀ x : Vec n, 0 ≤ min (∑ i, (x i * signs i * 2 - 2.5) * (x i * signs i * 2 - 2.5)) ((n : ℝ) + lunacekS n * ∑ i, (x i * signs i * 2 - lunacekMu n) * (x i * signs i * 2 - lunacekMu n)) := fun x => le_min (hA x) (hB x).le
  refine ⟨fun x => add_nonneg (hmin x) (mul_nonneg (by norm_num) (hcos _)), fun x => ?_⟩
  unfold lunacek
  simp only
  rw [add_zero_iff (hmin x) (mul_nonneg (by norm_num) (hcos _))]
  have hx : (∀ i, x i * signs i * 2 - 2.5 = 0) ↔ x = fun i => signs i * (5 / 4) := by
    rw [funext_iff]
    refine forall_congr' fun i => ?_
    rcases hs i with h | h <;> rw [h] <;> constructor <;> intro e <;> norm_num at * <;> linarith
  constructor
  · rintro ⟨h, -⟩
    have h2 : ∑ i, (x i * signs i * 2 - 2.5) * (x i * signs i * 2 - 2.5) = 0 := by
      rcases min_choice (∑ i, (x i * signs i * 2 - 2.5) * (x i * signs i * 2 - 2.5)) ((n : ℝ) + lunacekS n * ∑ i, (x i * signs i * 2 - lunacekMu n) * (x i * signs i * 2 - lunacekMu n)) with e | e
      · rw [← e, h]
      · rw [e] at h
        exact absurd h (hB x).ne'
    exact hx.1 ((sq_sum_zero _).1 h2)
  · intro h
    have h2 := hx.2 h
    have h3 : ∑ i, (x i * signs i * 2 - 2.5) * (x i * signs i * 2 - 2.5) = 0 := (sq_sum_zero _).2 h2
    refine ⟨?_, ?_⟩
    · rw [h3]
      exact min_eq_left (hB x).le
    · have h4 : (fun i => x i * signs i * 2 - 2.5) = (0 : Vec n) := funext h2
      rw [h4]
      simp

example : ∀ i, (![1, -1] : Vec 2) i = 1 ∨ (![1, -1] : Vec 2) i = -1 := by intro i; fin_cases i <;> simp

/-- The `xopt` it reports is the origin, where the value is positive. -/
theorem C148_negation_lunacek (hn : 2 ≤ n) (R1 R2 : Matrix (Fin n) (Fin n) ℝ) (signs : Vec n) (hs : ∀ i, signs i = 1 ∨ signs i = -1) : 0 < lunacek R1 R2 signs 0 := by
  obtain ⟨h1, h2⟩ := C148_lunacek hn R1 R2 signs hs
  refine lt_of_le_of_ne (h1 0) fun e => ?_
  have h3 := congrFun ((h2 0).1 e.symm) ⟨0, by omega⟩
  simp only [Pi.zero_apply] at h3
  rcases hs ⟨0, by omega⟩ with h | h <;> rw [h] at h3 <;> norm_num at h3

/-- Schwefel's function of the BBOB collection has values below -400, in every dimension and for all random signs: zero is not its minimum. -/
theorem C148_negation_schwefel (signs : Vec (n + 1)) (hs : ∀ i, signs i = 1 ∨ signs i = -1) : ∃ x, schwefel20 signs x < -400 := by
  obtain ⟨Z, hZ⟩ : ∃ Z : ℝ, Z = (13 * Real.pi / 2) ^ 2 := ⟨_, rfl⟩
  have hpi1 := Real.pi_gt_d2
  have hpi2 := Real.pi_lt_d2
  have hZ1 : 405 < Z := by rw [hZ]; nlinarith
  have hZ2 : Z < 500 := by rw [hZ]; nlinarith
  let D : ℕ → ℝ := fun i => (10 : ℝ) ^ ((i : ℝ) / (2 * ((n + 1 : ℕ) : ℝ) - 2))
  have hD : ∀ i, 0 < D i := fun i => Real.rpow_pos_of_pos (by norm_num) _
  let o : ℕ → ℝ := fun i => if h : i < n + 1 then schwefelOpt signs ⟨i, h⟩ else 0
  have ho : ∀ i : Fin (n + 1), o i = schwefelOpt signs i := fun i => by simp only [o]; rw [dif_pos i.2]
  let t : ℕ → ℝ := fun i => (Z / 100 - o i) / D i + o i
  have hsq : ∀ i, signs i * signs i = 1 := fun i => by rcases hs i with h | h <;> rw [h] <;> norm_num
  let x : Vec (n + 1) := fun i => solve o t i * signs i / 2
  have hx : ∀ i, 2 * x i * signs i = solve o t i := fun i => by
    have := hsq i
    simp only [x]
    rw [show 2 * (solve o t i * signs i / 2) * signs i = solve o t i * (signs i * signs i) by ring, this, mul_one]
  have hz : ∀ i, schwefelZ signs x i = t i := by
    intro i
    unfold schwefelZ
    rw [hx]
    obtain ⟨i, hi⟩ := i
    cases i with
    | zero => simp [solve]
    | succ i =>
      rw [dif_pos (by simp)]
      have h1 := hx ⟨i, by omega⟩
      have h2 := ho ⟨i, by omega⟩
      simp only [Nat.add_sub_cancel] at *
      rw [h1, ← h2]
      simp only [solve]
      ring
  have hz' : ∀ i, schwefelZ' signs x i = Z := by
    intro i
    unfold schwefelZ'
    rw [hz i, ← ho i]
    have hd := (hD i).ne'
    have : (10 : ℝ) ^ ((i : ℝ) / (2 * ((n + 1 : ℕ) : ℝ) - 2)) = D i := rfl
    rw [this]
    simp only [t]
    field_simp
    ring
  refine ⟨x, ?_⟩
  unfold schwefel20
  simp only [hz']
  have hsqrt : √|Z| = 13 * Real.pi / 2 := by
    rw [abs_of_pos (by linarith), hZ, Real.sqrt_sq (by positivity)]
  have hsin : Real.sin √|Z| = 1 := by
    rw [hsqrt, show 13 * Real.pi / 2 = Real.pi / 2 + (3 : ℕ) * (2 * Real.pi) by push_cast; ring, Real.sin_add_nat_mul_two_pi, Real.sin_pi_div_two]
  have hpen : penalize (fun _ : Fin (n + 1) => Z / 100) 5 = 0 := penalize_zero _ fun i => by
    rw [abs_of_pos (by linarith)]; linarith
  rw [hpen, hsin, Finset.sum_const, Finset.card_univ, Fintype.card_fin, nsmul_eq_mul, mul_one, mul_zero, add_zero]
  have hn : ((n + 1 : ℕ) : ℝ) ≠ 0 := by positivity
  rw [show -1 / ((n + 1 : ℕ) : ℝ) * (((n + 1 : ℕ) : ℝ) * Z) = -Z by field_simp]
  unfold schwefelK
  norm_num at *
  linarith

end Verif.Props
