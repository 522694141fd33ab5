import Verif.Model.Osy
import Verif.Props.MultiBench
/-
Properties of the benchmark function of Osyczka and Kundu.
-/
namespace Verif.Spec

/-- The constraints of the problem of Osyczka and Kundu (1995) as published. -/
def OsyPublished (x : Fin 6 → ℝ) : Prop := 2 ≤ x 0 + x 1 ∧ x 0 + x 1 ≤ 6 ∧ x 1 - x 0 ≤ 2 ∧ x 0 - 3 * x 1 ≤ 2 ∧ (x 2 - 3) ^ 2 + x 3 ≤ 4 ∧ 4 ≤ (x 4 - 3) ^ 2 + x 5

end Verif.Spec

namespace Verif.Props
open Verif.MultiBench Verif.MultiBench.Spec Verif.Spec

private theorem osyG_iff (x : Fin 6 → ℝ) : (osyG x).1 = true ↔ 0 ≤ x 0 + x 1 - 2 ∧ 0 ≤ 6 - x 0 - x 1 ∧ 0 ≤ 2 - x 1 + x 0 ∧ 0 ≤ 1 - x 0 + 3 * x 1 ∧ 0 ≤ 4 - (x 2 - 3) ^ 2 - x 3 ∧ 0 ≤ (x 4 - 3) ^ 2 + x 5 - 4 := by
  simp only [osyG, checked_iff, List.mem_cons, List.not_mem_nil, or_false, forall_eq_or_imp, forall_eq]

private theorem osy_first {a b : ℝ} (ha : 0 ≤ a) (hb : 0 ≤ b) (h1 : a + b ≤ 6) (h2 : b - a ≤ 2) (h3 : a - 3 * b ≤ 2) : 25 * (a - 2) ^ 2 + (b - 2) ^ 2 + (5 - a) ≤ 226 := by
  by_cases h : a ≤ 9 / 2
  · have e1 : (a - 2) ^ 2 ≤ (5 / 2) ^ 2 := sq_le_sq' (by linarith) (by linarith)
    have e2 : (b - 2) ^ 2 ≤ 2 ^ 2 := sq_le_sq' (by linarith) (by linarith)
    linarith
  · rw [not_le] at h
    have e1 : (a - 2) ^ 2 ≤ 9 - (5 - a) := by nlinarith
    have e2 : (b - 2) ^ 2 ≤ (1 + (5 - a) / 3) ^ 2 := sq_le_sq' (by linarith) (by linarith)
    have e3 : (1 + (5 - a) / 3) ^ 2 ≤ 1 + (5 - a) := by nlinarith
    linarith

private theorem osy_square {a : ℝ} (h1 : 1 ≤ a) (h2 : a ≤ 5) : (a - 1) ^ 2 + (5 - a) ≤ 16 := by nlinarith

private theorem osy_square' {a : ℝ} (h1 : 0 ≤ a) (h2 : a ≤ 6) : (a - 4) ^ 2 + a ≤ 16 := by nlinarith

/-- **C123, Osyczka and Kundu.** Every Pareto optimal point among the feasible points in the bounds has 0 as its fourth coordinate, and the sixth one is the smallest that is allowed. -/
theorem C123_osy_partial (x : Fin 6 → ℝ) (h : Optimal (fun x => osyBound x ∧ (osyG x).1 = true) osy x) : x 3 = 0 ∧ x 5 = 4 - (x 4 - 3) ^ 2 := by
  obtain ⟨⟨⟨b0, b1, b2, b3, b4, b5⟩, hg⟩, hopt⟩ := h
  rw [osyG_iff] at hg
  obtain ⟨g1, g2, g3, g4, g5, g6⟩ := hg
  constructor
  · by_contra hne
    have hpos : 0 < x 3 := lt_of_le_of_ne b3.1 (Ne.symm hne)
    refine hopt (Function.update x 3 0) ⟨⟨?_, ?_, ?_, ?_, ?_, ?_⟩, ?_⟩ ⟨fun k => ?_, 0, ?_⟩
    · simpa using b0
    · simpa using b1
    · simpa using b2
    · simp
    · simpa using b4
    · simpa using b5
    · rw [osyG_iff]
      simp only [ne_eq, Fin.reduceEq, not_false_eq_true, Function.update_of_ne, Function.update_self]
      exact ⟨g1, g2, g3, g4, by linarith, g6⟩
    · fin_cases k <;> simp [osy] <;> nlinarith
    · simp [osy]
      nlinarith
  · by_contra hne
    have hlt : 4 - (x 4 - 3) ^ 2 < x 5 := lt_of_le_of_ne (by linarith) (Ne.symm hne)
    have hnn : 0 ≤ 4 - (x 4 - 3) ^ 2 := by nlinarith
    refine hopt (Function.update x 5 (4 - (x 4 - 3) ^ 2)) ⟨⟨?_, ?_, ?_, ?_, ?_, ?_⟩, ?_⟩ ⟨fun k => ?_, 1, ?_⟩
    · simpa using b0
    · simpa using b1
    · simpa using b2
    · simpa using b3
    · simpa using b4
    · simp only [Function.update_self]
      exact ⟨hnn, by nlinarith [sq_nonneg (x 4 - 3)]⟩
    · rw [osyG_iff]
      simp only [ne_eq, Fin.reduceEq, not_false_eq_true, Function.update_of_ne, Function.update_self]
      exact ⟨g1, g2, g3, g4, g5, by linarith⟩
    · fin_cases k <;> simp [osy]
      nlinarith
    · simp [osy]
      nlinarith

/-- There is such a point: the one nearest to the origin. -/
example : Optimal (fun x => osyBound x ∧ (osyG x).1 = true) osy ![1, 1, 1, 0, 1, 0] := by
  refine ⟨⟨?_, ?_⟩, ?_⟩
  · simp [osyBound]
  · rw [osyG_iff]; simp; norm_num
  · rintro y ⟨⟨b0, b1, b2, b3, b4, b5⟩, hg⟩ ⟨hd, k, hk⟩
    rw [osyG_iff] at hg
    have d1 := hd 1
    simp [osy] at d1
    have s01 : 2 + (y 0 - 1) ^ 2 + (y 1 - 1) ^ 2 ≤ y 0 ^ 2 + y 1 ^ 2 := by linarith [hg.1]
    have s2 : 2 * y 2 - 1 ≤ y 2 ^ 2 := by linarith [sq_nonneg (y 2 - 1)]
    have s4 : 2 * y 4 - 1 ≤ y 4 ^ 2 := by linarith [sq_nonneg (y 4 - 1)]
    have z0 := sq_nonneg (y 0 - 1)
    have z1 := sq_nonneg (y 1 - 1)
    have z3 := sq_nonneg (y 3)
    have z5 := sq_nonneg (y 5)
    have e2 : y 2 = 1 := by linarith
    have e4 : y 4 = 1 := by linarith
    have e0 : y 0 = 1 := sub_eq_zero.1 (pow_eq_zero_iff two_ne_zero |>.1 (le_antisymm (by linarith) z0))
    have e1 : y 1 = 1 := sub_eq_zero.1 (pow_eq_zero_iff two_ne_zero |>.1 (le_antisymm (by linarith) z1))
    have e3 : y 3 = 0 := pow_eq_zero_iff two_ne_zero |>.1 (le_antisymm (by linarith) z3)
    have e5 : y 5 = 0 := pow_eq_zero_iff two_ne_zero |>.1 (le_antisymm (by linarith) z5)
    fin_cases k <;> simp [osy, e0, e1, e2, e3, e4, e5] at hk

/-- **C123 violated: Osyczka and Kundu.** One constraint is not the published one: the point (5, 1, 5, 0, 5, 0) is Pareto optimal in the published problem (it has the largest value of the first objective), but is not feasible here. -/
theorem C123_negation_osy : ∃ p : Fin 6 → ℝ, Optimal (fun x => osyBound x ∧ OsyPublished x) osy p ∧ (osyG p).1 = false := by
  refine ⟨![5, 1, 5, 0, 5, 0], ⟨⟨?_, ?_⟩, ?_⟩, ?_⟩
  · simp [osyBound]; norm_num
  · simp [OsyPublished]; norm_num
  · rintro y ⟨⟨b0, b1, b2, b3, b4, b5⟩, p1, p2, p3, p4, p5, p6⟩ ⟨hd, k, hk⟩
    have d0 := hd 0
    have d1 := hd 1
    simp [osy] at d0 d1
    have hy0 : y 0 ≤ 5 := by linarith
    have hA := osy_first b0.1 b1.1 p2 p3 p4
    have hB := osy_square b2.1 b2.2
    have hC := osy_square' b3.1 b3.2
    have hD := osy_square b4.1 b4.2
    have e0 : y 0 = 5 := by linarith
    have e1 : y 1 = 1 := by linarith
    have e2 : y 2 = 5 := by linarith
    have e4 : y 4 = 5 := by linarith
    have e3 : y 3 = 0 := by linarith [b3.1]
    have e5 : y 5 = 0 := by
      rw [e0, e1, e2, e3, e4] at d1
      have : y 5 ^ 2 ≤ 0 := by linarith
      exact pow_eq_zero_iff two_ne_zero |>.1 (le_antisymm this (sq_nonneg _))
    fin_cases k <;> simp [osy, e0, e1, e2, e3, e4, e5] at hk
  · rw [Bool.eq_false_iff, ne_eq, osyG_iff]
    simp
    norm_num

end Verif.Props
