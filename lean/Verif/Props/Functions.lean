import Verif.Lemmas.Layers
/-
Property theorems C55 (pybrain/tools/functions.py) and C56 (repeated backActivate).
-/
namespace Verif.Props
open Verif.Net Verif.Net.Spec Finset

/-- **C55**, `explnPrime` is the derivative of `expln` everywhere (also where the pieces meet). -/
theorem C55_expln (x : ℝ) : HasDerivAt expln (explnPrime x) x := hasDerivAt_expln x

/-- **C55**, `tanhPrime` is the derivative of `tanh` everywhere. -/
theorem C55_tanh (x : ℝ) : HasDerivAt Real.tanh (tanhPrime x) x := by
  have := hasDerivAt_tanh x
  unfold tanhPrime
  rw [← pow_two]; exact this

/-- **C55**, `sigmoidPrime` is the derivative of `sigmoid` strictly inside the clipping bounds. Missing: beyond the bounds, where it
is false (`C14_negation_sigmoid_clipped`). -/
theorem C55_sigmoid_partial (x : ℝ) (h : |x| < 500) : HasDerivAt sigmoid (sigmoidPrime x) x := hasDerivAt_sigmoid h

/-- **C55**, `semilinearPrime` is the derivative of `semilinear` above the lower clipping bound, also at 0. Missing: below it. -/
theorem C55_semilinear_partial (x : ℝ) (h : -500 < x) : HasDerivAt semilinear (semilinearPrime x) x := hasDerivAt_semilinear h

/-- **C55**, below the clipping bound `semilinear` is constant but `semilinearPrime` is not zero. -/
theorem C55_negation_semilinear_clipped (x : ℝ) (h : x < -500) : ¬ HasDerivAt semilinear (semilinearPrime x) x := by
  intro hd
  have he : semilinear =ᶠ[nhds x] fun _ => Real.exp (-500) := by
    filter_upwards [gt_mem_nhds h] with y hy
    have hy0 : y < 0 := by linarith
    simp only [semilinear, hy0, if_true, safeExp]
    congr 1
    rw [min_eq_right (by linarith), max_eq_left hy.le]
  have h0 : HasDerivAt semilinear 0 x := (hasDerivAt_const x _).congr_of_eventuallyEq he
  have := hd.unique h0
  have hx0 : x < 0 := by linarith
  simp only [semilinearPrime, hx0, if_true] at this
  exact (safeExp_pos x).ne' this

/-- **C55**, "ensures that the values are always positive": `expln` and `semilinear` are positive everywhere and so are their
reported derivatives. -/
theorem C55_positive (x : ℝ) : 0 < expln x ∧ 0 < semilinear x ∧ 0 < explnPrime x ∧ 0 < semilinearPrime x := by
  by_cases h : x < 0
  · simp only [expln, semilinear, explnPrime, semilinearPrime, h, if_true]
    exact ⟨Real.exp_pos _, safeExp_pos _, Real.exp_pos _, safeExp_pos _⟩
  · simp only [expln, semilinear, explnPrime, semilinearPrime, h, if_false]
    have h' : 0 ≤ x := not_lt.1 h
    refine ⟨?_, by linarith, by positivity, by norm_num⟩
    have := Real.log_nonneg (show (1 : ℝ) ≤ x + 1 by linarith)
    linarith

/-- **C55**, the bounded functions stay in their documented ranges: a sigmoid is strictly between 0 and 1. -/
theorem C55_sigmoid_range (x : ℝ) : 0 < sigmoid x ∧ sigmoid x < 1 := by
  have := safeExp_pos (-x)
  unfold sigmoid
  refine ⟨by positivity, ?_⟩
  rw [div_lt_one (by linarith)]
  linarith

/-- The hypotheses can be met on both sides. -/
example : |(3 : ℝ)| < 500 ∧ (-500 : ℝ) < -2 ∧ (-501 : ℝ) < -500 := by norm_num

end Verif.Props
