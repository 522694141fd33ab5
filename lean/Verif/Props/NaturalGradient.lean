import Verif.Model.NaturalGradient
import Mathlib.Algebra.Order.Field.Basic
import Mathlib.Algebra.BigOperators.Fin
import Mathlib.Tactic.NormNum
import Mathlib.Tactic.Ring
/-
C168: NaturalGradient and IRpropPlus.
-/
namespace Verif.NatGrad
open Matrix

variable {K : Type} [Field K] [DecidableEq K] {n : ℕ}

/-- All gradients in other coordinates. -/
def change (A : Matrix (Fin n) (Fin n) K) (gs : List (Fin n → K)) : List (Fin n → K) := gs.map A.mulVec

omit [DecidableEq K] in
theorem total_change (A : Matrix (Fin n) (Fin n) K) (gs : List (Fin n → K)) : total (change A gs) = A.mulVec (total gs) := by
  unfold total change
  induction gs with
  | nil => simp
  | cons g gs ih => rw [List.map_cons, List.sum_cons, List.sum_cons, ih, Matrix.mulVec_add]

omit [DecidableEq K] in
theorem mean_change (A : Matrix (Fin n) (Fin n) K) (gs : List (Fin n → K)) : mean (change A gs) = A.mulVec (mean gs) := by
  funext i
  simp only [mean, total_change]
  rw [show (change A gs).length = gs.length by simp [change]]
  simp only [Matrix.mulVec, dotProduct, mean, div_eq_mul_inv, Finset.sum_mul, mul_assoc]

/-- the products of the deviations of a list of gradients from a point -/
def scatter (m : Fin n → K) (gs : List (Fin n → K)) : Matrix (Fin n) (Fin n) K := (gs.map fun g => vecMulVec (g - m) (g - m)).sum

omit [DecidableEq K] in
theorem scatter_apply (m : Fin n → K) (gs : List (Fin n → K)) (i j : Fin n) :
    scatter m gs i j = (gs.map fun g => (g i - m i) * (g j - m j)).sum := by
  unfold scatter
  induction gs with
  | nil => simp
  | cons g gs ih =>
    rw [List.map_cons, List.sum_cons, List.map_cons, List.sum_cons, Matrix.add_apply, ih]
    rfl

omit [DecidableEq K] in
theorem cov_eq (gs : List (Fin n → K)) : cov gs = ((gs.length : K) - 1)⁻¹ • scatter (mean gs) gs := by
  ext i j
  rw [Matrix.smul_apply, scatter_apply, smul_eq_mul, inv_mul_eq_div]
  rfl

omit [DecidableEq K] in
theorem scatter_change (A : Matrix (Fin n) (Fin n) K) (m : Fin n → K) (gs : List (Fin n → K)) :
    scatter (A.mulVec m) (change A gs) = A * scatter m gs * Aᵀ := by
  unfold scatter change
  induction gs with
  | nil => simp
  | cons g gs ih =>
    rw [List.map_cons, List.map_cons, List.sum_cons, ih, List.map_cons, List.sum_cons, Matrix.mul_add, Matrix.add_mul]
    congr 1
    rw [← Matrix.mulVec_sub, Matrix.mul_vecMulVec, Matrix.vecMulVec_mul, Matrix.vecMul_transpose]

omit [DecidableEq K] in
theorem cov_change (A : Matrix (Fin n) (Fin n) K) (gs : List (Fin n → K)) : cov (change A gs) = A * cov gs * Aᵀ := by
  rw [cov_eq, cov_eq, mean_change, scatter_change, show (change A gs).length = gs.length by simp [change]]
  rw [Matrix.mul_smul, Matrix.smul_mul]

theorem call_samples (s : State K n) (g : Fin n → K) :
    (call s g).2.samples = s.samples ++ [g] ∧ (call s g).2.samplesize = s.samplesize := by
  unfold call
  dsimp only
  split
  · exact ⟨rfl, rfl⟩
  · cases estimate (s.samples ++ [g]) <;> exact ⟨rfl, rfl⟩

theorem calls_samples : ∀ (gs : List (Fin n → K)) (s : State K n),
    (calls gs s).2.samples = s.samples ++ gs ∧ (calls gs s).2.samplesize = s.samplesize
  | [], s => by simp [calls]
  | g :: gs, s => by
    obtain ⟨h1, h2⟩ := call_samples s g
    obtain ⟨h3, h4⟩ := calls_samples gs (call s g).2
    rw [calls]
    exact ⟨by rw [h3, h1]; simp, by rw [h4, h2]⟩

theorem calls_few : ∀ (gs : List (Fin n → K)) (s : State K n), s.samples.length + gs.length < s.samplesize →
    (calls gs s).1 = List.replicate gs.length (.ok none) ∧ (calls gs s).2.values = s.values
  | [], s, _ => by simp [calls]
  | g :: gs, s, h => by
    simp only [List.length_cons] at h
    have h1 : call s g = (.ok none, { s with samples := s.samples ++ [g] }) := by
      unfold call
      dsimp only
      rw [if_pos (by simp; omega)]
    rw [calls, h1]
    obtain ⟨h2, h3⟩ := calls_few gs { s with samples := s.samples ++ [g] } (by simp; omega)
    exact ⟨by rw [h2]; rfl, h3⟩

end Verif.NatGrad

namespace Verif.Props
open Verif.NatGrad Matrix

variable {K : Type} [Field K] [DecidableEq K] {n : ℕ}

/-- **C168 (waiting).**  Until the given number of gradients is there, calls return None and change no parameters. -/
theorem C168_waiting (samplesize : ℕ) (v : Fin n → K) (gs : List (Fin n → K)) (h : gs.length < samplesize) :
    (calls gs (new samplesize v)).1 = List.replicate gs.length (.ok none) ∧ (calls gs (new samplesize v)).2.values = v :=
  calls_few gs (new samplesize v) (by simpa [new] using h)

/-- **C168 (estimates).**  From then on, a call whose gradients have a regular covariance adds the natural gradient: the one vector which the
covariance matrix of the gradients maps to their sum. -/
theorem C168_estimate (samplesize : ℕ) (v : Fin n → K) (gs : List (Fin n → K)) (g : Fin n → K) (h : samplesize ≤ gs.length + 1)
    (hn : n ≠ 1) (hl : gs ≠ []) (hdet : (cov (gs ++ [g])).det ≠ 0) :
    let s := (calls gs (new samplesize v)).2
    ∃ d : Fin n → K, call s g = (.ok (some (s.values + d)), { s with samples := gs ++ [g], values := s.values + d }) ∧
      (cov (gs ++ [g])).mulVec d = (gs ++ [g]).sum ∧
      ∀ d', (cov (gs ++ [g])).mulVec d' = (gs ++ [g]).sum → d' = d := by
  intro s
  obtain ⟨h1, h2⟩ := calls_samples gs (new samplesize v)
  have hs1 : s.samples = gs := by rw [h1]; rfl
  have hs2 : s.samplesize = samplesize := h2
  have hu : IsUnit (cov (gs ++ [g])).det := isUnit_iff_ne_zero.2 hdet
  refine ⟨(cov (gs ++ [g]))⁻¹.mulVec (total (gs ++ [g])), ?_, ?_, ?_⟩
  · unfold call
    dsimp only
    rw [hs1, hs2, if_neg (by simp; omega), estimate, if_neg hn, if_neg, if_neg hdet]
    have := List.length_pos_iff.2 hl
    simp
    omega
  · rw [Matrix.mulVec_mulVec, Matrix.mul_nonsing_inv _ hu, Matrix.one_mulVec]
    rfl
  · intro d' hd'
    have : (cov (gs ++ [g]))⁻¹.mulVec ((cov (gs ++ [g])).mulVec d') = (cov (gs ++ [g]))⁻¹.mulVec (total (gs ++ [g])) := by
      rw [hd']
      rfl
    rwa [Matrix.mulVec_mulVec, Matrix.nonsing_inv_mul _ hu, Matrix.one_mulVec] at this

/-- **C168 (coordinates).**  The natural gradient does not depend on the coordinates: if the parameters are described in other ones, so that
gradients are multiplied by an invertible matrix, the changes of the parameters are those of the first ones, described in the others. -/
theorem C168_coordinates (A : Matrix (Fin n) (Fin n) K) (hA : A.det ≠ 0) (gs : List (Fin n → K)) (d : Fin n → K)
    (h : estimate gs = .ok d) : ∃ d', estimate (gs.map A.mulVec) = .ok d' ∧ Aᵀ.mulVec d' = d := by
  unfold estimate at h
  split_ifs at h with h1 h2 h3
  have hd := Except.ok.inj h
  have hlen : (gs.map A.mulVec).length = gs.length := by simp
  have hcov : cov (gs.map A.mulVec) = A * cov gs * Aᵀ := cov_change A gs
  have hdet : (cov (gs.map A.mulVec)).det ≠ 0 := by
    rw [hcov, Matrix.det_mul, Matrix.det_mul, Matrix.det_transpose]
    exact mul_ne_zero (mul_ne_zero hA h3) hA
  refine ⟨(cov (gs.map A.mulVec))⁻¹.mulVec (total (gs.map A.mulVec)), ?_, ?_⟩
  · rw [estimate, if_neg h1, hlen, if_neg h2, if_neg hdet]
  · have htot : total (gs.map A.mulVec) = A.mulVec (total gs) := total_change A gs
    rw [hcov, htot, Matrix.mul_inv_rev, Matrix.mul_inv_rev, ← hd]
    rw [Matrix.mulVec_mulVec, Matrix.mulVec_mulVec]
    have hAu : IsUnit A.det := isUnit_iff_ne_zero.2 hA
    have hAt : IsUnit Aᵀ.det := by rw [Matrix.det_transpose]; exact hAu
    congr 1
    rw [Matrix.mul_assoc, Matrix.mul_assoc, Matrix.mul_assoc, Matrix.nonsing_inv_mul _ hAu, Matrix.mul_one, ← Matrix.mul_assoc,
      Matrix.mul_nonsing_inv _ hAt, Matrix.one_mul]

/-- three gradients in two dimensions with a regular covariance -/
def exampleGradients : List (Fin 2 → ℚ) := [![1, 0], ![0, 1], ![1, 1]]

theorem exampleGradients_det : (cov exampleGradients).det ≠ 0 := by
  rw [Matrix.det_fin_two]
  simp [cov, exampleGradients, mean, total]
  norm_num

-- the theorems apply to the third call
example : exampleGradients = [![1, 0], ![0, 1]] ++ [![1, 1]] := rfl
example : ∃ d, estimate exampleGradients = .ok d := by
  refine ⟨(cov exampleGradients)⁻¹.mulVec (total exampleGradients), ?_⟩
  rw [estimate, if_neg (by decide), if_neg (by decide), if_neg exampleGradients_det]

/-- **C168 (one estimate per sample of gradients), false.**  The gradients are never deleted: after the first estimate every further call with
regular gradients makes another one, with all the gradients of the earlier ones in it. -/
theorem C168_negation_kept (samplesize : ℕ) (v : Fin n → K) (gs : List (Fin n → K)) (g : Fin n → K) (h : samplesize ≤ gs.length)
    (hn : n ≠ 1) (hl : gs ≠ []) (hdet : (cov (gs ++ [g])).det ≠ 0) :
    (calls gs (new samplesize v)).2.samples = gs ∧
    ∃ d, (call (calls gs (new samplesize v)).2 g).1 = .ok (some ((calls gs (new samplesize v)).2.values + d)) ∧
      (cov (gs ++ [g])).mulVec d = (gs ++ [g]).sum := by
  obtain ⟨d, h1, h2, -⟩ := C168_estimate samplesize v gs g (by omega) hn hl hdet
  exact ⟨by rw [(calls_samples gs (new samplesize v)).1]; rfl, d, by rw [h1], h2⟩

/-- **C168 (any number of parameters), false.**  With one parameter no call ever returns an estimate: as soon as there are enough gradients,
every call raises. -/
theorem C168_negation_single (samplesize : ℕ) (v : Fin 1 → K) (gs : List (Fin 1 → K)) (g : Fin 1 → K) (h : samplesize ≤ gs.length + 1) :
    (call (calls gs (new samplesize v)).2 g).1 = .error .valueError := by
  obtain ⟨h1, h2⟩ := calls_samples gs (new samplesize v)
  have hs1 : (calls gs (new samplesize v)).2.samples = gs := by rw [h1]; rfl
  have hs2 : (calls gs (new samplesize v)).2.samplesize = samplesize := h2
  unfold call
  dsimp only
  rw [hs1, hs2, if_neg (by simp; omega), estimate, if_pos rfl]

/-- **C168 (IRpropPlus follows gradients), false.**  Its constructor does not store the bound: every call raises an AttributeError. -/
theorem C168_negation_irprop {K : Type} [Field K] [LinearOrder K] (up down bound : K) (hb : 0 < bound) (v : Fin n → K) :
    ∃ s, newIRprop up down bound v = .ok s ∧ ∀ g e, callIRprop s g e = (.error .attributeError, s) :=
  ⟨_, if_neg (not_not.2 hb), fun _ _ => rfl⟩

end Verif.Props
