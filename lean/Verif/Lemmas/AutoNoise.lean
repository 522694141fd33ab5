import Verif.Props.GaussProcess
import Verif.Model.AutoNoise
import Verif.Spec.AutoNoise
/-
Regression with a noise variance for each sample.
-/
namespace Verif.GaussP
open Matrix Verif.NES Verif.KMeans

variable {d : Nat}

/-- the matrix of the regression -/
noncomputable def regN (l s : ℝ) (xs : List (Vec d)) (ν : Fin xs.length → ℝ) : Matrix (Fin xs.length) (Fin xs.length) ℝ := buildCov l s xs xs + diagonal ν

theorem regN_quad (l s : ℝ) (xs : List (Vec d)) (ν v : Fin xs.length → ℝ) :
    v ⬝ᵥ regN l s xs ν *ᵥ v = v ⬝ᵥ buildCov l s xs xs *ᵥ v + ∑ i, ν i * (v i * v i) := by
  rw [regN, Matrix.add_mulVec, dotProduct_add]
  congr 1
  simp only [dotProduct, mulVec_diagonal]
  exact Finset.sum_congr rfl fun i _ => by ring

theorem regN_pos (l s : ℝ) (xs : List (Vec d)) (ν : Fin xs.length → ℝ) (hν : ∀ i, 0 < ν i) (v : Fin xs.length → ℝ) (hv : v ≠ 0) : 0 < v ⬝ᵥ regN l s xs ν *ᵥ v := by
  rw [regN_quad]
  have h1 := buildCov_psd l s xs v
  have h2 : 0 < ∑ i, ν i * (v i * v i) := by
    obtain ⟨i, hi⟩ := Function.ne_iff.1 hv
    refine Finset.sum_pos' (fun i _ => mul_nonneg (hν i).le (mul_self_nonneg _)) ⟨i, Finset.mem_univ _, ?_⟩
    exact mul_pos (hν i) (mul_self_pos.2 hi)
  linarith

theorem regN_symm (l s : ℝ) (xs : List (Vec d)) (ν : Fin xs.length → ℝ) : (regN l s xs ν)ᵀ = regN l s xs ν := by
  rw [regN, transpose_add, diagonal_transpose]
  congr 1
  ext i j
  simp [buildCov, kernel_comm]

theorem regN_unit (l s : ℝ) (xs : List (Vec d)) (ν : Fin xs.length → ℝ) (hν : ∀ i, 0 < ν i) : IsUnit (regN l s xs ν).det := by
  rw [isUnit_iff_ne_zero]
  intro h
  obtain ⟨v, hv, h0⟩ := Matrix.exists_mulVec_eq_zero_iff.2 h
  have := regN_pos l s xs ν hν v hv
  rw [h0, dotProduct_zero] at this
  exact lt_irrefl _ this

theorem regN_row (l s : ℝ) (xs : List (Vec d)) (ν a : Fin xs.length → ℝ) (i : Fin xs.length) :
    (regN l s xs ν *ᵥ a) i = (∑ j, a j * kernel l s xs[j] xs[i]) + ν i * a i := by
  rw [regN, add_mulVec, Pi.add_apply, mulVec_diagonal]
  congr 1
  change ∑ j, kernel l s xs[i] xs[j] * a j = _
  exact Finset.sum_congr rfl fun j _ => by rw [kernel_comm, mul_comm]

/-- the coefficients -/
noncomputable def coeffN (l s : ℝ) (xs : List (Vec d)) (ν t : Fin xs.length → ℝ) : Fin xs.length → ℝ := (regN l s xs ν)⁻¹ *ᵥ t

theorem regN_coeff (l s : ℝ) (xs : List (Vec d)) (ν t : Fin xs.length → ℝ) (hν : ∀ i, 0 < ν i) : regN l s xs ν *ᵥ coeffN l s xs ν t = t := by
  rw [coeffN, mulVec_mulVec, Matrix.mul_nonsing_inv _ (regN_unit l s xs ν hν), one_mulVec]

theorem regN_inj (l s : ℝ) (xs : List (Vec d)) (ν t a : Fin xs.length → ℝ) (hν : ∀ i, 0 < ν i) (h : regN l s xs ν *ᵥ a = t) : a = coeffN l s xs ν t := by
  rw [coeffN, ← h, mulVec_mulVec, Matrix.nonsing_inv_mul _ (regN_unit l s xs ν hν), one_mulVec]

/-- the explained covariance -/
noncomputable def explainedN (l s : ℝ) (xs : List (Vec d)) (ν : Fin xs.length → ℝ) (x x' : Vec d) : ℝ :=
  (fun j : Fin xs.length => kernel l s xs[j] x) ⬝ᵥ (regN l s xs ν)⁻¹ *ᵥ fun j : Fin xs.length => kernel l s xs[j] x'

theorem explainedN_ge (l s : ℝ) (xs : List (Vec d)) (ν : Fin xs.length → ℝ) (hν : ∀ i, 0 < ν i) (x : Vec d) (a : Fin xs.length → ℝ) :
    2 * (a ⬝ᵥ fun j => kernel l s xs[j] x) - a ⬝ᵥ regN l s xs ν *ᵥ a ≤ explainedN l s xs ν x x := by
  set u : Fin xs.length → ℝ := fun j => kernel l s xs[j] x with hu
  set A := regN l s xs ν with hA
  have hq : 0 ≤ (a - A⁻¹ *ᵥ u) ⬝ᵥ A *ᵥ (a - A⁻¹ *ᵥ u) := by
    by_cases h : a - A⁻¹ *ᵥ u = 0
    · rw [h]; simp
    · exact (regN_pos l s xs ν hν _ h).le
  have hAA : A *ᵥ (A⁻¹ *ᵥ u) = u := regN_coeff l s xs ν u hν
  have hsym : (A⁻¹ *ᵥ u) ⬝ᵥ A *ᵥ a = a ⬝ᵥ u := by
    rw [dotProduct_mulVec, ← mulVec_transpose, hA, regN_symm, ← hA, hAA, dotProduct_comm]
  rw [mulVec_sub, dotProduct_sub, sub_dotProduct, sub_dotProduct, hAA, hsym, dotProduct_comm (A⁻¹ *ᵥ u) u] at hq
  have : explainedN l s xs ν x x = u ⬝ᵥ A⁻¹ *ᵥ u := rfl
  linarith

theorem explainedN_eq (l s : ℝ) (xs : List (Vec d)) (ν : Fin xs.length → ℝ) (hν : ∀ i, 0 < ν i) (x : Vec d) : explainedN l s xs ν x x =
    2 * (((regN l s xs ν)⁻¹ *ᵥ fun j => kernel l s xs[j] x) ⬝ᵥ fun j => kernel l s xs[j] x) -
      ((regN l s xs ν)⁻¹ *ᵥ fun j => kernel l s xs[j] x) ⬝ᵥ regN l s xs ν *ᵥ ((regN l s xs ν)⁻¹ *ᵥ fun j => kernel l s xs[j] x) := by
  rw [mulVec_mulVec (M := regN l s xs ν), Matrix.mul_nonsing_inv _ (regN_unit l s xs ν hν), one_mulVec, explainedN,
    dotProduct_comm (_ *ᵥ _) (fun j : Fin xs.length => kernel l s xs[j] x)]
  ring

theorem explainedN_nonneg (l s : ℝ) (xs : List (Vec d)) (ν : Fin xs.length → ℝ) (hν : ∀ i, 0 < ν i) (x : Vec d) : 0 ≤ explainedN l s xs ν x x := by
  have := explainedN_ge l s xs ν hν x 0
  simpa using this

/-- more noise, less explained -/
theorem explainedN_mono (l s : ℝ) (xs : List (Vec d)) (ν ν' : Fin xs.length → ℝ) (hν : ∀ i, 0 < ν i) (h : ∀ i, ν i ≤ ν' i) (x : Vec d) :
    explainedN l s xs ν' x x ≤ explainedN l s xs ν x x := by
  have hν' : ∀ i, 0 < ν' i := fun i => (hν i).trans_le (h i)
  rw [explainedN_eq l s xs ν' hν' x]
  refine le_trans ?_ (explainedN_ge l s xs ν hν x ((regN l s xs ν')⁻¹ *ᵥ fun j => kernel l s xs[j] x))
  set a := (regN l s xs ν')⁻¹ *ᵥ fun j => kernel l s xs[j] x
  rw [regN_quad, regN_quad]
  have : ∑ i, ν i * (a i * a i) ≤ ∑ i, ν' i * (a i * a i) := Finset.sum_le_sum fun i _ => mul_le_mul_of_nonneg_right (h i) (mul_self_nonneg _)
  linarith

theorem explainedN_const (l s : ℝ) (xs : List (Vec d)) (x x' : Vec d) : explainedN l s xs (fun _ => 0.001) x x' = explained l s xs x x' := rfl

theorem explainedN_comm (l s : ℝ) (xs : List (Vec d)) (ν : Fin xs.length → ℝ) (x x' : Vec d) : explainedN l s xs ν x x' = explainedN l s xs ν x' x := by
  rw [explainedN, explainedN, dotProduct_mulVec, ← mulVec_transpose, Matrix.transpose_nonsing_inv, regN_symm, dotProduct_comm]

/-- the predictive covariance matrix -/
noncomputable def predMatN (l s : ℝ) (xs : List (Vec d)) (ν : Fin xs.length → ℝ) (arr : List (Vec d)) : Matrix (Fin arr.length) (Fin arr.length) ℝ :=
  Matrix.of fun i j => kernel l s arr[i] arr[j] - explainedN l s xs ν arr[i] arr[j]

theorem predMatN_symm (l s : ℝ) (xs : List (Vec d)) (ν : Fin xs.length → ℝ) (arr : List (Vec d)) : (predMatN l s xs ν arr).IsSymm := by
  ext i j
  simp only [predMatN, transpose_apply, of_apply]
  rw [explainedN_comm, kernel_comm]

theorem predMatN_psd (l s : ℝ) (xs : List (Vec d)) (ν : Fin xs.length → ℝ) (hν : ∀ i, 0 < ν i) (arr : List (Vec d)) (v : Fin arr.length → ℝ) :
    0 ≤ v ⬝ᵥ predMatN l s xs ν arr *ᵥ v := by
  set B := buildCov l s xs arr with hB
  set u : Fin xs.length → ℝ := B *ᵥ v with hu
  set A := regN l s xs ν with hA
  set a : Fin xs.length → ℝ := A⁻¹ *ᵥ u with ha
  have he : v ⬝ᵥ (Matrix.of fun i j : Fin arr.length => explainedN l s xs ν arr[i] arr[j]) *ᵥ v = u ⬝ᵥ a := by
    have e1 : (Matrix.of fun i j : Fin arr.length => explainedN l s xs ν arr[i] arr[j]) = Bᵀ * (A⁻¹ * B) := by
      ext i j
      rw [of_apply, explainedN, Matrix.mul_apply]
      refine Finset.sum_congr rfl fun k _ => ?_
      rfl
    rw [e1, ← mulVec_mulVec, ← mulVec_mulVec, dotProduct_mulVec, vecMul_transpose]
  have hp : v ⬝ᵥ predMatN l s xs ν arr *ᵥ v = v ⬝ᵥ buildCov l s arr arr *ᵥ v - u ⬝ᵥ a := by
    have e2 : predMatN l s xs ν arr = buildCov l s arr arr - Matrix.of fun i j : Fin arr.length => explainedN l s xs ν arr[i] arr[j] := by
      ext i j
      simp [predMatN, buildCov]
    rw [e2, sub_mulVec, dotProduct_sub, he]
  have hj := ((psd_iff _).1 (kernel_psd l s (Sum.elim (fun i : Fin xs.length => xs[i]) (fun i : Fin arr.length => arr[i])))).2 (Sum.elim (-a) v)
  have hjoint : (Sum.elim (-a) v) ⬝ᵥ (Matrix.of fun i j => kernel l s (Sum.elim (fun i : Fin xs.length => xs[i]) (fun i : Fin arr.length => arr[i]) i)
      (Sum.elim (fun i : Fin xs.length => xs[i]) (fun i : Fin arr.length => arr[i]) j)) *ᵥ (Sum.elim (-a) v) =
      a ⬝ᵥ buildCov l s xs xs *ᵥ a - 2 * (a ⬝ᵥ u) + v ⬝ᵥ buildCov l s arr arr *ᵥ v := by
    have hBt : v ⬝ᵥ Bᵀ *ᵥ a = a ⬝ᵥ u := by rw [dotProduct_mulVec, vecMul_transpose, dotProduct_comm]
    have hm : (Matrix.of fun i j => kernel l s (Sum.elim (fun i : Fin xs.length => xs[i]) (fun i : Fin arr.length => arr[i]) i)
      (Sum.elim (fun i : Fin xs.length => xs[i]) (fun i : Fin arr.length => arr[i]) j)) = fromBlocks (buildCov l s xs xs) B Bᵀ (buildCov l s arr arr) := by
      ext i j
      cases i <;> cases j <;> simp [buildCov, hB, kernel_comm]
    rw [hm, fromBlocks_mulVec, sumElim_dotProduct_sumElim]
    simp only [Sum.elim_comp_inl, Sum.elim_comp_inr, mulVec_neg, dotProduct_add, neg_dotProduct, dotProduct_neg, neg_neg, hBt, ← hu]
    ring
  rw [hjoint] at hj
  have hAa : a ⬝ᵥ A *ᵥ a = a ⬝ᵥ u := by
    have : A *ᵥ a = u := regN_coeff l s xs ν u hν
    rw [this]
  have hq := regN_quad l s xs ν a
  rw [← hA, hAa] at hq
  have hn : 0 ≤ ∑ i, ν i * (a i * a i) := Finset.sum_nonneg fun i _ => mul_nonneg (hν i).le (mul_self_nonneg _)
  rw [hp, dotProduct_comm u a]
  linarith

/-! ### the posterior -/

/-- the posterior mean -/
noncomputable def postN (l s m : ℝ) (xs : List (Vec d)) (ν t : Fin xs.length → ℝ) (x : Vec d) : ℝ := m + ∑ j, coeffN l s xs ν t j * kernel l s xs[j] x

/-- the samples with targets and noise -/
def triples (xs : List (Vec d)) (t ν : Fin xs.length → ℝ) : List (Vec d × ℝ × ℝ) := List.ofFn fun i => (xs[i], t i, ν i)

theorem triples_zip (xs : List (Vec d)) (t ν : Fin xs.length → ℝ) (a : List ℝ) (ha : a.length = xs.length) :
    (triples xs t ν).zip a = List.ofFn fun i : Fin xs.length => ((xs[i], t i, ν i), a[i]'(by omega)) := by
  apply List.ext_getElem
  · simp [triples, ha]
  · intro i h1 h2
    simp [triples]

theorem postN_spec (l s m : ℝ) (xs : List (Vec d)) (ν t : Fin xs.length → ℝ) (hν : ∀ i, 0 < ν i) :
    IsPosteriorWith (kernel l s) m (triples xs (fun i => t i + m) ν) (postN l s m xs ν t) := by
  refine ⟨List.ofFn (coeffN l s xs ν t), by simp [triples], fun x => ?_, fun p hp => ?_⟩
  · rw [triples_zip _ _ _ _ (by simp), List.map_ofFn, List.sum_ofFn, postN]
    congr 1
    refine Finset.sum_congr rfl fun i _ => ?_
    simp
  · rw [triples_zip _ _ _ _ (by simp)] at hp
    obtain ⟨i, rfl⟩ := (List.mem_ofFn' _ _).1 hp
    have := congrFun (regN_coeff l s xs ν t hν) i
    rw [regN_row] at this
    simp only [postN, List.getElem_ofFn, Fin.getElem_fin, Fin.eta] at this ⊢
    linarith

theorem posteriorWith_unique (l s m : ℝ) (xs : List (Vec d)) (ν t : Fin xs.length → ℝ) (hν : ∀ i, 0 < ν i) (f : Vec d → ℝ)
    (h : IsPosteriorWith (kernel l s) m (triples xs (fun i => t i + m) ν) f) : f = postN l s m xs ν t := by
  obtain ⟨a, ha, h1, h2⟩ := h
  have hl : a.length = xs.length := by simpa [triples] using ha
  set b : Fin xs.length → ℝ := fun i => a[i]'(by omega) with hb
  have hf : ∀ x, f x = m + ∑ i, b i * kernel l s xs[i] x := by
    intro x
    rw [h1, triples_zip _ _ _ _ hl, List.map_ofFn, List.sum_ofFn]
    rfl
  have hbc : b = coeffN l s xs ν t := by
    apply regN_inj l s xs ν t b hν
    funext i
    have h3 := h2 ((xs[i], t i + m, ν i), b i) (by
      rw [triples_zip _ _ _ _ hl]
      exact (List.mem_ofFn' _ _).2 ⟨i, rfl⟩)
    simp only at h3
    rw [hf] at h3
    rw [regN_row]
    linarith
  funext x
  rw [hf, hbc, postN]

end Verif.GaussP
