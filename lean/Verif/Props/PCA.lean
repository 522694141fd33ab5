import Verif.Spec.PCA
import Verif.Props.CMAES
/-!
C90: principal component analysis.
-/

namespace Verif.PCA
open Matrix Verif.NES Verif.CMA
open Verif.DataSet (Err)

variable {n d k : Nat}

theorem valLe_trans (a b c : ℝ × Fin d) : valLe a b → valLe b c → valLe a c := by
  simp only [valLe, Bool.or_eq_true, Bool.and_eq_true, decide_eq_true_eq]
  rintro (h1 | ⟨h1, h1'⟩) (h2 | ⟨h2, h2'⟩)
  · exact Or.inl (lt_trans h1 h2)
  · exact Or.inl (h2 ▸ h1)
  · exact Or.inl (h1 ▸ h2)
  · exact Or.inr ⟨h1.trans h2, h1'.trans h2'⟩

theorem valLe_total (a b : ℝ × Fin d) : (valLe a b || valLe b a) = true := by
  simp only [valLe, Bool.or_eq_true, Bool.and_eq_true, decide_eq_true_eq]
  rcases lt_trichotomy a.1 b.1 with h | h | h
  · exact Or.inl (Or.inl h)
  · rcases le_total a.2 b.2 with h' | h'
    · exact Or.inl (Or.inr ⟨h, h'⟩)
    · exact Or.inr (Or.inr ⟨h.symm, h'⟩)
  · exact Or.inr (Or.inl h)

theorem indGe_trans (a b c : Fin d × ℝ) : indGe a b → indGe b c → indGe a c := by
  simp only [indGe, Bool.or_eq_true, Bool.and_eq_true, decide_eq_true_eq]
  rintro (h1 | ⟨h1, h1'⟩) (h2 | ⟨h2, h2'⟩)
  · exact Or.inl (lt_trans h2 h1)
  · exact Or.inl (h2 ▸ h1)
  · exact Or.inl (h1 ▸ h2)
  · exact Or.inr ⟨h2.trans h1, h2'.trans h1'⟩

theorem indGe_total (a b : Fin d × ℝ) : (indGe a b || indGe b a) = true := by
  simp only [indGe, Bool.or_eq_true, Bool.and_eq_true, decide_eq_true_eq]
  rcases lt_trichotomy a.1 b.1 with h | h | h
  · exact Or.inr (Or.inl h)
  · rcases le_total a.2 b.2 with h' | h'
    · exact Or.inr (Or.inr ⟨h, h'⟩)
    · exact Or.inl (Or.inr ⟨h.symm, h'⟩)
  · exact Or.inl (Or.inl h)

/-- what the selection of indices returns -/
theorem eigIndexes_spec (Ev : Vec d) (dim : Nat) (h1 : 1 ≤ dim) (hd : dim ≤ d) :
    (eigIndexes Ev dim).length = dim ∧ (eigIndexes Ev dim).Nodup ∧ (eigIndexes Ev dim).Pairwise (fun a b => b < a) ∧
    ∀ i ∈ eigIndexes Ev dim, ∀ j ∉ eigIndexes Ev dim, Ev j ≤ Ev i := by
  set L := ((List.finRange d).map fun ind => (Ev ind, ind)).mergeSort valLe with hL
  have hp : L.Perm ((List.finRange d).map fun ind => (Ev ind, ind)) := List.mergeSort_perm _ _
  have hs : L.Pairwise (fun a b => valLe a b = true) := List.pairwise_mergeSort valLe_trans valLe_total _
  have hlen : L.length = d := by rw [hp.length_eq]; simp
  have hsnd : (L.map Prod.snd).Perm (List.finRange d) := by
    have := hp.map Prod.snd
    simpa [Function.comp_def] using this
  have hval : ∀ p ∈ L, p.1 = Ev p.2 := by
    intro p hpL
    obtain ⟨i, _, rfl⟩ := List.mem_map.1 (hp.mem_iff.1 hpL)
    rfl
  have hk : keepLast dim L = L.drop (d - dim) := by
    rw [keepLast, if_neg (by omega), hlen]
  have hE : eigIndexes Ev dim = (((L.drop (d - dim)).map fun p => (p.2, p.1)).mergeSort indGe).map Prod.fst := by
    rw [eigIndexes, ← hL, hk]
  have hpE : (eigIndexes Ev dim).Perm ((L.drop (d - dim)).map Prod.snd) := by
    rw [hE]
    have := (List.mergeSort_perm ((L.drop (d - dim)).map fun p => (p.2, p.1)) indGe).map Prod.fst
    simpa [Function.comp_def] using this
  have hndL : (L.map Prod.snd).Nodup := hsnd.nodup_iff.2 (List.nodup_finRange d)
  have hnd : (eigIndexes Ev dim).Nodup := by
    rw [hpE.nodup_iff, List.map_drop]
    exact hndL.sublist (List.drop_sublist _ _)
  refine ⟨?_, hnd, ?_, ?_⟩
  · rw [hpE.length_eq]; simp [hlen]; omega
  · have hs2 : (eigIndexes Ev dim).Pairwise (fun a b => b ≤ a) := by
      rw [hE, List.pairwise_map]
      refine (List.pairwise_mergeSort indGe_trans indGe_total _).imp ?_
      intro a b h
      simp only [indGe, Bool.or_eq_true, Bool.and_eq_true, decide_eq_true_eq] at h
      rcases h with h | h
      · exact h.le
      · exact h.1.le
    refine (hs2.and hnd).imp ?_
    intro a b h
    exact lt_of_le_of_ne h.1 (Ne.symm h.2)
  · intro i hi j hj
    rw [hpE.mem_iff] at hi hj
    obtain ⟨p, hpm, rfl⟩ := List.mem_map.1 hi
    have hjL : j ∈ L.map Prod.snd := hsnd.mem_iff.2 (List.mem_finRange j)
    obtain ⟨q, hqm, rfl⟩ := List.mem_map.1 hjL
    have hqt : q ∈ L.take (d - dim) := by
      rw [← List.take_append_drop (d - dim) L, List.mem_append] at hqm
      exact hqm.resolve_right fun h => hj (List.mem_map.2 ⟨q, h, rfl⟩)
    have h3 : valLe q p := by
      rw [← List.take_append_drop (d - dim) L, List.pairwise_append] at hs
      exact hs.2.2 q hqt p hpm
    rw [← hval q hqm, ← hval p (List.mem_of_mem_drop hpm)]
    simp only [valLe, Bool.or_eq_true, Bool.and_eq_true, decide_eq_true_eq] at h3
    rcases h3 with h | h
    · exact h.le
    · exact h.1.le

/-! ### orthonormal lists -/

/-- the part of `u` in the span of the list -/
noncomputable def part (l : List (Vec d)) (u : Vec d) : Vec d := (l.map fun v => (v ⬝ᵥ u) • v).sum

theorem part_cons (v : Vec d) (l : List (Vec d)) (u : Vec d) : part (v :: l) u = (v ⬝ᵥ u) • v + part l u := by simp [part]

theorem dot_part_zero (l : List (Vec d)) (w u : Vec d) (h : ∀ v ∈ l, w ⬝ᵥ v = 0) : w ⬝ᵥ part l u = 0 := by
  induction l with
  | nil => simp [part]
  | cons v l ih =>
    rw [part_cons, dotProduct_add, dotProduct_smul, h v (by simp), ih fun x hx => h x (by simp [hx])]
    simp

theorem dot_part_self (l : List (Vec d)) (u : Vec d) : u ⬝ᵥ part l u = (l.map fun v => (v ⬝ᵥ u) ^ 2).sum := by
  induction l with
  | nil => simp [part]
  | cons v l ih =>
    rw [part_cons, dotProduct_add, dotProduct_smul, ih, List.map_cons, List.sum_cons, dotProduct_comm u v, smul_eq_mul]
    ring

theorem part_dot_part (l : List (Vec d)) (h : Orthonormal l) (u : Vec d) : part l u ⬝ᵥ part l u = (l.map fun v => (v ⬝ᵥ u) ^ 2).sum := by
  induction l with
  | nil => simp [part]
  | cons v l ih =>
    obtain ⟨h1, h2⟩ := h
    rw [List.pairwise_cons] at h2
    have hv := h1 v (by simp)
    have h0 := dot_part_zero l v u h2.1
    have := ih ⟨fun x hx => h1 x (by simp [hx]), h2.2⟩
    rw [part_cons, dotProduct_add, add_dotProduct, add_dotProduct, this, smul_dotProduct, smul_dotProduct, dotProduct_smul, dotProduct_smul,
      dotProduct_comm (part l u) v, h0, hv, List.map_cons, List.sum_cons]
    simp only [smul_eq_mul]
    ring

theorem residual (l : List (Vec d)) (h : Orthonormal l) (u : Vec d) :
    (u - part l u) ⬝ᵥ (u - part l u) = u ⬝ᵥ u - (l.map fun v => (v ⬝ᵥ u) ^ 2).sum := by
  rw [dotProduct_sub, sub_dotProduct, sub_dotProduct, part_dot_part l h, dotProduct_comm (part l u) u, dot_part_self]
  ring

theorem dot_self_nonneg (u : Vec d) : 0 ≤ u ⬝ᵥ u := Finset.sum_nonneg fun i _ => mul_self_nonneg _

theorem bessel (l : List (Vec d)) (h : Orthonormal l) (u : Vec d) : (l.map fun v => (v ⬝ᵥ u) ^ 2).sum ≤ u ⬝ᵥ u := by
  have := dot_self_nonneg (u - part l u)
  rw [residual l h] at this
  linarith

/-! ### the largest weighted sum -/

theorem kyfan_core (lam w : Fin d → ℝ) (S : Finset (Fin d)) (hw0 : ∀ j, 0 ≤ w j) (hw1 : ∀ j, w j ≤ 1) (hsum : ∑ j, w j = S.card)
    (htop : ∀ i ∈ S, ∀ j ∉ S, lam j ≤ lam i) : ∑ j, lam j * w j ≤ ∑ i ∈ S, lam i := by
  have hc : ∃ c, (∀ i ∈ S, c ≤ lam i) ∧ ∀ j ∉ S, w j ≠ 0 → lam j ≤ c := by
    by_cases hS : S.Nonempty
    · obtain ⟨m, hm, hmin⟩ := S.exists_min_image lam hS
      exact ⟨lam m, hmin, fun j hj _ => htop m hm j hj⟩
    · rw [Finset.not_nonempty_iff_eq_empty] at hS
      subst hS
      refine ⟨0, by simp, fun j _ hj => absurd ?_ hj⟩
      have h0 : ∑ j, w j = 0 := by simpa using hsum
      exact (Finset.sum_eq_zero_iff_of_nonneg fun i _ => hw0 i).1 h0 j (Finset.mem_univ j)
  obtain ⟨c, hc1, hc2⟩ := hc
  have e1 : ∑ j, lam j * w j = ∑ j ∈ S, lam j * w j + ∑ j ∈ Sᶜ, lam j * w j := (Finset.sum_add_sum_compl S _).symm
  have e2 : ∑ j, w j = ∑ j ∈ S, w j + ∑ j ∈ Sᶜ, w j := (Finset.sum_add_sum_compl S _).symm
  have i1 : ∑ j ∈ Sᶜ, lam j * w j ≤ ∑ j ∈ Sᶜ, c * w j := by
    refine Finset.sum_le_sum fun j hj => ?_
    by_cases h : w j = 0
    · simp [h]
    · exact mul_le_mul_of_nonneg_right (hc2 j (by simpa using hj) h) (hw0 j)
  have i2 : ∑ i ∈ S, c * (1 - w i) ≤ ∑ i ∈ S, lam i * (1 - w i) :=
    Finset.sum_le_sum fun i hi => mul_le_mul_of_nonneg_right (hc1 i hi) (by linarith [hw1 i])
  have e3 : ∑ i ∈ S, lam i * (1 - w i) = ∑ i ∈ S, lam i - ∑ i ∈ S, lam i * w i := by
    rw [← Finset.sum_sub_distrib]; exact Finset.sum_congr rfl fun _ _ => by ring
  have e4 : ∑ i ∈ S, c * (1 - w i) = c * S.card - c * ∑ i ∈ S, w i := by
    rw [← Finset.mul_sum, Finset.sum_sub_distrib]; simp; ring
  have e5 : ∑ j ∈ Sᶜ, c * w j = c * ∑ j ∈ Sᶜ, w j := by rw [Finset.mul_sum]
  rw [e1]
  rw [e2] at hsum
  have : c * (∑ j ∈ S, w j + ∑ j ∈ Sᶜ, w j) = c * S.card := by rw [hsum]
  nlinarith

theorem list_sum_finset_comm {α : Type} (l : List α) (f : α → Fin d → ℝ) : (l.map fun a => ∑ j, f a j).sum = ∑ j, (l.map fun a => f a j).sum := by
  induction l with
  | nil => simp
  | cons a l ih => simp [ih, Finset.sum_add_distrib]

/-- the quadratic form of a matrix with the given eigenvectors -/
theorem quad_eig (U : Matrix (Fin d) (Fin d) ℝ) (lam : Vec d) (v : Vec d) :
    v ⬝ᵥ (U * diagonal lam * Uᵀ) *ᵥ v = ∑ j, lam j * (v ⬝ᵥ fun a => U a j) ^ 2 := by
  rw [Matrix.mul_assoc, ← Matrix.mulVec_mulVec, Matrix.dotProduct_mulVec, ← Matrix.mulVec_mulVec, Matrix.mulVec_transpose]
  simp only [dotProduct, Matrix.mulVec_diagonal]
  refine Finset.sum_congr rfl fun j _ => ?_
  have : (v ᵥ* U) j = ∑ a, v a * U a j := rfl
  rw [this]
  ring

theorem parseval (U : Matrix (Fin d) (Fin d) ℝ) (hU : U * Uᵀ = 1) (v : Vec d) : ∑ j, (v ⬝ᵥ fun a => U a j) ^ 2 = v ⬝ᵥ v := by
  have := quad_eig U (fun _ => 1) v
  simp only [one_mul] at this
  rw [← this]
  have h1 : (diagonal fun _ : Fin d => (1 : ℝ)) = 1 := Matrix.diagonal_one
  rw [h1, Matrix.mul_one, hU, Matrix.one_mulVec]

theorem col_dot (U : Matrix (Fin d) (Fin d) ℝ) (hU : U * Uᵀ = 1) (i j : Fin d) : (fun a => U a i) ⬝ᵥ (fun a => U a j) = if i = j then 1 else 0 := by
  have h : Uᵀ * U = 1 := mul_eq_one_comm.1 hU
  have := congrFun (congrFun h i) j
  rw [Matrix.one_apply] at this
  rw [← this]
  rfl

theorem kyfan (U : Matrix (Fin d) (Fin d) ℝ) (hU : U * Uᵀ = 1) (lam : Vec d) (idx : List (Fin d)) (hnd : idx.Nodup)
    (htop : ∀ i ∈ idx, ∀ j ∉ idx, lam j ≤ lam i) (l : List (Vec d)) (hl : Orthonormal l) (hlen : l.length = idx.length) :
    (l.map fun v => v ⬝ᵥ (U * diagonal lam * Uᵀ) *ᵥ v).sum ≤ (idx.map lam).sum := by
  have e : (l.map fun v => v ⬝ᵥ (U * diagonal lam * Uᵀ) *ᵥ v).sum = ∑ j, lam j * (l.map fun v => (v ⬝ᵥ fun a => U a j) ^ 2).sum := by
    simp only [quad_eig]
    rw [list_sum_finset_comm]
    exact Finset.sum_congr rfl fun j _ => List.sum_map_mul_left _ _ _
  have e2 : (idx.map lam).sum = ∑ i ∈ idx.toFinset, lam i := (List.sum_toFinset lam hnd).symm
  rw [e, e2]
  refine kyfan_core lam _ _ ?_ ?_ ?_ ?_
  · intro j
    exact List.sum_nonneg fun x hx => by
      obtain ⟨v, _, rfl⟩ := List.mem_map.1 hx
      exact sq_nonneg _
  · intro j
    refine (bessel l hl _).trans ?_
    rw [col_dot U hU, if_pos rfl]
  · rw [← list_sum_finset_comm, List.toFinset_card_of_nodup hnd, ← hlen]
    have : (l.map fun v => ∑ j, (v ⬝ᵥ fun a => U a j) ^ 2) = l.map fun _ => (1 : ℝ) := by
      refine List.map_congr_left fun v hv => ?_
      rw [parseval U hU, hl.1 v hv]
    rw [this]
    simp
  · simpa using htop

/-! ### the covariance matrix -/

theorem meanPoint_eq (X : Matrix (Fin n) (Fin d) ℝ) : meanPoint X = colMean X := by
  funext j
  have e : (∑ i, X i) j = ∑ i, X i j := Finset.sum_apply j _ _
  change 1 / (n : ℝ) * (∑ i, X i) j = _
  rw [e, colMean]
  ring

theorem makeCentered_row (X : Matrix (Fin n) (Fin d) ℝ) (i : Fin n) : makeCentered X i = X i - meanPoint X := by
  rw [meanPoint_eq]; rfl

theorem sum_centered (X : Matrix (Fin n) (Fin d) ℝ) (j : Fin d) : ∑ i, makeCentered X i j = 0 := by
  rcases Nat.eq_zero_or_pos n with rfl | hn
  · simp
  · have : (n : ℝ) ≠ 0 := by positivity
    simp only [makeCentered, Matrix.of_apply, Finset.sum_sub_distrib, colMean]
    simp
    field_simp
    ring

theorem colMean_centered (X : Matrix (Fin n) (Fin d) ℝ) : colMean (makeCentered X) = 0 := by
  funext j
  simp [colMean, sum_centered]

theorem cov_centered (X : Matrix (Fin n) (Fin d) ℝ) : cov (makeCentered X) = cov X := by
  ext a b
  simp only [cov, Matrix.of_apply, colMean_centered]
  simp [makeCentered]

theorem cov_symm (X : Matrix (Fin n) (Fin d) ℝ) : (cov X).IsSymm := by
  ext a b
  simp only [cov, Matrix.transpose_apply, Matrix.of_apply]
  congr 1
  exact Finset.sum_congr rfl fun _ _ => mul_comm _ _

theorem covariance_eq (X : Matrix (Fin n) (Fin d) ℝ) (v w : Vec d) : covariance X v w = v ⬝ᵥ cov X *ᵥ w := by
  have e : cov X = (1 / ((n : ℝ) - 1)) • ∑ i, vecMulVec (X i - meanPoint X) (X i - meanPoint X) := by
    ext a b
    simp [cov, meanPoint_eq, Matrix.sum_apply, vecMulVec_apply]
    ring
  rw [e, Matrix.smul_mulVec, dotProduct_smul, Matrix.sum_mulVec, dotProduct_sum, covariance, smul_eq_mul, div_eq_mul_one_div, mul_comm]
  congr 1
  refine Finset.sum_congr rfl fun i _ => ?_
  rw [vecMulVec_mulVec, dotProduct_smul, dotProduct_comm w]
  simp

theorem variance_eq (X : Matrix (Fin n) (Fin d) ℝ) (v : Vec d) : variance X v = v ⬝ᵥ cov X *ᵥ v := by
  rw [← covariance_eq, variance, covariance]
  congr 1
  exact Finset.sum_congr rfl fun _ _ => by ring

theorem loss_eq (X : Matrix (Fin n) (Fin d) ℝ) (hn : 2 ≤ n) (l : List (Vec d)) (hl : Orthonormal l) :
    loss X l = ∑ i, (X i - meanPoint X) ⬝ᵥ (X i - meanPoint X) - ((n : ℝ) - 1) * (l.map (variance X)).sum := by
  have hn' : (n : ℝ) - 1 ≠ 0 := by
    have : (2 : ℝ) ≤ n := by exact_mod_cast hn
    linarith
  have e : ((n : ℝ) - 1) * (l.map (variance X)).sum = ∑ i, (l.map fun v => (v ⬝ᵥ (X i - meanPoint X)) ^ 2).sum := by
    rw [← list_sum_finset_comm, ← List.sum_map_mul_left]
    congr 1
    refine List.map_congr_left fun v _ => ?_
    rw [variance]
    field_simp
  rw [e, loss, ← Finset.sum_sub_distrib]
  refine Finset.sum_congr rfl fun i _ => ?_
  rw [← residual l hl, reconstruct, ← sub_sub]
  rfl

/-! ### probabilistic PCA -/

theorem scatter_eq (X : Matrix (Fin n) (Fin d) ℝ) : scatter X = (makeCentered X)ᵀ * makeCentered X := by
  ext a b
  simp [scatter, Matrix.sum_apply, vecMulVec_apply, Matrix.mul_apply, makeCentered, meanPoint_eq]

theorem inv_some (A I : Matrix (Fin k) (Fin k) ℝ) (h : inv A = some I) : A.det ≠ 0 ∧ I = A⁻¹ ∧ I.det ≠ 0 := by
  rw [inv] at h
  split at h
  · exact absurd h (by simp)
  · rename_i h0
    have := Option.some.inj h
    subst this
    exact ⟨h0, rfl, by rw [Matrix.det_nonsing_inv]; simpa using h0⟩

theorem pPcaStep_some (X : Matrix (Fin n) (Fin d) ℝ) (W W' : Matrix (Fin d) (Fin k) ℝ) (h : pPcaStep X W = some W') :
    (Wᵀ * W).det ≠ 0 ∧ (Wᵀ * (Xᵀ * X) * W).det ≠ 0 ∧ ∃ M : Matrix (Fin k) (Fin k) ℝ, M.det ≠ 0 ∧ W' = Xᵀ * X * W * M ∧
      M = ((Wᵀ * W)⁻¹)ᵀ * ((Wᵀ * W)⁻¹ * (Wᵀ * (Xᵀ * X) * W) * ((Wᵀ * W)⁻¹)ᵀ)⁻¹ := by
  rw [pPcaStep] at h
  split at h
  · exact absurd h (by simp)
  · rename_i I hI
    obtain ⟨h1, h2, h3⟩ := inv_some _ _ hI
    dsimp only at h
    split at h
    · exact absurd h (by simp)
    · rename_i J hJ
      obtain ⟨h4, h5, h6⟩ := inv_some _ _ hJ
      have e : I * Wᵀ * Xᵀ * (I * Wᵀ * Xᵀ)ᵀ = I * (Wᵀ * (Xᵀ * X) * W) * Iᵀ := by
        simp only [Matrix.transpose_mul, Matrix.transpose_transpose, Matrix.mul_assoc]
      rw [e] at h4 h5
      refine ⟨h1, ?_, Iᵀ * J, ?_, ?_, ?_⟩
      · rw [Matrix.det_mul, Matrix.det_mul] at h4
        exact right_ne_zero_of_mul (left_ne_zero_of_mul h4)
      · rw [Matrix.det_mul, Matrix.det_transpose]
        exact mul_ne_zero h3 h6
      · have := (Option.some.inj h).symm
        rw [this]
        simp only [Matrix.transpose_mul, Matrix.transpose_transpose, Matrix.mul_assoc]
      · rw [h5, h2]

theorem pPcaStep_isSome (X : Matrix (Fin n) (Fin d) ℝ) (W : Matrix (Fin d) (Fin k) ℝ) (h1 : (Wᵀ * W).det ≠ 0)
    (h2 : (Wᵀ * (Xᵀ * X) * W).det ≠ 0) : ∃ W', pPcaStep X W = some W' := by
  have e : (Wᵀ * W)⁻¹ * Wᵀ * Xᵀ * ((Wᵀ * W)⁻¹ * Wᵀ * Xᵀ)ᵀ = (Wᵀ * W)⁻¹ * (Wᵀ * (Xᵀ * X) * W) * ((Wᵀ * W)⁻¹)ᵀ := by
    simp only [Matrix.transpose_mul, Matrix.transpose_transpose, Matrix.mul_assoc]
  have hd : ((Wᵀ * W)⁻¹ * Wᵀ * Xᵀ * ((Wᵀ * W)⁻¹ * Wᵀ * Xᵀ)ᵀ).det ≠ 0 := by
    rw [e, Matrix.det_mul, Matrix.det_mul, Matrix.det_transpose, Matrix.det_nonsing_inv]
    simp [h1, h2]
  rw [pPcaStep, inv, if_neg h1]
  dsimp only
  rw [inv, if_neg hd]
  exact ⟨_, rfl⟩

theorem step_fix (X : Matrix (Fin n) (Fin d) ℝ) (W W' : Matrix (Fin d) (Fin k) ℝ) (h : pPcaStep X W = some W') :
    W' = W ↔ ∃ B : Matrix (Fin k) (Fin k) ℝ, Xᵀ * X * W = W * B := by
  obtain ⟨h1, h2, M, hM, hW, hMe⟩ := pPcaStep_some X W W' h
  constructor
  · intro hf
    rw [hf] at hW
    refine ⟨M⁻¹, ?_⟩
    conv_rhs => rw [hW]
    rw [Matrix.mul_assoc _ M, Matrix.mul_nonsing_inv _ (isUnit_iff_ne_zero.2 hM), Matrix.mul_one]
  · rintro ⟨B, hB⟩
    have hG : IsUnit (Wᵀ * W).det := isUnit_iff_ne_zero.2 h1
    have e1 : Wᵀ * (Xᵀ * X) * W = Wᵀ * W * B := by rw [Matrix.mul_assoc, hB, Matrix.mul_assoc]
    have hBd : IsUnit B.det := by
      rw [e1, Matrix.det_mul] at h2
      exact isUnit_iff_ne_zero.2 (right_ne_zero_of_mul h2)
    have hI : IsUnit (((Wᵀ * W)⁻¹)ᵀ).det := by
      rw [Matrix.det_transpose, Matrix.det_nonsing_inv]
      simpa using h1
    have e2 : M = B⁻¹ := by
      rw [hMe, e1, ← Matrix.mul_assoc, Matrix.nonsing_inv_mul _ hG, Matrix.one_mul, Matrix.mul_inv_rev, ← Matrix.mul_assoc,
        Matrix.mul_nonsing_inv _ hI, Matrix.one_mul]
    rw [hW, hB, e2, Matrix.mul_assoc, Matrix.mul_nonsing_inv _ hBd, Matrix.mul_one]

theorem close_refl (W : Matrix (Fin d) (Fin k) ℝ) : close W W := by
  intro i j
  simp
  norm_num

theorem pca_ok (eig : Matrix (Fin d) (Fin d) ℝ → Vec d × Matrix (Fin d) (Fin d) ℝ) (he : EigSpec eig) (X : Matrix (Fin n) (Fin d) ℝ)
    (dim : Nat) (h1 : 1 ≤ dim) (hd : dim ≤ d) (hd2 : d ≠ 1) : ∃ (U : Matrix (Fin d) (Fin d) ℝ) (lam : Vec d), U * Uᵀ = 1 ∧
      cov X = U * diagonal lam * Uᵀ ∧ eig (cov X) = (lam, U) ∧ pca eig X dim = .ok ((eigIndexes lam dim).map fun i a => U a i) := by
  obtain ⟨h3, h4⟩ := he (cov X) (cov_symm X)
  refine ⟨_, _, h3, h4, rfl, ?_⟩
  rw [pca, if_pos hd, if_neg hd2, cov_centered]

end Verif.PCA

namespace Verif.Props
open Matrix Verif.NES Verif.CMA Verif.PCA
open Verif.DataSet (Err)

variable {n d k : Nat}

/-- C90. `pca(data, dim)` returns `dim` directions that are orthogonal and of length 1, along which the data are uncorrelated. No other choice of
`dim` orthonormal directions captures more of the variance of the data, and none gives a smaller squared error when the points are replaced by
their projections. -/
theorem C90_pca (eig : Matrix (Fin d) (Fin d) ℝ → Vec d × Matrix (Fin d) (Fin d) ℝ) (he : EigSpec eig) (X : Matrix (Fin n) (Fin d) ℝ) (hn : 2 ≤ n)
    (dim : Nat) (h1 : 1 ≤ dim) (hd : dim ≤ d) (hd2 : d ≠ 1) :
    ∃ pc, pca eig X dim = .ok pc ∧ pc.length = dim ∧ Orthonormal pc ∧ (pc.Pairwise fun v w => covariance X v w = 0) ∧
      ∀ l, Orthonormal l → l.length = dim → (l.map (variance X)).sum ≤ (pc.map (variance X)).sum ∧ loss X pc ≤ loss X l := by
  obtain ⟨U, lam, hU, hC, -, hp⟩ := pca_ok eig he X dim h1 hd hd2
  obtain ⟨hlen, hnd, -, htop⟩ := eigIndexes_spec lam dim h1 hd
  have hort : Orthonormal ((eigIndexes lam dim).map fun i a => U a i) := by
    constructor
    · intro v hv
      obtain ⟨i, _, rfl⟩ := List.mem_map.1 hv
      rw [col_dot U hU, if_pos rfl]
    · rw [List.pairwise_map]
      exact hnd.imp fun {a b} hab => by rw [col_dot U hU, if_neg hab]
  have hcv : ∀ i : Fin d, cov X *ᵥ (fun a => U a i) = lam i • fun a => U a i := by
    intro i
    have hUU : Uᵀ *ᵥ (fun a => U a i) = Pi.single i 1 := by
      funext j
      have := col_dot U hU j i
      rw [Pi.single_apply]
      exact this
    rw [hC, ← Matrix.mulVec_mulVec, hUU, ← Matrix.mulVec_mulVec, Matrix.diagonal_mulVec_single, mul_one]
    funext a
    simp [mul_comm]
  have hvar : (((eigIndexes lam dim).map fun i a => U a i).map (variance X)).sum = ((eigIndexes lam dim).map lam).sum := by
    rw [List.map_map]
    congr 1
    refine List.map_congr_left fun i _ => ?_
    rw [Function.comp_apply, variance_eq, hcv, dotProduct_smul, col_dot U hU, if_pos rfl, smul_eq_mul, mul_one]
  have hmain : ∀ l, Orthonormal l → l.length = dim →
      (l.map (variance X)).sum ≤ (((eigIndexes lam dim).map fun i a => U a i).map (variance X)).sum := by
    intro l hl hll
    have e : l.map (variance X) = l.map fun v => v ⬝ᵥ (U * diagonal lam * Uᵀ) *ᵥ v := List.map_congr_left fun v _ => by rw [variance_eq, hC]
    rw [hvar, e]
    exact kyfan U hU lam _ hnd htop l hl (hll.trans hlen.symm)
  refine ⟨_, hp, by rw [List.length_map, hlen], hort, ?_, fun l hl hll => ⟨hmain l hl hll, ?_⟩⟩
  · rw [List.pairwise_map]
    exact hnd.imp fun {a b} hab => by
      rw [covariance_eq, hcv, dotProduct_smul, col_dot U hU, if_neg hab, smul_zero]
  · rw [loss_eq X hn _ hort, loss_eq X hn l hl]
    have hn' : (0 : ℝ) ≤ (n : ℝ) - 1 := by
      have : (2 : ℝ) ≤ n := by exact_mod_cast hn
      linarith
    have := mul_le_mul_of_nonneg_left (hmain l hl hll) hn'
    linarith

/-- C90. `reduceDim` gives one row of `dim` numbers for every point, in order: its coordinates along the principal components, seen from the
mean. Every column has mean 0. Distances between points do not grow, and with all `d` components they stay as they are. -/
theorem C90_reduceDim (eig : Matrix (Fin d) (Fin d) ℝ → Vec d × Matrix (Fin d) (Fin d) ℝ) (he : EigSpec eig) (X : Matrix (Fin n) (Fin d) ℝ)
    (dim : Nat) (h1 : 1 ≤ dim) (hd : dim ≤ d) (hd2 : d ≠ 1) :
    ∃ pc Y, pca eig X dim = .ok pc ∧ reduceDim eig X dim = .ok Y ∧ Y.length = n ∧
      (∀ i : Fin n, Y[i]? = some (pc.map fun v => v ⬝ᵥ (X i - meanPoint X))) ∧
      (∀ v ∈ pc, ∑ i, v ⬝ᵥ (X i - meanPoint X) = 0) ∧
      ∀ i j : Fin n, (pc.map fun v => (v ⬝ᵥ (X i - meanPoint X) - v ⬝ᵥ (X j - meanPoint X)) ^ 2).sum ≤ (X i - X j) ⬝ᵥ (X i - X j) ∧
        (dim = d → (pc.map fun v => (v ⬝ᵥ (X i - meanPoint X) - v ⬝ᵥ (X j - meanPoint X)) ^ 2).sum = (X i - X j) ⬝ᵥ (X i - X j)) := by
  obtain ⟨U, lam, hU, hC, -, hp⟩ := pca_ok eig he X dim h1 hd hd2
  obtain ⟨hlen, hnd, -, htop⟩ := eigIndexes_spec lam dim h1 hd
  have hort : Orthonormal ((eigIndexes lam dim).map fun i a => U a i) := by
    constructor
    · intro v hv
      obtain ⟨i, _, rfl⟩ := List.mem_map.1 hv
      rw [col_dot U hU, if_pos rfl]
    · rw [List.pairwise_map]
      exact hnd.imp fun {a b} hab => by rw [col_dot U hU, if_neg hab]
  refine ⟨_, project X ((eigIndexes lam dim).map fun i a => U a i), hp, by rw [reduceDim, hp], by simp [project], ?_, ?_, ?_⟩
  · intro i
    simp only [project, Fin.getElem?_fin]
    rw [List.getElem?_ofFn, dif_pos i.2]
    simp only [makeCentered_row]
  · intro v _
    have h0 : ∑ i, (X i - meanPoint X) = 0 := by
      funext j
      have e : (∑ i, (X i - meanPoint X)) j = ∑ i, makeCentered X i j := by
        rw [Finset.sum_apply]
        exact Finset.sum_congr rfl fun i _ => by rw [makeCentered_row]
      rw [e, sum_centered]
      rfl
    rw [← dotProduct_sum, h0, dotProduct_zero]
  · intro i j
    have e : ∀ v : Vec d, v ⬝ᵥ (X i - meanPoint X) - v ⬝ᵥ (X j - meanPoint X) = v ⬝ᵥ (X i - X j) := by
      intro v
      rw [← dotProduct_sub, sub_sub_sub_cancel_right]
    simp only [e]
    refine ⟨bessel _ hort _, fun hdd => ?_⟩
    have hperm : (eigIndexes lam dim).Perm (List.finRange d) := by
      refine (List.subperm_of_subset hnd fun x _ => List.mem_finRange x).perm_of_length_le ?_
      rw [hlen, List.length_finRange, hdd]
    rw [List.map_map, (hperm.map _).sum_eq]
    have := parseval U hU (X i - X j)
    rw [← this, ← List.sum_ofFn, List.ofFn_eq_map]
    congr 1
    refine List.map_congr_left fun a _ => ?_
    rw [Function.comp_apply, dotProduct_comm]

/-- C90 fails for `dim = 0`: all components are returned instead of none, because `eigval[:-0] = []` removes nothing. -/
theorem C90_negation_none (eig : Matrix (Fin d) (Fin d) ℝ → Vec d × Matrix (Fin d) (Fin d) ℝ) (X : Matrix (Fin n) (Fin d) ℝ) (hd : d ≠ 1) :
    ∃ pc, pca eig X 0 = .ok pc ∧ pc.length = d := by
  refine ⟨_, by rw [pca, if_pos (Nat.zero_le d), if_neg hd], ?_⟩
  simp [eigIndexes, keepLast]

/-- C90 fails for data with one column: `cov` gives a number and `eig` refuses it. -/
theorem C90_negation_column (eig : Matrix (Fin 1) (Fin 1) ℝ → Vec 1 × Matrix (Fin 1) (Fin 1) ℝ) (X : Matrix (Fin n) (Fin 1) ℝ) (dim : Nat) (h : dim ≤ 1) :
    reduceDim eig X dim = .error .valueError := by
  rw [reduceDim, pca, if_pos h, if_pos rfl]

/-- C90 does not extend to the order of the components: they come by falling position in the output of `eig`, not by falling variance. When
`eig` lists the eigenvalues in falling order, the weakest of the chosen components comes first. -/
theorem C90_negation_order (eig : Matrix (Fin d) (Fin d) ℝ → Vec d × Matrix (Fin d) (Fin d) ℝ) (he : EigSpec eig) (X : Matrix (Fin n) (Fin d) ℝ)
    (dim : Nat) (h1 : 1 ≤ dim) (hd : dim ≤ d) (hd2 : d ≠ 1) (hfall : ∀ i j, i < j → (eig (cov X)).1 j < (eig (cov X)).1 i) :
    ∃ pc, pca eig X dim = .ok pc ∧ (pc.Pairwise fun v w => variance X v < variance X w) := by
  obtain ⟨U, lam, hU, hC, hE, hp⟩ := pca_ok eig he X dim h1 hd hd2
  obtain ⟨hlen, hnd, hord, htop⟩ := eigIndexes_spec lam dim h1 hd
  refine ⟨_, hp, ?_⟩
  rw [hE] at hfall
  have hv : ∀ i : Fin d, variance X (fun a => U a i) = lam i := by
    intro i
    rw [variance_eq, hC, quad_eig]
    have : ∀ j : Fin d, lam j * ((fun a => U a i) ⬝ᵥ fun a => U a j) ^ 2 = if i = j then lam j else 0 := by
      intro j
      rw [col_dot U hU]
      split <;> simp
    simp only [this]
    simp
  rw [List.pairwise_map]
  refine hord.imp fun {a b} hab => ?_
  rw [hv, hv]
  exact hfall b a hab

/-- C90. Whatever `pPca` returns spans the image of the random starting directions under a positive power of the scatter matrix of the data
(subspace iteration): its rows, as columns, are `scatter ^ r * W * M` with an invertible `M`. -/
theorem C90_ppca_span (X : Matrix (Fin n) (Fin d) ℝ) (rounds : Nat) (W : Matrix (Fin d) (Fin k) ℝ) (P : Matrix (Fin k) (Fin d) ℝ)
    (h : pPca X rounds W = .ok P) :
    ∃ r, 1 ≤ r ∧ r ≤ rounds ∧ ∃ M : Matrix (Fin k) (Fin k) ℝ, M.det ≠ 0 ∧ Pᵀ = scatter X ^ r * W * M := by
  rw [pPca] at h
  induction rounds generalizing W with
  | zero => exact absurd h (by simp [pPcaLoop])
  | succ m ih =>
    rw [pPcaLoop] at h
    split at h
    · exact absurd h (by simp)
    · rename_i W' hW'
      obtain ⟨-, -, M, hM, hW, -⟩ := pPcaStep_some _ W W' hW'
      rw [← scatter_eq] at hW
      split at h
      · have : W'ᵀ = P := by simpa using h
        refine ⟨1, le_refl 1, by omega, M, hM, ?_⟩
        rw [← this, Matrix.transpose_transpose, pow_one, hW]
      · obtain ⟨r, h1, h2, M', hM', hP⟩ := ih W' h
        refine ⟨r + 1, by omega, by omega, M * M', by rw [Matrix.det_mul]; exact mul_ne_zero hM hM', ?_⟩
        rw [hP, hW, pow_succ]
        simp only [Matrix.mul_assoc]

/-- C90. A round of `pPca` leaves the directions as they are exactly if they span a subspace that the scatter matrix maps into itself, that is, a
subspace spanned by principal components. -/
theorem C90_ppca_fixpoint (X : Matrix (Fin n) (Fin d) ℝ) (W W' : Matrix (Fin d) (Fin k) ℝ) (h : pPcaStep (makeCentered X) W = some W') :
    W' = W ↔ ∃ B : Matrix (Fin k) (Fin k) ℝ, scatter X * W = W * B := by
  rw [scatter_eq]
  exact step_fix _ W W' h

/-- C90 fails for `pPca`: the directions need not be orthogonal nor of length 1. With as many components as columns (and data that do not lie in a
smaller subspace) the random starting matrix itself is returned after one round. -/
theorem C90_negation_ppca (X : Matrix (Fin n) (Fin d) ℝ) (rounds : Nat) (W : Matrix (Fin d) (Fin d) ℝ) (hW : W.det ≠ 0) (hX : (scatter X).det ≠ 0) :
    pPca X (rounds + 1) W = .ok Wᵀ := by
  rw [scatter_eq] at hX
  have hg : (Wᵀ * W).det ≠ 0 := by rw [Matrix.det_mul, Matrix.det_transpose]; exact mul_ne_zero hW hW
  have hg2 : (Wᵀ * ((makeCentered X)ᵀ * makeCentered X) * W).det ≠ 0 := by
    rw [Matrix.det_mul, Matrix.det_mul, Matrix.det_transpose]
    exact mul_ne_zero (mul_ne_zero hW hX) hW
  obtain ⟨W', hs⟩ := pPcaStep_isSome (makeCentered X) W hg hg2
  have : W' = W := (step_fix _ W W' hs).2 ⟨W⁻¹ * ((makeCentered X)ᵀ * makeCentered X * W), by
    rw [← Matrix.mul_assoc W, Matrix.mul_nonsing_inv _ (isUnit_iff_ne_zero.2 hW), Matrix.one_mul]⟩
  rw [pPca, pPcaLoop, hs, this]
  dsimp only
  rw [if_pos (close_refl W)]

/-- The hypotheses are met: four points in the plane whose variance is larger along the first axis, and a routine that lists the larger
eigenvalue first. The first component returned by `pca` is then the second axis. -/
def _root_.Verif.PCA.samplePoints : Matrix (Fin 4) (Fin 2) ℝ := !![3, 0; -3, 0; 0, 1; 0, -1]

theorem _root_.Verif.PCA.samplePoints_cov : cov samplePoints = diagonal ![6, 2 / 3] := by
  ext a b
  fin_cases a <;> fin_cases b <;> simp [cov, colMean, samplePoints, Fin.sum_univ_succ] <;> norm_num

example : ∃ eig : Matrix (Fin 2) (Fin 2) ℝ → Vec 2 × Matrix (Fin 2) (Fin 2) ℝ, EigSpec eig ∧
    ∀ i j, i < j → (eig (cov samplePoints)).1 j < (eig (cov samplePoints)).1 i := by
  classical
  obtain ⟨eig, he⟩ := eigSpec_exists 2
  refine ⟨fun M => if M = diagonal ![6, 2 / 3] then (![6, 2 / 3], 1) else eig M, fun M hM => ?_, ?_⟩
  · dsimp only
    split
    · rename_i h
      simp [h]
    · exact he M hM
  · intro i j hij
    rw [samplePoints_cov]
    simp only [if_true]
    fin_cases i <;> fin_cases j <;> simp at hij ⊢
    norm_num

/-- The hypotheses are met: two points on a line and the starting direction 3, which `pPca` returns. -/
example : pPca !![(1 : ℝ); -1] 5 !![(3 : ℝ)] = .ok !![(3 : ℝ)]ᵀ := by
  refine C90_negation_ppca _ 4 _ (by simp) ?_
  rw [scatter_eq]
  simp [makeCentered, colMean, Matrix.mul_apply, Fin.sum_univ_succ]

end Verif.Props
