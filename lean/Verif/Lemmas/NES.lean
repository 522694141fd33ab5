import Verif.Spec.NES
import Verif.Props.Ranking
import Mathlib.Analysis.Matrix.Spectrum
import Mathlib.Algebra.Order.Chebyshev
import Mathlib.Analysis.SpecialFunctions.Exponential
import Mathlib.Tactic.Abel
/-!
Lemmas about the exponential of symmetric matrices, weighted sums and the storage of the natural evolution strategies.
-/

namespace Verif.NES
open Matrix Verif.Mixing

variable {n : Nat}

/-! ### Exponentials -/

theorem exp_mul_exp_neg (M : Matrix (Fin n) (Fin n) ℝ) : NormedSpace.exp M * NormedSpace.exp (-M) = 1 := by
  rw [Matrix.exp_neg]
  exact Matrix.mul_nonsing_inv _ ((Matrix.isUnit_iff_isUnit_det _).1 (Matrix.isUnit_exp M))

theorem det_exp_of_symm (M : Matrix (Fin n) (Fin n) ℝ) (h : M.IsSymm) : (NormedSpace.exp M).det = Real.exp M.trace := by
  have hH : M.IsHermitian := by
    rw [Matrix.IsHermitian, Matrix.conjTranspose_eq_transpose_of_trivial]; exact h
  obtain ⟨U, d, hUU, hM⟩ : ∃ (U : Matrix (Fin n) (Fin n) ℝ) (d : Fin n → ℝ), U * Uᵀ = 1 ∧ M = U * diagonal d * Uᵀ := by
    refine ⟨hH.eigenvectorUnitary, hH.eigenvalues, ?_, ?_⟩
    · have := Unitary.mul_star_self_of_mem hH.eigenvectorUnitary.2
      rwa [Matrix.star_eq_conjTranspose, Matrix.conjTranspose_eq_transpose_of_trivial] at this
    · conv_lhs => rw [hH.spectral_theorem, Unitary.conjStarAlgAut_apply]
      rw [Matrix.star_eq_conjTranspose, Matrix.conjTranspose_eq_transpose_of_trivial]
      rfl
  have hinv : U⁻¹ = Uᵀ := Matrix.inv_eq_right_inv hUU
  have hunit : IsUnit U := (Matrix.isUnit_iff_isUnit_det U).2 (by
    have := congrArg Matrix.det hUU
    rw [Matrix.det_mul, Matrix.det_one] at this
    exact IsUnit.of_mul_eq_one _ this)
  have hexp : NormedSpace.exp M = U * NormedSpace.exp (diagonal d) * U⁻¹ := by
    rw [hM, ← hinv]; exact Matrix.exp_conj U _ hunit
  have hU1 : U.det * U⁻¹.det = 1 := by rw [← Matrix.det_mul, hinv, hUU, Matrix.det_one]
  have htr : M.trace = ∑ i, d i := by
    have h2 : Uᵀ * U = 1 := mul_eq_one_comm.1 hUU
    rw [hM, Matrix.trace_mul_comm, ← Matrix.mul_assoc, h2, Matrix.one_mul, Matrix.trace_diagonal]
  rw [hexp, Matrix.det_mul, Matrix.det_mul, mul_right_comm, hU1, one_mul, Matrix.exp_diagonal, Matrix.det_diagonal, htr, Real.exp_sum]
  refine Finset.prod_congr rfl (fun i _ => ?_)
  rw [Pi.coe_exp, Real.exp_eq_exp_ℝ]

/-! ### Weighted sums -/

section
variable {V W : Type} [AddCommGroup V] [Module ℝ V] [AddCommGroup W] [Module ℝ W]

theorem wsum_map (L : V →ₗ[ℝ] W) : ∀ (u : List ℝ) (xs : List V), wsum u (xs.map L) = L (wsum u xs)
  | [], xs => by simp [wsum]
  | _ :: _, [] => by simp [wsum]
  | a :: u, x :: xs => by
    have := wsum_map L u xs
    simp only [wsum, List.map_cons, List.zipWith_cons_cons, List.sum_cons, map_add, map_smul] at this ⊢
    rw [this]

/-- weights that sum to zero do not see a constant -/
theorem wsum_add_const (v : V) : ∀ (u : List ℝ) (xs : List V), u.length = xs.length →
    wsum u (xs.map (fun x => x + v)) = wsum u xs + u.sum • v
  | [], xs, _ => by simp [wsum]
  | _ :: _, [], h => by simp at h
  | a :: u, x :: xs, h => by
    have := wsum_add_const v u xs (by simpa using h)
    simp only [wsum, List.map_cons, List.zipWith_cons_cons, List.sum_cons] at this ⊢
    rw [this, smul_add, add_smul]
    abel

end

theorem sum_map_div (r : ℝ) : ∀ u : List ℝ, (u.map (fun x => x / r)).sum = u.sum / r
  | [] => by simp
  | a :: u => by rw [List.map_cons, List.sum_cons, List.sum_cons, sum_map_div r u, add_div]

theorem sum_map_sub (r : ℝ) : ∀ u : List ℝ, (u.map (fun x => x - r)).sum = u.sum - u.length * r
  | [] => by simp
  | a :: u => by
    rw [List.map_cons, List.sum_cons, List.sum_cons, sum_map_sub r u, List.length_cons]
    push_cast
    ring

theorem utilities_length (c : Cfg) (hs : Shaping c.shaping) (fits : List ℝ) : (utilities c fits).length = fits.length := by
  rw [utilities]
  split <;> simp [hs.length]

theorem shaping_sum_pos (c : Cfg) (hs : Shaping c.shaping) (fits : List ℝ) (h : fits ≠ []) : 0 < (c.shaping fits).sum := by
  obtain ⟨x, hx, hpos⟩ := hs.pos fits h
  have : ∀ l : List ℝ, (∀ y ∈ l, 0 ≤ y) → 0 ≤ l.sum ∧ (x ∈ l → x ≤ l.sum) := by
    intro l
    induction l with
    | nil => intro _; simp
    | cons a l ih =>
      intro hl
      obtain ⟨h1, h2⟩ := ih (fun y hy => hl y (List.mem_cons_of_mem _ hy))
      have ha := hl a List.mem_cons_self
      rw [List.sum_cons]
      refine ⟨add_nonneg ha h1, fun hm => ?_⟩
      rcases List.mem_cons.1 hm with rfl | hm
      · linarith
      · have := h2 hm; linarith
  exact lt_of_lt_of_le hpos ((this _ (hs.nonneg fits)).2 hx)

theorem utilities_sum (c : Cfg) (hs : Shaping c.shaping) (fits : List ℝ) (hb : fits.length = c.batchSize) (h0 : 0 < c.batchSize) :
    (utilities c fits).sum = if c.uniformBaseline then 0 else 1 := by
  have hne : fits ≠ [] := by intro e; rw [e] at hb; simp at hb; omega
  have hpos := shaping_sum_pos c hs fits hne
  rw [utilities]
  have hb' : (c.batchSize : ℝ) ≠ 0 := by exact_mod_cast h0.ne'
  split
  · rw [sum_map_sub, sum_map_div, div_self hpos.ne', List.length_map, hs.length, hb, mul_one_div_cancel hb', sub_self]
  · rw [sum_map_div, div_self hpos.ne']

/-! ### The storage -/

theorem store_foldl {α : Type} (opposed : Bool) (g : Vec n → ℝ) (f : α → Vec n) : ∀ (l : List α) (s : Store n),
    l.foldl (fun st k => st.add opposed g (f k)) s =
      { evaluated := s.evaluated ++ l.map f, evaluations := s.evaluations ++ l.map (fun k => if opposed then -(g (f k)) else g (f k)) }
  | [], s => by simp
  | a :: l, s => by
    rw [List.foldl_cons, store_foldl opposed g f l]
    simp [Store.add]

theorem filterMap_tail {α : Type} (pre l : List α) : ((List.range l.length).map (fun k => pre.length + k)).filterMap (fun i => (pre ++ l)[i]?) = l := by
  rw [List.filterMap_map]
  have : ∀ k ∈ List.range l.length, ((fun i => (pre ++ l)[i]?) ∘ fun k => pre.length + k) k = l[k]? := by
    intro k _
    simp [List.getElem?_append_right]
  rw [List.filterMap_congr this]
  induction l using List.reverseRecOn with
  | nil => simp
  | append_singleton l a ih =>
    have ih' := ih (by intro k _; simp [List.getElem?_append_right])
    rw [List.length_append, List.length_singleton, List.range_succ, List.filterMap_append]
    congr 1
    · conv_rhs => rw [← ih']
      refine List.filterMap_congr (fun k hk => ?_)
      rw [List.getElem?_append_left (List.mem_range.1 hk)]
    · simp

/-- the last batch is what is read back -/
theorem read_back (opposed : Bool) (g : Vec n → ℝ) (st : Store n) (hlen : st.evaluated.length = st.evaluations.length) (pts : List (Vec n)) :
    let st' : Store n := { evaluated := st.evaluated ++ pts, evaluations := st.evaluations ++ pts.map (fun x => if opposed then -(g x) else g x) }
    let ptrs := (List.range pts.length).map (fun k => st'.evaluated.length - pts.length + k)
    st'.population ptrs = pts ∧ st'.currentEvaluations opposed ptrs = pts.map g := by
  intro st' ptrs
  have hp : ptrs = (List.range pts.length).map (fun k => st.evaluated.length + k) := by
    simp only [ptrs, st', List.length_append, Nat.add_sub_cancel]
  refine ⟨?_, ?_⟩
  · rw [Store.population, hp]
    exact filterMap_tail _ _
  · rw [Store.currentEvaluations, hp, hlen]
    have := filterMap_tail st.evaluations (pts.map (fun x => if opposed then -(g x) else g x))
    rw [List.length_map] at this
    simp only [st', this]
    cases opposed <;> simp

/-! ### The update of XNES -/

theorem wsum_mem {V : Type} [AddCommGroup V] [Module ℝ V] (P : Submodule ℝ V) : ∀ (u : List ℝ) (xs : List V), (∀ x ∈ xs, x ∈ P) → wsum u xs ∈ P
  | [], _, _ => by simp [wsum]
  | _ :: _, [], _ => by simp [wsum]
  | a :: u, x :: xs, h => by
    have := wsum_mem P u xs (fun y hy => h y (List.mem_cons_of_mem _ hy))
    simp only [wsum, List.zipWith_cons_cons, List.sum_cons] at this ⊢
    exact P.add_mem (P.smul_mem _ (h x List.mem_cons_self)) this

/-- the symmetric matrices -/
def symm (n : Nat) : Submodule ℝ (Matrix (Fin n) (Fin n) ℝ) where
  carrier := {M | M.IsSymm}
  add_mem' := fun ha hb => by
    simp only [Set.mem_setOf_eq, Matrix.IsSymm, Matrix.transpose_add] at *; rw [ha, hb]
  zero_mem' := by simp [Matrix.IsSymm]
  smul_mem' := fun c x hx => by
    simp only [Set.mem_setOf_eq, Matrix.IsSymm, Matrix.transpose_smul] at *; rw [hx]

theorem one_mem_symm : (1 : Matrix (Fin n) (Fin n) ℝ) ∈ symm n := by
  change Matrix.IsSymm _
  simp

theorem deltaA_symm (c : Cfg) (u : List ℝ) (samples : List (Vec n)) : (deltaA c u samples).1.IsSymm := by
  have hG : wsum u (samples.map (fun z => vecMulVec z z - 1)) ∈ symm n := by
    refine wsum_mem _ _ _ (fun M hM => ?_)
    obtain ⟨z, _, rfl⟩ := List.mem_map.1 hM
    refine (symm n).sub_mem ?_ one_mem_symm
    change Matrix.IsSymm _
    rw [Matrix.IsSymm]
    ext i j
    simp [vecMulVec_apply, mul_comm]
  have : (deltaA c u samples).1 ∈ symm n := by
    rw [deltaA]
    exact (symm n).smul_mem _ ((symm n).add_mem ((symm n).smul_mem _ one_mem_symm)
      ((symm n).smul_mem _ ((symm n).sub_mem hG ((symm n).smul_mem _ one_mem_symm))))
  exact this

theorem deltaA_trace (c : Cfg) (u : List ℝ) (samples : List (Vec n)) :
    (deltaA c u samples).1.trace = 0.5 * c.scaleLR * (deltaA c u samples).2 := by
  rw [deltaA]
  simp only [Matrix.trace_smul, Matrix.trace_add, Matrix.trace_sub, Matrix.trace_one, Fintype.card_fin, smul_eq_mul]
  generalize hG : (wsum u (List.map (fun z => vecMulVec z z - 1) samples) : Matrix (Fin n) (Fin n) ℝ) = G
  rcases Nat.eq_zero_or_pos n with h | h
  · subst h
    simp [Matrix.trace]
  · have : (n : ℝ) ≠ 0 := by exact_mod_cast h.ne'
    field_simp
    ring

end Verif.NES
