import Verif.Spec.CMAES
import Verif.Lemmas.NES
import Mathlib.Analysis.Convex.Combination
import Mathlib.Algebra.Order.Star.Real
/-!
C89: CMA-ES (pybrain/optimization/distributionbased/cmaes.py).
-/

namespace Verif.CMA
open Matrix Verif.NES

variable {n : Nat}

theorem batch_ge (n : Nat) : 4 ≤ batchSize n := by rw [batchSize]; omega

theorem mu_eq (n : Nat) : mu n = batchSize n / 2 := by
  rw [mu, Nat.floor_eq_iff (by positivity), le_div_iff₀ (by norm_num), div_lt_iff₀ (by norm_num)]
  have h1 : batchSize n / 2 * 2 ≤ batchSize n := by omega
  have h2 : batchSize n < (batchSize n / 2 + 1) * 2 := by omega
  exact ⟨by exact_mod_cast h1, by exact_mod_cast h2⟩

theorem mu_ge (n : Nat) : 2 ≤ mu n := by
  rw [mu_eq]; have := batch_ge n; omega

theorem mu_le (n : Nat) : mu n ≤ batchSize n := by
  rw [mu_eq]; omega

/-- the weights before they are normalised -/
noncomputable def raw (n : Nat) (i : Nat) : ℝ := Real.log (mu n + 1) - Real.log ((i : ℝ) + 1)

theorem raw_pos (n i : Nat) (h : i < mu n) : 0 < raw n i := by
  rw [raw, sub_pos]
  refine Real.log_lt_log (by positivity) ?_
  have : (i : ℝ) < mu n := by exact_mod_cast h
  linarith

theorem raw_sum_pos (n : Nat) : 0 < ((List.range (mu n)).map (raw n)).sum := by
  have : ∀ l : List ℝ, (∀ x ∈ l, 0 < x) → l ≠ [] → 0 < l.sum := by
    intro l
    induction l with
    | nil => intro _ h; exact absurd rfl h
    | cons a l ih =>
      intro h _
      rw [List.sum_cons]
      have ha := h a List.mem_cons_self
      rcases List.eq_nil_or_concat l with rfl | ⟨_, _, hl⟩
      · simpa using ha
      · have := ih (fun x hx => h x (List.mem_cons_of_mem _ hx)) (by rw [hl]; simp)
        linarith
  refine this _ (fun x hx => ?_) ?_
  · obtain ⟨i, hi, rfl⟩ := List.mem_map.1 hx
    exact raw_pos n i (List.mem_range.1 hi)
  · have := mu_ge n
    intro h
    have h2 := congrArg List.length h
    simp at h2
    omega

theorem weights_eq (n : Nat) : weights n = (List.range (mu n)).map (fun i => raw n i / ((List.range (mu n)).map (raw n)).sum) := by
  rw [weights, List.map_map]
  rfl

theorem weights_length (n : Nat) : (weights n).length = mu n := by rw [weights_eq]; simp

theorem weights_pos (n : Nat) : ∀ w ∈ weights n, 0 < w := by
  intro w hw
  rw [weights_eq] at hw
  obtain ⟨i, hi, rfl⟩ := List.mem_map.1 hw
  exact div_pos (raw_pos n i (List.mem_range.1 hi)) (raw_sum_pos n)

theorem weights_sum (n : Nat) : (weights n).sum = 1 := by
  have : weights n = ((List.range (mu n)).map (raw n)).map (fun x => x / ((List.range (mu n)).map (raw n)).sum) := by
    rw [weights_eq, List.map_map]; rfl
  rw [this, sum_map_div, div_self (raw_sum_pos n).ne']

theorem weights_decreasing (n : Nat) : (weights n).Pairwise (fun a b => b < a) := by
  rw [weights_eq, List.pairwise_map]
  have := List.pairwise_lt_range (n := mu n)
  refine this.imp (fun {i j} hij => ?_)
  refine div_lt_div_of_pos_right ?_ (raw_sum_pos n)
  rw [raw, raw]
  have hij' : (i : ℝ) < j := by exact_mod_cast hij
  have := Real.log_lt_log (by positivity : (0 : ℝ) < (i : ℝ) + 1) (by linarith : (i : ℝ) + 1 < (j : ℝ) + 1)
  linarith

theorem sq_sum_bounds : ∀ l : List ℝ, (∀ x ∈ l, 0 < x) → l ≠ [] → 0 < (l.map (fun w => w ^ 2)).sum ∧ (l.map (fun w => w ^ 2)).sum ≤ l.sum ^ 2 ∧
    0 < l.sum
  | [], _, h => absurd rfl h
  | [a], h, _ => by
    have := h a List.mem_cons_self
    simp only [List.map_cons, List.map_nil, List.sum_cons, List.sum_nil, add_zero]
    exact ⟨by positivity, le_rfl, this⟩
  | a :: b :: l, h, _ => by
    obtain ⟨h1, h2, h3⟩ := sq_sum_bounds (b :: l) (fun x hx => h x (List.mem_cons_of_mem _ hx)) (by simp)
    have ha := h a List.mem_cons_self
    rw [List.map_cons, List.sum_cons, List.sum_cons (a := a)]
    refine ⟨by positivity, ?_, by linarith⟩
    nlinarith [mul_pos ha h3]

theorem muEff_ge (n : Nat) : 1 ≤ muEff n := by
  have hne : weights n ≠ [] := by
    intro h
    have := weights_length n
    rw [h] at this
    have h2 := mu_ge n
    simp at this
    omega
  obtain ⟨h1, h2, _⟩ := sq_sum_bounds (weights n) (weights_pos n) hne
  rw [muEff, le_div_iff₀ h1, one_mul]
  exact h2

theorem muEff_le (n : Nat) : muEff n ≤ mu n := by
  have hne : weights n ≠ [] := by
    intro h
    have := weights_length n
    rw [h] at this
    have h2 := mu_ge n
    simp at this
    omega
  obtain ⟨h1, _, _⟩ := sq_sum_bounds (weights n) (weights_pos n) hne
  rw [muEff, div_le_iff₀ h1, ← weights_length n]
  have key : ∀ l : List ℝ, l.sum ^ 2 ≤ l.length * (l.map (fun w => w ^ 2)).sum := by
    intro l
    have := sq_sum_le_card_mul_sum_sq (s := Finset.univ) (f := fun i : Fin l.length => l[i])
    rw [Finset.card_univ, Fintype.card_fin] at this
    have e1 : ∑ i : Fin l.length, l[i] = l.sum := by
      rw [← List.sum_ofFn]; congr 1; apply List.ext_getElem <;> simp
    have e2 : ∑ i : Fin l.length, l[i] ^ 2 = (l.map (fun w => w ^ 2)).sum := by
      rw [← List.sum_ofFn]; congr 1; apply List.ext_getElem <;> simp
    rw [e1, e2] at this
    exact this
  exact key _

theorem cumStep_bounds (n : Nat) : 0 < cumStep n ∧ cumStep n < 1 := by
  have := muEff_ge n
  have hn : (0 : ℝ) ≤ n := by positivity
  rw [cumStep]
  refine ⟨by positivity, ?_⟩
  rw [div_lt_one (by positivity)]
  linarith

theorem cumCov_bounds (n : Nat) : 0 < cumCov n ∧ cumCov n ≤ 1 := by
  have hn : (0 : ℝ) ≤ n := by positivity
  rw [cumCov]
  refine ⟨by positivity, ?_⟩
  rw [div_le_one (by positivity)]
  linarith

theorem covLR_bounds (n : Nat) (hn : 1 ≤ n) : 0 < covLearningRate n ∧ covLearningRate n < 1 := by
  have hM := muEff_ge n
  have hn' : (1 : ℝ) ≤ n := by exact_mod_cast hn
  rw [covLearningRate, mul_div_assoc]
  set M := muEff n
  have hM0 : 0 < M := by linarith
  have hm0 : 0 < 1 / M := by positivity
  have hm1 : 1 / M ≤ 1 := by rw [div_le_one hM0]; exact hM
  have hp0 : 0 < 2 / ((n : ℝ) + 1.4) ^ 2 := by positivity
  have hp1 : 2 / ((n : ℝ) + 1.4) ^ 2 < 1 := by
    rw [div_lt_one (by positivity)]
    nlinarith
  have hd : 0 < ((n : ℝ) + 2) ^ 2 + 2 * M := by positivity
  have hq0 : 0 ≤ (2 * M - 1) / (((n : ℝ) + 2) ^ 2 + 2 * M) := div_nonneg (by linarith) hd.le
  have hq1 : (2 * M - 1) / (((n : ℝ) + 2) ^ 2 + 2 * M) < 1 := by
    rw [div_lt_one hd]
    nlinarith
  generalize 2 / ((n : ℝ) + 1.4) ^ 2 = p at *
  generalize (2 * M - 1) / (((n : ℝ) + 2) ^ 2 + 2 * M) = q at *
  generalize 1 / M = m at *
  refine ⟨?_, ?_⟩
  · have := mul_pos hm0 hp0
    have := mul_nonneg (by linarith : 0 ≤ 1 - m) hq0
    linarith
  · have h1 : m * p < m * 1 := mul_lt_mul_of_pos_left hp1 hm0
    have h2 : (1 - m) * q ≤ (1 - m) * 1 := mul_le_mul_of_nonneg_left hq1.le (by linarith)
    linarith

theorem dampings_gt (n : Nat) : 1 < dampings n := by
  have := (cumStep_bounds n).1
  have := le_max_left 0 (Real.sqrt ((muEff n - 1) / ((n : ℝ) + 1)) - 1)
  rw [dampings]
  linarith

theorem chiN_pos (n : Nat) (hn : 1 ≤ n) : 0 < chiN n := by
  have hn' : (1 : ℝ) ≤ n := by exact_mod_cast hn
  rw [chiN]
  refine mul_pos (Real.rpow_pos_of_pos (by linarith) _) ?_
  have h1 : 1 / (4 * (n : ℝ)) ≤ 1 / 4 := by
    rw [div_le_div_iff₀ (by positivity) (by norm_num)]; linarith
  have h2 : 0 < 1 / (21 * (n : ℝ) ^ 2) := by positivity
  linarith

/-! ### Sorting -/

theorem tupleLe_trans (a b c : ℝ × Nat) : Ranking.tupleLe a b → Ranking.tupleLe b c → Ranking.tupleLe a c := by
  simp only [Ranking.tupleLe, Bool.or_eq_true, Bool.and_eq_true, decide_eq_true_eq]
  rintro (h | ⟨h, h'⟩) (k | ⟨k, k'⟩)
  · exact Or.inl (h.trans k)
  · exact Or.inl (k ▸ h)
  · exact Or.inl (h ▸ k)
  · exact Or.inr ⟨h.trans k, h'.trans k'⟩

theorem tupleLe_total (a b : ℝ × Nat) : (Ranking.tupleLe a b || Ranking.tupleLe b a) = true := by
  simp only [Ranking.tupleLe, Bool.or_eq_true, Bool.and_eq_true, decide_eq_true_eq]
  rcases lt_trichotomy a.1 b.1 with h | h | h
  · exact Or.inl (Or.inl h)
  · rcases le_total a.2 b.2 with k | k
    · exact Or.inl (Or.inr ⟨h, k⟩)
    · exact Or.inr (Or.inr ⟨h.symm, k⟩)
  · exact Or.inr (Or.inl h)

theorem sorti_perm (fits : List ℝ) : (sorti fits).Perm fits.zipIdx := List.mergeSort_perm _ _

theorem sorti_index (fits : List ℝ) : ∀ p ∈ sorti fits, fits[p.2]? = some p.1 := by
  intro p hp
  have := (sorti_perm fits).mem_iff.1 hp
  exact List.mem_zipIdx_iff_getElem?.1 this

theorem sorti_sorted (fits : List ℝ) : ((sorti fits).map Prod.fst).Pairwise (· ≤ ·) := by
  rw [List.pairwise_map]
  have := List.pairwise_mergeSort (le := Ranking.tupleLe) tupleLe_trans tupleLe_total fits.zipIdx
  refine this.imp (fun {a b} h => ?_)
  simp only [Ranking.tupleLe, Bool.or_eq_true, Bool.and_eq_true, decide_eq_true_eq] at h
  rcases h with h | h
  · exact h.le
  · exact h.1.le

theorem sorti_best (fits : List ℝ) : BestFirst fits ((sorti fits).map Prod.snd) := by
  refine ⟨?_, ?_⟩
  · have := (sorti_perm fits).map Prod.snd
    rwa [List.zipIdx_map_snd, ← List.range_eq_range'] at this
  · have : ((sorti fits).map Prod.snd).filterMap (fun i => fits[i]?) = (sorti fits).map Prod.fst := by
      rw [List.filterMap_map]
      have h := sorti_index fits
      generalize sorti fits = l at *
      induction l with
      | nil => rfl
      | cons p l ih =>
        have := ih (fun q hq => h q (List.mem_cons_of_mem _ hq))
        simp only [Function.comp_def, List.filterMap_cons, List.map_cons, h p List.mem_cons_self] at this ⊢
        rw [this]
    rw [this]
    exact sorti_sorted fits

theorem sorti_map (φ : ℝ → ℝ) (hφ : StrictMono φ) (fits : List ℝ) : (sorti (fits.map φ)).map Prod.snd = (sorti fits).map Prod.snd := by
  have hz : (fits.map φ).zipIdx = fits.zipIdx.map (fun p => (φ p.1, p.2)) := by
    rw [List.zipIdx_map]
    rfl
  rw [sorti, sorti, hz, ← List.map_mergeSort (r := Ranking.tupleLe) (s := Ranking.tupleLe), List.map_map]
  · rfl
  · intro a _ b _
    simp [Ranking.tupleLe, hφ.lt_iff_lt, hφ.injective.eq_iff]

theorem filterMap_getElem_map {α β : Type} (f : α → β) (l : List α) (idx : List Nat) :
    idx.filterMap (fun i => (l.map f)[i]?) = (idx.filterMap (fun i => l[i]?)).map f := by
  rw [List.map_filterMap]
  refine List.filterMap_congr (fun i _ => ?_)
  rw [List.getElem?_map]

theorem filterMap_perm_length {α : Type} (l : List α) (idx : List Nat) (h : idx.Perm (List.range l.length)) :
    (idx.filterMap (fun i => l[i]?)).length = l.length := by
  have : (idx.filterMap (fun i => l[i]?)).Perm ((List.range l.length).filterMap (fun i => l[i]?)) := h.filterMap _
  rw [this.length_eq]
  have := filterMap_tail [] l
  simp only [List.nil_append, List.length_nil, Nat.zero_add, List.map_id'] at this
  rw [this]

/-- the draws of the selected points, best first -/
noncomputable def chosen (g : Vec n → ℝ) (z : Nat → Vec n) (s : Cma n) : List (Vec n) :=
  (((sorti ((((List.range (batchSize n)).map z).map s.point).map g)).map Prod.snd).filterMap (fun i => ((List.range (batchSize n)).map z)[i]?)).take (mu n)

theorem chosen_length (g : Vec n → ℝ) (z : Nat → Vec n) (s : Cma n) : (chosen g z s).length = mu n := by
  have := (sorti_best ((((List.range (batchSize n)).map z).map s.point).map g)).1
  rw [List.length_map, List.length_map] at this
  rw [chosen, List.length_take, filterMap_perm_length _ _ this]
  simp [mu_le]

theorem wsum_const_add (v : Vec n) (u : List ℝ) (xs : List (Vec n)) (h : u.length = xs.length) (hs : u.sum = 1) :
    wsum u (xs.map (fun x => v + x)) = v + wsum u xs := by
  have := wsum_add_const v u xs h
  rw [hs, one_smul] at this
  rw [add_comm v, ← this]
  congr 1
  exact List.map_congr_left (fun x _ => add_comm _ _)

/-- a step in terms of the chosen draws -/
theorem step_eq (eig : Matrix (Fin n) (Fin n) ℝ → Vec n × Matrix (Fin n) (Fin n) ℝ) (sp : ℝ) (g : Vec n → ℝ) (z : Nat → Vec n) (s : Cma n) :
    let zs := chosen g z s
    let zmean : Vec n := wsum (weights n) zs
    let stepPath := (1 - cumStep n) • s.stepPath + Real.sqrt (cumStep n * (2 - cumStep n) * muEff n) • (s.B *ᵥ zmean)
    let hsv : ℝ := if hsig n stepPath (s.numEvaluations + batchSize n) then 1 else 0
    let covPath := (1 - cumCov n) • s.covPath + (hsv * Real.sqrt (cumCov n * (2 - cumCov n) * muEff n)) • ((s.B * s.D) *ᵥ zmean)
    let C := (1 - covLearningRate n) • s.C +
      (covLearningRate n * (1 / muEff n)) • (vecMulVec covPath covPath + ((1 - hsv) * cumCov n * (2 - cumCov n)) • s.C) +
      (covLearningRate n * (1 - 1 / muEff n)) • (s.stepSize ^ 2 • wsum (weights n) (zs.map (fun z => vecMulVec ((s.B * s.D) *ᵥ z) ((s.B * s.D) *ᵥ z))))
    let C := (1 / 2 : ℝ) • (C + Cᵀ)
    let s' := s.step eig sp g z
    s'.center = s.center + s.stepSize • ((s.B * s.D) *ᵥ zmean) ∧ s'.stepPath = stepPath ∧ s'.covPath = covPath ∧ s'.C = C ∧
      s'.stepSize = s.stepSize * Real.exp ((cumStep n / dampings n) * (norm2 stepPath / chiN n - 1)) ∧
      s'.B = (eig C).2 ∧ s'.D = diagonal (fun i => Real.sqrt ((eig C).1 i)) ∧ s'.numEvaluations = s.numEvaluations + batchSize n ∧
      s'.numLearningSteps = s.numLearningSteps + 1 := by
  intro zs zmean stepPath hsv covPath C0 C s'
  have hx : ((((sorti ((((List.range (batchSize n)).map z).map s.point).map g)).map Prod.snd).filterMap
      (fun i => (((List.range (batchSize n)).map z).map s.point)[i]?)).take (mu n)) = zs.map s.point := by
    rw [filterMap_getElem_map, ← List.map_take]
    rfl
  have hcenter : wsum (weights n) (zs.map s.point) = s.center + s.stepSize • ((s.B * s.D) *ᵥ zmean) := by
    have h1 : zs.map s.point = (zs.map (fun z => s.stepSize • ((s.B * s.D) *ᵥ z))).map (fun x => s.center + x) := by
      rw [List.map_map]; rfl
    rw [h1, wsum_const_add _ _ _ (by rw [weights_length, List.length_map, chosen_length]) (weights_sum n)]
    congr 1
    exact wsum_map (s.stepSize • Matrix.mulVecLin (s.B * s.D)) (weights n) zs
  have hmut : (wsum (weights n) ((((zs.map s.point).map (fun x => x - s.center))).map (fun v => vecMulVec v v)) : Matrix (Fin n) (Fin n) ℝ) =
      s.stepSize ^ 2 • wsum (weights n) (zs.map (fun z => vecMulVec ((s.B * s.D) *ᵥ z) ((s.B * s.D) *ᵥ z))) := by
    have := wsum_map ((s.stepSize ^ 2) • (LinearMap.id : Matrix (Fin n) (Fin n) ℝ →ₗ[ℝ] Matrix (Fin n) (Fin n) ℝ)) (weights n)
      (zs.map (fun z => vecMulVec ((s.B * s.D) *ᵥ z) ((s.B * s.D) *ᵥ z)))
    rw [LinearMap.smul_apply, LinearMap.id_apply] at this
    rw [← this]
    congr 1
    rw [List.map_map, List.map_map, List.map_map]
    refine List.map_congr_left (fun z _ => ?_)
    simp only [Function.comp, Cma.point, add_sub_cancel_left, LinearMap.smul_apply, LinearMap.id_apply]
    rw [Matrix.smul_vecMulVec, Matrix.vecMulVec_smul, smul_smul, pow_two]
  have hC : s'.C = C := by
    simp only [s', Cma.step, hx, hmut]
    rfl
  refine ⟨?_, rfl, rfl, hC, rfl, ?_, ?_, rfl, rfl⟩
  · simp only [s', Cma.step, hx, hcenter]
  · rw [← hC]; rfl
  · rw [← hC]; rfl

theorem wsum_psd : ∀ (u : List ℝ) (xs : List (Matrix (Fin n) (Fin n) ℝ)), (∀ w ∈ u, 0 ≤ w) → (∀ M ∈ xs, M.PosSemidef) → (wsum u xs).PosSemidef
  | [], xs, _, _ => by simpa [wsum] using PosSemidef.zero
  | _ :: _, [], _, _ => by simpa [wsum] using PosSemidef.zero
  | a :: u, x :: xs, hu, hx => by
    have := wsum_psd u xs (fun w hw => hu w (List.mem_cons_of_mem _ hw)) (fun M hM => hx M (List.mem_cons_of_mem _ hM))
    simp only [wsum, List.zipWith_cons_cons, List.sum_cons] at this ⊢
    exact ((hx x List.mem_cons_self).smul (hu a List.mem_cons_self)).add this

theorem psd_outer (v : Vec n) : (vecMulVec v v).PosSemidef := by
  have := Matrix.posSemidef_vecMulVec_self_star (R := ℝ) v
  rwa [star_trivial] at this

theorem step_posDef (hn : 1 ≤ n) (eig : Matrix (Fin n) (Fin n) ℝ → Vec n × Matrix (Fin n) (Fin n) ℝ) (sp : ℝ) (g : Vec n → ℝ) (z : Nat → Vec n) (s : Cma n)
    (h : s.C.PosDef) : (s.step eig sp g z).C.PosDef := by
  obtain ⟨_, _, _, hC, _⟩ := step_eq eig sp g z s
  rw [hC]
  obtain ⟨c0, c1⟩ := covLR_bounds n hn
  obtain ⟨k0, k1⟩ := cumCov_bounds n
  have hM := muEff_ge n
  have hM0 : 0 < 1 / muEff n := by positivity
  have hM1 : 1 / muEff n ≤ 1 := by rw [div_le_one (by linarith)]; exact hM
  generalize hh : (if hsig n ((1 - cumStep n) • s.stepPath + √(cumStep n * (2 - cumStep n) * muEff n) • s.B *ᵥ wsum (weights n) (chosen g z s))
      (s.numEvaluations + batchSize n) = true then (1 : ℝ) else 0) = hsv
  have hhsv : 0 ≤ 1 - hsv := by rw [← hh]; split <;> norm_num
  have hX : ∀ (v : Vec n) (W : Matrix (Fin n) (Fin n) ℝ), W.PosSemidef → ((1 - covLearningRate n) • s.C +
      (covLearningRate n * (1 / muEff n)) • (vecMulVec v v + ((1 - hsv) * cumCov n * (2 - cumCov n)) • s.C) +
      (covLearningRate n * (1 - 1 / muEff n)) • W).PosDef := by
    intro v W hW
    refine PosDef.add_posSemidef (PosDef.add_posSemidef (h.smul (by linarith)) ?_) (hW.smul (mul_nonneg c0.le (by linarith)))
    refine PosSemidef.smul ((psd_outer v).add (h.posSemidef.smul ?_)) (mul_nonneg c0.le hM0.le)
    exact mul_nonneg (mul_nonneg hhsv k0.le) (by linarith)
  have := hX ((1 - cumCov n) • s.covPath + (hsv * √(cumCov n * (2 - cumCov n) * muEff n)) • (s.B * s.D) *ᵥ wsum (weights n) (chosen g z s))
    (s.stepSize ^ 2 • wsum (weights n) ((chosen g z s).map (fun z => vecMulVec ((s.B * s.D) *ᵥ z) ((s.B * s.D) *ᵥ z))))
    ((wsum_psd _ _ (fun w hw => (weights_pos n w hw).le) (fun M hM => by
      obtain ⟨z, _, rfl⟩ := List.mem_map.1 hM
      exact psd_outer _)).smul (by positivity))
  exact (this.add this.transpose).smul (by norm_num)

theorem cma_run_append (eig : Matrix (Fin n) (Fin n) ℝ → Vec n × Matrix (Fin n) (Fin n) ℝ) (sp : ℝ) (g : Vec n → ℝ) (z : Nat → Vec n) :
    ∀ (zs : List (Nat → Vec n)) (s : Cma n), s.run eig sp g (zs ++ [z]) = (s.run eig sp g zs).step eig sp g z
  | [], s => rfl
  | y :: zs, s => by
    simp only [List.cons_append, Cma.run]
    exact cma_run_append eig sp g z zs _

end Verif.CMA

namespace Verif.Props
open Verif.CMA Verif.NES Matrix

variable {n : Nat}

/-- **C89, strategy parameters.** For every dimension the recombination weights of CMA-ES are positive, decreasing and sum to 1, one for each
of at least two parents; the learning rates, the time constants, the damping and the expected length are in their admissible ranges. -/
theorem C89_parameters (n : Nat) (hn : 1 ≤ n) :
    4 ≤ batchSize n ∧ 2 ≤ mu n ∧ 2 * mu n ≤ batchSize n ∧
    (weights n).length = mu n ∧ (∀ w ∈ weights n, 0 < w) ∧ (weights n).sum = 1 ∧ (weights n).Pairwise (fun a b => b < a) ∧
    1 ≤ muEff n ∧ muEff n ≤ mu n ∧ 0 < cumCov n ∧ cumCov n ≤ 1 ∧ 0 < cumStep n ∧ cumStep n < 1 ∧ 0 < covLearningRate n ∧ covLearningRate n < 1 ∧
    1 < dampings n ∧ 0 < chiN n :=
  ⟨batch_ge n, mu_ge n, by rw [mu_eq]; omega, weights_length n, weights_pos n, weights_sum n, weights_decreasing n, muEff_ge n, muEff_le n,
    (cumCov_bounds n).1, (cumCov_bounds n).2, (cumStep_bounds n).1, (cumStep_bounds n).2, (covLR_bounds n hn).1, (covLR_bounds n hn).2,
    dampings_gt n, chiN_pos n hn⟩

/-- **C89, recombination.** Every step evaluates `batchSize` points around the center; the new center is the weighted mean of the `mu` best of them,
the best having the largest weight, and so lies in their convex hull. -/
theorem C89_recombination (eig : Matrix (Fin n) (Fin n) ℝ → Vec n × Matrix (Fin n) (Fin n) ℝ) (sp : ℝ) (g : Vec n → ℝ) (z : Nat → Vec n) (s : Cma n) :
    let pts := (List.range (batchSize n)).map (fun k => s.center + s.stepSize • ((s.B * s.D) *ᵥ z k))
    let s' := s.step eig sp g z
    (∃ best, BestFirst (pts.map g) best ∧ s'.center = wsum (weights n) ((best.take (mu n)).filterMap (fun i => pts[i]?))) ∧
      s'.center ∈ convexHull ℝ {x | x ∈ pts} ∧ s'.numEvaluations = s.numEvaluations + pts.length := by
  intro pts s'
  have hp : ((List.range (batchSize n)).map z).map s.point = pts := by
    rw [List.map_map]; rfl
  have hbest := sorti_best (pts.map g)
  have htake : ∀ (idx : List Nat) (k : Nat), (∀ i ∈ idx, i < pts.length) →
      (idx.take k).filterMap (fun i => pts[i]?) = (idx.filterMap (fun i => pts[i]?)).take k := by
    intro idx
    induction idx with
    | nil => intro k _; simp
    | cons a idx ih =>
      intro k h
      cases k with
      | zero => simp
      | succ k =>
        have ha := List.getElem?_eq_getElem (h a List.mem_cons_self)
        rw [List.take_succ_cons, List.filterMap_cons, List.filterMap_cons, ha]
        simp only
        rw [List.take_succ_cons, ih k (fun i hi => h i (List.mem_cons_of_mem _ hi))]
  have hlt : ∀ i ∈ (sorti (pts.map g)).map Prod.snd, i < pts.length := by
    intro i hi
    have := hbest.1.mem_iff.1 hi
    simpa using this
  have hc : s'.center = wsum (weights n) ((((sorti (pts.map g)).map Prod.snd).take (mu n)).filterMap (fun i => pts[i]?)) := by
    rw [htake _ _ hlt]
    simp only [s', Cma.step, hp]
  refine ⟨⟨_, hbest, hc⟩, ?_, ?_⟩
  · rw [hc]
    set sel := (((sorti (pts.map g)).map Prod.snd).take (mu n)).filterMap (fun i => pts[i]?) with hsel
    have hmem : ∀ x ∈ sel, x ∈ {x | x ∈ pts} := by
      intro x hx
      obtain ⟨i, _, hi⟩ := List.mem_filterMap.1 hx
      exact List.mem_of_getElem? hi
    have hlen : (weights n).length = sel.length := by
      have h1 : (((sorti (pts.map g)).map Prod.snd).filterMap (fun i => pts[i]?)).length = pts.length :=
        filterMap_perm_length _ _ (by simpa using hbest.1)
      rw [hsel, htake _ _ hlt, List.length_take, h1, weights_length]
      have : pts.length = batchSize n := by simp [pts]
      rw [this]
      have := mu_le n
      omega
    have e : wsum (weights n) sel = ∑ i : Fin sel.length, (weights n)[i.1]'(by rw [hlen]; exact i.2) • sel[i] := by
      rw [← List.sum_ofFn, wsum]
      congr 1
      apply List.ext_getElem
      · simp [hlen]
      · intro i h1 h2
        simp
    rw [e]
    refine (convex_convexHull ℝ _).sum_mem (fun i _ => (weights_pos n _ (List.getElem_mem _)).le) ?_ (fun i _ => subset_convexHull ℝ _ (hmem _ (by simp)))
    rw [← weights_sum n, ← List.sum_ofFn]
    congr 1
    apply List.ext_getElem
    · simp [hlen]
    · intro i h1 h2
      simp
  · simp [s', Cma.step, pts]

/-- **C89, the covariance matrix stays positive definite** (and so symmetric) and the step size positive, whatever the objective, the draws and the
results of the eigenvalue routine. -/
theorem C89_covariance (hn : 1 ≤ n) (eig : Matrix (Fin n) (Fin n) ℝ → Vec n × Matrix (Fin n) (Fin n) ℝ) (sp : ℝ) (g : Vec n → ℝ) (x0 : Vec n) (σ : ℝ)
    (hσ : 0 < σ) (m : Option Nat) (zs : List (Nat → Vec n)) :
    let s := (Cma.init x0 σ m).run eig sp g zs
    s.C.PosDef ∧ s.C.IsSymm ∧ 0 < s.stepSize := by
  intro s
  have key : ∀ (zs : List (Nat → Vec n)) (s : Cma n), s.C.PosDef → 0 < s.stepSize → (s.run eig sp g zs).C.PosDef ∧ 0 < (s.run eig sp g zs).stepSize := by
    intro zs
    induction zs with
    | nil => intro s h1 h2; exact ⟨h1, h2⟩
    | cons z zs ih =>
      intro s h1 h2
      refine ih _ (step_posDef hn eig sp g z s h1) ?_
      rw [(step_eq eig sp g z s).2.2.2.2.1]
      exact mul_pos h2 (Real.exp_pos _)
  have := key zs (Cma.init x0 σ m) (by simpa [Cma.init] using PosDef.one) hσ
  refine ⟨this.1, ?_, this.2⟩
  have h := this.1.isHermitian
  rwa [Matrix.IsHermitian, Matrix.conjTranspose_eq_transpose_of_trivial] at h

/-- **C89, the sampled distribution.** If the eigenvalue routine returns orthonormal eigenvectors, the matrix that transforms the normal draws is,
in every reached state, a square root of `stepSize²` times the covariance matrix. -/
theorem C89_distribution (hn : 1 ≤ n) (eig : Matrix (Fin n) (Fin n) ℝ → Vec n × Matrix (Fin n) (Fin n) ℝ) (he : EigSpec eig) (sp : ℝ) (g : Vec n → ℝ)
    (x0 : Vec n) (σ : ℝ) (hσ : 0 < σ) (m : Option Nat) (zs : List (Nat → Vec n)) :
    let s := (Cma.init x0 σ m).run eig sp g zs
    (s.stepSize • (s.B * s.D)) * (s.stepSize • (s.B * s.D))ᵀ = s.stepSize ^ 2 • s.C := by
  intro s
  have hBD : (s.B * s.D) * (s.B * s.D)ᵀ = s.C := by
    rcases List.eq_nil_or_concat zs with h | ⟨ys, z, h⟩
    · simp only [s, h, Cma.run, Cma.init, Matrix.mul_one]
    · have hs : s = ((Cma.init x0 σ m).run eig sp g ys).step eig sp g z := by
        simp only [s, h, List.concat_eq_append, cma_run_append]
      obtain ⟨hpd, hsym, _⟩ := C89_covariance hn eig sp g x0 σ hσ m zs
      obtain ⟨_, _, _, hC, _, hB, hD, _⟩ := step_eq eig sp g z ((Cma.init x0 σ m).run eig sp g ys)
      rw [← hs] at hC hB hD
      rw [← hC] at hB hD
      obtain ⟨e1, e2⟩ := he s.C hsym
      rw [← hB] at e1 e2
      have e1' : s.Bᵀ * s.B = 1 := mul_eq_one_comm.1 e1
      have hpos : ∀ i, 0 ≤ (eig s.C).1 i := by
        intro i
        have h1 : (s.Bᵀ * s.C * s.B).PosSemidef := by
          have := hpd.posSemidef.conjTranspose_mul_mul_same s.B
          rwa [Matrix.conjTranspose_eq_transpose_of_trivial] at this
        have h2 : s.Bᵀ * s.C * s.B = diagonal (eig s.C).1 := by
          calc s.Bᵀ * s.C * s.B = s.Bᵀ * (s.B * diagonal (eig s.C).1 * s.Bᵀ) * s.B := by rw [← e2]
            _ = (s.Bᵀ * s.B) * diagonal (eig s.C).1 * (s.Bᵀ * s.B) := by simp only [Matrix.mul_assoc]
            _ = _ := by rw [e1', Matrix.one_mul, Matrix.mul_one]
        have h3 := h1.diag_nonneg (i := i)
        rw [h2] at h3
        simpa using h3
      calc (s.B * s.D) * (s.B * s.D)ᵀ = s.B * (s.D * s.Dᵀ) * s.Bᵀ := by rw [Matrix.transpose_mul]; simp only [Matrix.mul_assoc]
        _ = s.B * diagonal (eig s.C).1 * s.Bᵀ := by
          rw [hD, Matrix.diagonal_transpose, Matrix.diagonal_mul_diagonal]
          congr 3
          funext i
          exact Real.mul_self_sqrt (hpos i)
        _ = s.C := e2.symm
  rw [Matrix.transpose_smul, Matrix.smul_mul, Matrix.mul_smul, hBD, smul_smul, pow_two]

/-- **C89, CMA-ES does not depend on the origin.** On a shifted problem, from the shifted start, the run is the shifted run. -/
theorem C89_translation (eig : Matrix (Fin n) (Fin n) ℝ → Vec n × Matrix (Fin n) (Fin n) ℝ) (sp : ℝ) (g : Vec n → ℝ) (t : Vec n) (x0 : Vec n) (σ : ℝ)
    (m : Option Nat) (zs : List (Nat → Vec n)) :
    (Cma.init (x0 + t) σ m).run eig sp (fun x => g (x - t)) zs = ((Cma.init x0 σ m).run eig sp g zs).shift t := by
  have hstep : ∀ (z : Nat → Vec n) (s : Cma n), (s.shift t).step eig sp (fun x => g (x - t)) z = (s.step eig sp g z).shift t := by
    intro z s
    have hpt : (s.shift t).point = fun z => s.point z + t := by
      funext z
      simp only [Cma.point, Cma.shift]
      abel
    have hfit : (((List.range (batchSize n)).map z).map (s.shift t).point).map (fun x => g (x - t)) = (((List.range (batchSize n)).map z).map s.point).map g := by
      rw [hpt, List.map_map, List.map_map, List.map_map, List.map_map]
      refine List.map_congr_left (fun k _ => ?_)
      simp only [Function.comp, add_sub_cancel_right]
    have hch : chosen (fun x => g (x - t)) z (s.shift t) = chosen g z s := by
      rw [chosen, chosen, hfit]
    obtain ⟨a1, a2, a3, a4, a5, a6, a7, a8, a9⟩ := step_eq eig sp g z s
    obtain ⟨b1, b2, b3, b4, b5, b6, b7, b8, b9⟩ := step_eq eig sp (fun x => g (x - t)) z (s.shift t)
    rw [hch] at b1 b2 b3 b4 b5 b6 b7
    have hmax : ((s.shift t).step eig sp (fun x => g (x - t)) z).maxLearningSteps = (s.step eig sp g z).maxLearningSteps := by
      have hev : (eig ((s.shift t).step eig sp (fun x => g (x - t)) z).C).1 = (eig (s.step eig sp g z).C).1 := by rw [b4, a4]; rfl
      have e1 : ∀ (s : Cma n) (g : Vec n → ℝ), (s.step eig sp g z).maxLearningSteps = (open Classical in
          if ((((sorti ((((List.range (batchSize n)).map z).map s.point).map g)).map Prod.fst).headD 0 =
            ((sorti ((((List.range (batchSize n)).map z).map s.point).map g)).map Prod.fst).getLastD 0 ∨
            |((sorti ((((List.range (batchSize n)).map z).map s.point).map g)).map Prod.fst).headD 0 -
              ((sorti ((((List.range (batchSize n)).map z).map s.point).map g)).map Prod.fst).getLastD 0| /
            (|((sorti ((((List.range (batchSize n)).map z).map s.point).map g)).map Prod.fst).headD 0| +
              |((sorti ((((List.range (batchSize n)).map z).map s.point).map g)).map Prod.fst).getLastD 0|) ≤ sp) ∨
            ∀ i, 1e5 < (eig (s.step eig sp g z).C).1 i) then some s.numLearningSteps else s.maxLearningSteps) := fun s g => rfl
      rw [e1, e1, hfit, hev]
      rfl
    have hext : ∀ a b : Cma n, a.center = b.center → a.stepSize = b.stepSize → a.covPath = b.covPath → a.stepPath = b.stepPath → a.B = b.B →
        a.D = b.D → a.C = b.C → a.numEvaluations = b.numEvaluations → a.numLearningSteps = b.numLearningSteps →
        a.maxLearningSteps = b.maxLearningSteps → a = b := by
      intro a b h1 h2 h3 h4 h5 h6 h7 h8 h9 h10
      cases a; cases b
      simp_all
    refine hext _ _ ?_ ?_ ?_ ?_ ?_ ?_ ?_ ?_ ?_ ?_
    · rw [b1]
      change _ = (s.step eig sp g z).center + t
      rw [a1]
      simp only [Cma.shift]
      abel
    · exact b5.trans a5.symm
    · exact b3.trans a3.symm
    · exact b2.trans a2.symm
    · exact b6.trans a6.symm
    · exact b7.trans a7.symm
    · exact b4.trans a4.symm
    · exact b8.trans a8.symm
    · exact b9.trans a9.symm
    · exact hmax
  have key : ∀ (zs : List (Nat → Vec n)) (s : Cma n), (s.shift t).run eig sp (fun x => g (x - t)) zs = (s.run eig sp g zs).shift t := by
    intro zs
    induction zs with
    | nil => intro s; rfl
    | cons z zs ih =>
      intro s
      rw [Cma.run, Cma.run, hstep, ih]
  exact key zs (Cma.init x0 σ m)

/-- **C89, CMA-ES looks only at the order of the fitnesses** (apart from its stopping criterion): a strictly increasing function of the objective
gives the same centers, step sizes and matrices. -/
theorem C89_order (eig : Matrix (Fin n) (Fin n) ℝ → Vec n × Matrix (Fin n) (Fin n) ℝ) (sp : ℝ) (g : Vec n → ℝ) (φ : ℝ → ℝ) (hφ : StrictMono φ) (x0 : Vec n)
    (σ : ℝ) (m : Option Nat) (zs : List (Nat → Vec n)) :
    ({ (Cma.init x0 σ m).run eig sp (fun x => φ (g x)) zs with maxLearningSteps := none } : Cma n) =
      { (Cma.init x0 σ m).run eig sp g zs with maxLearningSteps := none } := by
  have hext : ∀ a b : Cma n, a.center = b.center → a.stepSize = b.stepSize → a.covPath = b.covPath → a.stepPath = b.stepPath → a.B = b.B →
      a.D = b.D → a.C = b.C → a.numEvaluations = b.numEvaluations → a.numLearningSteps = b.numLearningSteps →
      ({ a with maxLearningSteps := none } : Cma n) = { b with maxLearningSteps := none } := by
    intro a b h1 h2 h3 h4 h5 h6 h7 h8 h9
    cases a; cases b
    simp_all
  have hstep : ∀ (z : Nat → Vec n) (s : Cma n) (k : Option Nat),
      ({ ({ s with maxLearningSteps := k } : Cma n).step eig sp (fun x => φ (g x)) z with maxLearningSteps := none } : Cma n) =
        { s.step eig sp g z with maxLearningSteps := none } := by
    intro z s k
    have hfit : (((List.range (batchSize n)).map z).map s.point).map (fun x => φ (g x)) = ((((List.range (batchSize n)).map z).map s.point).map g).map φ := by
      simp only [List.map_map]; rfl
    have hch : chosen (fun x => φ (g x)) z { s with maxLearningSteps := k } = chosen g z s := by
      have hpt : Cma.point ({ s with maxLearningSteps := k } : Cma n) = s.point := rfl
      rw [chosen, chosen, hpt, hfit, sorti_map φ hφ]
    obtain ⟨a1, a2, a3, a4, a5, a6, a7, a8, a9⟩ := step_eq eig sp g z s
    obtain ⟨b1, b2, b3, b4, b5, b6, b7, b8, b9⟩ := step_eq eig sp (fun x => φ (g x)) z { s with maxLearningSteps := k }
    rw [hch] at b1 b2 b3 b4 b5 b6 b7
    exact hext _ _ (b1.trans a1.symm) (b5.trans a5.symm) (b3.trans a3.symm) (b2.trans a2.symm) (b6.trans a6.symm) (b7.trans a7.symm)
      (b4.trans a4.symm) (b8.trans a8.symm) (b9.trans a9.symm)
  have key : ∀ (zs : List (Nat → Vec n)) (s s' : Cma n), ({ s with maxLearningSteps := none } : Cma n) = { s' with maxLearningSteps := none } →
      ({ s.run eig sp (fun x => φ (g x)) zs with maxLearningSteps := none } : Cma n) = { s'.run eig sp g zs with maxLearningSteps := none } := by
    intro zs
    induction zs with
    | nil => intro s s' h; exact h
    | cons z zs ih =>
      intro s s' h
      rw [Cma.run, Cma.run]
      refine ih _ _ ?_
      have e : s = { s' with maxLearningSteps := s.maxLearningSteps } := by
        cases s; cases s'
        simp_all
      have := hstep z s' s.maxLearningSteps
      rw [← e] at this
      exact this
  exact key zs _ _ rfl

/-- **C89, stopping.** Let `b` and `w` be the smallest and the largest fitness of a batch. If they are equal, or their difference relative to the sum of
their absolute values is at most `stopPrecision`, `learn` stops after the step; otherwise, unless all eigenvalues exceed 10⁵, the step leaves
the limit on the number of steps alone. -/
theorem C89_stop (eig : Matrix (Fin n) (Fin n) ℝ → Vec n × Matrix (Fin n) (Fin n) ℝ) (sp : ℝ) (g : Vec n → ℝ) (z : Nat → Vec n) (s : Cma n) (b w : ℝ)
    (hb : (∃ k < batchSize n, g (s.center + s.stepSize • ((s.B * s.D) *ᵥ z k)) = b) ∧ ∀ k < batchSize n, b ≤ g (s.center + s.stepSize • ((s.B * s.D) *ᵥ z k)))
    (hw : (∃ k < batchSize n, g (s.center + s.stepSize • ((s.B * s.D) *ᵥ z k)) = w) ∧ ∀ k < batchSize n, g (s.center + s.stepSize • ((s.B * s.D) *ᵥ z k)) ≤ w) :
    ((b = w ∨ |b - w| / (|b| + |w|) ≤ sp) → (s.step eig sp g z).stops) ∧
    (¬ (b = w ∨ |b - w| / (|b| + |w|) ≤ sp) → (∃ i, (eig (s.step eig sp g z).C).1 i ≤ 1e5) → (s.step eig sp g z).maxLearningSteps = s.maxLearningSteps) := by
  set fits := (((List.range (batchSize n)).map z).map s.point).map g with hfits
  have hmem : ∀ v, v ∈ fits ↔ ∃ k < batchSize n, g (s.center + s.stepSize • ((s.B * s.D) *ᵥ z k)) = v := by
    intro v
    simp [hfits, Cma.point]
  have hsmem : ∀ v, v ∈ (sorti fits).map Prod.fst ↔ v ∈ fits := by
    intro v
    have := ((sorti_perm fits).map Prod.fst).mem_iff (a := v)
    rw [this, List.zipIdx_map_fst]
  have hsorted := sorti_sorted fits
  have hne : (sorti fits).map Prod.fst ≠ [] := by
    obtain ⟨k, hk, e⟩ := hb.1
    exact List.ne_nil_of_mem ((hsmem b).2 ((hmem b).2 ⟨k, hk, e⟩))
  have hhead : ((sorti fits).map Prod.fst).headD 0 = b := by
    have hbm := (hsmem b).2 ((hmem b).2 hb.1)
    generalize hl : (sorti fits).map Prod.fst = l at *
    cases l with
    | nil => exact absurd rfl hne
    | cons a l =>
      rw [List.headD_cons]
      have h1 : a ≤ b := by
        rcases List.mem_cons.1 hbm with h | h
        · exact h.ge
        · exact (List.pairwise_cons.1 hsorted).1 b h
      obtain ⟨k, hk, e⟩ := (hmem a).1 ((hsmem a).1 List.mem_cons_self)
      exact le_antisymm h1 (e ▸ hb.2 k hk)
  have hlast : ((sorti fits).map Prod.fst).getLastD 0 = w := by
    have hwm := (hsmem w).2 ((hmem w).2 hw.1)
    generalize hl : (sorti fits).map Prod.fst = l at *
    obtain ⟨l', a, rfl⟩ : ∃ l' a, l = l' ++ [a] := by
      rcases List.eq_nil_or_concat l with h | ⟨l', a, h⟩
      · exact absurd h hne
      · exact ⟨l', a, by rw [h, List.concat_eq_append]⟩
    have hgl : (l' ++ [a]).getLastD 0 = a := by simp
    rw [hgl]
    have h1 : w ≤ a := by
      rcases List.mem_append.1 hwm with h | h
      · exact (List.pairwise_append.1 hsorted).2.2 w h a (by simp)
      · rw [List.mem_singleton.1 h]
    obtain ⟨k, hk, e⟩ := (hmem a).1 ((hsmem a).1 (by simp))
    exact le_antisymm (e ▸ hw.2 k hk) h1
  have e1 : (s.step eig sp g z).maxLearningSteps = (open Classical in
      if ((((sorti fits).map Prod.fst).headD 0 = ((sorti fits).map Prod.fst).getLastD 0 ∨
        |((sorti fits).map Prod.fst).headD 0 - ((sorti fits).map Prod.fst).getLastD 0| /
        (|((sorti fits).map Prod.fst).headD 0| + |((sorti fits).map Prod.fst).getLastD 0|) ≤ sp) ∨
        ∀ i, 1e5 < (eig (s.step eig sp g z).C).1 i) then some s.numLearningSteps else s.maxLearningSteps) := rfl
  rw [hhead, hlast] at e1
  refine ⟨fun h => ⟨s.numLearningSteps, ?_, Nat.lt_succ_self _⟩, fun h hi => ?_⟩
  · rw [e1, if_pos (Or.inl h)]
  · rw [e1, if_neg]
    rintro (h' | h')
    · exact h h'
    · obtain ⟨i, hi⟩ := hi
      exact absurd (h' i) (not_lt.2 hi)

theorem cmaes_muEff_gt (n : Nat) : 1 < muEff n := by
  have hl := weights_length n
  have h2 := mu_ge n
  have hp := weights_pos n
  rw [muEff]
  match hw : weights n, hl, hp with
  | [], h, _ => simp at h; omega
  | [_], h, _ => simp at h; omega
  | a :: b :: l, _, hp =>
    obtain ⟨h1, h3, h4⟩ := sq_sum_bounds (b :: l) (fun x hx => hp x (List.mem_cons_of_mem _ hx)) (by simp)
    have ha := hp a List.mem_cons_self
    rw [List.map_cons, List.sum_cons (a := a), List.sum_cons (a := a ^ 2), one_lt_div (by positivity)]
    nlinarith [mul_pos ha h4]

/-- **C89, scale: violated.** The covariance update adds the outer products of the selected steps without dividing them by the step size
(cmaes.py:69, 92), unlike the algorithm it transcribes. Scaling the problem, the start and `initStepSize` by the same factor `a ≠ 1` therefore does
not scale the run: already after the first step the covariance matrix is another one, for every objective and all draws that are not zero. -/
theorem C89_negation_scale (hn : 1 ≤ n) (eig : Matrix (Fin n) (Fin n) ℝ → Vec n × Matrix (Fin n) (Fin n) ℝ) (sp : ℝ) (g : Vec n → ℝ) (x0 : Vec n) (σ a : ℝ)
    (hσ : 0 < σ) (ha : 0 < a) (ha1 : a ≠ 1) (m : Option Nat) (z : Nat → Vec n) (hz : ∀ k, z k ≠ 0) :
    ((Cma.init (a • x0) (a * σ) m).step eig sp (fun x => g (a⁻¹ • x)) z).C ≠ ((Cma.init x0 σ m).step eig sp g z).C := by
  have hfit : (((List.range (batchSize n)).map z).map (Cma.init (a • x0) (a * σ) m).point).map (fun x => g (a⁻¹ • x)) =
      (((List.range (batchSize n)).map z).map (Cma.init x0 σ m).point).map g := by
    simp only [List.map_map]
    refine List.map_congr_left (fun k _ => ?_)
    simp only [Function.comp, Cma.point, Cma.init, smul_add, smul_smul, ← mul_assoc, inv_mul_cancel₀ ha.ne', one_mul, one_smul]
  have hch : chosen (fun x => g (a⁻¹ • x)) z (Cma.init (a • x0) (a * σ) m) = chosen g z (Cma.init x0 σ m) := by
    rw [chosen, chosen, hfit]
  obtain ⟨_, _, _, a4, _⟩ := step_eq eig sp g z (Cma.init x0 σ m)
  obtain ⟨_, _, _, b4, _⟩ := step_eq eig sp (fun x => g (a⁻¹ • x)) z (Cma.init (a • x0) (a * σ) m)
  rw [hch] at b4
  have hlen := chosen_length g z (Cma.init x0 σ m)
  have hnz : ∀ v ∈ chosen g z (Cma.init x0 σ m), v ≠ 0 := by
    intro v hv
    have := List.mem_of_mem_take hv
    obtain ⟨i, _, hi⟩ := List.mem_filterMap.1 this
    obtain ⟨k, _, rfl⟩ := List.mem_map.1 (List.mem_of_getElem? hi)
    exact hz k
  have htr : ∀ X : Matrix (Fin n) (Fin n) ℝ, ((1 / 2 : ℝ) • (X + Xᵀ)).trace = X.trace := by
    intro X
    rw [Matrix.trace_smul, Matrix.trace_add, Matrix.trace_transpose, smul_eq_mul]
    ring
  have hW : ∀ (u : List ℝ) (zs : List (Vec n)), u.length = zs.length → (∀ w ∈ u, 0 < w) → (∀ v ∈ zs, v ≠ 0) → 0 < u.length →
      0 < (wsum u (zs.map (fun v => vecMulVec ((1 * 1 : Matrix (Fin n) (Fin n) ℝ) *ᵥ v) ((1 * 1 : Matrix (Fin n) (Fin n) ℝ) *ᵥ v))) : Matrix (Fin n) (Fin n) ℝ).trace := by
    intro u
    induction u with
    | nil => intro zs _ _ _ h; simp at h
    | cons w u ih =>
      intro zs hl hu hv _
      cases zs with
      | nil => simp at hl
      | cons v zs =>
        have hv0 : 0 < w * (v ⬝ᵥ v) := by
          refine mul_pos (hu w List.mem_cons_self) (lt_of_le_of_ne ?_ ?_)
          · exact Finset.sum_nonneg (fun i _ => mul_self_nonneg _)
          · intro h
            exact hv v List.mem_cons_self (dotProduct_self_eq_zero.1 h.symm)
        simp only [wsum, List.map_cons, List.zipWith_cons_cons, List.sum_cons, Matrix.trace_add, Matrix.trace_smul, Matrix.mul_one, Matrix.one_mulVec,
          Matrix.trace_vecMulVec, smul_eq_mul]
        rcases Nat.eq_zero_or_pos u.length with h | h
        · have : u = [] := List.length_eq_zero_iff.1 h
          subst this
          simpa using hv0
        · have := ih zs (by simpa using hl) (fun w hw => hu w (List.mem_cons_of_mem _ hw)) (fun v hw => hv v (List.mem_cons_of_mem _ hw)) h
          simp only [wsum, Matrix.mul_one, Matrix.one_mulVec] at this
          linarith
  have hWpos := hW (weights n) (chosen g z (Cma.init x0 σ m)) (by rw [weights_length, hlen]) (weights_pos n) hnz
    (by rw [weights_length]; have := mu_ge n; omega)
  intro heq
  rw [a4, b4] at heq
  have ht := congrArg Matrix.trace heq
  rw [htr, htr] at ht
  simp only [Cma.init, Matrix.trace_add, Matrix.trace_smul, smul_eq_mul] at ht
  have h1 := (covLR_bounds n hn).1
  have h2 := cmaes_muEff_gt n
  have h3 : 0 < 1 - 1 / muEff n := by
    rw [sub_pos, div_lt_one (by linarith)]; exact h2
  simp only [Cma.init] at hWpos
  generalize (wsum (weights n) (List.map (fun v => vecMulVec ((1 * 1 : Matrix (Fin n) (Fin n) ℝ) *ᵥ v) ((1 * 1 : Matrix (Fin n) (Fin n) ℝ) *ᵥ v)) _) :
    Matrix (Fin n) (Fin n) ℝ).trace = T at ht hWpos
  have h4 : covLearningRate n * (1 - 1 / muEff n) * ((a * σ) ^ 2 * T) = covLearningRate n * (1 - 1 / muEff n) * (σ ^ 2 * T) := by linarith
  have h5 := mul_left_cancel₀ (mul_pos h1 h3).ne' h4
  have h6 := mul_right_cancel₀ hWpos.ne' h5
  rw [mul_pow] at h6
  have h7 : a ^ 2 = 1 := by
    have : a ^ 2 * σ ^ 2 = 1 * σ ^ 2 := by rw [h6, one_mul]
    exact mul_right_cancel₀ (by positivity) this
  rcases sq_eq_one_iff.1 h7 with h | h
  · exact ha1 h
  · linarith

/-- The hypotheses are met: an eigenvalue routine with orthonormal eigenvectors exists in every dimension. -/
theorem _root_.Verif.CMA.eigSpec_exists (n : Nat) : ∃ eig : Matrix (Fin n) (Fin n) ℝ → Vec n × Matrix (Fin n) (Fin n) ℝ, EigSpec eig := by
  classical
  have : ∀ M : Matrix (Fin n) (Fin n) ℝ, ∃ p : Vec n × Matrix (Fin n) (Fin n) ℝ, M.IsSymm → p.2 * p.2ᵀ = 1 ∧ M = p.2 * diagonal p.1 * p.2ᵀ := by
    intro M
    by_cases h : M.IsSymm
    · have hH : M.IsHermitian := by
        rw [Matrix.IsHermitian, Matrix.conjTranspose_eq_transpose_of_trivial]; exact h
      refine ⟨(hH.eigenvalues, hH.eigenvectorUnitary), fun _ => ⟨?_, ?_⟩⟩
      · have := Unitary.mul_star_self_of_mem hH.eigenvectorUnitary.2
        rwa [Matrix.star_eq_conjTranspose, Matrix.conjTranspose_eq_transpose_of_trivial] at this
      · conv_lhs => rw [hH.spectral_theorem, Unitary.conjStarAlgAut_apply]
        rw [Matrix.star_eq_conjTranspose, Matrix.conjTranspose_eq_transpose_of_trivial]
        rfl
    · exact ⟨(0, 0), fun hs => absurd hs h⟩
  choose eig he using this
  exact ⟨eig, he⟩

end Verif.Props
