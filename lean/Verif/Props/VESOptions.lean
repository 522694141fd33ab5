import Verif.Model.VESOptions
import Verif.Spec.FEMOptions
import Verif.Props.VES
import Mathlib.Data.List.GetD
/-
C181: the options of vanilla gradient evolution strategies.
-/
namespace Verif.VES
open Matrix Verif.Spec

variable {n : ℕ}

/-- the gradient that a batch gives -/
noncomputable def batchGradient (c : Settings) (b : List (Bool × (Fin n → ℝ) × ℝ)) (s : St n) : Par n → ℝ :=
  gradient (fun (i : Fin b.length) j => derivs c.vanillaScale b[i].2.1 s.x s.factor j) fun i => (c.shaping (b.map fun e => e.2.2)).getD i 0

/-- the derivatives of a new sample -/
noncomputable def onlineDerivs (c : Settings) (s : St n) (p : (Fin n → ℝ) × ((Fin n → ℝ) → ℝ)) : Par n → ℝ := derivs c.vanillaScale (newSample s.factor s.x p.1) s.x s.factor

theorem batchRun_append (c : Settings) (bs : List (List (Bool × (Fin n → ℝ) × ℝ))) (b : List (Bool × (Fin n → ℝ) × ℝ)) : ∀ s : St n, batchRun c s (bs ++ [b]) = batchLearn c b (batchRun c s bs) := by
  induction bs with
  | nil => intro s; rfl
  | cons a bs ih => intro s; exact ih _

theorem onlineRun_append (c : Settings) (ps : List ((Fin n → ℝ) × ((Fin n → ℝ) → ℝ))) (p : (Fin n → ℝ) × ((Fin n → ℝ) → ℝ)) : ∀ s : St n, onlineRun c s (ps ++ [p]) = onlineLearn c (onlineRun c s ps) p := by
  induction ps with
  | nil => intro s; rfl
  | cons a ps ih => intro s; exact ih _

theorem bestOf_best (l : List ((Fin n → ℝ) × ℝ)) (b : Option ((Fin n → ℝ) × ℝ)) (h : (b = none ∧ l = []) ∨ ∃ v, b = some v ∧ BestOf l v) (z : Fin n → ℝ) (f : ℝ) :
    ∃ v, bestOf b z f = some v ∧ BestOf (l ++ [(z, f)]) v := by
  rcases h with ⟨rfl, rfl⟩ | ⟨v, rfl, hv⟩
  · exact ⟨(z, f), rfl, by simp, by simp⟩
  · unfold bestOf
    dsimp only
    split_ifs with h
    · refine ⟨_, rfl, by simp, fun e he => ?_⟩
      rcases List.mem_append.1 he with he | he
      · exact (hv.2 e he).trans h
      · rw [List.mem_singleton.1 he]
    · refine ⟨_, rfl, List.mem_append_left _ hv.1, fun e he => ?_⟩
      rcases List.mem_append.1 he with he | he
      · exact hv.2 e he
      · rw [List.mem_singleton.1 he]; exact (not_le.1 h).le

theorem evaluate_best (b : List (Bool × (Fin n → ℝ) × ℝ)) : ∀ (l : List ((Fin n → ℝ) × ℝ)) (o : Option ((Fin n → ℝ) × ℝ)), ((o = none ∧ l = []) ∨ ∃ v, o = some v ∧ BestOf l v) →
    (b.foldl evaluate o = none ∧ l ++ (b.filter (·.1)).map (·.2) = []) ∨ ∃ v, b.foldl evaluate o = some v ∧ BestOf (l ++ (b.filter (·.1)).map (·.2)) v := by
  induction b with
  | nil => intro l o h; simpa using h
  | cons e b ih =>
    intro l o h
    rw [List.foldl_cons, List.filter_cons]
    by_cases he : e.1 = true
    · rw [if_pos he, List.map_cons, ← List.singleton_append, ← List.append_assoc]
      refine ih _ _ (Or.inr ?_)
      have := bestOf_best l o h e.2.1 e.2.2
      unfold evaluate
      rw [if_pos he]
      exact this
    · rw [if_neg he]
      have : evaluate o e = o := by unfold evaluate; rw [if_neg he]
      rw [this]
      exact ih _ _ h

theorem run_best (c : Settings) (x : Fin n → ℝ) (A : Matrix (Fin n) (Fin n) ℝ) (bs : List (List (Bool × (Fin n → ℝ) × ℝ))) :
    ((batchRun c (begin c x A) bs).best = none ∧ (bs.flatten.filter (·.1)).map (·.2) = []) ∨
    ∃ v, (batchRun c (begin c x A) bs).best = some v ∧ BestOf ((bs.flatten.filter (·.1)).map (·.2)) v := by
  induction bs using List.reverseRecOn with
  | nil => exact Or.inl ⟨rfl, rfl⟩
  | append_singleton bs b ih =>
    rw [batchRun_append, List.flatten_append, List.filter_append, List.map_append]
    have := evaluate_best b _ _ ih
    simpa [batchLearn, move, List.flatten_cons] using this

theorem onlineRun_fitnesses (c : Settings) (s : St n) (ps : List ((Fin n → ℝ) × ((Fin n → ℝ) → ℝ))) : (onlineRun c s ps).fitnesses.length = s.fitnesses.length + ps.length := by
  induction ps generalizing s with
  | nil => rfl
  | cons p ps ih =>
    rw [onlineRun, ih, List.length_cons]
    have : (onlineLearn c s p).fitnesses.length = s.fitnesses.length + 1 := by
      unfold onlineLearn move
      dsimp only
      split_ifs <;> simp
    omega

/-- the window after a step -/
theorem onlineLearn_window (c : Settings) (s : St n) (p : (Fin n → ℝ) × ((Fin n → ℝ) → ℝ)) : (onlineLearn c s p).window =
    if s.fitnesses.length + 1 ≤ c.batchSize then s.window else s.window.set ((s.fitnesses.length + 1) % c.batchSize) fun j => onlineDerivs c s p j * onlineDerivs c s p j := by
  unfold onlineLearn move onlineGradient onlineDerivs
  dsimp only
  simp only [List.length_append, List.length_singleton]
  split_ifs <;> rfl

theorem onlineRun_window_length (c : Settings) (x : Fin n → ℝ) (A : Matrix (Fin n) (Fin n) ℝ) (ps : List ((Fin n → ℝ) × ((Fin n → ℝ) → ℝ))) : (onlineRun c (begin c x A) ps).window.length = c.batchSize := by
  induction ps using List.reverseRecOn with
  | nil => simp [onlineRun, begin]
  | append_singleton ps p ih =>
    rw [onlineRun_append, onlineLearn_window]
    split_ifs
    · exact ih
    · rw [List.length_set, ih]

/-- the last samples after the first batch have their squared derivatives in the window, at their number modulo the size of the batch -/
theorem onlineRun_window (c : Settings) (hB : 0 < c.batchSize) (x : Fin n → ℝ) (A : Matrix (Fin n) (Fin n) ℝ) (ps : List ((Fin n → ℝ) × ((Fin n → ℝ) → ℝ))) :
    ∀ (q : ℕ) (hq : q < ps.length), c.batchSize ≤ q → ps.length ≤ q + c.batchSize →
      (onlineRun c (begin c x A) ps).window[(q + 1) % c.batchSize]? =
        some fun j => onlineDerivs c (onlineRun c (begin c x A) (ps.take q)) ps[q] j * onlineDerivs c (onlineRun c (begin c x A) (ps.take q)) ps[q] j := by
  induction ps using List.reverseRecOn with
  | nil => intro q hq; simp at hq
  | append_singleton ps p ih =>
    intro q hq hBq hle
    rw [List.length_append, List.length_singleton] at hq hle
    have hlen : (onlineRun c (begin c x A) ps).fitnesses.length = ps.length := by rw [onlineRun_fitnesses]; simp [begin]
    rw [onlineRun_append, onlineLearn_window, hlen, if_neg (by omega)]
    rcases Nat.lt_or_ge q ps.length with h | h
    · have hne : (ps.length + 1) % c.batchSize ≠ (q + 1) % c.batchSize := by
        intro h'
        have h2 : (ps.length + 1 - (q + 1)) % c.batchSize = 0 := Nat.sub_mod_eq_zero_of_mod_eq h'
        have h3 : (ps.length + 1 - (q + 1)) % c.batchSize = ps.length + 1 - (q + 1) := Nat.mod_eq_of_lt (by omega)
        omega
      rw [List.getElem?_set, if_neg hne, ih q h hBq (by omega)]
      rw [List.take_append_of_le_length h.le, List.getElem_append_left h]
    · have hq' : q = ps.length := by omega
      subst hq'
      rw [List.getElem?_set, if_pos rfl, if_pos (by rw [onlineRun_window_length]; exact Nat.mod_lt _ hB)]
      simp

/-- the window has only zeros before the first update -/
theorem onlineRun_window_start (c : Settings) (x : Fin n → ℝ) (A : Matrix (Fin n) (Fin n) ℝ) (ps : List ((Fin n → ℝ) × ((Fin n → ℝ) → ℝ))) (h : ps.length ≤ c.batchSize) :
    (onlineRun c (begin c x A) ps).window = List.replicate c.batchSize 0 ∧ (onlineRun c (begin c x A) ps).x = x ∧ (onlineRun c (begin c x A) ps).factor = A ∧
    (onlineRun c (begin c x A) ps).momentumVector = 0 := by
  induction ps using List.reverseRecOn with
  | nil => exact ⟨rfl, rfl, rfl, rfl⟩
  | append_singleton ps p ih =>
    rw [List.length_append, List.length_singleton] at h
    obtain ⟨h1, h2, h3, h4⟩ := ih (by omega)
    have hlen : (onlineRun c (begin c x A) ps).fitnesses.length = ps.length := by rw [onlineRun_fitnesses]; simp [begin]
    rw [onlineRun_append]
    unfold onlineLearn
    dsimp only
    rw [if_pos (by rw [List.length_append, hlen]; exact h)]
    exact ⟨h1, h2, h3, h4⟩

/-- the gradient of an online step, for the window that it makes -/
theorem online_move (c : Settings) (s : St n) (p : (Fin n → ℝ) × ((Fin n → ℝ) → ℝ)) (h : c.batchSize ≤ s.fitnesses.length) (hm : c.momentum = none) (i : Fin n) :
    (onlineLearn c s p).x i = s.x i + c.learningRate *
      (((c.shaping ((onlineLearn c s p).fitnesses.drop (s.fitnesses.length + 1 - c.batchSize))).getLast?.getD 0 -
        onlineBaseline (c.shaping ((onlineLearn c s p).fitnesses.drop (s.fitnesses.length + 1 - c.batchSize))) (onlineLearn c s p).window (.inl i)) * onlineDerivs c s p (.inl i)) ∧
    ∀ k l, k ≤ l → (onlineLearn c s p).factor k l = s.factor k l + c.learningRateSigma *
      (((c.shaping ((onlineLearn c s p).fitnesses.drop (s.fitnesses.length + 1 - c.batchSize))).getLast?.getD 0 -
        onlineBaseline (c.shaping ((onlineLearn c s p).fitnesses.drop (s.fitnesses.length + 1 - c.batchSize))) (onlineLearn c s p).window (.inr (k, l))) * onlineDerivs c s p (.inr (k, l))) := by
  rw [onlineLearn_window]
  have hn : ¬ s.fitnesses.length + 1 ≤ c.batchSize := by omega
  have hf : (onlineLearn c s p).fitnesses = s.fitnesses ++ [p.2 (newSample s.factor s.x p.1)] := by
    unfold onlineLearn move
    dsimp only
    split_ifs <;> rfl
  rw [hf, if_neg hn]
  unfold onlineLearn move onlineGradient withMomentum step onlineDerivs
  simp only [List.length_append, List.length_singleton, if_neg hn, hm, Bool.false_eq_true, if_false, one_mul]
  refine ⟨rfl, fun k l hkl => ?_⟩
  simp [hkl]

theorem scaledDeriv_true (z x : Fin n → ℝ) (M A : Matrix (Fin n) (Fin n) ℝ) : scaledDeriv true z x M A =
    A * ((Matrix.of fun i j => |A i i| * |A j j| * ((0.5 : ℝ) • (M * vecMulVec (z - x) (z - x) * M) - (0.5 : ℝ) • M) i j) +
      (Matrix.of fun i j => |A i i| * |A j j| * ((0.5 : ℝ) • (M * vecMulVec (z - x) (z - x) * M) - (0.5 : ℝ) • M) i j)ᵀ) := rfl

theorem scaledDeriv_false (z x : Fin n → ℝ) (M A : Matrix (Fin n) (Fin n) ℝ) : scaledDeriv false z x M A =
    A * (((0.5 : ℝ) • (M * vecMulVec (z - x) (z - x) * M) - (0.5 : ℝ) • M) + ((0.5 : ℝ) • (M * vecMulVec (z - x) (z - x) * M) - (0.5 : ℝ) • M)ᵀ) := rfl

end Verif.VES

namespace Verif.Props
open Matrix Verif.VES Verif.Spec

variable {n : ℕ}

/-- **C181, momentum.** With momentum `m` the update after a batch is the sum of the gradients of all batches so far, each multiplied with the power of `m` that is its age. Without momentum it is the gradient of the batch. -/
theorem C181_momentum (c : Settings) (he : c.elitism = false) (x : Fin n → ℝ) (A : Matrix (Fin n) (Fin n) ℝ) (bs : List (List (Bool × (Fin n → ℝ) × ℝ))) (b : List (Bool × (Fin n → ℝ) × ℝ)) (u : Par n → ℝ)
    (hu : u = match c.momentum with
      | some m => ∑ i : Fin (bs ++ [b]).length, m ^ (bs.length - i) • batchGradient c (bs ++ [b])[i] (batchRun c (begin c x A) ((bs ++ [b]).take i))
      | none => batchGradient c b (batchRun c (begin c x A) bs)) :
    (∀ i, (batchRun c (begin c x A) (bs ++ [b])).x i = (batchRun c (begin c x A) bs).x i + c.learningRate * u (.inl i)) ∧
    ∀ i j, (batchRun c (begin c x A) (bs ++ [b])).factor i j = (batchRun c (begin c x A) bs).factor i j + if i ≤ j then c.learningRateSigma * u (.inr (i, j)) else 0 := by
  have key : ∀ (s : St n) (b : List (Bool × (Fin n → ℝ) × ℝ)),
      (batchLearn c b s).momentumVector = (withMomentum c.momentum s.momentumVector (batchGradient c b s)).1 ∧
      (∀ i, (batchLearn c b s).x i = s.x i + c.learningRate * (withMomentum c.momentum s.momentumVector (batchGradient c b s)).2 (.inl i)) ∧
      ∀ i j, (batchLearn c b s).factor i j = s.factor i j + if i ≤ j then c.learningRateSigma * (withMomentum c.momentum s.momentumVector (batchGradient c b s)).2 (.inr (i, j)) else 0 := by
    intro s b
    unfold batchLearn move step
    simp only [he, Bool.false_eq_true, if_false]
    refine ⟨rfl, fun i => rfl, fun i j => ?_⟩
    show s.factor i j + c.learningRateSigma * (if i ≤ j then _ else 0) = _
    split_ifs
    · rfl
    · rw [mul_zero]
  rw [batchRun_append]
  obtain ⟨_, h2, h3⟩ := key (batchRun c (begin c x A) bs) b
  have hu2 : (withMomentum c.momentum (batchRun c (begin c x A) bs).momentumVector (batchGradient c b (batchRun c (begin c x A) bs))).2 = u := by
    rw [hu]
    cases hm : c.momentum with
    | none => rfl
    | some m =>
      have hv : ∀ bs : List (List (Bool × (Fin n → ℝ) × ℝ)), (batchRun c (begin c x A) bs).momentumVector =
          ∑ i : Fin bs.length, m ^ (bs.length - 1 - i) • batchGradient c bs[i] (batchRun c (begin c x A) (bs.take i)) := by
        intro bs
        induction bs using List.reverseRecOn with
        | nil => simp [batchRun, begin]
        | append_singleton bs b ih =>
          rw [batchRun_append, (key _ b).1, hm]
          show m • (batchRun c (begin c x A) bs).momentumVector + batchGradient c b (batchRun c (begin c x A) bs) = _
          rw [ih]
          have e : (bs ++ [b]).length = bs.length + 1 := by simp
          rw [← Equiv.sum_comp (finCongr e.symm), Fin.sum_univ_castSucc]
          congr 1
          · rw [Finset.smul_sum]
            refine Finset.sum_congr rfl fun i _ => ?_
            have hi := i.2
            rw [smul_smul, ← pow_succ']
            simp only [finCongr_apply, Fin.val_cast, Fin.val_castSucc, e, Fin.getElem_fin]
            rw [List.take_append_of_le_length hi.le, List.getElem_append_left hi]
            congr 2
            omega
          · simp [e]
      show m • (batchRun c (begin c x A) bs).momentumVector + batchGradient c b (batchRun c (begin c x A) bs) = _
      have h5 := hv (bs ++ [b])
      rw [batchRun_append, (key _ b).1, hm] at h5
      refine Eq.trans h5 (Finset.sum_congr rfl fun i _ => ?_)
      simp
  rw [hu2] at h2 h3
  exact ⟨h2, h3⟩

/-- **C181, elitism.** With elitism the center is after every batch the best of all evaluated samples. -/
theorem C181_elitism (c : Settings) (he : c.elitism = true) (x : Fin n → ℝ) (A : Matrix (Fin n) (Fin n) ℝ) (bs : List (List (Bool × (Fin n → ℝ) × ℝ))) (b : List (Bool × (Fin n → ℝ) × ℝ))
    (hne : ((bs ++ [b]).flatten.filter (·.1)) ≠ []) :
    ∃ v, BestOf (((bs ++ [b]).flatten.filter (·.1)).map (·.2)) ((batchRun c (begin c x A) (bs ++ [b])).x, v) := by
  rcases run_best c x A (bs ++ [b]) with ⟨_, h⟩ | ⟨v, hv, hb⟩
  · exact absurd (List.map_eq_nil_iff.1 h) hne
  · refine ⟨v.2, ?_⟩
    have : (batchRun c (begin c x A) (bs ++ [b])).x = v.1 := by
      rw [batchRun_append] at hv ⊢
      have h1 : ∀ s : St n, (batchLearn c b s).x = ((batchLearn c b s).best.map Prod.fst).getD 0 := by
        intro s
        unfold batchLearn move
        simp only [he, if_true]
      rw [h1, hv]
      rfl
    rw [this]
    exact hb

/-- **C181, vanilla scaling.** With it, the derivatives with respect to the factor are those without, multiplied as matrices (in the coordinates of the covariance) from both sides with the diagonal of the factor. For an
axis-parallel distribution with deviations `a` a sample with noise `p` changes the deviation `a i` in proportion to `a i * (p i ^ 2 - 1)` with the scaling, and to `(p i ^ 2 - 1) / a i` without. -/
theorem C181_vanillaScale (A : Matrix (Fin n) (Fin n) ℝ) (hA : A.det ≠ 0) (z x : Fin n → ℝ) :
    scaledDeriv true z x (sigma A)⁻¹ A = A * (diagonal (fun i => |A i i|) * (A⁻¹ * logDerivFactorSigma z x (sigma A)⁻¹ A) * diagonal fun i => |A i i|) ∧
    scaledDeriv false z x (sigma A)⁻¹ A = logDerivFactorSigma z x (sigma A)⁻¹ A ∧
    ∀ (a p : Fin n → ℝ), (∀ i, a i ≠ 0) → A = diagonal a → z = newSample A x p → ∀ i,
      scaledDeriv true z x (sigma A)⁻¹ A i i = a i * (p i ^ 2 - 1) ∧ scaledDeriv false z x (sigma A)⁻¹ A i i = (p i ^ 2 - 1) / a i ∧ logDerivX z x (sigma A)⁻¹ i = p i / a i := by
  have hu : IsUnit A.det := isUnit_iff_ne_zero.2 hA
  refine ⟨?_, rfl, ?_⟩
  · unfold scaledDeriv logDerivFactorSigma
    dsimp only
    rw [nonsing_inv_mul_cancel_left _ _ hu]
    generalize (0.5 : ℝ) • ((sigma A)⁻¹ * vecMulVec (z - x) (z - x) * (sigma A)⁻¹) - (0.5 : ℝ) • (sigma A)⁻¹ = D
    congr 1
    ext i j
    simp only [if_true, Matrix.add_apply, of_apply, transpose_apply, mul_diagonal, diagonal_mul]
    ring
  · rintro a p ha rfl rfl i
    have hs : (sigma (diagonal a))⁻¹ = diagonal fun i => 1 / (a i * a i) := by
      refine inv_eq_right_inv ?_
      rw [sigma, diagonal_transpose, diagonal_mul_diagonal, diagonal_mul_diagonal, ← diagonal_one]
      congr 1
      funext k
      have := ha k
      field_simp
    have hd : ∀ k, (newSample (diagonal a) x p - x) k = a k * p k := by
      intro k
      simp [newSample, diagonal_transpose, mulVec_diagonal]
    have hi := ha i
    have hD : ((0.5 : ℝ) • ((sigma (diagonal a))⁻¹ * vecMulVec (newSample (diagonal a) x p - x) (newSample (diagonal a) x p - x) * (sigma (diagonal a))⁻¹) - (0.5 : ℝ) • (sigma (diagonal a))⁻¹) i i =
        0.5 * (p i ^ 2 - 1) / (a i * a i) := by
      rw [hs]
      simp only [Matrix.sub_apply, Matrix.smul_apply, mul_diagonal, diagonal_mul, vecMulVec_apply, hd, diagonal_apply_eq, smul_eq_mul]
      field_simp
    refine ⟨?_, ?_, ?_⟩
    · rw [scaledDeriv_true, diagonal_mul, Matrix.add_apply, transpose_apply, of_apply, hD, diagonal_apply_eq, abs_mul_abs_self]
      field_simp
      ring
    · rw [scaledDeriv_false, diagonal_mul, Matrix.add_apply, transpose_apply, hD]
      field_simp
      ring
    · unfold logDerivX
      rw [hs, mulVec_diagonal, hd]
      field_simp

/-- **C181 violated: vanilla scaling** makes only the change of the deviations follow the scale of the search space. If all coordinates are multiplied with `k`, the deviations change by `k` times as much, as they should, but
the center, which should do so too, moves by a `k`-th. -/
theorem C181_negation_vanillaScale (a x p : Fin n → ℝ) (ha : ∀ i, a i ≠ 0) (k : ℝ) (hk : k ≠ 0) (i : Fin n) :
    derivs true (newSample (diagonal (k • a)) (k • x) p) (k • x) (diagonal (k • a)) (.inr (i, i)) = k * derivs true (newSample (diagonal a) x p) x (diagonal a) (.inr (i, i)) ∧
    derivs true (newSample (diagonal (k • a)) (k • x) p) (k • x) (diagonal (k • a)) (.inl i) = derivs true (newSample (diagonal a) x p) x (diagonal a) (.inl i) / k ∧
    (p i ≠ 0 → k ≠ 1 → k ≠ -1 → derivs true (newSample (diagonal (k • a)) (k • x) p) (k • x) (diagonal (k • a)) (.inl i) ≠ k * derivs true (newSample (diagonal a) x p) x (diagonal a) (.inl i)) := by
  have hka : ∀ i, (k • a) i ≠ 0 := fun i => mul_ne_zero hk (ha i)
  have d1 : (diagonal a).det ≠ 0 := by rw [det_diagonal]; exact Finset.prod_ne_zero_iff.2 fun i _ => ha i
  have d2 : (diagonal (k • a)).det ≠ 0 := by rw [det_diagonal]; exact Finset.prod_ne_zero_iff.2 fun i _ => hka i
  obtain ⟨e1, _, e2⟩ := (C181_vanillaScale (diagonal a) d1 (newSample (diagonal a) x p) x).2.2 a p ha rfl rfl i
  obtain ⟨f1, _, f2⟩ := (C181_vanillaScale (diagonal (k • a)) d2 (newSample (diagonal (k • a)) (k • x) p) (k • x)).2.2 (k • a) p hka rfl rfl i
  have hi := ha i
  have a1 : derivs true (newSample (diagonal (k • a)) (k • x) p) (k • x) (diagonal (k • a)) (.inr (i, i)) = k * derivs true (newSample (diagonal a) x p) x (diagonal a) (.inr (i, i)) := by
    show scaledDeriv true _ _ _ _ i i = k * scaledDeriv true _ _ _ _ i i
    rw [e1, f1, Pi.smul_apply, smul_eq_mul, mul_assoc]
  have a2 : derivs true (newSample (diagonal (k • a)) (k • x) p) (k • x) (diagonal (k • a)) (.inl i) = derivs true (newSample (diagonal a) x p) x (diagonal a) (.inl i) / k := by
    show logDerivX _ _ _ i = logDerivX _ _ _ i / k
    rw [e2, f2, Pi.smul_apply, smul_eq_mul]
    field_simp
  refine ⟨a1, a2, fun hp h1 h2 h => ?_⟩
  rw [a2] at h
  have h3 : derivs true (newSample (diagonal a) x p) x (diagonal a) (.inl i) = p i / a i := e2
  rw [h3] at h
  field_simp at h
  have h4 : (k - 1) * (k + 1) = 0 := by linear_combination -h
  rcases mul_eq_zero.1 h4 with h5 | h5
  · exact h1 (by linarith)
  · exact h2 (by linarith)

/-- **C181, online learning: the first batch** of samples does not change the distribution. -/
theorem C181_online_start (c : Settings) (x : Fin n → ℝ) (A : Matrix (Fin n) (Fin n) ℝ) (ps : List ((Fin n → ℝ) × ((Fin n → ℝ) → ℝ))) (h : ps.length ≤ c.batchSize) :
    (onlineRun c (begin c x A) ps).x = x ∧ (onlineRun c (begin c x A) ps).factor = A :=
  ⟨(onlineRun_window_start c x A ps h).2.1, (onlineRun_window_start c x A ps h).2.2.1⟩

/-- **C181, online learning, partial.** If the number of samples plus one is a multiple of the size of the batch (and at least two batches have been sampled), the new sample changes each parameter by its derivative times
the difference of its utility and the baseline, which is the mean of the utilities of the last samples with their squared derivatives as weights. -/
theorem C181_online_partial (c : Settings) (hm : c.momentum = none) (hB : 0 < c.batchSize) (hsh : ∀ l : List ℝ, l.length = c.batchSize → (c.shaping l).length = c.batchSize) (x : Fin n → ℝ)
    (A : Matrix (Fin n) (Fin n) ℝ) (ps : List ((Fin n → ℝ) × ((Fin n → ℝ) → ℝ))) (p : (Fin n → ℝ) × ((Fin n → ℝ) → ℝ)) (hN : 2 * c.batchSize ≤ ps.length + 1) (hdvd : c.batchSize ∣ ps.length + 2)
    (f : List ℝ) (hf : f = c.shaping ((onlineRun c (begin c x A) (ps ++ [p])).fitnesses.drop (ps.length + 1 - c.batchSize)))
    (phi : ℕ → Par n → ℝ) (hphi : ∀ i < c.batchSize, phi i = onlineDerivs c (onlineRun c (begin c x A) ((ps ++ [p]).take (ps.length + 1 - c.batchSize + i))) ((ps ++ [p]).getD (ps.length + 1 - c.batchSize + i) (0, fun _ => 0))) :
    let b (j : Par n) := (∑ i ∈ Finset.range c.batchSize, f.getD i 0 * phi i j ^ 2) / ∑ i ∈ Finset.range c.batchSize, phi i j ^ 2
    (∀ i, (onlineRun c (begin c x A) (ps ++ [p])).x i =
      (onlineRun c (begin c x A) ps).x i + c.learningRate * ((f.getD (c.batchSize - 1) 0 - b (.inl i)) * phi (c.batchSize - 1) (.inl i))) ∧
    ∀ k l, k ≤ l → (onlineRun c (begin c x A) (ps ++ [p])).factor k l =
      (onlineRun c (begin c x A) ps).factor k l + c.learningRateSigma * ((f.getD (c.batchSize - 1) 0 - b (.inr (k, l))) * phi (c.batchSize - 1) (.inr (k, l))) := by
  intro b
  have hlen : (onlineRun c (begin c x A) ps).fitnesses.length = ps.length := by rw [onlineRun_fitnesses]; simp [begin]
  have hlen' : (onlineRun c (begin c x A) (ps ++ [p])).fitnesses.length = ps.length + 1 := by rw [onlineRun_fitnesses]; simp [begin]
  have hfl : f.length = c.batchSize := by
    rw [hf]
    refine hsh _ ?_
    rw [List.length_drop, hlen']
    omega
  have hwl : (onlineRun c (begin c x A) (ps ++ [p])).window.length = c.batchSize := onlineRun_window_length c x A _
  have hw : ∀ i < c.batchSize, (onlineRun c (begin c x A) (ps ++ [p])).window[i]? = some fun j => phi i j * phi i j := by
    intro i hi
    have hq : ps.length + 1 - c.batchSize + i < (ps ++ [p]).length := by simp; omega
    have := onlineRun_window c hB x A (ps ++ [p]) (ps.length + 1 - c.batchSize + i) hq (by omega) (by simp; omega)
    have e : (ps.length + 1 - c.batchSize + i + 1) % c.batchSize = i := by
      obtain ⟨m, hm⟩ := hdvd
      have h2 : ps.length + 1 - c.batchSize + i + 1 = i + c.batchSize * (m - 1) := by
        rw [Nat.mul_sub, mul_one, ← hm]
        omega
      rw [h2, Nat.add_mul_mod_self_left, Nat.mod_eq_of_lt hi]
    rw [e] at this
    rw [this, hphi i hi, List.getD_eq_getElem _ _ hq]
  have hb : ∀ j, onlineBaseline f (onlineRun c (begin c x A) (ps ++ [p])).window j = b j := by
    intro j
    unfold onlineBaseline
    have e1 : ((f.zip (onlineRun c (begin c x A) (ps ++ [p])).window).map fun p => p.1 * p.2 j) = (List.range c.batchSize).map fun i => f.getD i 0 * phi i j ^ 2 := by
      refine List.ext_getElem ?_ fun i h1 h2 => ?_
      · rw [List.length_map, List.length_zip, hfl, hwl, List.length_map, List.length_range, min_self]
      · have hi : i < c.batchSize := by simpa using h2
        have h3 := hw i hi
        rw [List.getElem?_eq_getElem (by rw [hwl]; exact hi)] at h3
        have h4 := Option.some.inj h3
        rw [List.getElem_map, List.getElem_zip, List.getElem_map, List.getElem_range, List.getD_eq_getElem _ _ (by rw [hfl]; exact hi), h4]
        ring
    have e2 : ((onlineRun c (begin c x A) (ps ++ [p])).window.map fun r => 1 * r j) = (List.range c.batchSize).map fun i => phi i j ^ 2 := by
      refine List.ext_getElem ?_ fun i h1 h2 => ?_
      · rw [List.length_map, hwl, List.length_map, List.length_range]
      · have hi : i < c.batchSize := by simpa using h2
        have h3 := hw i hi
        rw [List.getElem?_eq_getElem (by rw [hwl]; exact hi)] at h3
        have h4 := Option.some.inj h3
        rw [List.getElem_map, List.getElem_map, List.getElem_range, h4]
        ring
    rw [e1, e2]
    show _ = (∑ i ∈ Finset.range c.batchSize, f.getD i 0 * phi i j ^ 2) / ∑ i ∈ Finset.range c.batchSize, phi i j ^ 2
    rw [Finset.sum_eq_multiset_sum, Finset.sum_eq_multiset_sum]
    rfl
  have hlast : f.getLast?.getD 0 = f.getD (c.batchSize - 1) 0 := by
    rw [List.getLast?_eq_getElem?, hfl, List.getD_eq_getElem?_getD]
  have hd : onlineDerivs c (onlineRun c (begin c x A) ps) p = phi (c.batchSize - 1) := by
    rw [hphi _ (by omega)]
    have e : ps.length + 1 - c.batchSize + (c.batchSize - 1) = ps.length := by omega
    rw [e]
    simp
  have hmv := fun i => online_move c (onlineRun c (begin c x A) ps) p (by omega) hm i
  rw [← onlineRun_append, hlen, ← hf] at hmv
  rw [hlast, hd] at hmv
  simp only [hb] at hmv
  refine ⟨fun i => (hmv i).1, fun k l hkl => (hmv k).2 k l hkl⟩

/-- **C181 violated: online learning, the first update** compares the new sample with one other only: the baseline is the utility of the second oldest of the last samples, whatever the other utilities are. -/
theorem C181_negation_online_first (c : Settings) (hm : c.momentum = none) (hB : 2 ≤ c.batchSize) (hsh : ∀ l : List ℝ, l.length = c.batchSize → (c.shaping l).length = c.batchSize) (x : Fin n → ℝ)
    (A : Matrix (Fin n) (Fin n) ℝ) (ps : List ((Fin n → ℝ) × ((Fin n → ℝ) → ℝ))) (hps : ps.length = c.batchSize) (p : (Fin n → ℝ) × ((Fin n → ℝ) → ℝ))
    (f : List ℝ) (hf : f = c.shaping ((onlineRun c (begin c x A) (ps ++ [p])).fitnesses.drop 1)) (i : Fin n) :
    (onlineRun c (begin c x A) (ps ++ [p])).x i = x i + c.learningRate * ((f.getD (c.batchSize - 1) 0 - f.getD 1 0) * logDerivX (newSample A x p.1) x (sigma A)⁻¹ i) := by
  have hlen : (onlineRun c (begin c x A) ps).fitnesses.length = ps.length := by rw [onlineRun_fitnesses]; simp [begin]
  have hlen' : (onlineRun c (begin c x A) (ps ++ [p])).fitnesses.length = ps.length + 1 := by rw [onlineRun_fitnesses]; simp [begin]
  obtain ⟨h1, h2, h3, h4⟩ := onlineRun_window_start c x A ps hps.le
  have hfl : f.length = c.batchSize := by
    rw [hf]
    refine hsh _ ?_
    rw [List.length_drop, hlen']
    omega
  have hmv := (online_move c (onlineRun c (begin c x A) ps) p (by omega) hm i).1
  rw [← onlineRun_append, hlen, hps, show c.batchSize + 1 - c.batchSize = 1 by omega, ← hf, h2] at hmv
  have hlast : f.getLast?.getD 0 = f.getD (c.batchSize - 1) 0 := by
    rw [List.getLast?_eq_getElem?, hfl, List.getD_eq_getElem?_getD]
  have hd : onlineDerivs c (onlineRun c (begin c x A) ps) p (.inl i) = logDerivX (newSample A x p.1) x (sigma A)⁻¹ i := by
    unfold onlineDerivs
    rw [h2, h3]
    rfl
  have hwin : (onlineRun c (begin c x A) (ps ++ [p])).window = (List.replicate c.batchSize (0 : Par n → ℝ)).set 1 fun j => onlineDerivs c (onlineRun c (begin c x A) ps) p j * onlineDerivs c (onlineRun c (begin c x A) ps) p j := by
    rw [onlineRun_append, onlineLearn_window, hlen, if_neg (by omega), h1, hps]
    congr 1
    rw [Nat.add_mod_left, Nat.mod_eq_of_lt (by omega)]
  rw [hmv, hlast, hd]
  by_cases h0 : logDerivX (newSample A x p.1) x (sigma A)⁻¹ i = 0
  · simp [h0]
  · have hb : onlineBaseline f (onlineRun c (begin c x A) (ps ++ [p])).window (.inl i) = f.getD 1 0 := by
      rw [hwin]
      obtain ⟨k, hk⟩ : ∃ k, c.batchSize = k + 2 := ⟨c.batchSize - 2, by omega⟩
      rw [hk] at hfl ⊢
      match f, hfl with
      | f0 :: f1 :: rest, hfl =>
        unfold onlineBaseline
        simp only [List.replicate_succ, List.set_cons_succ, List.set_cons_zero, List.zip_cons_cons, List.map_cons, List.sum_cons, hd, Pi.zero_apply, mul_zero, zero_add, one_mul, List.getD_cons_succ,
          List.getD_cons_zero]
        have z1 : ((rest.zip (List.replicate k (0 : Par n → ℝ))).map fun p => p.1 * p.2 (.inl i)).sum = 0 := by
          refine List.sum_eq_zero fun y hy => ?_
          obtain ⟨q, hq, rfl⟩ := List.mem_map.1 hy
          rw [List.eq_of_mem_replicate (List.of_mem_zip hq).2]
          simp
        have z2 : ((List.replicate k (0 : Par n → ℝ)).map fun r => r (.inl i)).sum = 0 := by simp
        rw [z1, z2, add_zero, add_zero, mul_div_assoc, div_self (mul_ne_zero h0 h0), mul_one]
    rw [hb]

/-- **C181 violated: online learning with all distributions stored** fails at the first update, whatever the state is. -/
theorem C181_negation_online_store (c : Settings) (hs : c.storeAllDistributions = true) (s : St n) (h : c.batchSize ≤ s.fitnesses.length) (p : (Fin n → ℝ) × ((Fin n → ℝ) → ℝ)) :
    onlineResult c s p = .error .typeError := by
  unfold onlineResult
  rw [if_neg (by omega), if_pos hs]

/-- **C181 violated: online learning ignores elitism.** -/
theorem C181_negation_online_elitism (c : Settings) (s : St n) (ps : List ((Fin n → ℝ) × ((Fin n → ℝ) → ℝ))) : onlineRun { c with elitism := true } s ps = onlineRun { c with elitism := false } s ps := by
  induction ps generalizing s with
  | nil => rfl
  | cons p ps ih => exact ih _

/-- settings with a batch of three samples -/
noncomputable def vesDemo : Settings :=
  { learningRate := 1, learningRateSigma := 1, batchSize := 3, momentum := none, elitism := false, vanillaScale := false, shaping := id, storeAllDistributions := false }

/-- In one dimension with standard deviation 1, four samples at 2 with fitnesses 0, 0, 0 and 1: the center is moved to 2. Had the third (not the second) of them had the fitness 5, it would be, too. -/
example : (onlineRun vesDemo (begin vesDemo (fun _ : Fin 1 => 0) 1) [(fun _ => 2, fun _ => 0), (fun _ => 2, fun _ => 0), (fun _ => 2, fun _ => 0), (fun _ => 2, fun _ => 1)]).x 0 = 2 := by
  have h := C181_negation_online_first vesDemo rfl (by norm_num [vesDemo]) (fun l h => h) (fun _ : Fin 1 => 0) 1
    [(fun _ => 2, fun _ => 0), (fun _ => 2, fun _ => 0), (fun _ => 2, fun _ => 0)] rfl (fun _ => 2, fun _ => 1) _ rfl 0
  have hf : (onlineRun vesDemo (begin vesDemo (fun _ : Fin 1 => 0) 1) ([(fun _ => 2, fun _ => 0), (fun _ => 2, fun _ => 0), (fun _ => 2, fun _ => 0)] ++ [(fun _ => 2, fun _ => 1)])).fitnesses = [0, 0, 0, 1] := by
    simp [onlineRun, onlineLearn, move, begin, vesDemo]
  rw [hf] at h
  refine h.trans ?_
  simp [vesDemo, logDerivX, newSample, sigma]

/-- A batch with two evaluated samples gives the hypothesis of `C181_elitism`. -/
example : ((([] : List (List (Bool × (Fin 1 → ℝ) × ℝ))) ++ [[(true, fun _ => 1, 2), (true, fun _ => 3, 4)]]).flatten.filter fun e : Bool × (Fin 1 → ℝ) × ℝ => e.1) ≠ [] := by simp

end Verif.Props
