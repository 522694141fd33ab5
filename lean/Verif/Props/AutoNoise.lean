import Verif.Lemmas.AutoNoise
/-
C182: the automatic noise of Gaussian processes.
-/
namespace Verif.GaussP
open Matrix Verif.NES Verif.KMeans
open Verif.DataSet (Err)

theorem sortRow_one (x : Vec 1) : sortRow x = x := by
  funext i
  fin_cases i
  simp [sortRow]

theorem dist_one (a b : Vec 1) : GaussP.dist a b = |a 0 - b 0| := by
  rw [GaussP.dist, sqDist]
  simp [Real.sqrt_sq_eq_abs]

theorem gaps_last (p : Vec 1) (xs : List (Vec 1)) : gaps p xs = (xs.getLast?.getD p) - p := by
  induction xs generalizing p with
  | nil => simp [gaps]
  | cons x xs ih =>
    rw [gaps, ih x]
    cases xs with
    | nil => simp
    | cons y ys =>
      rw [List.getLast?_cons_cons]
      cases h : (y :: ys).getLast? with
      | none => simp at h
      | some z => simp

theorem avgdist_reach (data : List (Vec 1 × ℝ)) : avgdist (data.map Prod.fst) 0 = reachOf data := by
  cases data with
  | nil => simp [avgdist, reachOf]
  | cons p rest =>
    rw [avgdist]
    have e : ((p :: rest).map Prod.fst).map sortRow = p.1 :: rest.map Prod.fst := by
      simp only [List.map_map, List.map_cons, sortRow_one]
      congr 1
      exact List.map_congr_left fun q _ => sortRow_one q.1
    rw [e]
    dsimp only
    rw [gaps_last, reachOf]
    simp only [Pi.smul_apply, Pi.sub_apply, smul_eq_mul, List.length_map, List.head?_cons, Option.map_some, Option.getD_some, List.getLast?_map]
    rw [div_eq_inv_mul]
    congr 2
    cases rest with
    | nil => simp
    | cons q qs =>
      rw [List.getLast?_cons_cons]
      cases h : (q :: qs).getLast? with
      | none => simp at h
      | some z => simp

/-- what is added for a sample -/
noncomputable def addedOf (reach : ℝ) (data : List (Vec 1 × ℝ)) (p : Vec 1 × ℝ) : ℝ :=
  (data.map fun q => if |p.1 0 - q.1 0| ≤ reach then |p.2 - q.2| / Real.exp |p.1 0 - q.1 0| else 0).sum

theorem addedOf_nonneg (reach : ℝ) (data : List (Vec 1 × ℝ)) (p : Vec 1 × ℝ) : 0 ≤ addedOf reach data p := by
  apply List.sum_nonneg
  intro x hx
  obtain ⟨q, -, rfl⟩ := List.mem_map.1 hx
  split
  · positivity
  · exact le_refl _

/-- the samples of a state -/
noncomputable def sampleAt (g : GP 1) (i : Fin g.trainx.length) : Vec 1 × ℝ := (g.trainx[i], g.trainy.getD i 0)

theorem autonoise_ok (data : List (Vec 1 × ℝ)) (g : GP 1) (h : Inv data g) (h2 : 2 ≤ data.length) :
    g.autonoise = .ok fun i => addedOf (reachOf data) data (sampleAt g i) := by
  have hl : g.trainx.length = data.length := by rw [h.1, List.length_map]
  rw [GP.autonoise, if_neg (by omega), dif_pos rfl]
  congr 1
  funext i
  rw [(zip_data data g h).1, addedOf]
  congr 1
  refine List.map_congr_left fun q _ => ?_
  have e : avgdist g.trainx ⟨0, by omega⟩ = reachOf data := by
    rw [← avgdist_reach, ← h.1]
    rfl
  rw [e, dist_one, disagreement, dist_one]
  by_cases hc : |g.trainx[i] 0 - q.1 0| ≤ reachOf data
  · rw [if_neg (not_lt.2 hc), sampleAt, if_pos hc]
  · rw [if_pos (not_le.1 hc), sampleAt, if_neg hc]

/-- the noise of the samples of a state -/
noncomputable def noiseAt (data : List (Vec 1 × ℝ)) (g : GP 1) (i : Fin g.trainx.length) : ℝ := noiseOf (reachOf data) data (sampleAt g i)

theorem noiseAt_pos (data : List (Vec 1 × ℝ)) (g : GP 1) (i : Fin g.trainx.length) : 0.001 ≤ noiseAt data g i := by
  have := addedOf_nonneg (reachOf data) data (sampleAt g i)
  have e : noiseAt data g i = 0.001 + addedOf (reachOf data) data (sampleAt g i) := rfl
  linarith

theorem K_auto (data : List (Vec 1 × ℝ)) (g : GP 1) (h : Inv data g) :
    g.K + diagonal (fun i => addedOf (reachOf data) data (sampleAt g i)) = regN g.hyper.1 g.hyper.2 g.trainx (noiseAt data g) := by
  rw [K_eq data g h, regMat, regN, add_assoc, diagonal_add]
  rfl

theorem triples_data (data : List (Vec 1 × ℝ)) (g : GP 1) (h : Inv data g) (m : ℝ) :
    triples g.trainx (fun i => (g.trainy.getD i 0 - m) + m) (noiseAt data g) = withNoise (reachOf data) data := by
  obtain ⟨hz, hl⟩ := zip_data data g h
  have hlen : g.trainx.length = data.length := by rw [h.1, List.length_map]
  apply List.ext_getElem
  · simp [triples, withNoise, hlen]
  · intro i h1 h2
    have hi : i < g.trainx.length := by simpa [triples] using h1
    have hy : i < g.trainy.length := by omega
    have hp : data[i]'(by omega) = (g.trainx[i], g.trainy[i]) := by
      have : (g.trainx.zip g.trainy)[i]'(by simp; omega) = data[i]'(by omega) := by simp only [hz]
      rw [← this, List.getElem_zip]
    have hg : g.trainy.getD i 0 = g.trainy[i] := by rw [List.getD_eq_getElem?_getD, List.getElem?_eq_getElem hy]; rfl
    simp only [triples, withNoise, List.getElem_ofFn, List.getElem_map, hp, noiseAt, sampleAt, Fin.getElem_fin, hg, sub_add_cancel]

theorem calculateAuto_eq (data : List (Vec 1 × ℝ)) (g : GP 1) (h : Inv data g) (h2 : 2 ≤ data.length) :
    ∃ g', g.calculateAuto = .ok g' ∧
      g'.predMean = g.testx.map (postN g.hyper.1 g.hyper.2 g.mean g.trainx (noiseAt data g) fun i => g.trainy.getD i 0 - g.mean) ∧
      g'.predCov = rows (predMatN g.hyper.1 g.hyper.2 g.trainx (noiseAt data g) g.testx) := by
  have hlen : g.trainx.length = data.length := by rw [h.1, List.length_map]
  rw [GP.calculateAuto, if_neg (by omega), autonoise_ok data g h h2]
  refine ⟨_, rfl, ?_, ?_⟩
  · dsimp only
    rw [K_auto data g h]
    apply List.ext_getElem
    · simp
    · intro i h1 h2
      have hi : i < g.testx.length := by simpa using h1
      rw [List.getElem_ofFn, List.getElem_map, postN]
      congr 1
      change ∑ j : Fin g.trainx.length, kernel g.hyper.1 g.hyper.2 g.trainx[j] g.testx[i] * coeffN g.hyper.1 g.hyper.2 g.trainx (noiseAt data g) (fun i => g.trainy.getD i 0 - g.mean) j = _
      exact Finset.sum_congr rfl fun j _ => mul_comm _ _
  · dsimp only
    rw [K_auto data g h]
    congr 1

theorem reach_increasing (data : List (Vec 1 × ℝ)) (h : (data.map fun p => p.1 0).Pairwise (· ≤ ·)) : reachOf data = averageGap (data.map fun p => p.1 0) := by
  have key : ∀ (x : ℝ) (xs : List ℝ), (x :: xs).Pairwise (· ≤ ·) → (((x :: xs).zip xs).map fun p => |p.2 - p.1|).sum = (xs.getLast?.getD x) - x := by
    intro x xs
    induction xs generalizing x with
    | nil => intro _; simp
    | cons y ys ih =>
      intro hp
      have h1 := ih y (List.pairwise_cons.1 hp).2
      have h2 : x ≤ y := (List.pairwise_cons.1 hp).1 y (by simp)
      rw [List.zip_cons_cons, List.map_cons, List.sum_cons, h1, abs_of_nonneg (by linarith)]
      cases ys with
      | nil => simp
      | cons z zs =>
        rw [List.getLast?_cons_cons]
        cases h : (z :: zs).getLast? with
        | none => simp at h
        | some w => simp
  cases data with
  | nil => simp [reachOf, averageGap]
  | cons p rest =>
    rw [reachOf, averageGap, List.map_cons, List.tail_cons, key _ _ h]
    simp only [List.head?_cons, Option.map_some, Option.getD_some, List.length_cons, List.length_map, List.getLast?_map]
    congr 2
    cases rest with
    | nil => simp
    | cons q qs =>
      rw [List.getLast?_cons_cons]
      cases h : (q :: qs).getLast? with
      | none => simp at h
      | some w => simp

end Verif.GaussP

namespace Verif.Props
open Matrix Verif.NES Verif.KMeans Verif.GaussP
open Verif.DataSet (Err)

/-- C182. With `autonoise` and at least two samples of one-dimensional inputs, after any history of calls, `testOnArray` predicts the posterior mean for samples with individual noise variances: 0.001 plus the differences from the
targets of the samples within reach, each divided by the exponential of the distance. There is exactly one posterior mean. -/
theorem C182_prediction (grid : List (Vec 1)) (ops : List (Op 1)) (g : GP 1) (hg : g = (GP.init grid).run ops) (h : 2 ≤ (samplesOf ops).length) (arr : List (Vec 1)) :
    ∃ g' f, g.testAuto arr = .ok g' ∧ IsPosteriorWith (kernel g.hyper.1 g.hyper.2) g.mean (withNoise (reachOf (samplesOf ops)) (samplesOf ops)) f ∧
      (∀ f', IsPosteriorWith (kernel g.hyper.1 g.hyper.2) g.mean (withNoise (reachOf (samplesOf ops)) (samplesOf ops)) f' → f' = f) ∧ g'.predMean = arr.map f := by
  have hi : Inv (samplesOf ops) g := hg ▸ inv_init grid ops
  obtain ⟨g', h1, h2, -⟩ := calculateAuto_eq (samplesOf ops) { g with testx := arr } hi h
  have hν : ∀ i, 0 < noiseAt (samplesOf ops) g i := fun i => lt_of_lt_of_le (by norm_num) (noiseAt_pos _ _ i)
  refine ⟨g', _, h1, ?_, fun f' hf' => ?_, h2⟩
  · have := postN_spec g.hyper.1 g.hyper.2 g.mean g.trainx (noiseAt (samplesOf ops) g) (fun i => g.trainy.getD i 0 - g.mean) hν
    rwa [triples_data _ g hi] at this
  · rw [← triples_data _ g hi g.mean] at hf'
    exact posteriorWith_unique _ _ _ _ _ _ hν _ hf'

/-- C182. The covariance matrix is symmetric and positive semidefinite, and no variance exceeds the prior variance. Automatic noise never makes a prediction more certain: every variance is at least the one without it. -/
theorem C182_covariance (grid : List (Vec 1)) (ops : List (Op 1)) (g : GP 1) (hg : g = (GP.init grid).run ops) (h : 2 ≤ (samplesOf ops).length) (arr : List (Vec 1)) :
    ∃ (g' : GP 1) (C C0 : Matrix (Fin arr.length) (Fin arr.length) ℝ), g.testAuto arr = .ok g' ∧ g'.predCov = rows C ∧ (g.testOnArray arr).1.predCov = rows C0 ∧
      C.IsSymm ∧ (∀ v, 0 ≤ v ⬝ᵥ C *ᵥ v) ∧ ∀ i, C0 i i ≤ C i i ∧ C i i ≤ g.hyper.2 ^ 2 := by
  have hi : Inv (samplesOf ops) g := hg ▸ inv_init grid ops
  obtain ⟨g', h1, -, h3⟩ := calculateAuto_eq (samplesOf ops) { g with testx := arr } hi h
  have hν : ∀ i, 0 < noiseAt (samplesOf ops) g i := fun i => lt_of_lt_of_le (by norm_num) (noiseAt_pos _ _ i)
  have hne : samplesOf ops ≠ [] := fun e => by rw [e] at h; simp at h
  refine ⟨g', _, _, h1, h3, test_cov _ g hi hne arr, predMatN_symm _ _ _ _ _, predMatN_psd _ _ _ _ hν _, fun i => ⟨?_, ?_⟩⟩
  · have := explainedN_mono g.hyper.1 g.hyper.2 g.trainx (fun _ => 0.001) (noiseAt (samplesOf ops) g) (fun _ => by norm_num) (noiseAt_pos _ _) arr[i]
    rw [explainedN_const] at this
    change kernel _ _ _ _ - explained _ _ _ _ _ ≤ kernel _ _ _ _ - explainedN _ _ _ _ _ _
    linarith!
  · have := explainedN_nonneg g.hyper.1 g.hyper.2 g.trainx (noiseAt (samplesOf ops) g) hν arr[i]
    change kernel _ _ _ _ - explainedN _ _ _ _ _ _ ≤ _
    rw [kernel_self]
    linarith!

/-- C182, for samples given in the order of their inputs: the reach is the average distance of neighbouring inputs. -/
theorem C182_reach_partial (data : List (Vec 1 × ℝ)) (h : (data.map fun p => p.1 0).Pairwise (· ≤ ·)) : reachOf data = averageGap (data.map fun p => p.1 0) :=
  reach_increasing data h

/-- C182 fails for other orders: whenever the last input is smaller than the first one the option has no effect at all, whatever the samples are, because the inputs are not sorted and the average distance becomes negative. -/
theorem C182_negation_order (grid : List (Vec 1)) (ops : List (Op 1)) (g : GP 1) (hg : g = (GP.init grid).run ops) (h : 2 ≤ (samplesOf ops).length) (arr : List (Vec 1))
    (first last : Vec 1 × ℝ) (hf : (samplesOf ops).head? = some first) (hl : (samplesOf ops).getLast? = some last) (hlt : last.1 0 < first.1 0) :
    g.testAuto arr = .ok (g.testOnArray arr).1 := by
  have hi : Inv (samplesOf ops) g := hg ▸ inv_init grid ops
  have hr : reachOf (samplesOf ops) < 0 := by
    rw [reachOf, hf, hl]
    simp only [Option.map_some, Option.getD_some]
    have : (2 : ℝ) ≤ (samplesOf ops).length := by exact_mod_cast h
    exact div_neg_of_neg_of_pos (by linarith) (by linarith)
  have hlen : g.trainx.length = (samplesOf ops).length := by rw [hi.1, List.length_map]
  have hn : (GP.autonoise { g with testx := arr }) = .ok fun _ => 0 := by
    rw [autonoise_ok (samplesOf ops) { g with testx := arr } hi h]
    congr 1
    funext i
    rw [addedOf]
    apply List.sum_eq_zero
    intro x hx
    obtain ⟨q, -, rfl⟩ := List.mem_map.1 hx
    rw [if_neg]
    have := abs_nonneg ((sampleAt { g with testx := arr } i).1 0 - q.1 0)
    linarith
  rw [GP.testAuto, GP.calculateAuto, if_neg (by simp only; omega), hn, GP.testOnArray, GP.calculate, if_neg (by simp only; omega)]
  simp only [Matrix.diagonal_zero, add_zero]

/-- C182 fails for a single sample: ZeroDivisionError is raised, while without the option a prediction is made. -/
theorem C182_negation_single {d : Nat} (grid : List (Vec d)) (ops : List (Op d)) (h : (samplesOf ops).length = 1) (arr : List (Vec d)) :
    ((GP.init grid).run ops).testAuto arr = .error .zeroDivision := by
  have hi := inv_init grid ops
  have hlen : ((GP.init grid).run ops).trainx.length = 1 := by rw [hi.1, List.length_map, h]
  rw [GP.testAuto, GP.calculateAuto, if_neg (by simp only; omega), GP.autonoise, if_pos hlen]

/-- C182 fails for inputs with several components: with at least two samples ValueError is raised. -/
theorem C182_negation_dimension {d : Nat} (hd : 2 ≤ d) (grid : List (Vec d)) (ops : List (Op d)) (h : 2 ≤ (samplesOf ops).length) (arr : List (Vec d)) :
    ((GP.init grid).run ops).testAuto arr = .error .valueError := by
  have hi := inv_init grid ops
  have hlen : ((GP.init grid).run ops).trainx.length = (samplesOf ops).length := by rw [hi.1, List.length_map]
  rw [GP.testAuto, GP.calculateAuto, if_neg (by simp only; omega), GP.autonoise, if_neg (by simp only; omega), dif_neg (by omega)]

/-- The hypotheses are met: two samples in increasing order, each within reach of the other, so that the noise is larger than 0.001; and in decreasing order. -/
example : (samplesOf ([.addSample (fun _ => 0) 1, .addSample (fun _ => 2) 5] : List (Op 1))).length = 2 ∧
    reachOf (samplesOf ([.addSample (fun _ => 0) 1, .addSample (fun _ => 2) 5] : List (Op 1))) = 2 ∧
    noiseOf 2 (samplesOf ([.addSample (fun _ => 0) 1, .addSample (fun _ => 2) 5] : List (Op 1))) (fun _ => 0, 1) = 0.001 + 4 / Real.exp 2 ∧
    reachOf (samplesOf ([.addSample (fun _ => 2) 5, .addSample (fun _ => 0) 1] : List (Op 1))) = -2 := by
  refine ⟨rfl, ?_, ?_, ?_⟩
  · simp [samplesOf, samples, reachOf]; norm_num
  · simp [samplesOf, samples, noiseOf]; norm_num
  · simp [samplesOf, samples, reachOf]; norm_num

end Verif.Props
