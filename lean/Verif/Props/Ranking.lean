import Verif.Lemmas.Ranking
import Mathlib.Algebra.Order.Floor.Semiring
import Mathlib.Algebra.Order.Ring.Int
/-
Property theorems C24 (rankedFitness) and C63 (ranking functions), pybrain/tools/rankingfunctions.py.
-/
namespace Verif.Props
open Verif.Ranking

section
variable {K : Type} [LinearOrder K]

/-! ### C24 -/

/-- **C24.** The rank of an entry is the number of entries that are smaller, or equal and earlier in the list. -/
theorem C24_rank (R : List K) (i : Nat) (v : K) (h : R[i]? = some v) :
    (rankedFitness R)[i]? = some (R.zipIdx.countP (fun x => decide (x.1 < v ∨ (x.1 = v ∧ x.2 < i)))) :=
  rankedFitness_eq R i v h

/-- **C24.** The ranks are a permutation of `0, ..., n-1`. -/
theorem C24_permutation (R : List K) : (rankedFitness R).Perm (List.range R.length) := rankedFitness_perm R

/-- **C24.** A strictly larger fitness has a strictly larger rank. -/
theorem C24_monotone (R : List K) (i j : Nat) (v w : K) (hi : R[i]? = some v) (hj : R[j]? = some w) (hvw : v < w) :
    ∃ r s, (rankedFitness R)[i]? = some r ∧ (rankedFitness R)[j]? = some s ∧ r < s :=
  ⟨_, _, rankedFitness_eq R i v hi, rankedFitness_eq R j w hj,
    rankedFitness_lt R i j v w hi hj hvw _ _ (rankedFitness_eq R i v hi) (rankedFitness_eq R j w hj)⟩

example : (rankedFitness [(5 : Int), 2, 5, 1])[0]? = some 2 ∧ (rankedFitness [(5 : Int), 2, 5, 1])[2]? = some 3 := by
  refine ⟨(C24_rank _ 0 5 rfl).trans (by decide), (C24_rank _ 2 5 rfl).trans (by decide)⟩

end

/-! ### C63  Ranking functions -/

/-- better fitness, larger (or equal) utility -/
def KeepsOrder (R out : List ℝ) : Prop :=
  out.length = R.length ∧ ∀ (i j : Nat) (v w x y : ℝ), R[i]? = some v → R[j]? = some w → v < w → out[i]? = some x → out[j]? = some y → x ≤ y

/-- better fitness, larger utility -/
def KeepsStrictOrder (R out : List ℝ) : Prop :=
  out.length = R.length ∧ ∀ (i j : Nat) (v w x y : ℝ), R[i]? = some v → R[j]? = some w → v < w → out[i]? = some x → out[j]? = some y → x < y

/-- utilities are between 0 and 1 and the largest is 1 -/
def Unit01 (out : List ℝ) : Prop := (∀ x ∈ out, 0 ≤ x ∧ x ≤ 1) ∧ 1 ∈ out

theorem ranked_length (R : List ℝ) : (rankedFitness R).length = R.length := by
  have := (rankedFitness_perm R).length_eq; simpa using this

theorem ranked_lt (R : List ℝ) (r : Nat) (h : r ∈ rankedFitness R) : r < R.length := by
  have := (rankedFitness_perm R).mem_iff.1 h; simpa using this

theorem map_keeps (R : List ℝ) (g : Nat → ℝ) (hg : ∀ r s, r < s → s < R.length → g r ≤ g s) : KeepsOrder R ((rankedFitness R).map g) := by
  refine ⟨by rw [List.length_map, ranked_length], fun i j v w x y hi hj hvw hx hy => ?_⟩
  obtain ⟨r, s, hr, hs, hrs⟩ := C24_monotone R i j v w hi hj hvw
  rw [List.getElem?_map, hr] at hx; rw [List.getElem?_map, hs] at hy
  cases hx; cases hy
  exact hg r s hrs (ranked_lt R s (List.mem_of_getElem? hs))

theorem map_keeps_strict (R : List ℝ) (g : Nat → ℝ) (hg : ∀ r s, r < s → s < R.length → g r < g s) :
    KeepsStrictOrder R ((rankedFitness R).map g) := by
  refine ⟨by rw [List.length_map, ranked_length], fun i j v w x y hi hj hvw hx hy => ?_⟩
  obtain ⟨r, s, hr, hs, hrs⟩ := C24_monotone R i j v w hi hj hvw
  rw [List.getElem?_map, hr] at hx; rw [List.getElem?_map, hs] at hy
  cases hx; cases hy
  exact hg r s hrs (ranked_lt R s (List.mem_of_getElem? hs))

/-- dividing non-negative values, one of them positive, by their largest -/
theorem scaled_unit (res : List ℝ) (h0 : ∀ x ∈ res, 0 ≤ x) (hpos : ∃ x ∈ res, 0 < x) :
    0 < maxOf res ∧ Unit01 (res.map (fun v => v / maxOf res)) := by
  obtain ⟨x, hx, hx0⟩ := hpos
  obtain ⟨hm, hle⟩ := maxOf_spec res (List.ne_nil_of_mem hx)
  have hM : 0 < maxOf res := lt_of_lt_of_le hx0 (hle x hx)
  refine ⟨hM, fun y hy => ?_, ?_⟩
  · obtain ⟨z, hz, rfl⟩ := List.mem_map.1 hy
    exact ⟨div_nonneg (h0 z hz) hM.le, (div_le_one hM).2 (hle z hz)⟩
  · exact List.mem_map.2 ⟨maxOf res, hm, div_self hM.ne'⟩

theorem last_rank (R : List ℝ) (h : 2 ≤ R.length) : R.length - 1 ∈ rankedFitness R :=
  (rankedFitness_perm R).mem_iff.2 (List.mem_range.2 (by omega))

/-- **C63, default ranking.** With at least two fitnesses the default ranking maps to [0,1], reaches 1 and preserves the order
strictly. -/
theorem C63_default (R : List ℝ) (h : 2 ≤ R.length) : KeepsStrictOrder R (defaultRanking R) ∧ Unit01 (defaultRanking R) := by
  obtain ⟨hM, hu⟩ := scaled_unit ((rankedFitness R).map (fun r : Nat => (r : ℝ))) (by simp)
    ⟨((R.length - 1 : Nat) : ℝ), List.mem_map.2 ⟨_, last_rank R h, rfl⟩, by exact_mod_cast (by omega : 0 < R.length - 1)⟩
  refine ⟨?_, hu⟩
  rw [defaultRanking]
  simp only [List.map_map]
  refine map_keeps_strict R _ (fun r s hrs _ => ?_)
  have h2 : (r : ℝ) < s := by exact_mod_cast hrs
  exact div_lt_div_of_pos_right h2 hM

/-- **C63, exponential ranking** preserves the order strictly for a positive temperature; with at least two fitnesses the
utilities lie between 1 and exp(temperature), and both are reached. -/
theorem C63_exponential (t : ℝ) (ht : 0 < t) (R : List ℝ) : KeepsStrictOrder R (exponential t R) ∧
    (2 ≤ R.length → (∀ x ∈ exponential t R, 1 ≤ x ∧ x ≤ Real.exp t) ∧ 1 ∈ exponential t R ∧ Real.exp t ∈ exponential t R) := by
  refine ⟨map_keeps_strict R _ (fun r s hrs hs => Real.exp_lt_exp.2 ?_), fun h2 => ?_⟩
  · have h1 : (1 : ℝ) < R.length := by exact_mod_cast (by omega : 1 < R.length)
    have : (r : ℝ) < s := by exact_mod_cast hrs
    exact mul_lt_mul_of_pos_right (div_lt_div_of_pos_right this (by linarith)) ht
  · have h1 : (1 : ℝ) < R.length := by exact_mod_cast (by omega : 1 < R.length)
    have e : ((R.length - 1 : Nat) : ℝ) = R.length - 1 := by rw [Nat.cast_sub (by omega)]; simp
    refine ⟨fun x hx => ?_, ?_, ?_⟩
    · obtain ⟨r, hr, rfl⟩ := List.mem_map.1 hx
      have hr1 := ranked_lt R r hr
      have hr2 : (r : ℝ) ≤ R.length - 1 := by rw [← e]; exact_mod_cast (by omega : r ≤ R.length - 1)
      have hq0 : 0 ≤ (r : ℝ) / ((R.length : ℝ) - 1) := div_nonneg (Nat.cast_nonneg r) (by linarith)
      have hq1 : (r : ℝ) / ((R.length : ℝ) - 1) ≤ 1 := (div_le_one (by linarith)).2 hr2
      refine ⟨Real.one_le_exp (mul_nonneg hq0 ht.le), Real.exp_le_exp.2 ?_⟩
      have := mul_le_mul_of_nonneg_right hq1 ht.le
      linarith
    · refine List.mem_map.2 ⟨0, (rankedFitness_perm R).mem_iff.2 (List.mem_range.2 (by omega)), ?_⟩
      simp
    · refine List.mem_map.2 ⟨R.length - 1, last_rank R h2, ?_⟩
      rw [e, div_self (by linarith), one_mul]

/-- **C63, Hansen ranking** preserves the order, is never negative and gives the best entry a positive utility. -/
theorem C63_hansen (R : List ℝ) : KeepsOrder R (hansen R) ∧ (∀ x ∈ hansen R, 0 ≤ x) ∧ (R ≠ [] → ∃ x ∈ hansen R, 0 < x) := by
  refine ⟨map_keeps R _ (fun r s hrs hs => max_le_max le_rfl ?_), fun x hx => ?_, fun hne => ?_⟩
  · have h1 : (s : ℝ) < R.length := by exact_mod_cast hs
    have h2 : (r : ℝ) < s := by exact_mod_cast hrs
    have := Real.log_le_log (by linarith : (0 : ℝ) < R.length - s) (by linarith : (R.length : ℝ) - s ≤ R.length - r)
    linarith
  · obtain ⟨r, _, rfl⟩ := List.mem_map.1 hx
    exact le_max_left _ _
  · have hpos : 0 < R.length := List.length_pos_iff.2 hne
    refine ⟨_, List.mem_map.2 ⟨R.length - 1, (rankedFitness_perm R).mem_iff.2 (List.mem_range.2 (by omega)), rfl⟩, ?_⟩
    apply lt_of_lt_of_le _ (le_max_right _ _)
    have e : ((R.length - 1 : Nat) : ℝ) = R.length - 1 := by
      rw [Nat.cast_sub (by omega)]; simp
    rw [e]
    have h3 : (0 : ℝ) < R.length := by exact_mod_cast hpos
    have : (R.length : ℝ) - (R.length - 1) = 1 := by ring
    rw [this, Real.log_one]
    have := Real.log_pos (by linarith : (1 : ℝ) < R.length / 2 + 1)
    linarith

/-- **C63, smooth Gini ranking** with 0 < gini < 2 and a linear component in [0,1] preserves the order strictly and maps to [0,1],
reaching 1. -/
theorem C63_smoothGini (g c : ℝ) (hg : 0 < g) (hg2 : g < 2) (hc0 : 0 ≤ c) (hc1 : c ≤ 1) (R : List ℝ) (h : 2 ≤ R.length) :
    KeepsStrictOrder R (smoothGini g c R) ∧ Unit01 (smoothGini g c R) := by
  have hn : (0 : ℝ) < (R.length : ℝ) - 1 := by
    have : (2 : ℝ) ≤ R.length := by exact_mod_cast h
    linarith
  have he : 0 < 2 / g - 1 := by
    have : 1 < 2 / g := by rw [lt_div_iff₀ hg]; linarith
    linarith
  have hmono : ∀ r s : Nat, r < s → (r : ℝ) * c + ((r : ℝ) / ((R.length : ℝ) - 1)) ^ (2 / g - 1) * (1 - c) <
      (s : ℝ) * c + ((s : ℝ) / ((R.length : ℝ) - 1)) ^ (2 / g - 1) * (1 - c) := by
    intro r s hrs
    have h1 : (r : ℝ) < s := by exact_mod_cast hrs
    have h2 : ((r : ℝ) / ((R.length : ℝ) - 1)) ^ (2 / g - 1) < ((s : ℝ) / ((R.length : ℝ) - 1)) ^ (2 / g - 1) :=
      Real.rpow_lt_rpow (div_nonneg (Nat.cast_nonneg r) hn.le) (div_lt_div_of_pos_right h1 hn) he
    rcases hc0.lt_or_eq with hc | hc
    · have e1 := mul_lt_mul_of_pos_right h1 hc
      have e2 := mul_le_mul_of_nonneg_right h2.le (sub_nonneg.2 hc1)
      linarith
    · rw [← hc]; simpa using h2
  have hzero : (0 : ℝ) ≤ (0 : Nat) * c + (((0 : Nat) : ℝ) / ((R.length : ℝ) - 1)) ^ (2 / g - 1) * (1 - c) := by
    rw [Nat.cast_zero, zero_div, Real.zero_rpow he.ne']; simp
  obtain ⟨hM, hu⟩ := scaled_unit ((rankedFitness R).map (fun r : Nat => (r : ℝ) * c + ((r : ℝ) / ((R.length : ℝ) - 1)) ^ (2 / g - 1) * (1 - c)))
    (by
      intro x hx
      obtain ⟨r, _, rfl⟩ := List.mem_map.1 hx
      rcases Nat.eq_zero_or_pos r with rfl | hr
      · exact hzero
      · exact le_trans hzero (hmono 0 r hr).le)
    ⟨_, List.mem_map.2 ⟨_, last_rank R h, rfl⟩, lt_of_le_of_lt hzero (hmono 0 _ (by omega))⟩
  refine ⟨?_, hu⟩
  rw [smoothGini]
  simp only [List.map_map]
  exact map_keeps_strict R _ (fun r s hrs _ => div_lt_div_of_pos_right (hmono r s hrs) hM)

/-- **C63, top selection** selects exactly the best ⌊n·fraction⌋ entries (with utility 1, the others with 0). -/
theorem C63_topSelection (f : ℝ) (hf0 : 0 ≤ f) (hf1 : f ≤ 1) (R : List ℝ) :
    KeepsOrder R (topSelection f R) ∧ (∀ x ∈ topSelection f R, x = 0 ∨ x = 1) ∧
    (topSelection f R).count 1 = ⌊(R.length : ℝ) * f⌋₊ := by
  refine ⟨map_keeps R _ (fun r s hrs hs => ?_), fun x hx => ?_, ?_⟩
  · have h2 : (r : ℝ) < s := by exact_mod_cast hrs
    by_cases hr : (r : ℝ) ≥ (R.length : ℝ) * (1 - f)
    · rw [if_pos hr, if_pos (by linarith)]
    · rw [if_neg hr]; split <;> norm_num
  · obtain ⟨r, _, rfl⟩ := List.mem_map.1 hx
    split <;> simp
  · have hcnt : (topSelection f R).count 1 = (List.range R.length).countP (fun r : Nat => decide ((r : ℝ) ≥ (R.length : ℝ) * (1 - f))) := by
      rw [topSelection]
      simp only [List.count, List.countP_map]
      rw [(rankedFitness_perm R).countP_eq]
      apply List.countP_congr
      intro r _
      by_cases h : (r : ℝ) ≥ (R.length : ℝ) * (1 - f) <;> simp [h]
    rw [hcnt]
    have hm : ⌊(R.length : ℝ) * f⌋₊ ≤ R.length := by
      apply Nat.floor_le_of_le
      exact mul_le_of_le_one_right (Nat.cast_nonneg _) hf1
    generalize hmm : ⌊(R.length : ℝ) * f⌋₊ = m at hm
    have hiff : ∀ r, r < R.length → ((r : ℝ) ≥ (R.length : ℝ) * (1 - f) ↔ R.length - m ≤ r) := by
      intro r hr
      have h1 : (R.length : ℝ) * (1 - f) ≤ r ↔ ((R.length - r : Nat) : ℝ) ≤ (R.length : ℝ) * f := by
        rw [Nat.cast_sub hr.le]; constructor <;> intro h <;> linarith
      rw [ge_iff_le, h1, ← Nat.le_floor_iff (mul_nonneg (Nat.cast_nonneg _) hf0), hmm]
      omega
    have hc : (List.range R.length).countP (fun r : Nat => decide ((r : ℝ) ≥ (R.length : ℝ) * (1 - f))) =
        (List.range R.length).countP (fun r : Nat => decide (R.length - m ≤ r)) := by
      apply List.countP_congr
      intro r hr
      simpa using hiff r (List.mem_range.1 hr)
    rw [hc]
    obtain ⟨k, hk⟩ : ∃ k, R.length = k + m := ⟨R.length - m, by omega⟩
    rw [hk, List.range_add, List.countP_append, List.countP_map, Nat.add_sub_cancel]
    rw [List.countP_eq_zero.2 (fun r hr => by simpa using List.mem_range.1 hr)]
    rw [List.countP_eq_length.2 (fun r _ => by simp)]
    simp

/-- **C63, top linear ranking** with a positive fraction preserves the order and, for more than 1/fraction entries, maps to [0,1],
reaching 1. -/
theorem C63_topLinear (f : ℝ) (R : List ℝ) (h1 : 1 < (R.length : ℝ) * f) :
    KeepsOrder R (topLinear f R) ∧ Unit01 (topLinear f R) := by
  have hn : 0 < R.length := by
    rcases Nat.eq_zero_or_pos R.length with h | h
    · rw [h] at h1; norm_num at h1
    · exact h
  have e : ((R.length - 1 : Nat) : ℝ) = R.length - 1 := by rw [Nat.cast_sub (by omega)]; simp
  obtain ⟨hM, hu⟩ := scaled_unit ((rankedFitness R).map (fun r : Nat => if (r : ℝ) ≥ (R.length : ℝ) * (1 - f) then (r : ℝ) - (R.length : ℝ) * (1 - f) else 0))
    (by
      intro x hx
      obtain ⟨r, _, rfl⟩ := List.mem_map.1 hx
      split
      · linarith
      · exact le_rfl)
    ⟨_, List.mem_map.2 ⟨R.length - 1, (rankedFitness_perm R).mem_iff.2 (List.mem_range.2 (by omega)), rfl⟩, by
      rw [e, if_pos (by linarith)]; linarith⟩
  refine ⟨?_, hu⟩
  rw [topLinear]
  simp only [List.map_map]
  refine map_keeps R _ (fun r s hrs _ => div_le_div_of_nonneg_right ?_ hM.le)
  beta_reduce
  have h2 : (r : ℝ) < s := by exact_mod_cast hrs
  by_cases hr : (r : ℝ) ≥ (R.length : ℝ) * (1 - f)
  · rw [if_pos hr, if_pos (by linarith)]; linarith
  · rw [if_neg hr]
    split
    · linarith
    · exact le_rfl

/-- **C63, bilinear ranking** with a non-negative factor preserves the order strictly and maps to [0,1], reaching 1. -/
theorem C63_bilinear (b : ℝ) (hb : 0 ≤ b) (R : List ℝ) (h : 2 ≤ R.length) : KeepsStrictOrder R (bilinear b R) ∧ Unit01 (bilinear b R) := by
  have hmono : ∀ r s : Nat, r < s →
      (if (r : ℝ) < 4 * (R.length : ℝ) / 5 then (r : ℝ) else (r : ℝ) + ((r : ℝ) - 4 * (R.length : ℝ) / 5) * b) <
      (if (s : ℝ) < 4 * (R.length : ℝ) / 5 then (s : ℝ) else (s : ℝ) + ((s : ℝ) - 4 * (R.length : ℝ) / 5) * b) := by
    intro r s hrs
    have h2 : (r : ℝ) < s := by exact_mod_cast hrs
    generalize 4 * (R.length : ℝ) / 5 = t
    by_cases hr : (r : ℝ) < t
    · rw [if_pos hr]
      split
      · exact h2
      · rename_i hs
        have := mul_nonneg (by linarith : 0 ≤ (s : ℝ) - t) hb
        linarith
    · rw [if_neg hr, if_neg (by linarith)]
      have := mul_le_mul_of_nonneg_right (by linarith : (r : ℝ) - t ≤ (s : ℝ) - t) hb
      linarith
  have hz : (0 : ℝ) ≤ (if ((0 : Nat) : ℝ) < 4 * (R.length : ℝ) / 5 then ((0 : Nat) : ℝ) else ((0 : Nat) : ℝ) + (((0 : Nat) : ℝ) - 4 * (R.length : ℝ) / 5) * b) := by
    rw [if_pos]
    · simp
    · have : (2 : ℝ) ≤ R.length := by exact_mod_cast h
      push_cast; linarith
  obtain ⟨hM, hu⟩ := scaled_unit ((rankedFitness R).map (fun r : Nat => if (r : ℝ) < 4 * (R.length : ℝ) / 5 then (r : ℝ) else (r : ℝ) + ((r : ℝ) - 4 * (R.length : ℝ) / 5) * b))
    (by
      intro x hx
      obtain ⟨r, _, rfl⟩ := List.mem_map.1 hx
      rcases Nat.eq_zero_or_pos r with rfl | hr
      · exact hz
      · exact le_trans hz (hmono 0 r hr).le)
    ⟨_, List.mem_map.2 ⟨_, last_rank R h, rfl⟩, lt_of_le_of_lt hz (hmono 0 _ (by omega))⟩
  refine ⟨?_, hu⟩
  rw [bilinear]
  simp only [List.map_map]
  exact map_keeps_strict R _ (fun r s hrs _ => div_lt_div_of_pos_right (hmono r s hrs) hM)

/-- The hypotheses of the C63 theorems are met by ordinary lists and the default settings. -/
example : KeepsStrictOrder [3, 1, 2] (defaultRanking [3, 1, 2]) ∧ Unit01 (bilinear 20 [3, 1, 2]) ∧ Unit01 (smoothGini 0.1 0 [3, 1, 2]) ∧
    Unit01 (topLinear 0.5 [3, 1, 2]) :=
  ⟨(C63_default _ (by simp)).1, (C63_bilinear 20 (by norm_num) _ (by simp)).2,
    (C63_smoothGini 0.1 0 (by norm_num) (by norm_num) le_rfl (by norm_num) _ (by simp)).2,
    (C63_topLinear 0.5 _ (by norm_num)).2⟩

/-- **C63, tournament selection: violated.** `TournamentSelection` counts the winner's position inside the tournament instead of
its position in the population: with tournaments of size `k` no individual at position `k` or later is ever selected. -/
theorem C63_negation_tournament {K : Type} [LinearOrder K] (k : Nat) (opponents : Nat → List Nat)
    (hk : ∀ i, (opponents i).length + 1 = k) (R : List K) (x : Nat) (hx : k ≤ x) (hxR : x < R.length) :
    (tournament opponents R)[x]? = some 0 := by
  have harg : ∀ l : List K, l ≠ [] → argmax l < l.length := by
    intro l hl
    cases l with
    | nil => exact absurd rfl hl
    | cons a l =>
      rw [argmax]
      have : ∀ (l : List K) (s : Nat × Nat × K), s.2.1 < s.1 →
          (l.foldl (fun (s : Nat × Nat × K) v => if s.2.2 < v then (s.1 + 1, s.1, v) else (s.1 + 1, s.2)) s).2.1 < s.1 + l.length := by
        intro l
        induction l with
        | nil => intro s hs; simpa using hs
        | cons b l ih =>
          intro s hs
          rw [List.foldl_cons, List.length_cons]
          split
          · refine lt_of_lt_of_le (ih _ (by simp)) (by simp; omega)
          · refine lt_of_lt_of_le (ih _ (by simp; omega)) (by simp; omega)
      have := this l (1, 0, a) (by simp)
      rw [List.length_cons]; simp only at this; omega
  have hloop : ∀ (is : List Nat) (res : List Nat), (∀ i ∈ is, i < R.length) → res[x]? = some 0 →
      (is.foldl (fun res i =>
        let l := i :: opponents i
        let fits := l.filterMap (fun x => R[x]?)
        res.modify (argmax fits) (· + 1)) res)[x]? = some 0 := by
    intro is
    induction is with
    | nil => intro res _ h; exact h
    | cons i is ih =>
      intro res hlt h
      rw [List.foldl_cons]
      refine ih _ (fun j hj => hlt j (by simp [hj])) ?_
      simp only
      rw [List.getElem?_modify_ne]
      · exact h
      · have hi : i < R.length := hlt i (by simp)
        have h1 := List.length_filterMap_le (fun x => R[x]?) (i :: opponents i)
        have h2 := harg ((i :: opponents i).filterMap (fun x => R[x]?)) (by
          rw [List.filterMap_cons, List.getElem?_eq_getElem hi]; simp)
        rw [List.length_cons, hk i] at h1
        omega
  exact hloop _ _ (fun i hi => List.mem_range.1 hi) (by rw [List.getElem?_replicate, if_pos hxR])

/-- a concrete run: two individuals, the better one should win both tournaments -/
example : tournament (fun i => [1 - i]) [(0 : Int), 1] = [1, 1] ∧ tournament (fun i => [(i + 1) % 3]) [(0 : Int), 1, 2] = [1, 2, 0] := by decide

end Verif.Props
