import Verif.Model.NNTools
import Mathlib.Logic.Function.Iterate
import Mathlib.Order.Interval.Finset.Nat
import Mathlib.Tactic.Linarith
import Mathlib.Algebra.Order.Ring.Rat
import Mathlib.Algebra.Order.Ring.Nat
/-
C135: training with early stopping.
-/
namespace Verif.NNTools

variable {W K : Type} [LinearOrder K]

/-- the first of the checks `1, …, m` with the smallest error -/
def FirstBest (e : Nat → K) (b m : Nat) : Prop := 1 ≤ b ∧ b ≤ m ∧ (∀ j, 1 ≤ j → j ≤ m → e b ≤ e j) ∧ ∀ j, 1 ≤ j → j < b → e b < e j

/-- the largest number of checks that `maxepochs` allows -/
def checks (c : Config W K) : Nat := c.maxepochs / c.epoinc + 1

omit [LinearOrder K] in
theorem guard (c : Config W K) (hi : 0 < c.epoinc) (m : Nat) : m * c.epoinc ≤ c.maxepochs ↔ m < checks c := by
  unfold checks
  rw [Nat.lt_succ_iff, Nat.le_div_iff_mul_le hi]

omit [LinearOrder K] in
theorem checks_le (c : Config W K) : checks c ≤ c.maxepochs + 1 := by
  unfold checks
  have := Nat.div_le_self c.maxepochs c.epoinc
  omega

/-- the variables after `m` checks -/
structure Inv (c : Config W K) (w0 : W) (zero : K) (m : Nat) (s : St W K) : Prop where
  w : s.w = c.train^[m] w0
  epoch : s.epoch = m * c.epoinc
  x : s.curveX = (List.range (m + 1)).map (· * c.epoinc)
  y : s.curveY = zero :: (List.range m).map fun k => c.trnErr (c.train^[k + 1] w0)

theorem inv_start (c : Config W K) (w0 : W) (zero : K) (best : Option K) : Inv c w0 zero 0 (start zero best w0) :=
  ⟨rfl, by simp [start], by simp [start], by simp [start]⟩

theorem inv_body (c : Config W K) (w0 : W) (zero : K) (m : Nat) (s : St W K) (h : Inv c w0 zero m s) : Inv c w0 zero (m + 1) (body c s) := by
  have hw : c.train s.w = c.train^[m + 1] w0 := by rw [h.w, Function.iterate_succ_apply']
  have he : s.epoch + c.epoinc = (m + 1) * c.epoinc := by rw [h.epoch, Nat.add_mul, Nat.one_mul]
  have hx : s.curveX ++ [s.epoch + c.epoinc] = (List.range (m + 1 + 1)).map (· * c.epoinc) := by
    rw [h.x, he, List.range_succ (n := m + 1), List.map_append]; rfl
  have hy : s.curveY ++ [c.trnErr (c.train s.w)] = zero :: (List.range (m + 1)).map fun k => c.trnErr (c.train^[k + 1] w0) := by
    rw [h.y, hw, List.range_succ (n := m), List.map_append]; rfl
  unfold body
  cases c.tstErr with
  | none => exact ⟨hw, he, hx, hy⟩
  | some tst =>
    simp only
    split_ifs <;> exact ⟨hw, he, hx, hy⟩

/-- the variables for the best check -/
structure Best (c : Config W K) (w0 : W) (e : Nat → K) (m : Nat) (s : St W K) (b : Nat) : Prop where
  first : FirstBest e b m
  error : s.bestError = some (e b)
  weights : s.bestWeights = some (c.train^[b] w0)
  epoch : s.bestEpoch = b * c.epoinc
  conv : s.convtest = m - b

theorem best_body (c : Config W K) (w0 : W) (zero : K) (tst : W → K) (ht : c.tstErr = some tst) (m : Nat) (s : St W K) (h : Inv c w0 zero m s)
    (hb : (m = 0 ∧ s.bestError = none) ∨ ∃ b, Best c w0 (fun k => tst (c.train^[k] w0)) m s b) :
    ∃ b, Best c w0 (fun k => tst (c.train^[k] w0)) (m + 1) (body c s) b ∧ ((body c s).converged = true ↔ s.converged = true ∨ c.convergence ≤ m + 1 - b) := by
  have hw : c.train s.w = c.train^[m + 1] w0 := by rw [h.w, Function.iterate_succ_apply']
  have he : s.epoch + c.epoinc = (m + 1) * c.epoinc := by rw [h.epoch, Nat.add_mul, Nat.one_mul]
  -- a new best one
  have new : better (tst (c.train s.w)) s.bestError = true → FirstBest (fun k => tst (c.train^[k] w0)) (m + 1) (m + 1) →
      ∃ b, Best c w0 (fun k => tst (c.train^[k] w0)) (m + 1) (body c s) b ∧ ((body c s).converged = true ↔ s.converged = true ∨ c.convergence ≤ m + 1 - b) := by
    intro hbet hfirst
    refine ⟨m + 1, ?_, ?_⟩
    · unfold body
      rw [ht]
      simp only [hbet, if_true]
      split_ifs <;> exact ⟨hfirst, by simp [hw], by simp [hw], he, by simp⟩
    · unfold body
      rw [ht]
      simp only [hbet, if_true]
      split_ifs with h1
      · simp only [true_iff]
        right; omega
      · simp only [ge_iff_le] at h1
        constructor
        · intro h; exact Or.inl h
        · rintro (h | h)
          · exact h
          · omega
  rcases hb with ⟨rfl, hnone⟩ | ⟨b, hb⟩
  · refine new (by rw [hnone]; rfl) ⟨le_refl _, le_refl _, fun j h1 h2 => ?_, fun j h1 h2 => by omega⟩
    have : j = 0 + 1 := by omega
    rw [this]
  · by_cases hlt : tst (c.train s.w) < tst (c.train^[b] w0)
    · refine new (by rw [hb.error]; simpa [better] using hlt) ⟨by omega, le_refl _, fun j h1 h2 => ?_, fun j h1 h2 => ?_⟩
      · rcases Nat.lt_or_ge j (m + 1) with hj | hj
        · have := hb.first.2.2.1 j h1 (by omega)
          rw [hw] at hlt
          exact le_trans hlt.le this
        · have : j = m + 1 := by omega
          rw [this]
      · have := hb.first.2.2.1 j h1 (by omega)
        rw [hw] at hlt
        exact lt_of_lt_of_le hlt this
    · refine ⟨b, ?_, ?_⟩
      · have hbet : better (tst (c.train s.w)) s.bestError = false := by rw [hb.error]; simpa [better] using hlt
        have hfirst : FirstBest (fun k => tst (c.train^[k] w0)) b (m + 1) := by
          refine ⟨hb.first.1, by have := hb.first.2.1; omega, fun j h1 h2 => ?_, hb.first.2.2.2⟩
          rcases Nat.lt_or_ge j (m + 1) with hj | hj
          · exact hb.first.2.2.1 j h1 (by omega)
          · have : j = m + 1 := by omega
            rw [this]
            have := not_lt.1 hlt
            rwa [hw] at this
        have hcv : s.convtest + 1 = m + 1 - b := by
          have := hb.conv
          have := hb.first.2.1
          omega
        unfold body
        rw [ht]
        simp only [hbet, Bool.false_eq_true, if_false]
        split_ifs <;> exact ⟨hfirst, hb.error, hb.weights, hb.epoch, hcv⟩
      · have hbet : better (tst (c.train s.w)) s.bestError = false := by rw [hb.error]; simpa [better] using hlt
        have hcv : s.convtest + 1 = m + 1 - b := by
          have := hb.conv
          have := hb.first.2.1
          omega
        unfold body
        rw [ht]
        simp only [hbet, Bool.false_eq_true, if_false, hcv]
        split_ifs with h1
        · simp only [true_iff]
          right; exact h1
        · constructor
          · intro h; exact Or.inl h
          · rintro (h | h)
            · exact h
            · exact absurd h h1

/-- without a test set -/
theorem loop_plain (c : Config W K) (w0 : W) (zero : K) (ht : c.tstErr = none) (hi : 0 < c.epoinc) : ∀ (fuel m : Nat) (s : St W K), Inv c w0 zero m s → s.converged = false →
    s.bestWeights = none → m ≤ checks c → checks c ≤ m + fuel → Inv c w0 zero (checks c) (loop c fuel s) ∧ (loop c fuel s).bestWeights = none := by
  intro fuel
  induction fuel with
  | zero =>
    intro m s h _ hb hm hf
    have : m = checks c := by omega
    rw [loop, ← this]
    exact ⟨h, hb⟩
  | succ fuel ih =>
    intro m s h hc hb hm hf
    rw [loop]
    by_cases hg : s.epoch ≤ c.maxepochs
    · rw [if_pos ⟨hg, hc⟩]
      rw [h.epoch, guard c hi] at hg
      have e : (body c s).converged = s.converged ∧ (body c s).bestWeights = s.bestWeights := by unfold body; rw [ht]; exact ⟨rfl, rfl⟩
      exact ih (m + 1) _ (inv_body c w0 zero m s h) (e.1.trans hc) (e.2.trans hb) hg (by omega)
    · rw [if_neg fun hh => hg hh.1]
      rw [h.epoch, guard c hi] at hg
      have : m = checks c := by omega
      rw [← this]
      exact ⟨h, hb⟩

/-- with a test set -/
theorem loop_test (c : Config W K) (w0 : W) (zero : K) (tst : W → K) (ht : c.tstErr = some tst) (hi : 0 < c.epoinc) : ∀ (fuel m : Nat) (s : St W K), Inv c w0 zero m s →
    ((m = 0 ∧ s.bestError = none ∧ s.converged = false) ∨ ∃ b, Best c w0 (fun k => tst (c.train^[k] w0)) m s b ∧ (s.converged = true ↔ c.convergence ≤ m - b)) →
    (∀ k, 1 ≤ k → k < m → ∃ b, FirstBest (fun k => tst (c.train^[k] w0)) b k ∧ k - b < c.convergence) → m ≤ checks c → checks c ≤ m + fuel →
    ∃ n b, 1 ≤ n ∧ n ≤ checks c ∧ Inv c w0 zero n (loop c fuel s) ∧ Best c w0 (fun k => tst (c.train^[k] w0)) n (loop c fuel s) b ∧ (c.convergence ≤ n - b ∨ n = checks c) ∧
      ∀ k, 1 ≤ k → k < n → ∃ b, FirstBest (fun k => tst (c.train^[k] w0)) b k ∧ k - b < c.convergence := by
  intro fuel
  have hpos : 1 ≤ checks c := Nat.succ_le_succ (Nat.zero_le _)
  induction fuel with
  | zero =>
    intro m s h hb hk hm hf
    have hmc : m = checks c := by omega
    rcases hb with ⟨h0, _⟩ | ⟨b, hb, _⟩
    · omega
    · rw [loop]
      exact ⟨m, b, by omega, hm, h, hb, Or.inr hmc, hk⟩
  | succ fuel ih =>
    intro m s h hb hk hm hf
    rw [loop]
    by_cases hg : s.epoch ≤ c.maxepochs ∧ s.converged = false
    · rw [if_pos hg]
      obtain ⟨hg1, hg2⟩ := hg
      rw [h.epoch, guard c hi] at hg1
      have hb' : (m = 0 ∧ s.bestError = none) ∨ ∃ b, Best c w0 (fun k => tst (c.train^[k] w0)) m s b := by
        rcases hb with ⟨h1, h2, _⟩ | ⟨b, h1, _⟩
        · exact Or.inl ⟨h1, h2⟩
        · exact Or.inr ⟨b, h1⟩
      obtain ⟨b', hb1, hb2⟩ := best_body c w0 zero tst ht m s h hb'
      refine ih (m + 1) _ (inv_body c w0 zero m s h) (Or.inr ⟨b', hb1, by rw [hb2, hg2]; simp⟩) ?_ hg1 (by omega)
      intro k hk1 hk2
      rcases Nat.lt_or_ge k m with hkm | hkm
      · exact hk k hk1 hkm
      · have hkm' : k = m := by omega
        rcases hb with ⟨h1, _⟩ | ⟨b, h1, h2⟩
        · omega
        · rw [hkm']
          exact ⟨b, h1.first, by rw [hg2] at h2; simp at h2; omega⟩
    · rw [if_neg hg]
      rcases hb with ⟨h0, _, hc⟩ | ⟨b, hb, hc⟩
      · exfalso
        apply hg
        refine ⟨?_, hc⟩
        rw [h.epoch, guard c hi]
        omega
      · refine ⟨m, b, le_trans hb.first.1 hb.first.2.1, hm, h, hb, ?_, hk⟩
        by_cases hcv : s.converged = true
        · exact Or.inl (hc.1 hcv)
        · right
          have : ¬ s.epoch ≤ c.maxepochs := fun hh => hg ⟨hh, by simpa using hcv⟩
          rw [h.epoch, guard c hi] at this
          omega

end Verif.NNTools

namespace Verif.Props
open Verif.NNTools

variable {W K : Type} [LinearOrder K]

/-- **C135, training without a test set.** The network is trained `epoinc` epochs at a time, `maxepochs / epoinc + 1` times, and the training curve has the error after each of these. -/
theorem C135_plain (zero : K) (best : Option K) (c : Config W K) (w0 : W) (ht : c.tstErr = none) (hv : c.hasVDS = false) (hi : 0 < c.epoinc) :
    ∃ s, runTraining zero best c w0 = .ok (c.train^[c.maxepochs / c.epoinc + 1] w0, s) ∧ s.curveX = (List.range (c.maxepochs / c.epoinc + 2)).map (· * c.epoinc) ∧
      s.curveY = zero :: (List.range (c.maxepochs / c.epoinc + 1)).map fun k => c.trnErr (c.train^[k + 1] w0) := by
  obtain ⟨h1, _⟩ := loop_plain c w0 zero ht hi (c.maxepochs + 1) 0 (start zero best w0) (inv_start c w0 zero best) rfl rfl (by omega) (by have := checks_le c; omega)
  refine ⟨_, ?_, h1.x, h1.y⟩
  unfold runTraining
  simp only [hv, Bool.false_eq_true, if_false]
  rw [h1.w]
  rfl

/-- **C135 violated: the maximal number of epochs** is always exceeded, by up to `epoinc` epochs. -/
theorem C135_negation_max (zero : K) (best : Option K) (c : Config W K) (w0 : W) (ht : c.tstErr = none) (hv : c.hasVDS = false) (hi : 0 < c.epoinc) :
    ∃ w s, runTraining zero best c w0 = .ok (w, s) ∧ c.maxepochs < s.epoch ∧ s.epoch ≤ c.maxepochs + c.epoinc := by
  obtain ⟨h1, _⟩ := loop_plain c w0 zero ht hi (c.maxepochs + 1) 0 (start zero best w0) (inv_start c w0 zero best) rfl rfl (by omega) (by have := checks_le c; omega)
  refine ⟨(loop c (c.maxepochs + 1) (start zero best w0)).w, loop c (c.maxepochs + 1) (start zero best w0), ?_, ?_, ?_⟩
  · unfold runTraining
    simp only [hv, Bool.false_eq_true, if_false]
  · rw [h1.epoch]
    exact not_le.1 fun h => by rw [guard c hi] at h; omega
  · rw [h1.epoch, checks, Nat.add_mul, one_mul]
    have := Nat.div_mul_le_self c.maxepochs c.epoinc
    omega

/-- **C135, early stopping.** With a test set, let `e k` be the test error after `k` times `epoinc` epochs. Training ends after `n` of these, when the first best of them is `convergence` or more steps ago, or when the
number of epochs is used up; before that the first best one was always less than `convergence` steps ago. With a validation set the network has the weights of the first best check in the end. -/
theorem C135_early (zero : K) (c : Config W K) (w0 : W) (tst : W → K) (ht : c.tstErr = some tst) (hi : 0 < c.epoinc) :
    ∃ n b s, 1 ≤ n ∧ n ≤ c.maxepochs / c.epoinc + 1 ∧ FirstBest (fun k => tst (c.train^[k] w0)) b n ∧ (c.convergence ≤ n - b ∨ n = c.maxepochs / c.epoinc + 1) ∧
      (∀ k, 1 ≤ k → k < n → ∃ b, FirstBest (fun k => tst (c.train^[k] w0)) b k ∧ k - b < c.convergence) ∧
      runTraining zero none c w0 = .ok (c.train^[if c.hasVDS then b else n] w0, s) ∧ s.bestEpoch = b * c.epoinc ∧ s.bestError = some (tst (c.train^[b] w0)) := by
  obtain ⟨n, b, h1, h2, h3, h4, h5, h6⟩ := loop_test c w0 zero tst ht hi (c.maxepochs + 1) 0 (start zero none w0) (inv_start c w0 zero none) (Or.inl ⟨rfl, rfl, rfl⟩)
    (fun k h1 h2 => by omega) (by omega) (by have := checks_le c; omega)
  refine ⟨n, b, _, h1, h2, h4.first, h5, h6, ?_, h4.epoch, h4.error⟩
  unfold runTraining
  cases hv : c.hasVDS with
  | true =>
    simp only [if_true]
    rw [h4.weights]
  | false =>
    simp only [Bool.false_eq_true, if_false]
    rw [h3.w]

/-- **C135 violated: the default.** `convergence = 0`, for which convergence is not to be checked according to the documentation, ends the training after the first check if there is a test set. -/
theorem C135_negation_default (zero : K) (c : Config W K) (w0 : W) (tst : W → K) (ht : c.tstErr = some tst) (hi : 0 < c.epoinc) (hc : c.convergence = 0) :
    ∃ s, runTraining zero none c w0 = .ok (c.train w0, s) := by
  obtain ⟨n, b, s, h1, h2, h3, h4, h5, h6, -⟩ := C135_early zero c w0 tst ht hi
  have hn : n = 1 := by
    rcases Nat.lt_or_ge 1 n with h | h
    · obtain ⟨b, _, hb⟩ := h5 1 (le_refl _) h
      omega
    · omega
  have hb : b = 1 := by
    have := h3.1
    have := h3.2.1
    omega
  refine ⟨s, ?_⟩
  rw [h6, hn, hb]
  simp

/-- **C135 violated: validation without a test set** always fails, after the whole training: the best weights are unknown. -/
theorem C135_negation_validation (zero : K) (best : Option K) (c : Config W K) (w0 : W) (ht : c.tstErr = none) (hv : c.hasVDS = true) (hi : 0 < c.epoinc) :
    runTraining zero best c w0 = .error .unboundLocal := by
  obtain ⟨_, h2⟩ := loop_plain c w0 zero ht hi (c.maxepochs + 1) 0 (start zero best w0) (inv_start c w0 zero best) rfl rfl (by omega) (by have := checks_le c; omega)
  unfold runTraining
  simp only [hv, if_true, h2]

/-- **C135 violated: classifiers that are always wrong.** If no test sample is classified correctly at any check (an error of 100 per cent), a classifier with a validation set fails in the same way. -/
theorem C135_negation_classifier (zero hundred : K) (c : Config W K) (w0 : W) (tst : W → K) (ht : c.tstErr = some tst) (h100 : ∀ w, tst w = hundred) (hv : c.hasVDS = true) :
    runTraining zero (some hundred) c w0 = .error .unboundLocal := by
  have key : ∀ fuel (s : St W K), s.bestWeights = none → s.bestError = some hundred → (loop c fuel s).bestWeights = none := by
    intro fuel
    induction fuel with
    | zero => intro s h _; exact h
    | succ fuel ih =>
      intro s h1 h2
      rw [loop]
      split_ifs with hg
      · have e : (body c s).bestWeights = none ∧ (body c s).bestError = some hundred := by
          unfold body
          rw [ht]
          simp only [h2, better, h100, lt_irrefl, decide_false, Bool.false_eq_true, if_false]
          split_ifs <;> exact ⟨h1, rfl⟩
        exact ih _ e.1 e.2
      · exact h1
  unfold runTraining
  simp only [hv, if_true, key (c.maxepochs + 1) (start zero (some hundred) w0) rfl rfl]

omit [LinearOrder K] in
/-- **C135 violated: saved curves lack the last check.** Of a training curve with `n + 2` entries in each column, the entries with numbers `1` to `n` are written. -/
theorem C135_negation_saved (xs ys vs : List K) (n : Nat) (hx : xs.length = n + 2) (hy : ys.length = n + 2) (hv : vs.length = n + 2) :
    ∃ rows, saveTrainingCurve [xs, ys, vs] = .ok rows ∧ rows.length = n := by
  have hm : ∀ l : List Nat, (∀ i ∈ l, i < n + 2) →
      ∃ rows, (l.mapM fun i => [xs, ys, vs].mapM fun c => match c[i]? with | some v => Except.ok v | none => Except.error NErr.indexError) = .ok rows ∧ rows.length = l.length := by
    intro l
    induction l with
    | nil => intro _; exact ⟨[], rfl, rfl⟩
    | cons i l ih =>
      intro h
      obtain ⟨rows, h1, h2⟩ := ih fun j hj => h j (List.mem_cons_of_mem _ hj)
      have hi : i < n + 2 := h i List.mem_cons_self
      have ex : xs[i]? = some xs[i] := List.getElem?_eq_getElem (by omega)
      have ey : ys[i]? = some ys[i] := List.getElem?_eq_getElem (by omega)
      have ev : vs[i]? = some vs[i] := List.getElem?_eq_getElem (by omega)
      refine ⟨[xs[i], ys[i], vs[i]] :: rows, ?_, by simp [h2]⟩
      rw [List.mapM_cons, h1]
      simp only [List.mapM_cons, List.mapM_nil, ex, ey, ev]
      rfl
  obtain ⟨rows, h1, h2⟩ := hm (List.range' 1 n) (fun i hi => by have := List.mem_range'_1.1 hi; omega)
  refine ⟨rows, ?_, by simpa using h2⟩
  have e : xs.length - 2 = n := by omega
  show ((List.range' 1 (xs.length - 2)).mapM _) = _
  rw [e]
  exact h1

/-- **C135 violated: curves without a test set** cannot be saved after more than one check. -/
theorem C135_negation_unsaved : saveTrainingCurve [[(0 : Nat), 5, 10], [0, 2, 1], [0]] = .error .indexError := by decide

/-- a training in which the test error falls and rises -/
def dip : Config Nat Nat := { train := (· + 1), trnErr := id, tstErr := some fun w => (w - 3) + (3 - w), hasVDS := true, epoinc := 5, maxepochs := 1000, convergence := 2 }

example : ((runTraining 0 none dip 0).toOption.map fun r => (r.1, r.2.epoch, r.2.bestEpoch)) = some (3, 25, 15) := by decide +kernel

end Verif.Props
