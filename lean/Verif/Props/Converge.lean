import Verif.Model.Converge
import Mathlib.Tactic.Linarith
import Mathlib.Tactic.NormNum
/-
C44: trainUntilConvergence.
-/
namespace Verif.Converge

variable {S P K : Type} [AddGroup K] [LinearOrder K]

/-- the state after `m` epochs -/
def after (t : Trainer S P K) (s : S) : Nat → S
  | 0 => s
  | m + 1 => (t.train (after t s m)).1

/-- the state of the loop after `m` epochs, the first of which is number 1; `lift` is whether `epochs` has been incremented yet -/
def Inv (t : Trainer S P K) (s : S) (v0 : K) (m : Nat) (x : Vars S P K) : Prop :=
  x.s = after t s m ∧ x.trainingErrors.length = m ∧ x.validationErrors.length = m + 1 ∧ x.validationErrors[0]? = some v0 ∧
  (∀ j, 1 ≤ j → j ≤ m → t.test (t.params (after t s j)) = x.validationErrors[j]? ) ∧
  (∀ j, 1 ≤ j → j ≤ m → (t.train (after t s (j - 1))).2 = x.trainingErrors[j - 1]?) ∧
  (1 ≤ m → x.bestepoch < m ∧ x.bestweights = t.params (after t s (x.bestepoch + 1)) ∧ x.validationErrors[x.bestepoch + 1]? = some x.bestverr ∧
    (∀ j v, 1 ≤ j → x.validationErrors[j]? = some v → x.bestverr ≤ v) ∧ ∀ j v, 1 ≤ j → j ≤ x.bestepoch → x.validationErrors[j]? = some v → x.bestverr < v)

theorem epoch_inv (t : Trainer S P K) (s : S) (v0 : K) (m : Nat) (x : Vars S P K) (hx : Inv t s v0 m x) (he : x.epochs = m) (y : Vars S P K)
    (h : epoch t x = .ok y) : Inv t s v0 (m + 1) y ∧ y.epochs = m := by
  obtain ⟨h1, h2, h3, h4, h5, h5', h6⟩ := hx
  rw [epoch] at h
  simp only [h1] at h
  have ha : (t.train (after t s m)).1 = after t s (m + 1) := rfl
  rw [ha] at h
  split at h
  · rename_i te ve hte hve
    have hget : ∀ j, 1 ≤ j → j ≤ m + 1 → t.test (t.params (after t s j)) = (x.validationErrors ++ [ve])[j]? := by
      intro j hj hj'
      rcases Nat.lt_or_ge j (m + 1) with h | h
      · rw [List.getElem?_append_left (by omega)]; exact h5 j hj (by omega)
      · have : j = m + 1 := by omega
        subst this
        rw [List.getElem?_append_right (by omega), h3]
        simpa using hve
    have hget' : ∀ j, 1 ≤ j → j ≤ m + 1 → (t.train (after t s (j - 1))).2 = (x.trainingErrors ++ [te])[j - 1]? := by
      intro j hj hj'
      rcases Nat.lt_or_ge j (m + 1) with h | h
      · rw [List.getElem?_append_left (by omega)]; exact h5' j hj (by omega)
      · have : j = m + 1 := by omega
        subst this
        rw [List.getElem?_append_right (by omega)]
        simpa [h2] using hte
    have h40 : (x.validationErrors ++ [ve])[0]? = some v0 := by rw [List.getElem?_append_left (by omega)]; exact h4
    have hlast : (x.validationErrors ++ [ve])[m + 1]? = some ve := by rw [List.getElem?_append_right (by omega), h3]; simp
    have hold : ∀ j, j ≤ m → (x.validationErrors ++ [ve])[j]? = x.validationErrors[j]? := by
      intro j hj; rw [List.getElem?_append_left (by omega)]
    split at h
    · rename_i hc
      injection h with h
      subst h
      refine ⟨⟨rfl, by simp [h2], by simp [h3], h40, hget, hget', fun _ => ?_⟩, he⟩
      simp only [he]
      refine ⟨by omega, trivial, hlast, ?_, ?_⟩
      · intro j v hj hv
        rcases Nat.lt_or_ge m j with hm | hm
        · have : j = m + 1 := by
            have := (List.getElem?_eq_some_iff.1 hv).1
            simp [h3] at this; omega
          rw [this, hlast] at hv
          injection hv with hv
          exact hv.le
        · rw [hold j hm] at hv
          rcases hc with hc | hc
          · omega
          · exact hc.le.trans ((h6 (by omega)).2.2.2.1 j v hj hv)
      · intro j v hj hj' hv
        rw [hold j hj'] at hv
        rcases hc with hc | hc
        · omega
        · exact hc.trans_le ((h6 (by omega)).2.2.2.1 j v hj hv)
    · rename_i hc
      push Not at hc
      injection h with h
      subst h
      obtain ⟨q1, q2, q3, q4, q5⟩ := h6 (by omega)
      refine ⟨⟨rfl, by simp [h2], by simp [h3], h40, hget, hget', fun _ => ?_⟩, he⟩
      refine ⟨by simp only; omega, q2, ?_, ?_, ?_⟩
      · simp only; rw [hold _ (by omega)]; exact q3
      · intro j v hj hv
        simp only at hv ⊢
        rcases Nat.lt_or_ge m j with hm | hm
        · have : j = m + 1 := by
            have := (List.getElem?_eq_some_iff.1 hv).1
            simp [h3] at this; omega
          rw [this, hlast] at hv
          injection hv with hv
          rw [← hv]
          exact hc.2
        · rw [hold j hm] at hv
          exact q4 j v hj hv
      · intro j v hj hj' hv
        simp only at hv hj' ⊢
        rw [hold j (by omega)] at hv
        exact q5 j v hj hj' hv
  · cases h

theorem loop_inv (t : Trainer S P K) (maxEpochs : Option Nat) (c : Nat) (s : S) (v0 : K) (fuel m : Nat) (x : Vars S P K) (hx : Inv t s v0 m x) (he : x.epochs = m)
    (hmax : ∀ N, maxEpochs = some N → m ≤ N) (y : Vars S P K) (h : loop t maxEpochs c fuel x = some (.ok y)) :
    ∃ m', m < m' ∧ (∀ N, maxEpochs = some N → m' ≤ N + 1) ∧ y.s = t.setParams (after t s m') y.bestweights ∧ Inv t s v0 m' { y with s := after t s m' } := by
  induction fuel generalizing m x with
  | zero => cases h
  | succ fuel ih =>
    rw [loop] at h
    split at h
    · cases h
    · rename_i x1 hx1
      obtain ⟨hi, he1⟩ := epoch_inv t s v0 m x hx he x1 hx1
      split at h
      · injection h with h
        injection h with h
        subst h
        refine ⟨m + 1, by omega, fun N hN => by have := hmax N hN; omega, ?_, ?_⟩
        · simp only [hi.1]
        · exact ⟨rfl, hi.2⟩
      · rename_i hN
        simp only at h
        split at h
        · cases h
        · injection h with h
          injection h with h
          subst h
          refine ⟨m + 1, by omega, fun N hN => by have := hmax N hN; omega, ?_, ?_⟩
          · simp only [hi.1]
          · exact ⟨rfl, hi.2⟩
        · obtain ⟨m', g1, g2, g3, g4⟩ := ih (m + 1) { x1 with epochs := x1.epochs + 1 } ⟨hi.1, hi.2⟩ (by simp only; omega) (fun N hN' => by
            rw [hN', he1] at hN
            simp at hN
            omega) h
          exact ⟨m', by omega, g2, g3, g4⟩

/-- The last `c` errors are all larger than all of the `c` errors before them. -/
def Rising (c : Nat) (v : List K) : Prop :=
  2 * c ≤ v.length ∧ ∀ i < c, ∀ j < c, v.getD (v.length - 2 * c + i) 0 < v.getD (v.length - c + j) 0

/-- The last `c` errors, rounded, differ from the very last one by amounts that add up to nothing. -/
def Flat (round : K → K) (c : Nat) (v : List K) : Prop :=
  2 * c ≤ v.length ∧ ((List.range c).map fun j => round (v.getD (v.length - c + j) 0) - round (v.getD (v.length - 1) 0)).sum = 0

theorem lastK_eq (c : Nat) (v : List K) (h : c ≤ v.length) : lastK c v = (List.range c).map fun j => v.getD (v.length - c + j) 0 := by
  refine List.ext_getElem (by simp [lastK]; omega) fun i h1 h2 => ?_
  simp only [List.length_map, List.length_range] at h2
  simp [lastK, List.getD_eq_getElem?_getD, List.getElem?_eq_getElem (show v.length - c + i < v.length by omega)]

theorem prevK_eq (c : Nat) (v : List K) (h : 2 * c ≤ v.length) : prevK c v = (List.range c).map fun j => v.getD (v.length - 2 * c + j) 0 := by
  refine List.ext_getElem (by simp [prevK]; omega) fun i h1 h2 => ?_
  simp only [List.length_map, List.length_range] at h2
  simp [prevK, List.getD_eq_getElem?_getD, List.getElem?_eq_getElem (show v.length - 2 * c + i < v.length by omega)]

theorem converged_iff (t : Trainer S P K) (c : Nat) (hc : 0 < c) (v : List K) :
    ∃ b, converged t c v = .ok b ∧ (b = true ↔ Rising c v ∨ Flat t.round c v) := by
  unfold converged
  by_cases h : c * 2 ≤ v.length
  · rw [if_pos h, if_neg (by omega)]
    dsimp only
    have hr : ((lastK c v).all fun a => (prevK c v).all fun b => decide (b < a)) = true ↔ Rising c v := by
      rw [lastK_eq c v (by omega), prevK_eq c v (by omega)]
      simp only [List.all_eq_true, List.mem_map, List.mem_range, decide_eq_true_eq, forall_exists_index, and_imp, forall_apply_eq_imp_iff₂, Rising]
      exact ⟨fun h1 => ⟨by omega, fun i hi j hj => h1 j hj i hi⟩, fun h1 j hj i hi => h1.2 i hi j hj⟩
    have hlast : (lastK c v).getLastD 0 = v.getD (v.length - 1) 0 := by
      rw [lastK_eq c v (by omega)]
      obtain ⟨k, rfl⟩ : ∃ k, c = k + 1 := ⟨c - 1, by omega⟩
      rw [List.range_succ, List.map_append]
      simp only [List.map_cons, List.map_nil, List.getLastD_concat]
      congr 1; omega
    have hf : ((lastK c v).map fun y => t.round y - t.round ((lastK c v).getLastD 0)).sum = 0 ↔ Flat t.round c v := by
      rw [hlast, lastK_eq c v (by omega), List.map_map]
      exact ⟨fun h1 => ⟨by omega, h1⟩, fun h1 => h1.2⟩
    by_cases h1 : ((lastK c v).all fun a => (prevK c v).all fun b => decide (b < a)) = true
    · rw [if_pos h1]
      exact ⟨true, rfl, by simp [hr.1 h1]⟩
    · rw [if_neg h1]
      refine ⟨_, rfl, ?_⟩
      rw [decide_eq_true_iff, hf]
      have : ¬ Rising c v := fun h => h1 (hr.2 h)
      tauto
  · rw [if_neg h]
    refine ⟨false, rfl, ?_⟩
    simp only [Bool.false_eq_true, false_iff, not_or]
    exact ⟨fun h1 => h (by have := h1.1; omega), fun h1 => h (by have := h1.1; omega)⟩

theorem epoch_verr (t : Trainer S P K) (x y : Vars S P K) (h : epoch t x = .ok y) :
    y.epochs = x.epochs ∧ ∃ e, y.validationErrors = x.validationErrors ++ [e] := by
  rw [epoch] at h
  simp only at h
  split at h
  · split at h <;> (injection h with h; subst h; exact ⟨rfl, _, rfl⟩)
  · cases h

theorem loop_stop (t : Trainer S P K) (maxEpochs : Option Nat) (c : Nat) (hc : 0 < c) (fuel m : Nat) (x : Vars S P K) (he : x.epochs = m)
    (hl : x.validationErrors.length = m + 1) (hmax : ∀ N, maxEpochs = some N → m ≤ N) (y : Vars S P K) (h : loop t maxEpochs c fuel x = some (.ok y)) :
    ∃ m', m < m' ∧ y.validationErrors.length = m' + 1 ∧ x.validationErrors <+: y.validationErrors ∧
      (maxEpochs = some (m' - 1) ∨ Rising c y.validationErrors ∨ Flat t.round c y.validationErrors) ∧
      ∀ j, m < j → j < m' → maxEpochs ≠ some (j - 1) ∧ ¬ Rising c (y.validationErrors.take (j + 1)) ∧ ¬ Flat t.round c (y.validationErrors.take (j + 1)) := by
  induction fuel generalizing m x with
  | zero => cases h
  | succ fuel ih =>
    rw [loop] at h
    split at h
    · cases h
    · rename_i x1 hx1
      obtain ⟨e1, err, hv⟩ := epoch_verr t x x1 hx1
      have hl1 : x1.validationErrors.length = m + 2 := by rw [hv]; simp [hl]
      have hpre : x.validationErrors <+: x1.validationErrors := by rw [hv]; exact List.prefix_append _ _
      split at h
      · rename_i hN
        injection h with h
        injection h with h
        subst h
        refine ⟨m + 1, by omega, by simpa using hl1, hpre, ?_, fun j h1 h2 => by omega⟩
        cases hm : maxEpochs with
        | none => rw [hm] at hN; simp at hN
        | some N =>
          rw [hm] at hN
          simp only [Option.any_some, decide_eq_true_eq] at hN
          have := hmax N hm
          left; congr 1; omega
      · rename_i hN
        simp only at h
        obtain ⟨b, hb, hbi⟩ := converged_iff t c hc x1.validationErrors
        rw [hb] at h
        cases b with
        | true =>
          simp only at h
          injection h with h
          injection h with h
          subst h
          exact ⟨m + 1, by omega, by simpa using hl1, hpre, Or.inr (hbi.1 rfl), fun j h1 h2 => by omega⟩
        | false =>
          simp only at h
          have hne : ∀ N, maxEpochs = some N → m + 1 ≤ N := by
            intro N hm
            rw [hm] at hN
            simp only [Option.any_some, decide_eq_true_eq, not_le] at hN
            omega
          obtain ⟨m', g1, g2, g3, g4, g5⟩ := ih (m + 1) { x1 with epochs := x1.epochs + 1 } (by simp only; omega) hl1 hne h
          refine ⟨m', by omega, g2, hpre.trans g3, g4, fun j h1 h2 => ?_⟩
          by_cases hj : j = m + 1
          · subst hj
            have htake : y.validationErrors.take (m + 1 + 1) = x1.validationErrors := by
              have := List.prefix_iff_eq_take.1 g3
              simp only [hl1] at this
              exact this.symm
            rw [htake]
            refine ⟨fun hm => by have := hne _ hm; omega, ?_⟩
            have : ¬ (Rising c x1.validationErrors ∨ Flat t.round c x1.validationErrors) := fun hh => by simpa using hbi.2 hh
            tauto
          · exact g5 j (by omega) h2

end Verif.Converge

namespace Verif.Props
open Verif.Converge

variable {S P K : Type} [AddGroup K] [LinearOrder K]

/-- **C44 (partial).** Whenever `trainUntilConvergence` returns, it has trained some number `m ≥ 1` of epochs, at most `maxEpochs + 1`, recorded the training and
validation errors of each, and left in the module the parameters after one of these epochs: the first with the lowest validation error among them. The error
before training is recorded but does not compete. The lists returned stop before that best epoch. -/
theorem C44_best_partial (t : Trainer S P K) (hset : ∀ s p, t.params (t.setParams s p) = p) (maxEpochs : Option Nat) (c fuel : Nat) (s : S) (v0 : K)
    (x : Vars S P K) (te ve : List K) (h : trainUntilConvergence t maxEpochs c fuel s v0 = some (.ok (x, te, ve))) :
    ∃ m b : Nat, 1 ≤ b ∧ b ≤ m ∧ (∀ N, maxEpochs = some N → m ≤ N + 1) ∧
      x.validationErrors.length = m + 1 ∧ x.validationErrors[0]? = some v0 ∧
      (∀ j, 1 ≤ j → j ≤ m → t.test (t.params (after t s j)) = x.validationErrors[j]? ∧ (t.train (after t s (j - 1))).2 = x.trainingErrors[j - 1]?) ∧
      t.params x.s = t.params (after t s b) ∧
      (∀ j v w, 1 ≤ j → j ≤ m → t.test (t.params (after t s j)) = some v → t.test (t.params x.s) = some w → w ≤ v ∧ (j < b → w < v)) ∧
      te = x.trainingErrors.take (b - 1) ∧ ve = x.validationErrors.take b := by
  rw [trainUntilConvergence] at h
  split at h
  · cases h
  · cases h
  · rename_i y hy
    injection h with h
    injection h with h
    injection h with h1 h2
    injection h2 with h2 h3
    subst h1
    obtain ⟨m, g1, g2, g3, g4⟩ := loop_inv t maxEpochs c s v0 fuel 0 _ ⟨rfl, rfl, rfl, rfl, by omega, by omega, by omega⟩ rfl (by omega) y hy
    obtain ⟨i1, i2, i3, i4, i5, i5', i6⟩ := g4
    simp only at i2 i3 i4 i5 i5' i6
    obtain ⟨b1, b2, b3, b4, b5⟩ := i6 (by omega)
    have hp : t.params y.s = t.params (after t s (y.bestepoch + 1)) := by rw [g3, hset, b2]
    refine ⟨m, y.bestepoch + 1, by omega, by omega, g2, i3, i4, fun j hj hj' => ⟨i5 j hj hj', i5' j hj hj'⟩, hp, ?_, by rw [← h2]; simp, by rw [← h3, Nat.add_comm]⟩
    intro j v w hj hj' hv hw
    rw [hp, i5 (y.bestepoch + 1) (by omega) (by omega), b3] at hw
    injection hw with hw
    rw [i5 j hj hj'] at hv
    rw [← hw]
    exact ⟨b4 j v hj hv, fun hlt => b5 j v hj (by omega) hv⟩

/-- **C44 (stopping rule).** Training stops after the first epoch after which the last `continueEpochs` validation errors all exceed all of the
`continueEpochs` before them, or, rounded to `convergence_threshold` digits, add up to the last one times their number; otherwise after
`maxEpochs + 1` epochs, if a maximum is given. -/
theorem C44_stopping_rule (t : Trainer S P K) (maxEpochs : Option Nat) (c : Nat) (hc : 0 < c) (fuel : Nat) (s : S) (v0 : K) (x : Vars S P K) (te ve : List K)
    (h : trainUntilConvergence t maxEpochs c fuel s v0 = some (.ok (x, te, ve))) :
    ∃ m, 1 ≤ m ∧ x.validationErrors.length = m + 1 ∧
      (maxEpochs = some (m - 1) ∨ Rising c x.validationErrors ∨ Flat t.round c x.validationErrors) ∧
      ∀ j, 1 ≤ j → j < m → maxEpochs ≠ some (j - 1) ∧ ¬ Rising c (x.validationErrors.take (j + 1)) ∧ ¬ Flat t.round c (x.validationErrors.take (j + 1)) := by
  rw [trainUntilConvergence] at h
  split at h
  · cases h
  · cases h
  · rename_i y hy
    injection h with h
    injection h with h
    injection h with h1 h2
    subst h1
    obtain ⟨m, g1, g2, -, g4, g5⟩ := loop_stop t maxEpochs c hc fuel 0 _ rfl (by simp) (by omega) y hy
    exact ⟨m, g1, g2, g4, fun j h1 h2 => g5 j h1 h2⟩

/-- **C44 (termination).** With `maxEpochs = N` it always comes to an end within `N + 1` epochs. -/
theorem C44_terminates (t : Trainer S P K) (N c : Nat) (s : S) (v0 : K) : (trainUntilConvergence t (some N) c (N + 1) s v0).isSome = true := by
  have key : ∀ (fuel : Nat) (x : Vars S P K), x.epochs + fuel = N + 1 → 0 < fuel → (loop t (some N) c fuel x).isSome = true := by
    intro fuel
    induction fuel with
    | zero => intro x _ h; omega
    | succ fuel ih =>
      intro x hx _
      rw [loop]
      split
      · rfl
      · rename_i x1 hx1
        have he : x1.epochs = x.epochs := by
          rw [epoch] at hx1
          simp only at hx1
          split at hx1
          · split at hx1 <;> (injection hx1 with hx1; subst hx1; rfl)
          · cases hx1
        split
        · rfl
        · rename_i hN
          simp [he] at hN
          simp only
          split
          · rfl
          · rfl
          · exact ih _ (by simp only; omega) (by omega)
  have := key (N + 1) { s := s, epochs := 0, bestweights := t.params s, bestverr := v0, bestepoch := 0, trainingErrors := [], validationErrors := [v0] }
    (by simp) (by omega)
  rw [trainUntilConvergence]
  obtain ⟨r, hr⟩ := Option.isSome_iff_exists.1 this
  rw [hr]
  cases r <;> rfl

/-- **C44: violated for the number of epochs**: for every `N`, if nothing is NaN and the window of the stopping test is not reached, exactly `N + 1` epochs are trained. -/
theorem C44_negation_epochs (t : Trainer S P K) (ht : ∀ s, (t.train s).2 ≠ none) (hv : ∀ p, t.test p ≠ none) (N c : Nat) (hc : N + 2 < c * 2) (s : S) (v0 : K) :
    ∃ x te ve, trainUntilConvergence t (some N) c (N + 1) s v0 = some (.ok (x, te, ve)) ∧ x.trainingErrors.length = N + 1 := by
  have key : ∀ (fuel m : Nat) (x : Vars S P K), x.epochs = m → m + fuel = N + 1 → 0 < fuel → x.trainingErrors.length = m → x.validationErrors.length = m + 1 →
      ∃ y, loop t (some N) c fuel x = some (.ok y) ∧ y.trainingErrors.length = N + 1 := by
    intro fuel
    induction fuel with
    | zero => intro m x _ _ h; omega
    | succ fuel ih =>
      intro m x he hm _ htl hvl
      have : ∃ y, epoch t x = .ok y ∧ y.epochs = m ∧ y.trainingErrors.length = m + 1 ∧ y.validationErrors.length = m + 2 := by
        obtain ⟨a, ha⟩ := Option.ne_none_iff_exists'.1 (ht x.s)
        obtain ⟨b, hb⟩ := Option.ne_none_iff_exists'.1 (hv (t.params (t.train x.s).1))
        simp only [epoch, ha, hb]
        split
        · exact ⟨_, rfl, he, by simp [htl], by simp [hvl]⟩
        · exact ⟨_, rfl, he, by simp [htl], by simp [hvl]⟩
      obtain ⟨y, hy, hye, hyt, hyv⟩ := this
      rw [loop, hy]
      simp only
      split
      · rename_i hN
        simp [hye] at hN
        exact ⟨_, rfl, by simp only; omega⟩
      · rename_i hN
        simp [hye] at hN
        have hcv : converged t c y.validationErrors = .ok false := by
          rw [converged, if_neg (by omega)]
        rw [hcv]
        exact ih (m + 1) _ (by simp only; omega) (by omega) (by omega) hyt hyv
  obtain ⟨y, hy, hl⟩ := key (N + 1) 0 { s := s, epochs := 0, bestweights := t.params s, bestverr := v0, bestepoch := 0, trainingErrors := [], validationErrors := [v0] }
    rfl (by omega) (by omega) rfl rfl
  exact ⟨y, _, _, by rw [trainUntilConvergence, hy], hl⟩

/-- gradient descent on one parameter with learning rate 1, gradient always 1, starting from the best parameter 0 and with error `p²` -/
def climbing : Trainer (Descent.Momentum ℚ 1 × (Fin 1 → ℚ)) (Fin 1 → ℚ) ℚ :=
  descentTrainer ⟨1, 0, 5, 1, 1, 2, 1⟩ (fun _ _ => 1) (fun p => some (p 0 * p 0))

/-- **C44: violated for the parameters before training**: they had error 0, and parameters with error 1 are left. (`maxEpochs = 2`; three epochs are trained.) -/
theorem C44_negation_initial :
    (trainUntilConvergence climbing (some 2) 10 3 (Descent.Momentum.init (fun _ => 0) 1, fun _ => 0) 0).map
      (fun r => match r with | .ok (x, _, ve) => (x.s.2 0, x.validationErrors, ve) | .error _ => (7, [], [])) = some (1, [0, 1, 4, 9], [0]) := by
  decide +kernel

/-- **C44: the restored parameters are lost by further training.** The descender keeps its own copy of the parameters, which is not restored: after the run above
one more epoch leads from the last parameter 3 to 4, not from the restored 1 to 2. -/
theorem C44_negation_resume :
    (trainUntilConvergence climbing (some 2) 10 3 (Descent.Momentum.init (fun _ => 0) 1, fun _ => 0) 0).map
      (fun r => match r with | .ok (x, _, _) => (x.s.2 0, (climbing.train x.s).1.2 0) | .error _ => (7, 7)) = some (1, 4) := by
  decide +kernel

/-- the hypotheses are met by gradient descent trainers -/
example : (∀ s p, climbing.params (climbing.setParams s p) = p) ∧ (∀ s, (climbing.train s).2 ≠ none) ∧ (∀ p, climbing.test p ≠ none) ∧ 2 + 2 < 10 * 2 := by
  refine ⟨fun s p => rfl, fun s => ?_, fun p => ?_, by norm_num⟩ <;> simp [climbing, descentTrainer]

end Verif.Props
