import Verif.Spec.Classic
import Mathlib.Algebra.BigOperators.Group.Finset.Basic
import Mathlib.Algebra.BigOperators.Intervals
import Mathlib.Tactic.Linarith
import Mathlib.Tactic.NormNum
import Mathlib.Tactic.FinCases
/-
C100 Mountain car (and the course of episodes of the classic tasks).
-/
namespace Verif.Classic
open Verif.DataSet (Err)
open Spec Real

theorem force_of (a : Fin 3) : Py.getIdx actionList (a.1 : Int) = some (forceOf a) := by
  fin_cases a
  · norm_num [Py.getIdx, Py.normIdx, actionList, forceOf]
  · norm_num [Py.getIdx, Py.normIdx, actionList, forceOf]
  · show some (1 : ℝ) = some _
    norm_num [forceOf]

section
variable {σ : Type} (m : Sim σ)

open Classical in
/-- the reward of the deciding action -/
noncomputable def lastReward (as : Nat → Fin 3) (T : Nat) : ℝ := if m.goal (raw m as T) then m.rGoal (raw m as T) else m.rElse (raw m as T)

theorem perform_live (st : σ) (sp ep : Nat) (r : Option ℝ) (c : ℝ) (a : Fin 3) :
    perform m { state := st, steps := sp, episode := ep, done := 0, r := r, cum := c } (a.1 : Int) =
      .ok { state := m.fix (m.act (forceOf a) st), steps := sp + 1, episode := ep, done := (getR m (sp + 1) (m.act (forceOf a) st)).2,
            r := some (getR m (sp + 1) (m.act (forceOf a) st)).1, cum := c + (getR m (sp + 1) (m.act (forceOf a) st)).1 } := by
  unfold perform
  rw [if_neg (by simp), force_of]

theorem getR_live (n : Nat) (x : σ) (hg : ¬ m.goal x) (hn : n < m.maxSteps) : getR m n x = (m.rElse x, 0) := by
  unfold getR
  simp only
  rw [if_neg hg, if_neg hg, if_neg (by omega)]

theorem getR_last (as : Nat → Fin 3) (T : Nat) (h : m.goal (raw m as T) ∨ T + 1 = m.maxSteps) (hT : T + 1 ≤ m.maxSteps) :
    getR m (T + 1) (raw m as T) = (lastReward m as T, if T + 1 = m.maxSteps then 5 else 1) := by
  unfold getR lastReward
  simp only
  congr 1
  by_cases hm : T + 1 = m.maxSteps
  · rw [if_pos hm, if_pos (by omega)]
  · rw [if_neg hm, if_neg (by omega), if_pos (h.resolve_right hm)]

theorem play_before (e : Ep σ) (as : Nat → Fin 3) (T : Nat) (h : ∀ k < T, ¬ m.goal (raw m as k) ∧ k + 1 ≠ m.maxSteps) (hmax : 1 ≤ m.maxSteps) (n : Nat) (hn : n ≤ T) :
    n < m.maxSteps ∧ ∃ e', play m (reset m e) as n = .ok e' ∧ e'.state = path m as n ∧ e'.steps = n ∧ e'.done = 0 ∧ e'.episode = e.episode + 1 ∧
      e'.cum = e.cum + ∑ k ∈ Finset.range n, m.rElse (raw m as k) ∧ e'.r = if n = 0 then e.r else some (m.rElse (raw m as (n - 1))) := by
  induction n with
  | zero => exact ⟨by omega, _, rfl, rfl, rfl, rfl, rfl, by simp [reset], rfl⟩
  | succ n ih =>
    obtain ⟨hlt, e', h1, h2, h3, h4, h5, h6, -⟩ := ih (by omega)
    obtain ⟨hg, hne⟩ := h n (by omega)
    have hlt' : n + 1 < m.maxSteps := by omega
    refine ⟨hlt', ?_⟩
    obtain ⟨st, sp, ep, dn, r, c⟩ := e'
    simp only at h2 h3 h4 h5 h6
    subst h2 h3 h4
    have hp : play m (reset m e) as (sp + 1) = perform m { state := path m as sp, steps := sp, episode := ep, done := 0, r := r, cum := c } ((as sp).1 : Int) := by
      simp only [play, h1]
    rw [hp, perform_live, show m.act (forceOf (as sp)) (path m as sp) = raw m as sp from rfl, getR_live m _ _ hg hlt']
    refine ⟨_, rfl, rfl, rfl, rfl, h5, ?_, ?_⟩
    · simp only; rw [h6, Finset.sum_range_succ, add_assoc]
    · simp

theorem play_after (e : Ep σ) (as : Nat → Fin 3) (T : Nat) (hfix : ∀ x, m.fix (m.fix x) = m.fix x) (h : Decided m as T) (hmax : 1 ≤ m.maxSteps) (n : Nat) :
    ∃ e', play m (reset m e) as (T + 1 + n) = .ok e' ∧ e'.state = path m as (T + 1) ∧ e'.done = (if T + 1 = m.maxSteps then 5 else 1) + n ∧
      e'.cum = e.cum + ∑ k ∈ Finset.range T, m.rElse (raw m as k) + lastReward m as T ∧ e'.r = some (lastReward m as T) ∧ e'.episode = e.episode + 1 := by
  induction n with
  | zero =>
    obtain ⟨hlt, e', h1, h2, h3, h4, h5, h6, -⟩ := play_before m e as T h.2 hmax T le_rfl
    obtain ⟨st, sp, ep, dn, r, c⟩ := e'
    simp only at h2 h3 h4 h5 h6
    subst h2 h3 h4
    have hp : play m (reset m e) as (sp + 1 + 0) = perform m { state := path m as sp, steps := sp, episode := ep, done := 0, r := r, cum := c } ((as sp).1 : Int) := by
      simp only [Nat.add_zero, play, h1]
    rw [hp, perform_live, show m.act (forceOf (as sp)) (path m as sp) = raw m as sp from rfl, getR_last m as sp h.1 (by omega)]
    refine ⟨_, rfl, rfl, rfl, ?_, rfl, h5⟩
    simp only; rw [h6]
  | succ n ih =>
    obtain ⟨e', h1, h2, h3, h4, h5, h6⟩ := ih
    have hpos : e'.done > 0 := by rw [h3]; split <;> omega
    have hp : play m (reset m e) as (T + 1 + (n + 1)) = perform m e' ((as (T + 1 + n)).1 : Int) := by
      rw [← Nat.add_assoc]
      simp only [play, h1]
    rw [hp, perform, if_pos hpos]
    refine ⟨_, rfl, ?_, ?_, h4, h5, h6⟩
    · simp only; rw [h2]; exact hfix _
    · simp only; rw [h3]; omega

theorem exists_decided (as : Nat → Fin 3) (hmax : 1 ≤ m.maxSteps) : ∃ T, T < m.maxSteps ∧ Decided m as T := by
  classical
  have hex : ∃ T, m.goal (raw m as T) ∨ T + 1 = m.maxSteps := ⟨m.maxSteps - 1, Or.inr (by omega)⟩
  refine ⟨Nat.find hex, ?_, Nat.find_spec hex, fun k hk => ?_⟩
  · have := Nat.find_min' hex (m := m.maxSteps - 1) (Or.inr (by omega))
    omega
  · have := Nat.find_min hex hk
    push Not at this
    exact this

theorem decided_unique (as : Nat → Fin 3) (T T' : Nat) (h : Decided m as T) (h' : Decided m as T') : T = T' := by
  rcases lt_trichotomy T T' with hl | hl | hl
  · exact absurd h.1 (by have := h'.2 T hl; tauto)
  · exact hl
  · exact absurd h'.1 (by have := h.2 T' hl; tauto)

end

theorem car_step (force : ℝ) (x : ℝ × ℝ) (hf : -1 ≤ force ∧ force ≤ 1) (hx : -1.4 ≤ x.1) :
    -1.4 ≤ (carAct force x).1 ∧ |(carAct force x).2| ≤ 0.07 ∧ (carAct force x).1 ≤ x.1 + 0.07 ∧ ((carAct force x).1 = -1.4 → (carAct force x).2 = 0) := by
  unfold carAct
  simp only
  set s : ℝ := x.2 + 0.001 * force + -0.0025 * cos (3 * x.1)
  set s' : ℝ := if s < -0.07 then -0.07 else if s > 0.07 then 0.07 else s with hs'
  have hb : -0.07 ≤ s' ∧ s' ≤ 0.07 := by
    rw [hs']
    split_ifs with h1 h2
    · norm_num
    · norm_num
    · exact ⟨not_lt.1 h1, not_lt.1 h2⟩
  by_cases hp : x.1 + s' ≤ -1.4
  · rw [if_pos hp]
    refine ⟨le_rfl, by norm_num, ?_, fun _ => rfl⟩
    simp only
    linarith
  · rw [if_neg hp]
    push Not at hp
    exact ⟨hp.le, abs_le.2 hb, by simp only; linarith [hb.2], fun h => absurd h hp.ne'⟩

end Verif.Classic

namespace Verif.Props
open Verif.Classic Verif.Classic.Spec Real

/-- **C100, the course of an episode** (of MountainCar, AcrobotTask and their variants). For every sequence of actions exactly one action decides
the episode: the first that reaches the goal, or the last one allowed. Before it the simulation runs and the episode is not over; with it the
simulation stops, its reward is the last one added to the total, and the episode is over: at once if it was the last action allowed, otherwise
two actions later. So every episode is over after one action more than the maximal number. -/
theorem C100_episode {σ : Type} (m : Sim σ) (hfix : ∀ x, m.fix (m.fix x) = m.fix x) (hmax : 1 ≤ m.maxSteps) (hr : m.resetOnSuccess = false) (e : Ep σ) (as : Nat → Fin 3) :
    ∃ T, T < m.maxSteps ∧ Decided m as T ∧ (∀ T', Decided m as T' → T' = T) ∧ ∀ n, ∃ e', play m (reset m e) as n = .ok e' ∧ e'.episode = e.episode + 1 ∧
      (n ≤ T → e'.state = path m as n ∧ e'.cum = e.cum + ∑ k ∈ Finset.range n, m.rElse (raw m as k) ∧ isFinished m e' = (false, e') ∧
        (1 ≤ n → e'.r = some (m.rElse (raw m as (n - 1))))) ∧
      (T < n → e'.state = path m as (T + 1) ∧ e'.cum = e.cum + ∑ k ∈ Finset.range T, m.rElse (raw m as k) + lastReward m as T ∧ e'.r = some (lastReward m as T) ∧
        isFinished m e' = (decide (T + 1 = m.maxSteps ∨ T + 3 ≤ n), e')) ∧
      (m.maxSteps + 1 ≤ n → (isFinished m e').1 = true) := by
  obtain ⟨T, hT, hdec⟩ := exists_decided m as hmax
  refine ⟨T, hT, hdec, fun T' h' => decided_unique m as T' T h' hdec, fun n => ?_⟩
  have hfin : ∀ e' : Ep σ, isFinished m e' = (decide (e'.done ≥ 3), e') := by
    intro e'
    unfold isFinished
    rw [if_neg (by rw [hr]; simp)]
  by_cases hn : n ≤ T
  · obtain ⟨hlt, e', h1, h2, h3, h4, h5, h6, h7⟩ := play_before m e as T hdec.2 hmax n hn
    refine ⟨e', h1, h5, fun _ => ⟨h2, h6, ?_, fun hn1 => ?_⟩, fun h => by omega, fun h => by omega⟩
    · rw [hfin, h4]; rfl
    · rw [h7, if_neg (by omega)]
  · obtain ⟨j, rfl⟩ : ∃ j, n = T + 1 + j := ⟨n - (T + 1), by omega⟩
    obtain ⟨e', h1, h2, h3, h4, h5, h6⟩ := play_after m e as T hfix hdec hmax j
    have hd : e'.done ≥ 3 ↔ T + 1 = m.maxSteps ∨ T + 3 ≤ T + 1 + j := by
      rw [h3]
      split_ifs with h
      · simp [h]; omega
      · simp [h]; omega
    refine ⟨e', h1, h6, fun h => by omega, fun _ => ⟨h2, h4, h5, ?_⟩, fun h => ?_⟩
    · rw [hfin, decide_eq_decide.2 hd]
    · rw [hfin]
      exact decide_eq_true (hd.2 (by omega))

/-- **C100, bounds.** In every state MountainCar can get into, by whatever calls, the position is between -1.4 and 0.07 beyond the goal, the speed
at most 0.07, and the car stands still at the left end; outside the final state of an episode the position is below the goal. -/
theorem C100_bounds (goalPos : ℝ) (hg : -0.5 < goalPos) (maxSteps : Nat) (rs : Bool) (e : Ep (ℝ × ℝ)) (h : Reachable (car goalPos maxSteps rs) e) :
    -1.4 ≤ e.state.1 ∧ e.state.1 < goalPos + 0.07 ∧ |e.state.2| ≤ 0.07 ∧ (e.state.1 = -1.4 → e.state.2 = 0) ∧ (e.done = 0 → e.state.1 < goalPos) := by
  have h0 : ∀ e : Ep (ℝ × ℝ), e.state = (-0.5, 0) → -1.4 ≤ e.state.1 ∧ e.state.1 < goalPos + 0.07 ∧ |e.state.2| ≤ 0.07 ∧ (e.state.1 = -1.4 → e.state.2 = 0) ∧ (e.done = 0 → e.state.1 < goalPos) := by
    intro e he
    rw [he]
    refine ⟨by norm_num, ?_, by norm_num, fun _ => rfl, fun _ => hg⟩
    simp only
    linarith
  induction h with
  | start => exact h0 _ rfl
  | next e e' c he hc ih =>
    cases c with
    | reset => simp only [call, Except.ok.injEq] at hc; subst hc; exact h0 _ rfl
    | ask =>
      simp only [call, Except.ok.injEq] at hc
      subst hc
      unfold isFinished
      split_ifs
      · exact h0 _ rfl
      · exact ih
    | act a =>
      simp only [call, perform] at hc
      split_ifs at hc with hd
      · simp only [Except.ok.injEq] at hc
        subst hc
        exact ⟨ih.1, ih.2.1, ih.2.2.1, ih.2.2.2.1, fun h => by simp at h⟩
      · cases hf : Py.getIdx actionList a with
        | none => rw [hf] at hc; simp at hc
        | some force =>
          rw [hf] at hc
          simp only [Except.ok.injEq] at hc
          subst hc
          have hforce : -1 ≤ force ∧ force ≤ 1 := by
            have : force ∈ actionList := by
              unfold Py.getIdx at hf
              cases hi : Py.normIdx actionList.length a with
              | none => rw [hi] at hf; simp at hf
              | some i => rw [hi] at hf; exact List.mem_of_getElem? hf
            simp only [actionList, List.mem_cons, List.not_mem_nil, or_false] at this
            rcases this with rfl | rfl | rfl <;> norm_num
          obtain ⟨c1, c2, c3, c4⟩ := car_step force e.state hforce ih.1
          have hlt := ih.2.2.2.2 (by omega)
          refine ⟨c1, ?_, c2, c4, fun h => ?_⟩
          · show (carAct force e.state).1 < _
            linarith
          · show (carAct force e.state).1 < _
            by_contra hge
            push Not at hge
            have hgoal : (car goalPos maxSteps rs).goal ((car goalPos maxSteps rs).act force e.state) := hge
            simp only [getR, if_pos hgoal] at h
            split_ifs at h

/-- **C100, negation (totals).** The total reward is not that of the episode: starting a new episode keeps the total of the earlier ones. An
episode of MountainCar that reaches the goal adds 1, one that does not adds nothing. -/
theorem C100_negation_total (goalPos : ℝ) (maxSteps : Nat) (hmax : 1 ≤ maxSteps) (e : Ep (ℝ × ℝ)) (as : Nat → Fin 3) (T : Nat) (h : Decided (car goalPos maxSteps false) as T) (n : Nat) :
    (reset (car goalPos maxSteps false) e).cum = e.cum ∧
    ∃ e', play (car goalPos maxSteps false) (reset (car goalPos maxSteps false) e) as (T + 1 + n) = .ok e' ∧
      (goalPos ≤ (path (car goalPos maxSteps false) as (T + 1)).1 → e'.cum = e.cum + 1) ∧ ((path (car goalPos maxSteps false) as (T + 1)).1 < goalPos → e'.cum = e.cum) := by
  refine ⟨rfl, ?_⟩
  obtain ⟨e', h1, h2, h3, h4, h5, h6⟩ := play_after (car goalPos maxSteps false) e as T (fun _ => rfl) h hmax n
  have hz : ∑ k ∈ Finset.range T, (car goalPos maxSteps false).rElse (raw (car goalPos maxSteps false) as k) = 0 := Finset.sum_eq_zero (fun _ _ => rfl)
  rw [hz, add_zero] at h4
  refine ⟨e', h1, fun hg => ?_, fun hg => ?_⟩
  · have : lastReward (car goalPos maxSteps false) as T = 1 := if_pos hg
    rw [h4, this]
  · have : lastReward (car goalPos maxSteps false) as T = 0 := if_neg (not_le.2 hg)
    rw [h4, this, add_zero]

/-- **C100, negation (rewards).** An agent that asks for the reward after each action until the episode is over is rewarded three times for reaching
the goal, although the total grows by 1: the reward is repeated for the two actions after the goal. -/
theorem C100_negation_rewards (goalPos : ℝ) (maxSteps : Nat) (hmax : 1 ≤ maxSteps) (e : Ep (ℝ × ℝ)) (as : Nat → Fin 3) (T : Nat) (h : Decided (car goalPos maxSteps false) as T)
    (hT : T + 1 ≠ maxSteps) : ∀ n, n ≤ T + 3 → ∃ e', play (car goalPos maxSteps false) (reset (car goalPos maxSteps false) e) as n = .ok e' ∧
      (e'.done ≥ 3 ↔ n = T + 3) ∧ (1 ≤ n → n ≤ T → e'.r = some 0) ∧ (T < n → e'.r = some 1 ∧ e'.cum = e.cum + 1) := by
  intro n hn
  have hgoal : (car goalPos maxSteps false).goal (raw (car goalPos maxSteps false) as T) := h.1.resolve_right hT
  by_cases hnT : n ≤ T
  · obtain ⟨hlt, e', h1, h2, h3, h4, h5, h6, h7⟩ := play_before (car goalPos maxSteps false) e as T h.2 hmax n hnT
    refine ⟨e', h1, by rw [h4]; omega, fun h1 _ => ?_, fun h => by omega⟩
    rw [h7, if_neg (by omega)]
    rfl
  · obtain ⟨j, rfl⟩ : ∃ j, n = T + 1 + j := ⟨n - (T + 1), by omega⟩
    obtain ⟨e', h1, h2, h3, h4, h5, h6⟩ := play_after (car goalPos maxSteps false) e as T (fun _ => rfl) h hmax j
    have hz : ∑ k ∈ Finset.range T, (car goalPos maxSteps false).rElse (raw (car goalPos maxSteps false) as k) = 0 := Finset.sum_eq_zero (fun _ _ => rfl)
    have hl : lastReward (car goalPos maxSteps false) as T = 1 := if_pos hgoal
    have hm : (car goalPos maxSteps false).maxSteps = maxSteps := rfl
    refine ⟨e', h1, ?_, fun _ h => by omega, fun _ => ⟨by rw [h5, hl], by rw [h4, hz, hl, add_zero]⟩⟩
    rw [h3, hm, if_neg hT]
    omega

/-- the goal can be moved (it is a class attribute): with the goal at -0.4995, to the right of the start, one action to the right reaches it -/
example : (-0.5 : ℝ) < -0.4995 ∧ Decided (car (-0.4995) 999 false) (fun _ => 2) 0 := by
  refine ⟨by norm_num, Or.inl ?_, fun k hk => by omega⟩
  show (carAct (forceOf 2) (-0.5, 0)).1 ≥ -0.4995
  have h1 := abs_le.1 (cos_bound (x := 3 / 4) (by norm_num [abs_of_pos]))
  have h0 : |(3 / 4 : ℝ)| = 3 / 4 := abs_of_pos (by norm_num)
  rw [h0] at h1
  have hc : cos (3 / 4) ≤ 0.74 := by norm_num at h1 ⊢; linarith [h1.2]
  have hc0 : 0.7 ≤ cos (3 / 4) := by norm_num at h1 ⊢; linarith [h1.1]
  have h2 : cos (3 * (-0.5 : ℝ)) = 2 * cos (3 / 4) ^ 2 - 1 := by
    rw [← cos_two_mul, ← cos_neg]; norm_num
  have h3 : -0.1 ≤ cos (3 * (-0.5 : ℝ)) ∧ cos (3 * (-0.5 : ℝ)) ≤ 0.1 := by rw [h2]; constructor <;> nlinarith
  obtain ⟨h4, h5⟩ := h3
  have hf : forceOf 2 = 1 := by norm_num [forceOf]
  unfold carAct
  simp only
  rw [hf]
  set s : ℝ := 0 + 0.001 * 1 + -0.0025 * cos (3 * (-0.5 : ℝ)) with hs
  have hs1 : 0.0005 ≤ s := by rw [hs]; linarith
  have hs2 : s ≤ 0.07 := by rw [hs]; linarith
  rw [if_neg (by push Not; linarith : ¬ s < -0.07), if_neg (by push Not; linarith : ¬ s > 0.07), if_neg (by push Not; linarith)]
  show (-0.5 : ℝ) + s ≥ -0.4995
  linarith

end Verif.Props
