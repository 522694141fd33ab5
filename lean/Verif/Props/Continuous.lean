import Verif.Model.Continuous
import Verif.Props.Agent
import Mathlib.Data.List.Count
import Mathlib.Tactic.Linarith
import Mathlib.Algebra.Order.Ring.Rat
/-
C161: experiments that learn after every step, and exploration by a perturbed copy of the module.
-/
namespace Verif.Continuous
open Verif.DataSet (Err)
open Verif.Sequential Verif.Agent Verif.Agent.Spec
variable {K : Type} [Zero K] {τ μ : Type}

/-- interactions with a learner that changes the policy after each of them: `hs` are the histories that it gets -/
inductive Learned (t : RTask τ K) (p : Policy μ K) (learn : SDS K → μ → μ) : τ → μ → List (SDS K) → List (Rec K) → τ → μ → Prop
  | nil (s : τ) (m : μ) : Learned t p learn s m [] [] s m
  | cons (s : τ) (m : μ) (h : SDS K) (hs : List (SDS K)) (xs : List (Rec K)) (s' : τ) (m' : μ) :
      Learned t p learn (interact t p s m).2.1 (learn h (interact t p s m).2.2) hs xs s' m' → Learned t p learn s m (h :: hs) ((interact t p s m).1 :: xs) s' m'

theorem continuous_spec (indim outdim : Nat) (t : RTask τ K) (p : Policy μ K) (learn : SDS K → μ → μ) (ho : ∀ s, (t.getObservation s).1.length = indim)
    (ha : ∀ m o, (p.choose m o).1.length = outdim) (n : Nat) : ∀ (x : Exp τ μ K) (cur : List (Rec K)) (ph : Phase K),
    Good indim outdim x.agent (ph, [cur.map Rec.sample]) → x.agent.logging = true →
    ∃ hs xs y, doInteractionsAndLearn t p learn n x = .ok (x.stepid + n, hs, y) ∧ y.stepid = x.stepid + n ∧ Learned t p learn x.task x.policy hs xs y.task y.policy ∧ hs.length = n ∧ xs.length = n ∧
      (∀ k (h : k < hs.length), Sequential.Spec.Shows hs[k] [(cur ++ xs.take (k + 1)).map Rec.sample]) ∧ (∃ ph', Good indim outdim y.agent (ph', [(cur ++ xs).map Rec.sample])) ∧ y.agent.logging = true := by
  induction n with
  | zero =>
    intro x cur ph hg hl
    exact ⟨[], [], x, rfl, rfl, .nil _ _, rfl, rfl, fun k h => absurd h (by simp), ⟨ph, by simpa using hg⟩, hl⟩
  | succ n ih =>
    intro x cur ph hg hl
    obtain ⟨g1, e1, h1, l1⟩ := oneInteraction_spec indim outdim t p ho ha x [] (cur.map Rec.sample) ph hg hl
    have h1' : Good indim outdim g1 (.idle, [(cur ++ [(interact t p x.task x.policy).1]).map Rec.sample]) := by simpa using h1
    obtain ⟨hs, xs, y, r1, r2, r3, r4, r5, r6, r7, r8⟩ := ih ⟨(interact t p x.task x.policy).2.1, g1, learn g1.history (interact t p x.task x.policy).2.2, x.stepid + 1⟩ _ _ h1' l1
    refine ⟨g1.history :: hs, (interact t p x.task x.policy).1 :: xs, y, ?_, ?_, .cons _ _ _ _ _ _ _ r3, by simp [r4], by simp [r5], ?_, ?_, r8⟩
    · rw [doInteractionsAndLearn, e1]
      simp only
      rw [r1]
      simp only
      rw [show x.stepid + 1 + n = x.stepid + (n + 1) by omega]
    · rw [r2]
      show x.stepid + 1 + n = _
      omega
    · intro k hk
      cases k with
      | zero => simpa using h1'.2.2.shows (by decide)
      | succ k =>
        have := r6 k (by simpa using hk)
        simpa using this
    · obtain ⟨ph', h7⟩ := r7
      exact ⟨ph', by simpa using h7⟩

end Verif.Continuous

namespace Verif.Props
open Verif.DataSet (Err)
open Verif.Sequential Verif.Agent Verif.Agent.Spec Verif.Continuous

/-- **C161, continuous learning.** An experiment that learns after every step never raises, does the given number of interactions and returns the number of interactions so far; after interaction `k` the learner gets
exactly the first `k` interactions, as one sequence, and the module it makes of them chooses the next action. Nothing is reset, so that consecutive calls continue. -/
theorem C161_continuous {K : Type} [Zero K] {τ μ : Type} (indim outdim : Nat) (t : RTask τ K) (p : Policy μ K) (learn : SDS K → μ → μ) (ho : ∀ s, (t.getObservation s).1.length = indim)
    (ha : ∀ m o, (p.choose m o).1.length = outdim) (s : τ) (m : μ) (a b : Nat) :
    ∃ hs xs y, doInteractionsAndLearn t p learn a ⟨s, LAgent.init indim outdim true, m, 0⟩ = .ok (a, hs, y) ∧ Learned t p learn s m hs xs y.task y.policy ∧ hs.length = a ∧ xs.length = a ∧
      (∀ k (h : k < hs.length), Sequential.Spec.Shows hs[k] [(xs.take (k + 1)).map Rec.sample]) ∧ Sequential.Spec.Shows y.agent.history [xs.map Rec.sample] ∧
      ∃ hs' xs' z, doInteractionsAndLearn t p learn b y = .ok (a + b, hs', z) ∧ Learned t p learn y.task y.policy hs' xs' z.task z.policy ∧
        ∀ k (h : k < hs'.length), Sequential.Spec.Shows hs'[k] [(xs ++ xs'.take (k + 1)).map Rec.sample] := by
  obtain ⟨hs, xs, y, r1, r2, r3, r4, r5, r6, ⟨ph, r7⟩, r8⟩ := continuous_spec indim outdim t p learn ho ha a ⟨s, LAgent.init indim outdim true, m, 0⟩ [] .idle (good_init indim outdim true) rfl
  obtain ⟨hs', xs', z, q1, q2, q3, _, _, q6, _, _⟩ := continuous_spec indim outdim t p learn ho ha b y xs ph (by simpa using r7) r8
  refine ⟨hs, xs, y, by simpa using r1, r3, r4, r5, by simpa using r6, by simpa using r7.2.2.shows (by decide), hs', xs', z, ?_, q3, q6⟩
  rw [q1, r2]
  simp

/-- **C161, repetition.** Interaction number `i` is among the data of `n - i` of the `n` learning steps. -/
theorem C161_repeated (n i : Nat) (hi : i < n) : ((List.range n).countP fun k => decide (i < k + 1)) = n - i := by
  induction n with
  | zero => omega
  | succ n ih =>
    rw [List.range_succ, List.countP_append]
    have : List.countP (fun k => decide (i < k + 1)) [n] = 1 := by simp; omega
    rw [this]
    rcases Nat.lt_or_ge i n with h | h
    · rw [ih h]
      omega
    · have hz : ((List.range n).countP fun k => decide (i < k + 1)) = 0 := by
        rw [List.countP_eq_zero]
        intro k hk
        have := List.mem_range.1 hk
        simp only [decide_eq_true_eq]
        omega
      rw [hz]
      omega

example : ((List.range 5).countP fun k => decide (1 < k + 1)) = 4 := by decide

variable {K : Type} [Field K] [LinearOrder K]

/-- **C161, exploration.** In every history, while an episode lasts, the explorer answers equal observations with equal actions (but for the random actions), namely those of the module at the beginning of the episode with the
perturbation of this episode, whatever the learner makes of the module meanwhile; and it never changes the module. -/
theorem C161_explore {O A : Type} (act : List K → O → A) (m : List K) (before : List (Event K O A)) (noise : List K) (during : List (Event K O A)) (hd : ∀ e ∈ during, ∀ z, e ≠ .newEpisode z) (obs : O) (a rnd : A) (u : K) :
    let start := before.foldl Dsde.step (Dsde.setModule m)
    let now := during.foldl Dsde.step (start.newEpisode noise)
    now.activate act obs a u rnd = (if u < 1 / 1000 then rnd else act (List.zipWith (fun x z => x + 1 / 100 * z) start.module noise) obs) ∧ (start.newEpisode noise).module = start.module := by
  intro start now
  refine ⟨?_, rfl⟩
  have key : ∀ (l : List (Event K O A)) (e : Dsde K), (∀ x ∈ l, ∀ z, x ≠ .newEpisode z) → (l.foldl Dsde.step e).explorerModule = e.explorerModule := by
    intro l
    induction l with
    | nil => intro e _; rfl
    | cons x l ih =>
      intro e h
      rw [List.foldl_cons, ih _ fun y hy => h y (List.mem_cons_of_mem _ hy)]
      cases x with
      | learned m => rfl
      | newEpisode z => exact absurd rfl (h _ List.mem_cons_self z)
      | activate _ _ _ _ => rfl
  unfold Dsde.activate
  rw [key during _ hd]
  rfl

example : ∀ e ∈ ([.learned [1, 2], .activate () () 0 ()] : List (Event Rat Unit Unit)), ∀ z, e ≠ .newEpisode z := by
  intro e he z
  simp only [List.mem_cons, List.not_mem_nil, or_false] at he
  rcases he with rfl | rfl <;> simp

/-- **C161, switch.** With learning switched off, the agent acts by its module alone; and learning cannot be switched on without a learner. -/
theorem C161_switch {O A : Type} (act : List K → O → A) (e : Dsde K) (obs : O) (u : K) (rnd : A) (noise : List K) :
    agentAction false act e obs u rnd = act e.module obs ∧ (agentNewEpisode false noise e).module = e.module ∧ ∀ flag, setLearning false flag = false := ⟨rfl, rfl, fun _ => rfl⟩

/-- **C161 violated: the perturbation of another episode.** The changes are to be kept for one episode. If an episode begins with learning switched off, the explorer is not told; when learning is switched on, it acts by the perturbed copy that
was made for an earlier episode, from a module that the learner has changed since, while the module chooses another action. -/
theorem C161_negation_stale : ∃ (act : List Rat → Unit → Nat) (e : Dsde Rat) (noise noise' : List Rat) (learned : List Rat),
    let e' := agentNewEpisode false noise' (({ e.newEpisode noise with module := learned } : Dsde Rat))
    agentAction true act e' () (1 / 2) 7 = act (e.newEpisode noise).explorerModule () ∧ agentAction true act e' () (1 / 2) 7 ≠ act e'.module () ∧
      agentAction true act (agentNewEpisode true noise' ({ e.newEpisode noise with module := learned } : Dsde Rat)) () (1 / 2) 7 = act e'.module () := by
  refine ⟨fun l _ => if l.headD 0 < 1 then 0 else 1, Dsde.setModule [0], [0], [0], [2], ?_⟩
  simp only
  decide +kernel

end Verif.Props
