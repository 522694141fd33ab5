import Verif.Model.SimpleEnv
import Mathlib.Tactic.Ring
import Mathlib.Tactic.NormNum
import Mathlib.Tactic.Linarith
import Mathlib.Data.Rat.Defs
/-
Properties of the simple environment and its task.
-/
namespace Verif.SimpleEnv

variable {K : Type} [Field K]

namespace Spec

/-- The intended dynamics: a state moves by a tenth of the action. -/
def move (s a : List K) : List K := List.zipWith (fun s a => s + 1 / 10 * a) s a

/-- The states of an episode without noise: all coordinates are 2 at first. -/
def states (policy : List K → List K) (dim : Nat) : Nat → List K
  | 0 => List.replicate dim 2
  | n + 1 => move (states policy dim n) (policy (states policy dim n))

/-- Minus the squared distance from the origin. -/
def reward (s : List K) : K := -(s.map fun v => v ^ 2).sum

end Spec

open Spec

/-- Where an episode is before its pass number `n`: before the first, or with the action of the previous pass not yet applied. -/
structure At (policy : List K → List K) (dim n : Nat) (k : MinTask K) : Prop where
  dimension : k.env.dim = dim
  quiet : k.env.noise = false
  count : k.t = n
  samples : k.samples = n
  start : n = 0 → k.env.updated = true ∧ k.env.state = states policy dim 0
  later : ∀ m, n = m + 1 → k.env.updated = false ∧ k.env.state = states policy dim m ∧ k.env.action = policy (states policy dim m)

theorem zipWith_left (g : K → K → K) : ∀ (s a extra : List K), s.length = a.length → List.zipWith g (s ++ extra) a = List.zipWith g s a
  | [], [], extra, _ => by cases extra <;> rfl
  | x :: s, y :: a, extra, h => by
    rw [List.cons_append, List.zipWith_cons_cons, List.zipWith_cons_cons, zipWith_left g s a extra (by simpa using h)]

theorem sensors_at (policy : List K → List K) (dim n : Nat) (k : MinTask K) (h : At policy dim n k) (draws : List K) :
    k.env.getSensors draws = (states policy dim n, { k.env with state := states policy dim n }) := by
  unfold Env.getSensors
  cases n with
  | zero =>
    obtain ⟨h1, h2⟩ := h.start rfl
    rw [if_pos h1, ← h2]
  | succ m =>
    obtain ⟨h1, h2, h3⟩ := h.later m rfl
    simp only [h1, Env.update, h2, h3, h.quiet]
    rfl

theorem interact_at (policy : List K → List K) (dim n : Nat) (k : MinTask K) (h : At policy dim n k) (draws : List K) :
    ((k.isFinished).2.interact policy draws).1 = (states policy dim n, reward (states policy dim (n + 1))) ∧
    (k.t < 15 → At policy dim (n + 1) ((k.isFinished).2.interact policy draws).2) := by
  by_cases hf : k.t ≥ 15
  · refine ⟨?_, fun h' => absurd h' (by omega)⟩
    simp only [MinTask.isFinished, if_pos hf, MinTask.interact, MinTask.getObservation, sensors_at policy dim n k h draws, MinTask.performAction, MinTask.getReward]
    rfl
  · simp only [MinTask.isFinished, if_neg hf, MinTask.interact, MinTask.getObservation, sensors_at policy dim n k h draws, MinTask.performAction, MinTask.getReward]
    refine ⟨rfl, fun _ => ⟨h.dimension, h.quiet, by simp [h.count], by simp [h.samples], by simp, fun m hm => ?_⟩⟩
    have : m = n := by omega
    subst this
    exact ⟨rfl, rfl, rfl⟩

theorem loop_at (policy : List K → List K) (dim : Nat) (draws : Nat → List K) : ∀ (bound n : Nat) (k : MinTask K), At policy dim n k → n ≤ 15 → 15 - n < bound →
    (k.loop policy draws bound).1 = (List.range (15 - n)).map fun i => (states policy dim (n + i), reward (states policy dim (n + i + 1)))
  | 0, n, k, h, hn, hb => by omega
  | bound + 1, n, k, h, hn, hb => by
    unfold MinTask.loop
    by_cases hf : n = 15
    · have : k.isFinished = (true, { k with t := 0 }) := by unfold MinTask.isFinished; rw [if_pos (by rw [h.count]; omega)]
      rw [this, hf]
      rfl
    · have hk : k.t < 15 := by rw [h.count]; omega
      obtain ⟨h1, h2⟩ := interact_at policy dim n k h (draws n)
      have e : k.isFinished = (false, (k.isFinished).2) := by unfold MinTask.isFinished; rw [if_neg (by omega)]
      have es : (k.isFinished).2.samples = n := by unfold MinTask.isFinished; rw [if_neg (by omega)]; exact h.samples
      rw [e]
      simp only [es]
      rw [h1, loop_at policy dim draws bound (n + 1) _ (h2 hk) (by omega) (by omega)]
      rw [show 15 - n = (15 - (n + 1)) + 1 by omega, List.range_succ_eq_map, List.map_cons, List.map_map]
      refine congrArg₂ _ (by simp) (List.map_congr_left fun i _ => ?_)
      simp only [Function.comp_apply, Nat.succ_eq_add_one]
      rw [show n + 1 + i = n + (i + 1) by omega]

end Verif.SimpleEnv

namespace Verif.Props

open Verif.SimpleEnv Verif.SimpleEnv.Spec

variable {K : Type} [Field K]

/-- Without noise, every episode of an experiment, in whatever state the task was, has 15 steps and follows the dynamics from the state in which all coordinates are 2, and the reward of a step is minus the squared distance
of the next state from the origin. -/
theorem C149_episode (policy : List K → List K) (k : MinTask K) (hq : k.env.noise = false) (draws : Nat → List K) (bound : Nat) (hb : 15 < bound) :
    (k.episode policy draws bound).1 = (List.range 15).map fun i => (states policy k.env.dim i, reward (states policy k.env.dim (i + 1))) := by
  have := loop_at policy k.env.dim draws bound 0 k.reset ⟨rfl, hq, rfl, rfl, fun _ => ⟨rfl, rfl⟩, fun m hm => by omega⟩ (by omega) (by omega)
  unfold MinTask.episode
  rw [this]
  simp

example : ((MinTask.init (Env.init 1 false) : MinTask ℚ).episode (fun s => s.map (-10 * ·)) (fun _ => []) 20).1 = ([2], 0) :: List.replicate 14 ([0], 0) := by decide +kernel

/-- Reading the sensors is not free of effects: every reading after an action applies the action once more. -/
theorem C149_negation_reading (e : Env K) (hq : e.noise = false) (a : List K) (draws draws' : List K) :
    ((e.performAction a).getSensors draws).1 = move e.state a ∧ (((e.performAction a).getSensors draws).2.getSensors draws').1 = move (move e.state a) a := by
  simp [Env.performAction, Env.getSensors, Env.update, hq, move]

/-- Actions that are not followed by a reading are lost. -/
theorem C149_negation_lost (e : Env K) (a b draws : List K) : (((e.performAction a).performAction b).getSensors draws) = (e.performAction b).getSensors draws := rfl

/-- With noise the draws are appended to the observation, which is twice as long then, and never influence the state. -/
theorem C149_negation_noise (dim : Nat) (as : List (List K × List K)) (ha : ∀ p ∈ as, p.1.length = dim ∧ p.2.length = dim) (p : List K × List K) (hp : p.1.length = dim ∧ p.2.length = dim) :
    let run := fun (noise : Bool) (l : List (List K × List K)) => l.foldl (fun (r : List K × Env K) (p : List K × List K) => (r.2.performAction p.1).getSensors p.2) ([], Env.init dim noise)
    ((run true (as ++ [p])).1 = (run false (as ++ [p])).1 ++ p.2) ∧ (run true (as ++ [p])).1.length = 2 * dim := by
  have key : ∀ (l : List (List K × List K)), (∀ q ∈ l, q.1.length = dim ∧ q.2.length = dim) → ∀ (r r' : List K × Env K), r.2.noise = true → r'.2.noise = false → (∃ extra, r.2.state = r'.2.state ++ extra) → r'.2.state.length = dim →
      (∃ extra, (l.foldl (fun (r : List K × Env K) (p : List K × List K) => (r.2.performAction p.1).getSensors p.2) r).2.state = (l.foldl (fun (r : List K × Env K) (p : List K × List K) => (r.2.performAction p.1).getSensors p.2) r').2.state ++ extra) ∧
      (l.foldl (fun (r : List K × Env K) (p : List K × List K) => (r.2.performAction p.1).getSensors p.2) r).2.noise = true ∧ (l.foldl (fun (r : List K × Env K) (p : List K × List K) => (r.2.performAction p.1).getSensors p.2) r').2.noise = false ∧
      (l.foldl (fun (r : List K × Env K) (p : List K × List K) => (r.2.performAction p.1).getSensors p.2) r').2.state.length = dim := by
    intro l
    induction l with
    | nil => intro _ r r' h1 h2 h3 h4; exact ⟨h3, h1, h2, h4⟩
    | cons q l ih =>
      intro hl r r' h1 h2 h3 h4
      obtain ⟨extra, he⟩ := h3
      obtain ⟨hq1, hq2⟩ := hl q (by simp)
      rw [List.foldl_cons, List.foldl_cons]
      refine ih (fun q' h' => hl q' (List.mem_cons_of_mem _ h')) _ _ ?_ ?_ ?_ ?_
      · simp [Env.performAction, Env.getSensors, Env.update, h1]
      · simp [Env.performAction, Env.getSensors, Env.update, h2]
      · refine ⟨q.2, ?_⟩
        simp only [Env.performAction, Env.getSensors, Env.update, h1, h2, he]
        rw [zipWith_left _ _ _ _ (by omega)]
        simp
      · simp [Env.performAction, Env.getSensors, Env.update, h2, h4, hq1]
  obtain ⟨⟨extra, h1⟩, h2, h3, h4⟩ := key as ha ([], Env.init dim true) ([], Env.init dim false) rfl rfl ⟨[], by simp [Env.init, Env.reset]⟩ (by simp [Env.init, Env.reset])
  simp only [List.foldl_append, List.foldl_cons, List.foldl_nil]
  generalize (as.foldl (fun (r : List K × Env K) (p : List K × List K) => (r.2.performAction p.1).getSensors p.2) ([], Env.init dim true)) = r at *
  generalize (as.foldl (fun (r : List K × Env K) (p : List K × List K) => (r.2.performAction p.1).getSensors p.2) ([], Env.init dim false)) = r' at *
  have e : (((r.2.performAction p.1).getSensors p.2).1 = ((r'.2.performAction p.1).getSensors p.2).1 ++ p.2) := by
    simp only [Env.performAction, Env.getSensors, Env.update, h2, h3, h1]
    rw [zipWith_left _ _ _ _ (by omega)]
    simp
  refine ⟨e, ?_⟩
  rw [e, List.length_append, hp.2]
  have : ((r'.2.performAction p.1).getSensors p.2).1.length = dim := by
    simp [Env.performAction, Env.getSensors, Env.update, h3, h4, hp.1]
  omega

/-- The total reward, which is the fitness of a policy, is not the sum of the rewards: each reward is added with the action of the step before, in the first step the
last action of the previous episode.  Two evaluations of the same policy differ. -/
theorem C149_negation_total : ∃ policy : List ℚ → List ℚ,
    let first := (MinTask.init (Env.init 1 false) : MinTask ℚ).episode policy (fun _ => []) 20
    let second := first.2.episode policy (fun _ => []) 20
    (first.1.map (·.2)).sum = -1780 ∧ first.2.cumreward = -1775 ∧ second.1 = first.1 ∧ second.2.cumreward = -1780 := by
  refine ⟨fun _ => [10], ?_⟩
  decide +kernel

/-- Asking whether the episode is over counts as a step: asking twice in each step makes episodes of half the length. -/
theorem C149_negation_finished (k : MinTask K) (ht : k.t < 14) : (k.isFinished).1 = false ∧ (k.isFinished).2.t = k.t + 1 ∧ ((k.isFinished).2.isFinished).2.t = k.t + 2 := by
  have h1 : ¬k.t ≥ 15 := by omega
  have h2 : ¬k.t + 1 ≥ 15 := by omega
  simp [MinTask.isFinished, h1, h2]

end Verif.Props
