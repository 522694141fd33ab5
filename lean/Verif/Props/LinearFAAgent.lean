import Verif.Spec.LinearFAAgent
import Verif.Props.LinearFA
/-
C94: the agent of the learners with linear function approximation.
-/
namespace Verif.LinFAAgent
open Verif.DataSet (Err)

variable {O R : Type}

/-- the state after a complete step -/
def After (g : Ag O R) (x : O × Nat × R) : Prop := g.lastobs = some x.1 ∧ g.lastaction = some x.2.1 ∧ g.lastreward = some x.2.2 ∧ g.oaro = none

theorem interact_first (c : Cfg) (g : Ag O R) (x : O × Nat × R) (h0 : g.lastobs = none) (h1 : g.oaro = none) :
    ∃ g', interact c g x = .ok g' ∧ After g' x ∧ g'.log = g.log ∧ g'.history = (if c.logging then addSample g.history x else g.history) ∧
      g'.temperature = g.temperature ∧ g'.expl = g.expl := by
  obtain ⟨lo, la, lr, oa, te, ex, hi, lg⟩ := g
  dsimp only at h0 h1
  subst h0 h1
  cases ho : c.online <;> simp [interact, getAction, observe, giveReward, After, ho]

theorem interact_next (c : Cfg) (ho : c.online = true) (g : Ag O R) (x y : O × Nat × R) (h : After g x) :
    ∃ g', interact c g y = .ok g' ∧ After g' y ∧ g'.log = g.log ++ [link c x y] ∧
      g'.history = (if c.logging then addSample g.history y else g.history) ∧ g'.temperature = g.temperature ∧ g'.expl = g.expl := by
  obtain ⟨lo, la, lr, oa, te, ex, hi, lg⟩ := g
  obtain ⟨h1, h2, h3, h4⟩ := h
  dsimp only at h1 h2 h3 h4
  subst h1 h2 h3 h4
  cases hp : c.passNextAction <;> simp [interact, getAction, observe, giveReward, After, ho, hp, link]

theorem interact_offline (c : Cfg) (ho : c.online = false) (g : Ag O R) (y : O × Nat × R) (h : g.oaro = none) :
    ∃ g', interact c g y = .ok g' ∧ After g' y ∧ g'.log = g.log ∧
      g'.history = (if c.logging then addSample g.history y else g.history) ∧ g'.temperature = g.temperature ∧ g'.expl = g.expl := by
  obtain ⟨lo, la, lr, oa, te, ex, hi, lg⟩ := g
  dsimp only at h
  subst h
  simp [interact, getAction, observe, giveReward, After, ho]

theorem episode_next (c : Cfg) (ho : c.online = true) (xs : List (O × Nat × R)) (g : Ag O R) (x : O × Nat × R) (h : After g x) :
    ∃ g', episode c xs g = .ok g' ∧ After g' ((x :: xs).getLast (by simp)) ∧ g'.log = g.log ++ links c (x :: xs) ∧
      g'.temperature = g.temperature ∧ g'.expl = g.expl := by
  induction xs generalizing g x with
  | nil => exact ⟨g, rfl, h, by simp [links], rfl, rfl⟩
  | cons y xs ih =>
    obtain ⟨g1, h1, h2, h3, _, h4, h5⟩ := interact_next c ho g x y h
    obtain ⟨g2, h6, h7, h8, h9, h10⟩ := ih g1 y h2
    refine ⟨g2, by simp only [episode, h1, h6], ?_, ?_, h9.trans h4, h10.trans h5⟩
    · rw [List.getLast_cons (by simp)]; exact h7
    · rw [h8, h3]; simp [links]

theorem episode_first (c : Cfg) (ho : c.online = true) (xs : List (O × Nat × R)) (g : Ag O R) (x : O × Nat × R) (h0 : g.lastobs = none) (h1 : g.oaro = none) :
    ∃ g', episode c (x :: xs) g = .ok g' ∧ After g' ((x :: xs).getLast (by simp)) ∧ g'.log = g.log ++ links c (x :: xs) ∧
      g'.temperature = g.temperature ∧ g'.expl = g.expl := by
  obtain ⟨g1, h2, h3, h4, _, h5, h6⟩ := interact_first c g x h0 h1
  obtain ⟨g2, h7, h8, h9, h10, h11⟩ := episode_next c ho xs g1 x h3
  exact ⟨g2, by simp only [episode, h2, h7], h8, by rw [h9, h4], h10.trans h5, h11.trans h6⟩

theorem episode_offline (c : Cfg) (ho : c.online = false) (xs : List (O × Nat × R)) (g : Ag O R) (h : g.oaro = none) :
    ∃ g', episode c xs g = .ok g' ∧ g'.oaro = none ∧ g'.log = g.log ∧ (∀ x, xs.getLast? = some x → After g' x) ∧
      g'.history = (if c.logging then xs.foldl addSample g.history else g.history) ∧ g'.temperature = g.temperature ∧ g'.expl = g.expl := by
  induction xs generalizing g with
  | nil => exact ⟨g, rfl, h, rfl, fun x hx => by simp at hx, by simp, rfl, rfl⟩
  | cons y xs ih =>
    obtain ⟨g1, h1, h2, h3, h4, h5, h6⟩ := interact_offline c ho g y h
    obtain ⟨g2, h7, h8, h9, h10, h11, h12, h13⟩ := ih g1 h2.2.2.2
    refine ⟨g2, by simp only [episode, h1, h7], h8, h9.trans h3, fun x hx => ?_, ?_, h12.trans h5, h13.trans h6⟩
    · cases xs with
      | nil =>
        simp at hx
        subst hx
        simp [episode] at h7
        rw [← h7]; exact h2
      | cons z zs =>
        rw [List.getLast?_cons_cons] at hx
        exact h10 x hx
    · rw [h11, h4]
      cases c.logging <;> simp

theorem foldl_addSample (xs : List (O × Nat × R)) (h : List (List (O × Nat × R))) (s : List (O × Nat × R)) :
    xs.foldl addSample (h ++ [s]) = h ++ [s ++ xs] := by
  induction xs generalizing s with
  | nil => simp
  | cons x xs ih =>
    rw [List.foldl_cons]
    have : addSample (h ++ [s]) x = h ++ [s ++ [x]] := by simp [addSample]
    rw [this, ih]
    simp

theorem init_online (c : Cfg) (ho : c.online = true) : (init c : Ag O R).lastobs = none ∧ (init c : Ag O R).oaro = none ∧
    (init c : Ag O R).log = [LCall.reset, .newEpisode] ∧ (init c : Ag O R).temperature = c.initTemperature ∧ (init c : Ag O R).expl = c.initExploration := by
  simp [init, reset, newEpisode, ho]

/-- calls on the agent in an experiment -/
inductive Ev (O R : Type)
  | interact (x : O × Nat × R)
  | newEpisode

noncomputable def apply (c : Cfg) : List (Ev O R) → Ag O R → Except Err (Ag O R)
  | [], g => .ok g
  | .interact x :: evs, g =>
    match interact c g x with
    | .error e => .error e
    | .ok g => apply c evs g
  | .newEpisode :: evs, g => apply c evs (newEpisode c g)

/-- the number of calls to newEpisode -/
def episodes : List (Ev O R) → Nat
  | [] => 0
  | .interact _ :: evs => episodes evs
  | .newEpisode :: evs => episodes evs + 1

/-- between two steps nothing is pending -/
def Between (g : Ag O R) : Prop := g.oaro = none ∧ (g.lastobs = none ∨ ∃ x, After g x)

theorem interact_between (c : Cfg) (g : Ag O R) (y : O × Nat × R) (h : Between g) :
    ∃ g', interact c g y = .ok g' ∧ Between g' ∧ g'.temperature = g.temperature ∧ g'.expl = g.expl := by
  obtain ⟨h1, h2⟩ := h
  cases ho : c.online with
  | false =>
    obtain ⟨g', a, b, _, _, d, e⟩ := interact_offline c ho g y h1
    exact ⟨g', a, ⟨b.2.2.2, Or.inr ⟨y, b⟩⟩, d, e⟩
  | true =>
    rcases h2 with h2 | ⟨x, h2⟩
    · obtain ⟨g', a, b, _, _, d, e⟩ := interact_first c g y h2 h1
      exact ⟨g', a, ⟨b.2.2.2, Or.inr ⟨y, b⟩⟩, d, e⟩
    · obtain ⟨g', a, b, _, _, d, e⟩ := interact_next c ho g x y h2
      exact ⟨g', a, ⟨b.2.2.2, Or.inr ⟨y, b⟩⟩, d, e⟩

theorem newEpisode_keeps (c : Cfg) (g : Ag O R) : (newEpisode c g).lastobs = g.lastobs ∧ (newEpisode c g).lastaction = g.lastaction ∧
    (newEpisode c g).lastreward = g.lastreward ∧ (newEpisode c g).oaro = g.oaro ∧ (newEpisode c g).log = g.log ++ [LCall.newEpisode] := by
  unfold newEpisode
  cases c.online <;> simp

theorem newEpisode_between (c : Cfg) (g : Ag O R) (h : Between g) : Between (newEpisode c g) := by
  obtain ⟨h1, h2, h3, h4, _⟩ := newEpisode_keeps c g
  refine ⟨h4.trans h.1, ?_⟩
  rcases h.2 with h5 | ⟨x, h5, h6, h7, h8⟩
  · exact Or.inl (h1.trans h5)
  · exact Or.inr ⟨x, h1.trans h5, h2.trans h6, h3.trans h7, h4.trans h8⟩

theorem apply_online (c : Cfg) (ho : c.online = true) (evs : List (Ev O R)) (g : Ag O R) (h : Between g) :
    ∃ g', apply c evs g = .ok g' ∧ g'.temperature = g.temperature ∧ g'.expl = g.expl := by
  induction evs generalizing g with
  | nil => exact ⟨g, rfl, rfl, rfl⟩
  | cons ev evs ih =>
    cases ev with
    | interact x =>
      obtain ⟨g1, h1, h2, h3, h4⟩ := interact_between c g x h
      obtain ⟨g2, h5, h6, h7⟩ := ih g1 h2
      exact ⟨g2, by simp only [apply, h1, h5], h6.trans h3, h7.trans h4⟩
    | newEpisode =>
      obtain ⟨g2, h5, h6, h7⟩ := ih _ (newEpisode_between c g h)
      refine ⟨g2, by simp only [apply, h5], ?_, ?_⟩
      · rw [h6]; simp [newEpisode, ho]
      · rw [h7]; simp [newEpisode, ho]

theorem apply_offline (c : Cfg) (ho : c.online = false) (evs : List (Ev O R)) (g : Ag O R) (h : Between g) :
    ∃ g', apply c evs g = .ok g' ∧ g'.temperature = g.temperature * c.temperatureDecay ^ episodes evs ∧
      g'.expl = g.expl * c.explorationDecay ^ episodes evs := by
  induction evs generalizing g with
  | nil => exact ⟨g, rfl, by simp [episodes], by simp [episodes]⟩
  | cons ev evs ih =>
    cases ev with
    | interact x =>
      obtain ⟨g1, h1, h2, h3, h4⟩ := interact_between c g x h
      obtain ⟨g2, h5, h6, h7⟩ := ih g1 h2
      exact ⟨g2, by simp only [apply, h1, h5], by rw [h6, h3]; rfl, by rw [h7, h4]; rfl⟩
    | newEpisode =>
      obtain ⟨g2, h5, h6, h7⟩ := ih _ (newEpisode_between c g h)
      refine ⟨g2, by simp only [apply, h5], ?_, ?_⟩
      · rw [h6]; simp only [newEpisode, ho, episodes]; simp; ring
      · rw [h7]; simp only [newEpisode, ho, episodes]; simp; ring

theorem init_between (c : Cfg) : Between (init c : Ag O R) := by
  unfold init reset
  apply newEpisode_between
  exact ⟨rfl, Or.inl rfl⟩

end Verif.LinFAAgent

namespace Verif.Props
open Verif.DataSet (Err)
open Verif.LinFAAgent

variable {O R : Type}

/-- Learning online, the learner of a new agent is told exactly the transitions of the first episode, each once and in order; a learner that wants it gets the
next action, the one really taken. -/
theorem C94_first_episode (c : Cfg) (ho : c.learning = true ∧ c.batchMode = false) (xs : List (O × Nat × R)) :
    ∃ g, episode c xs (init c) = .ok g ∧ g.log = [LCall.reset, .newEpisode] ++ links c xs := by
  have ho : c.online = true := by simp [Cfg.online, ho]
  obtain ⟨h1, h2, h3, _⟩ := init_online (O := O) (R := R) c ho
  cases xs with
  | nil => exact ⟨_, rfl, by rw [h3]; rfl⟩
  | cons x xs =>
    obtain ⟨g, h4, _, h5, _⟩ := episode_first c ho xs (init c) x h1 h2
    exact ⟨g, h4, by rw [h5, h3]⟩

/-- Discrepancy: newEpisode does not forget the last step, so that in every further episode the learner is also told a transition that never happened: from
the last step of the episode before to the first of the new one. -/
theorem C94_negation_episodes (c : Cfg) (ho : c.learning = true ∧ c.batchMode = false) (xs ys : List (O × Nat × R)) (x y : O × Nat × R) :
    ∃ g g', episode c (xs ++ [x]) (init c) = .ok g ∧ episode c (y :: ys) (newEpisode c g) = .ok g' ∧
      g'.log = [LCall.reset, .newEpisode] ++ links c (xs ++ [x]) ++ [LCall.newEpisode, link c x y] ++ links c (y :: ys) := by
  have ho' : c.online = true := by simp [Cfg.online, ho]
  obtain ⟨h1, h2, h3, _⟩ := init_online (O := O) (R := R) c ho'
  have hfirst : ∃ g, episode c (xs ++ [x]) (init c) = .ok g ∧ After g x ∧ g.log = (init c : Ag O R).log ++ links c (xs ++ [x]) := by
    cases xs with
    | nil =>
      obtain ⟨g, h4, h5, h6, _⟩ := episode_first c ho' [] (init c) x h1 h2
      exact ⟨g, h4, h5, h6⟩
    | cons z zs =>
      obtain ⟨g, h4, h5, h6, _⟩ := episode_first c ho' (zs ++ [x]) (init c) z h1 h2
      exact ⟨g, h4, by simpa using h5, h6⟩
  obtain ⟨g, h4, h5, h6⟩ := hfirst
  obtain ⟨k1, k2, k3, k4, k5⟩ := newEpisode_keeps c g
  obtain ⟨g', h7, h8, h9, _⟩ := episode_next c ho' (y :: ys) (newEpisode c g) x
    ⟨k1.trans h5.1, k2.trans h5.2.1, k3.trans h5.2.2.1, k4.trans h5.2.2.2⟩
  refine ⟨g, g', h4, h7, ?_⟩
  rw [h9, k5, h6, h3]
  simp [links]

/-- Discrepancy: the temperature and the exploration rate decay only where the agent does not learn online; while it does, they stay at their initial values
for ever. -/
theorem C94_negation_decay (c : Cfg) (ho : c.learning = true ∧ c.batchMode = false) (evs : List (Ev O R)) :
    ∃ g, apply c evs (init c) = .ok g ∧ g.temperature = c.initTemperature ∧ g.expl = c.initExploration := by
  have ho : c.online = true := by simp [Cfg.online, ho]
  obtain ⟨g, h1, h2, h3⟩ := apply_online (O := O) (R := R) c ho evs _ (init_between c)
  obtain ⟨_, _, _, h4, h5⟩ := init_online (O := O) (R := R) c ho
  exact ⟨g, h1, h2.trans h4, h3.trans h5⟩

/-- When the agent does not learn online they decay by their factor at every episode, once more for the construction of the agent. -/
theorem C94_decay_partial (c : Cfg) (ho : c.learning = false ∨ c.batchMode = true) (evs : List (Ev O R)) :
    ∃ g, apply c evs (init c) = .ok g ∧ g.temperature = c.initTemperature * c.temperatureDecay ^ (episodes evs + 1) ∧
      g.expl = c.initExploration * c.explorationDecay ^ (episodes evs + 1) := by
  have ho : c.online = false := by rcases ho with h | h <;> simp [Cfg.online, h]
  obtain ⟨g, h1, h2, h3⟩ := apply_offline (O := O) (R := R) c ho evs _ (init_between c)
  have h4 : (init c : Ag O R).temperature = c.initTemperature * c.temperatureDecay := by simp [init, reset, newEpisode, ho]
  have h5 : (init c : Ag O R).expl = c.initExploration * c.explorationDecay := by simp [init, reset, newEpisode, ho]
  refine ⟨g, h1, ?_, ?_⟩
  · rw [h2, h4]; ring
  · rw [h3, h5]; ring

/-- Discrepancy: learning from the history after an episode, a learner without `passNextAction` is first told a transition from the last step of the history to
its first, because the agent still holds its last observation; then the transitions of the episode. -/
theorem C94_negation_batch (c : Cfg) (hl : c.learning = true ∧ c.batchMode = true ∧ c.logging = true ∧ c.passNextAction = false) (xs : List (O × Nat × R))
    (x y : O × Nat × R) (hy : (x :: xs).getLast? = some y) :
    ∃ g g', episode c (x :: xs) (init c) = .ok g ∧ g.log = [LCall.reset, .newEpisode] ∧ g.history = [x :: xs] ∧
      learn c g = .ok g' ∧ g'.log = [LCall.reset, .newEpisode] ++ [link c y x] ++ links c (x :: xs) ++ [LCall.newEpisode] := by
  obtain ⟨h1, h2, h3, h4⟩ := hl
  have ho : c.online = false := by simp [Cfg.online, h2]
  obtain ⟨g, h5, h6, h7, h8, h9, _⟩ := episode_offline c ho (x :: xs) (init c : Ag O R) (init_between c).1
  have hlog : g.log = [LCall.reset, .newEpisode] := by rw [h7]; simp [init, reset, newEpisode, ho]
  have hh : g.history = [x :: xs] := by
    rw [h9, if_pos h3]
    have : (init c : Ag O R).history = [] ++ [[]] := by simp [init, reset, newEpisode, ho, newSequence]
    rw [this, foldl_addSample]; rfl
  have key : ∀ (ys : List (O × Nat × R)) (z : O × Nat × R) (g : Ag O R), After g z → ∃ g', learnSeq c ys g = .ok g' ∧ g'.log = g.log ++ links c (z :: ys) := by
    intro ys
    induction ys with
    | nil => intro z g _; exact ⟨g, rfl, by simp [links]⟩
    | cons w ys ih =>
      intro z g hz
      obtain ⟨h10, h11⟩ := ih w { g with log := g.log ++ [LCall.update z.1 g.lastaction g.lastreward w.1 none], lastobs := some w.1, lastaction := some w.2.1, lastreward := some w.2.2 }
        ⟨rfl, rfl, rfl, hz.2.2.2⟩
      refine ⟨h10, ?_, ?_⟩
      · obtain ⟨w1, w2, w3⟩ := w
        simp only [learnSeq, hz.1, h4]
        exact h11.1
      · rw [h11.2, hz.2.1, hz.2.2.1]
        simp [links, link, h4]
  obtain ⟨g', h10, h11⟩ := key (x :: xs) y g (h8 y hy)
  refine ⟨g, { g' with log := g'.log ++ [LCall.newEpisode] }, h5, hlog, hh, ?_, ?_⟩
  · simp only [learn, h1, h2, hh, learnAll, h10]
    rfl
  · show g'.log ++ _ = _
    rw [h11, hlog]
    simp [links]

/-- The protocol of observation, action, reward is checked: a reward without an action since the last observation is refused, and so is a second reward. -/
theorem C94_protocol (c : Cfg) (g : Ag O R) (obs : O) (a : Nat) (r r' : R) :
    giveReward c (observe c g obs) r = .error .assertion ∧
    ∃ g1 g2, getAction c (observe c g obs) a = .ok g1 ∧ giveReward c g1 r = .ok g2 ∧ giveReward c g2 r' = .error .assertion := by
  constructor
  · simp [giveReward, observe]
  · have h1 : ∃ g1, getAction c (observe c g obs) a = .ok g1 ∧ g1.lastobs = some obs ∧ g1.lastaction = some a ∧ g1.lastreward = none := by
      have ho : (observe c g obs).lastobs = some obs := rfl
      have hr : (observe c g obs).lastreward = none := rfl
      unfold getAction
      rw [ho]
      dsimp only
      split
      · exact ⟨_, rfl, ho, rfl, hr⟩
      · exact ⟨_, rfl, ho, rfl, hr⟩
    obtain ⟨g1, e, h2, h3, h4⟩ := h1
    refine ⟨g1, _, e, by simp only [giveReward, h2, h3, h4]; rfl, ?_⟩
    simp [giveReward, h2, h3]

/-- `learn` is for batch learning only: with learning switched off, or when the learner learns online, it changes nothing and tells the learner nothing. -/
theorem C94_learn_online (c : Cfg) (h : c.learning = false ∨ c.batchMode = false) (g : Ag O R) : learn c g = .ok g := by
  rcases h with h | h <;> simp [learn, h]

/-- Discrepancy: learning from the history is impossible for the learners that want the next action (SARSA, LSPI): after any episode it raises TypeError. -/
theorem C94_negation_batch_next (c : Cfg) (hl : c.learning = true ∧ c.batchMode = true ∧ c.logging = true ∧ c.passNextAction = true) (xs : List (O × Nat × R))
    (x : O × Nat × R) : ∃ g, episode c (x :: xs) (init c) = .ok g ∧ learn c g = .error .typeError := by
  obtain ⟨h1, h2, h3, h4⟩ := hl
  have ho : c.online = false := by simp [Cfg.online, h2]
  obtain ⟨g, h5, h6, h7, h8, h9, _⟩ := episode_offline c ho (x :: xs) (init c : Ag O R) (init_between c).1
  have hh : g.history = [x :: xs] := by
    rw [h9, if_pos h3]
    have : (init c : Ag O R).history = [] ++ [[]] := by simp [init, reset, newEpisode, ho, newSequence]
    rw [this, foldl_addSample]; rfl
  obtain ⟨y, hy⟩ : ∃ y, (x :: xs).getLast? = some y := ⟨(x :: xs).getLast (by simp), List.getLast?_eq_some_getLast (by simp)⟩
  have hg := (h8 y hy).1
  refine ⟨g, h5, ?_⟩
  obtain ⟨x1, x2, x3⟩ := x
  simp [learn, h1, h2, hh, learnAll, learnSeq, hg, h4]

/-- The probabilities from which the agent draws its action form a distribution in every mode. An action that is not among the best is chosen never in greedy
mode, and with probability `ε / m` in epsilon-greedy mode. -/
theorem C94_probabilities {m n : Nat} (greedy epsilonGreedy : Bool) {temperature expl : ℝ} (ht : 0 ≤ temperature) (he : 0 ≤ expl ∧ expl ≤ 1) (pick : Nat)
    (theta : LinFA.Weights m n) (state : NES.Vec n) :
    (∑ a, actionProbs greedy epsilonGreedy temperature expl pick theta state a = 1) ∧
    (∀ a, 0 ≤ actionProbs greedy epsilonGreedy temperature expl pick theta state a) ∧
    ∀ a b, LinFA.Q theta state a < LinFA.Q theta state b →
      (greedy = true → actionProbs greedy epsilonGreedy temperature expl pick theta state a = 0) ∧
      (greedy = false → epsilonGreedy = true → actionProbs greedy epsilonGreedy temperature expl pick theta state a = expl / (m + 1)) := by
  have hg : ∑ a, LinFA.greedyPolicy pick theta state a = 1 := by simp [LinFA.greedyPolicy]
  have hg0 : ∀ a, 0 ≤ LinFA.greedyPolicy pick theta state a := fun a => by unfold LinFA.greedyPolicy; split <;> norm_num
  have hgn : ∀ a b, LinFA.Q theta state a < LinFA.Q theta state b → LinFA.greedyPolicy pick theta state a = 0 := by
    intro a b hab
    unfold LinFA.greedyPolicy
    rw [if_neg]
    intro h
    have := LinFA.le_maxValue (LinFA.qValues theta state) b
    rw [← LinFA.rArgmax_max pick (LinFA.qValues theta state), ← h] at this
    exact absurd hab (not_lt.2 this)
  obtain ⟨b1, b2, _⟩ := C93_boltzmann pick (LinFA.qValues theta state) ht
  have hm : (0:ℝ) < (m + 1 : Nat) := by positivity
  cases greedy
  · cases epsilonGreedy
    · refine ⟨b1, b2, fun a b _ => ⟨by simp, by simp⟩⟩
    · refine ⟨?_, fun a => ?_, fun a b hab => ⟨by simp, fun _ _ => ?_⟩⟩
      · show ∑ a, (LinFA.greedyPolicy pick theta state a * (1 - expl) + expl / ((m + 1 : Nat) : ℝ)) = 1
        rw [Finset.sum_add_distrib, ← Finset.sum_mul, hg, Finset.sum_const, Finset.card_univ, Fintype.card_fin, nsmul_eq_mul]
        field_simp
        ring
      · show 0 ≤ LinFA.greedyPolicy pick theta state a * (1 - expl) + expl / ((m + 1 : Nat) : ℝ)
        exact add_nonneg (mul_nonneg (hg0 a) (by linarith [he.2])) (div_nonneg he.1 hm.le)
      · show LinFA.greedyPolicy pick theta state a * (1 - expl) + expl / ((m + 1 : Nat) : ℝ) = _
        rw [hgn a b hab]
        push_cast; ring
  · exact ⟨hg, hg0, fun a b hab => ⟨fun _ => hgn a b hab, by simp⟩⟩

end Verif.Props
