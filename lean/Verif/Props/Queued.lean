import Verif.Model.Queued
import Verif.Props.Agent
import Verif.Props.Sequential
import Mathlib.Data.List.Count
import Mathlib.Tactic.Linarith
/-
C150: learning from a queue of episodes.
-/
namespace Verif.Queued
open Verif.DataSet (Err)
open Verif.Sequential Verif.Agent Verif.Agent.Spec

variable {K : Type} [Zero K] {τ μ : Type}

/-- how often episode number `j` is among the `n` episodes from number `i` on, for `c` values of `i` from 0 on -/
def considered (n c j : Nat) : Nat := (List.range c).countP fun i => decide (i ≤ j ∧ j < i + n)

omit [Zero K] in
theorem stored_cons (e : List (Rec K)) (rest : List (List (Rec K))) :
    (if (stored (e :: rest)).eraseIdx 0 = [] then [[]] else (stored (e :: rest)).eraseIdx 0) = stored rest := by
  cases rest with
  | nil => simp [stored]
  | cons e' rest => simp [stored]

theorem good_remove (indim outdim : Nat) (g : LAgent K) (ph : Phase K) (e : List (Rec K)) (rest : List (List (Rec K))) (hg : Good indim outdim g (ph, stored (e :: rest))) :
    ∃ h, g.history.removeSequence 0 = (h, none) ∧ Good indim outdim { g with history := h } (ph, stored rest) := by
  obtain ⟨h1, h2, h3⟩ := hg
  obtain ⟨r1, r2⟩ := h3.remove (by decide) labels_nodup 0
  have hlen : 0 < (stored (e :: rest)).length := by simp [stored]
  have es : Sequential.Spec.step (stored (e :: rest)) (.removeSequence 0) = (stored rest, none) := by
    simp only [Sequential.Spec.step, if_pos hlen]
    rw [stored_cons]
  rw [es] at r1 r2
  exact ⟨_, Prod.ext rfl r1, h1, h2, r2⟩

theorem step_spec (indim outdim : Nat) (t : RTask τ K) (p : Policy μ K) (l : Learner μ K) (ho : ∀ s, (t.getObservation s).1.length = indim)
    (ha : ∀ m o, (p.choose m o).1.length = outdim) (hstart : ∀ s, t.isFinished (t.reset s) = false) (fuel : Nat) (x : Exp τ μ K)
    (e : List (Rec K)) (rest : List (List (Rec K))) (hd : ∀ xs ∈ e :: rest, xs ≠ []) (ph : Phase K) (hg : Good indim outdim x.agent (ph, stored (e :: rest))) (hl : x.agent.logging = true)
    (res : Except Err (SDS K × Exp τ μ K)) (h : stepQueueLoop t p l fuel x = some res) :
    ∃ new y, res = .ok (x.agent.history, y) ∧ new ≠ [] ∧ Episodes t p x.task (l.learn x.agent.history x.policy) [new] y.task y.policy ∧
      (∃ ph', Good indim outdim y.agent (ph', stored (rest ++ [new]))) ∧ y.agent.logging = true := by
  obtain ⟨hh, e1, g1⟩ := good_remove indim outdim x.agent ph e rest hg
  unfold stepQueueLoop at h
  rw [e1] at h
  simp only at h
  split at h
  · cases h
  · rename_i err he
    obtain ⟨_, _, hres, _⟩ := doEpisodes_spec indim outdim t p ho ha hstart fuel 1 ⟨x.task, { x.agent with history := hh }, l.learn x.agent.history x.policy, x.stepid⟩ rest
      (fun xs hx => hd xs (List.mem_cons_of_mem _ hx)) ph g1 hl [] _ he
    cases hres
  · rename_i rs y he
    obtain ⟨eps, x', r1, r2, r3, r4, r5, r6⟩ := doEpisodes_spec indim outdim t p ho ha hstart fuel 1 ⟨x.task, { x.agent with history := hh }, l.learn x.agent.history x.policy, x.stepid⟩ rest
      (fun xs hx => hd xs (List.mem_cons_of_mem _ hx)) ph g1 hl [] _ he
    injection r1 with r1
    injection r1 with r1 r1'
    subst r1'
    obtain ⟨new, rfl⟩ := List.length_eq_one_iff.1 r2
    cases h
    exact ⟨new, y, rfl, r3 new (by simp), r4, r5, r6⟩

/-- The windows of `n` episodes from number 0, 1, …, `c - 1` on. -/
def windows {α : Type} (n c : Nat) (eps : List α) : List (List α) := (List.range c).map fun i => (eps.drop i).take n

theorem loop_spec (indim outdim : Nat) (t : RTask τ K) (p : Policy μ K) (l : Learner μ K) (ho : ∀ s, (t.getObservation s).1.length = indim)
    (ha : ∀ m o, (p.choose m o).1.length = outdim) (hstart : ∀ s, t.isFinished (t.reset s) = false) (fuel : Nat) : ∀ (c : Nat) (x : Exp τ μ K)
    (queue : List (List (Rec K))) (_ : queue ≠ []) (_ : ∀ xs ∈ queue, xs ≠ []) (ph : Phase K) (_ : Good indim outdim x.agent (ph, stored queue)) (_ : x.agent.logging = true)
    (res : Except Err (List (SDS K) × Exp τ μ K)) (_ : loop t p l fuel c x = some res),
    ∃ new seen y, res = .ok (seen, y) ∧ new.length = c ∧ (∀ xs ∈ new, xs ≠ []) ∧
      List.Forall₂ Sequential.Spec.Shows seen ((windows queue.length c (queue ++ new)).map fun q => q.map fun xs => xs.map Rec.sample) ∧
      Sequential.Spec.Shows y.agent.history (((queue ++ new).drop c).map fun xs => xs.map Rec.sample)
  | 0, x, queue, hne, hd, ph, hg, hl, res, h => by
    cases h
    have h6 := hg.2.2.shows (by decide)
    refine ⟨[], [], x, rfl, rfl, by simp, by simp [windows], ?_⟩
    simpa [stored, hne] using h6
  | c + 1, x, queue, hne, hd, ph, hg, hl, res, h => by
    obtain ⟨e, rest, rfl⟩ := List.exists_cons_of_ne_nil hne
    rw [loop] at h
    split at h
    · cases h
    · rename_i err he
      obtain ⟨_, _, hres, _⟩ := step_spec indim outdim t p l ho ha hstart fuel x e rest hd ph hg hl _ he
      cases hres
    · rename_i hh y he
      obtain ⟨new, y', r1, r2, r3, ⟨ph', r4⟩, r5⟩ := step_spec indim outdim t p l ho ha hstart fuel x e rest hd ph hg hl _ he
      injection r1 with r1
      injection r1 with r1 r1'
      subst r1'
      have hd' : ∀ xs ∈ rest ++ [new], xs ≠ [] := by
        intro xs hx
        rcases List.mem_append.1 hx with hx | hx
        · exact hd xs (List.mem_cons_of_mem _ hx)
        · rw [List.mem_singleton.1 hx]; exact r2
      have hs : Sequential.Spec.Shows hh ((e :: rest).map fun xs => xs.map Rec.sample) := by
        rw [r1]
        simpa [stored] using hg.2.2.shows (by decide)
      split at h
      · cases h
      · rename_i err he2
        obtain ⟨_, _, _, hres, _⟩ := loop_spec indim outdim t p l ho ha hstart fuel c y (rest ++ [new]) (by simp) hd' ph' r4 r5 _ he2
        cases hres
      · rename_i hs' z he2
        obtain ⟨news, seen, y2, q1, q2, q3, q4, q5⟩ := loop_spec indim outdim t p l ho ha hstart fuel c y (rest ++ [new]) (by simp) hd' ph' r4 r5 _ he2
        injection q1 with q1
        injection q1 with q1 q1'
        subst q1 q1'
        cases h
        refine ⟨new :: news, hh :: hs', z, rfl, by simp [q2], ?_, ?_, ?_⟩
        · intro xs hx
          rcases List.mem_cons.1 hx with rfl | hx
          · exact r2
          · exact q3 xs hx
        · have ew : windows (e :: rest).length (c + 1) (e :: rest ++ new :: news) = (e :: rest) :: windows (rest ++ [new]).length c (rest ++ [new] ++ news) := by
            unfold windows
            rw [List.range_succ_eq_map, List.map_cons, List.map_map]
            refine congrArg₂ _ (by simp) (List.map_congr_left fun i _ => ?_)
            simp
          rw [ew, List.map_cons]
          exact List.Forall₂.cons hs q4
        · simpa using q5

theorem considered_eq (n c j : Nat) : considered n c j = min c (j + 1) - (j + 1 - n) := by
  unfold considered
  induction c with
  | zero => simp
  | succ c ih =>
    rw [List.range_succ, List.countP_append, ih, List.countP_singleton]
    by_cases h : c ≤ j ∧ j < c + n
    · rw [if_pos (by simpa using h)]
      omega
    · rw [if_neg (by simpa using h)]
      by_cases h1 : c ≤ j
      · have : ¬ j < c + n := fun h2 => h ⟨h1, h2⟩
        omega
      · omega

end Verif.Queued

namespace Verif.Props
open Verif.DataSet (Err)
open Verif.Sequential Verif.Agent Verif.Agent.Spec Verif.Queued

variable {K : Type} [Zero K] {τ μ : Type}

/-- **C150, what is learned from.** An experiment with a queue of `n > 0` episodes and `c` learning cycles, started with an agent in whatever state (after any history of calls) and with any learner, never raises. When it returns, `n + c` episodes were
run, the learner got the episodes `i, …, i + n - 1` in this order (and nothing else) in cycle number `i`, and the history holds the last `n` episodes. -/
theorem C150_queue (indim outdim : Nat) (t : RTask τ K) (p : Policy μ K) (l : Learner μ K) (ho : ∀ s, (t.getObservation s).1.length = indim)
    (ha : ∀ m o, (p.choose m o).1.length = outdim) (hstart : ∀ s, t.isFinished (t.reset s) = false) (cs : List (Call K)) (hcs : ∀ c ∈ cs, okCall indim outdim c)
    (s : τ) (m : μ) (i0 : Nat) (fuel n c : Nat) (hn : 0 < n)
    (res : Except Err (List (SDS K) × Exp τ μ K)) (h : Queued.run t p l fuel n c ⟨s, (LAgent.init indim outdim true).calls cs, m, i0⟩ = some res) :
    ∃ (eps : List (List (Rec K))) (seen : List (SDS K)) (y : Exp τ μ K), res = .ok (seen, y) ∧ eps.length = n + c ∧ (∀ xs ∈ eps, xs ≠ []) ∧
      List.Forall₂ Sequential.Spec.Shows seen ((windows n c eps).map fun q => q.map fun xs => xs.map Rec.sample) ∧
      Sequential.Spec.Shows y.agent.history ((eps.drop c).map fun xs => xs.map Rec.sample) := by
  obtain ⟨h1, h2⟩ := good_calls indim outdim cs _ _ (good_init (K := K) indim outdim true) hcs
  obtain ⟨h3, h4, h5⟩ := good_call indim outdim _ _ h1 .reset trivial
  rw [h2] at h3
  unfold Queued.run fillQueue at h
  simp only at h
  have g0 : Good indim outdim ((LAgent.init indim outdim true).calls cs).reset (.idle, stored ([] : List (List (Rec K)))) := h3
  have l0 : ((LAgent.init (K := K) indim outdim true).calls cs).reset.logging = true := by
    have : ((LAgent.init (K := K) indim outdim true).calls cs).reset.logging = ((LAgent.init (K := K) indim outdim true).calls cs).logging := rfl
    rw [this, h2]
    rfl
  split at h
  · cases h
  · rename_i e he
    split at he
    · cases he
    · rename_i e' he'
      obtain ⟨_, _, hres, _⟩ := doEpisodes_spec indim outdim t p ho ha hstart fuel n ⟨s, ((LAgent.init indim outdim true).calls cs).reset, l.clean m, i0⟩ [] (by simp) .idle g0 l0 [] _ he'
      cases hres
    · cases he
  · rename_i y he
    split at he
    · cases he
    · cases he
    · rename_i rs y' he'
      obtain ⟨eps, x', r1, r2, r3, r4, ⟨ph, r5⟩, r6⟩ := doEpisodes_spec indim outdim t p ho ha hstart fuel n ⟨s, ((LAgent.init indim outdim true).calls cs).reset, l.clean m, i0⟩ [] (by simp) .idle g0 l0 [] _ he'
      injection r1 with r1
      injection r1 with r1 r1'
      subst r1'
      cases he
      rw [List.nil_append] at r5
      obtain ⟨new, seen, y2, q1, q2, q3, q4, q5⟩ := loop_spec indim outdim t p l ho ha hstart fuel c y eps (by rintro rfl; simp at r2; omega) r3 ph r5 r6 _ h
      refine ⟨eps ++ new, seen, y2, q1, by simp [r2, q2], ?_, by rw [← r2]; exact q4, q5⟩
      intro xs hx
      rcases List.mem_append.1 hx with hx | hx
      · exact r3 xs hx
      · exact q3 xs hx

/-- **C150, how often an episode is considered.** In an experiment with a queue of length `n` and `c` cycles, the episodes number `n - 1` to `c - 1` (counted from 0) are considered `n` times for learning. -/
theorem C150_considered_partial (n c j : Nat) (h1 : n ≤ j + 1) (h2 : j < c) : considered n c j = n := by
  rw [considered_eq]
  omega

/-- **C150 violated: "each episode is considered n times for learning until discarded".** Episode number `j < n` of the first ones is considered only `j + 1` times, then it is discarded: the first one only once. -/
theorem C150_negation_first (n c j : Nat) (h1 : j < n) (h2 : j < c) : considered n c j = j + 1 := by
  rw [considered_eq]
  omega

/-- **C150 violated: the last episode** (number `n + c - 1`) is run after the last learning step and never considered. -/
theorem C150_negation_last (n c : Nat) (hn : 0 < n) : considered n c (n + c - 1) = 0 := by
  rw [considered_eq]
  omega

/-- A task whose episodes have one step and are told apart by their observations, which count the resets. -/
def resets : RTask (Nat × Bool) Nat := ⟨fun s => ([s.1], s), fun s _ => (s.1, true), fun s => (1, s), fun s => (s.1 + 1, false), fun s => s.2⟩

/-- The hypotheses are met: a queue of two episodes and three cycles. -/
example : (((Queued.run resets (⟨fun m o => ([o.sum], m), id⟩ : Policy Unit Nat) ⟨fun _ m => m, id⟩ 5 2 3 ⟨(0, true), LAgent.init 1 1 true, (), 0⟩).bind fun r => r.toOption).map fun q =>
    q.1.map fun h => (h.getSequence 0).toOption.getD [] ++ (h.getSequence 1).toOption.getD []) =
    some [[[[1]], [[1]], [[1]], [[2]], [[2]], [[1]]], [[[2]], [[2]], [[1]], [[3]], [[3]], [[1]]], [[[3]], [[3]], [[1]], [[4]], [[4]], [[1]]]] := by
  decide +kernel

end Verif.Props
