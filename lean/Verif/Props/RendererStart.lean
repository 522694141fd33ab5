import Verif.Model.RendererStart
import Mathlib.Tactic.Common
/-
Properties of starting a renderer.
-/
namespace Verif.RendererStart

theorem step_induct (P : State → Prop) (schedule : List Ev) (hstep : ∀ s, ∀ e ∈ schedule, P s → P (step s e)) (s : State) (h : P s) : P (run s schedule) := by
  induction schedule generalizing s with
  | nil => exact h
  | cons e es ih => exact ih (fun s e he => hstep s e (List.mem_cons_of_mem _ he)) _ (hstep s e List.mem_cons_self h)

/-- counted once -/
def Once (s : State) : Prop := (s.renders = if s.started then 1 else 0) ∧ (s.alive = true → s.started = true)

theorem once_step (s : State) (e : Ev) (h : Once s) : Once (step s e) := by
  obtain ⟨h1, h2⟩ := h
  cases e with
  | call i =>
    simp only [step]
    split <;> exact ⟨h1, h2⟩
  | finish => exact ⟨h1, by simp [step]⟩
  | step i =>
    simp only [step]
    split
    · exact ⟨h1, h2⟩
    · split_ifs <;> exact ⟨h1, h2⟩
    · split_ifs with hs
      · exact ⟨h1, h2⟩
      · simp only [hs] at h1
        exact ⟨by simp [h1], by simp⟩
    · exact ⟨h1, h2⟩

theorem once_run (schedule : List Ev) : Once (run init schedule) := step_induct Once schedule (fun s e _ h => once_step s e h) init ⟨rfl, by simp [init]⟩

/-- one caller, and the renderer has not finished -/
structure Single (c : ℕ) (s : State) : Prop where
  eq : s.alive = s.started
  others : ∀ i, i ≠ c → s.callers i = .outside
  notRaised : s.callers c ≠ .raised
  first : s.callers c = .start → s.started = false

theorem single_step (c : ℕ) (s : State) (e : Ev) (he : e = .call c ∨ e = .step c) (h : Single c s) : Single c (step s e) := by
  have others : ∀ p i, i ≠ c → Function.update s.callers c p i = .outside := fun p i hi => by rw [Function.update_of_ne hi]; exact h.others i hi
  rcases he with rfl | rfl
  · simp only [step]
    split
    · exact ⟨h.eq, others _, by simp, by simp⟩
    · exact h
  · simp only [step]
    split
    · exact h
    · split_ifs with ha
      · exact ⟨h.eq, others _, by simp, by simp⟩
      · refine ⟨h.eq, others _, by simp, fun _ => ?_⟩
        rw [← h.eq]
        simpa using ha
    · rename_i hp
      rw [h.first hp]
      exact ⟨rfl, others _, by simp, by simp⟩
    · exact h

end Verif.RendererStart

namespace Verif.Props
open Verif.RendererStart

/-- For every schedule of any number of callers: the renderer is run at most once, and once if it is alive. -/
theorem C203_once (schedule : List Ev) : (run init schedule).renders ≤ 1 ∧ ((run init schedule).alive = true → (run init schedule).renders = 1) := by
  obtain ⟨h1, h2⟩ := once_run schedule
  refine ⟨?_, fun h => ?_⟩
  · rw [h1]
    split_ifs <;> omega
  · rw [h1, h2 h]
    rfl

/-- As long as one thread only calls `start` and the renderer has not finished, there is no exception, and after each call the renderer is running, having been started once. -/
theorem C203_single_partial (c : ℕ) (schedule : List Ev) (hs : ∀ e ∈ schedule, e = .call c ∨ e = .step c) :
    (∀ i, (run init schedule).callers i ≠ .raised) ∧
    ((run init schedule).callers c = .outside → let t := run init (schedule ++ [.call c, .step c, .step c]); t.alive = true ∧ t.renders = 1 ∧ t.callers c = .outside) := by
  have h : Single c (run init schedule) := step_induct (Single c) schedule (fun s e he h => single_step c s e (hs e he) h) init ⟨rfl, fun _ _ => rfl, by simp [init], by simp [init]⟩
  refine ⟨fun i => ?_, fun hc => ?_⟩
  · by_cases e : i = c
    · subst e
      exact h.notRaised
    · rw [h.others i e]
      simp
  · have e : run init (schedule ++ [.call c, .step c, .step c]) = run (run init schedule) [.call c, .step c, .step c] := List.foldl_append
    rw [e]
    have h1 := (once_run schedule).1
    have h2 := h.eq
    generalize run init schedule = s at *
    obtain ⟨st, al, r, cs⟩ := s
    simp only at h1 h2 hc
    subst h2
    cases al <;> simp_all [run, step, Function.update_self]

/-- **C203 fails for a renderer that has finished**: whoever calls `start` then gets an exception, although `start` asks whether the thread runs; the renderer does not run again. -/
theorem C203_negation_finished (schedule : List Ev) (c : ℕ) (hc : (run init schedule).callers c = .outside) (hr : (run init schedule).renders = 1) (ha : (run init schedule).alive = false) :
    let t := run init (schedule ++ [.call c, .step c, .step c]); t.callers c = .raised ∧ t.alive = false ∧ t.renders = 1 := by
  intro t
  have e : t = run (run init schedule) [.call c, .step c, .step c] := List.foldl_append
  have h1 := (once_run schedule).1
  rw [e]
  clear_value t
  generalize run init schedule = s at *
  obtain ⟨st, al, r, cs⟩ := s
  simp only at h1 hc hr ha
  subst ha
  cases st <;> simp_all [run, step, Function.update_self]

/-- **C203 fails for two threads** that call `start` at the same time: both find that the renderer does not run, and the second one gets an exception. -/
theorem C203_negation_race (a b : ℕ) (hab : a ≠ b) : (run init [.call a, .call b, .step a, .step b, .step a, .step b]).callers b = .raised ∧ (run init [.call a, .call b, .step a, .step b, .step a, .step b]).alive = true := by
  simp [run, step, init, Function.update, hab, hab.symm]

/-- The hypotheses are met: two calls, of which the second one does nothing. -/
example : let s := run init [.call 3, .step 3, .step 3, .call 3, .step 3]
    s.callers 3 = .outside ∧ s.alive = true ∧ s.renders = 1 ∧ (step s .finish).alive = false ∧ (step s .finish).renders = 1 := by decide

end Verif.Props
