import Verif.Props.OdeUpdates
/-
When the viewers of an ODE world get messages.
-/
namespace Verif.OdeUpdates

/-- somebody is going to set `updateDone` -/
def pending (p : Pc) : Bool := (carried p).isSome || p == .release || p == .tryLock || p == .setDone

/-- without exceptions -/
structure Calm (n : ℕ) (s : State) : Prop where
  inv : Inv n s
  alive : ∀ i, s.threads i ≠ .crashed
  done : s.updateDone = false → ∃ i, pending (s.threads i) = true

theorem calm_move (n : ℕ) (s t : State) (i : ℕ) (p : Pc) (h : Calm n s) (ht : Inv n t) (e1 : t.threads = Function.update s.threads i p) (hp : p ≠ .crashed) (hd : t.updateDone = false → (s.updateDone = false ∧ pending (s.threads i) = false) ∨ ∃ j, pending (t.threads j) = true) : Calm n t := by
  refine ⟨ht, fun j => ?_, fun hf => ?_⟩
  · rw [e1]
    by_cases e : j = i
    · subst e
      rw [Function.update_self]
      exact hp
    · rw [Function.update_of_ne e]
      exact h.alive j
  · rcases hd hf with ⟨h1, h2⟩ | h1
    · obtain ⟨j, hj⟩ := h.done h1
      refine ⟨j, ?_⟩
      rw [e1, Function.update_of_ne]
      · exact hj
      · rintro rfl
        rw [h2] at hj
        simp at hj
    · exact h1

theorem calm_step (n : ℕ) (s : State) (e : Ev) (he : ∀ i, e ≠ .crash i) (h : Calm n s) : Calm n (step n s e) := by
  have ht := inv_step n s h.inv e
  cases e with
  | crash i => exact absurd rfl (he i)
  | env =>
    change Calm n (envStep s)
    change Inv n (envStep s) at ht
    unfold envStep at *
    rcases henv : s.env with _ | ⟨_ | _, is⟩
    · exact h
    · rw [henv] at ht
      exact ⟨ht, h.alive, h.done⟩
    · rw [henv] at ht
      simp only at *
      split_ifs at * with hd
      · exact calm_move n s _ s.started .start h ht rfl (by simp) (by simp [hd])
      · exact ⟨ht, h.alive, h.done⟩
  | thread i =>
    change Calm n (threadStep n s i)
    change Inv n (threadStep n s i) at ht
    unfold threadStep at *
    have self : ∀ (p : Pc), pending p = true → ∃ j, pending (Function.update s.threads i p j) = true := fun p hp => ⟨i, by rw [Function.update_self]; exact hp⟩
    cases hp : s.threads i with
    | ended => exact h
    | crashed => exact h
    | start =>
      rw [hp] at ht
      exact calm_move n s _ i .tryLock h ht rfl (by simp) (fun _ => .inr (self _ rfl))
    | tryLock =>
      rw [hp] at ht
      simp only at *
      split_ifs at * with hn
      · exact calm_move n s _ i (.build []) h ht rfl (by simp) (fun _ => .inr (self _ rfl))
      · refine calm_move n s _ i .ended h ht rfl (by simp) (fun _ => .inr ?_)
        obtain ⟨j, hj⟩ := Option.ne_none_iff_exists'.1 hn
        have h1 := (h.inv.lock j).2 hj
        have h2 : ((carried (s.threads j)).isSome || s.threads j == .release) = true := by
          have := h.alive j
          simpa [holds, this] using h1
        refine ⟨j, ?_⟩
        change pending (Function.update s.threads i .ended j) = true
        rw [Function.update_of_ne]
        · simp [pending, h2]
        · rintro rfl
          rw [hp] at h2
          simp [carried] at h2
    | build l =>
      rw [hp] at ht
      simp only at *
      split_ifs at * with hn
      · exact calm_move n s _ i (.build (l ++ [s.world])) h ht rfl (by simp) (fun _ => .inr (self _ rfl))
      · exact calm_move n s _ i (.listen l) h ht rfl (by simp) (fun _ => .inr (self _ rfl))
    | listen l =>
      rw [hp] at ht
      exact calm_move n s _ i (.send l) h ht rfl (by simp) (fun _ => .inr (self _ rfl))
    | send l =>
      rw [hp] at ht
      exact calm_move n s _ i .release h ht rfl (by simp) (fun _ => .inr (self _ rfl))
    | release =>
      rw [hp] at ht
      exact calm_move n s _ i .setDone h ht rfl (by simp) (fun _ => .inr (self _ rfl))
    | setDone =>
      rw [hp] at ht
      exact calm_move n s _ i .ended h ht rfl (by simp) (by simp)

theorem calm_run (n k : ℕ) (schedule : List Ev) (hs : ∀ i, .crash i ∉ schedule) : Calm n (run n (init k) schedule) := by
  have key : ∀ (schedule : List Ev) (s : State), (∀ i, .crash i ∉ schedule) → Calm n s → Calm n (run n s schedule) := by
    intro schedule
    induction schedule with
    | nil => exact fun s _ h => h
    | cons e es ih =>
      intro s hs h
      refine ih _ (fun i hi => hs i (List.mem_cons_of_mem _ hi)) (calm_step n s e ?_ h)
      rintro i rfl
      exact hs i List.mem_cons_self
  exact key schedule _ hs ⟨inv_init n k, by simp [init], by simp [init]⟩

/-- a thread has crashed -/
def Dead (n : ℕ) (s : State) : Prop := Inv n s ∧ ∃ i, s.threads i = .crashed

theorem dead_step (n : ℕ) (s : State) (e : Ev) (h : Dead n s) : Dead n (step n s e) ∧ (step n s e).sent = s.sent := by
  obtain ⟨hi, c, hc⟩ := h
  have hlock : s.lock = some c := (hi.lock c).1 (by rw [hc]; rfl)
  have hstep := inv_step n s hi e
  have keep : ∀ (i : ℕ) (p : Pc), s.threads i ≠ .crashed → Function.update s.threads i p c = .crashed := by
    intro i p h
    rw [Function.update_of_ne]
    · exact hc
    · rintro rfl
      exact h hc
  have hno : ∀ i, carried (s.threads i) = none := by
    intro i
    by_contra hs
    have h1 := (hi.lock i).1 (by
      have := Option.isSome_iff_ne_none.2 hs
      simp [holds, this])
    rw [hlock] at h1
    obtain rfl := Option.some.inj h1
    rw [hc] at hs
    simp [carried] at hs
  refine ⟨⟨hstep, c, ?_⟩, ?_⟩
  · cases e with
    | env =>
      change (envStep s).threads c = _
      unfold envStep
      rcases s.env with _ | ⟨_ | _, is⟩
      · exact hc
      · exact hc
      · simp only
        split_ifs
        · exact keep _ _ (by rw [hi.unborn _ (Nat.le_refl _)]; simp)
        · exact hc
    | crash i =>
      change (crash s i).threads c = _
      have := hno i
      unfold crash
      cases hp : s.threads i <;> rw [hp] at this <;> simp [carried] at this <;> exact hc
    | thread i =>
      change (threadStep n s i).threads c = _
      have := hno i
      unfold threadStep
      cases hp : s.threads i <;> rw [hp] at this <;> simp [carried] at this
      · exact keep i _ (by simp [hp])
      · simp only
        split_ifs
        all_goals exact keep i _ (by simp [hp])
      · exact keep i _ (by simp [hp])
      · exact keep i _ (by simp [hp])
      · exact hc
      · exact hc
  · cases e with
    | env =>
      change (envStep s).sent = _
      unfold envStep
      rcases s.env with _ | ⟨_ | _, is⟩
      · rfl
      · rfl
      · simp only
        split_ifs <;> rfl
    | crash i =>
      change (crash s i).sent = _
      unfold crash
      cases s.threads i <;> rfl
    | thread i =>
      change (threadStep n s i).sent = _
      have := hno i
      unfold threadStep
      cases hp : s.threads i <;> rw [hp] at this <;> simp [carried] at this <;> simp only
      split_ifs <;> rfl

end Verif.OdeUpdates

namespace Verif.Props
open Verif.OdeUpdates

/-- For every schedule without exceptions: whenever no thread is under way, the next step of the environment starts one, and this thread sends the state of the world then reached and leaves everything ready for the next one. -/
theorem C204_shown (n k : ℕ) (schedule : List Ev) (hs : ∀ i, .crash i ∉ schedule) (hq : ∀ i, (run n (init k) schedule).threads i = .ended) (rest : List Instr) (he : (run n (init k) schedule).env = .step :: .test :: rest) :
    let s := run n (init k) schedule
    let t := run n s ([.env, .env] ++ List.replicate (n + 7) (.thread s.started))
    t.sent = s.sent ++ [List.replicate n (s.world + 1)] ∧ t.world = s.world + 1 ∧ t.updateDone = true ∧ t.lock = none ∧ ∀ i, t.threads i = .ended := by
  intro s t
  obtain ⟨hi, -, hd⟩ := calm_run n k schedule hs
  have hdone : s.updateDone = true := by
    by_contra h
    obtain ⟨i, hp⟩ := hd (by simpa using h)
    rw [hq i] at hp
    simp [pending, carried] at hp
  have hlock : s.lock = none := by
    rcases h : s.lock with _ | i
    · rfl
    · have := (hi.lock i).2 h
      rw [hq i] at this
      simp [holds, carried] at this
  have hthr : s.threads = fun _ => .ended := funext hq
  have ht : t = run n s ([.env, .env] ++ List.replicate (n + 7) (.thread s.started)) := rfl
  clear_value t
  change s.env = _ at he
  clear_value s
  obtain ⟨w, u, l, env, th, st, ps⟩ := s
  simp only at hdone hlock hthr he ht
  subst hdone hlock hthr he
  have e : n + 7 = 2 + (n + 5) := by omega
  rw [e, ← List.replicate_append_replicate, ← List.replicate_append_replicate, ← List.append_assoc, run_append, run_append] at ht
  have h1 : (run n ⟨w, true, none, .step :: .test :: rest, fun _ => .ended, st, ps⟩ ([.env, .env] ++ List.replicate 2 (.thread st))) =
      ⟨w + 1, false, some st, rest, Function.update (fun _ => .ended) st (.build []), st + 1, ps⟩ := by
    simp [run, step, envStep, threadStep, List.replicate]
  rw [h1, run_build n st n _ [] (by simp) (by simp)] at ht
  subst ht
  simp [run, step, threadStep, List.replicate, Function.update]

/-- **C204 fails after an exception** in `listen` or `send`: the lock stays locked, and whatever happens, no message is sent any more. -/
theorem C204_negation_exception (n k : ℕ) (schedule after : List Ev) (i : ℕ) (hc : (run n (init k) schedule).threads i = .crashed) : (run n (init k) (schedule ++ after)).sent = (run n (init k) schedule).sent := by
  rw [run_append]
  have key : ∀ (after : List Ev) (s : State), Dead n s → (run n s after).sent = s.sent := by
    intro after
    induction after with
    | nil => exact fun s _ => rfl
    | cons e es ih => exact fun s h => (ih _ (dead_step n s e h).1).trans (dead_step n s e h).2
  exact key after _ ⟨inv_run n k schedule, i, hc⟩

/-- The hypotheses are met: two threads, of which the second one ends at once, and then another step. -/
example : let s := run 2 (init 3) ([.env, .env, .env, .env, .thread 0, .thread 0, .thread 1, .thread 1] ++ List.replicate 7 (.thread 0))
    s.started = 2 ∧ s.env = [.step, .test] ∧ s.threads 0 = .ended ∧ s.threads 1 = .ended ∧ s.sent = [[2, 2]] := by decide

example : (run 1 (init 2) [.env, .env, .thread 0, .thread 0, .thread 0, .thread 0, .crash 0]).threads 0 = .crashed := by decide

end Verif.Props
