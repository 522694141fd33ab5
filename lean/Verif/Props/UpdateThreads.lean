import Verif.Model.UpdateThreads
import Mathlib.Tactic.Common
/-
Properties of the threads that send the state of an environment to its viewers.
-/
namespace Verif.Spec
open Verif.UpdateThreads

/-- Between taking and releasing the lock. -/
def sending : Pc → Bool
  | .listen => true
  | .read => true
  | .send _ => true
  | .release => true
  | _ => false

/-- The states among the packets, in order. -/
def statesOf (ps : List Packet) : List ℕ := ps.filterMap fun p => match p with
  | .state k => some k
  | .reset => none

end Verif.Spec

namespace Verif.UpdateThreads
open Verif.Spec

/-- has the lock -/
def holds (p : Pc) : Bool := sending p || p == .crashed

structure Inv (s : State) : Prop where
  unborn : ∀ i, s.started ≤ i → s.threads i = .ended
  lock : ∀ i, holds (s.threads i) = true ↔ s.lock = some i
  sorted : (statesOf s.packets).Pairwise (· ≤ ·)
  bound : ∀ k ∈ statesOf s.packets, k ≤ s.sensors
  next : ∀ i k, s.threads i = .send k → k ≤ s.sensors ∧ ∀ j ∈ statesOf s.packets, j ≤ k

theorem inv_init (ops : List Op) : Inv (init ops) := ⟨fun _ _ => rfl, by simp [init, holds, sending], by simp [init, statesOf], by simp [init, statesOf], by simp [init]⟩

theorem inv_env (s : State) (h : Inv s) : Inv (envStep s) := by
  unfold envStep
  rcases s.env with _ | ⟨_ | _ | _, is⟩
  · exact h
  · exact ⟨h.unborn, h.lock, h.sorted, fun k hk => Nat.le_succ_of_le (h.bound k hk), fun i k hi => ⟨Nat.le_succ_of_le (h.next i k hi).1, (h.next i k hi).2⟩⟩
  · simp only
    split_ifs
    · refine ⟨fun i hi => ?_, fun i => ?_, h.sorted, h.bound, fun i k hi => ?_⟩
      · simp only at hi ⊢
        rw [Function.update_of_ne (by omega)]
        exact h.unborn i (by omega)
      · simp only
        by_cases e : i = s.started
        · subst e
          rw [Function.update_self, ← h.lock, h.unborn _ (Nat.le_refl _)]
          simp [holds, sending]
        · rw [Function.update_of_ne e]
          exact h.lock i
      · simp only at hi
        by_cases e : i = s.started
        · subst e
          simp at hi
        · rw [Function.update_of_ne e] at hi
          exact h.next i k hi
    · exact ⟨h.unborn, h.lock, h.sorted, h.bound, h.next⟩
  · have e : statesOf (s.packets ++ [.reset]) = statesOf s.packets := by simp [statesOf]
    exact ⟨h.unborn, h.lock, by simpa only [e] using h.sorted, by simpa only [e] using h.bound, by simpa only [e] using h.next⟩

/-- a thread moves on: what has to be shown -/
theorem inv_move (s t : State) (i : ℕ) (p : Pc) (h : Inv s) (hi : i < s.started) (e1 : t.started = s.started) (e2 : t.threads = Function.update s.threads i p) (e3 : t.sensors = s.sensors) (e4 : t.packets = s.packets)
    (hl : (t.lock = s.lock ∧ holds p = holds (s.threads i)) ∨ (s.lock = none ∧ t.lock = some i ∧ holds p = true) ∨ (s.lock = some i ∧ t.lock = none ∧ holds p = false)) (hp : ∀ k, p = .send k → k = s.sensors) : Inv t := by
  refine ⟨fun j hj => ?_, fun j => ?_, by rw [e4]; exact h.sorted, by rw [e3, e4]; exact h.bound, fun j k hj => ?_⟩
  · rw [e1] at hj
    rw [e2, Function.update_of_ne (by omega)]
    exact h.unborn j hj
  · rw [e2]
    by_cases e : j = i
    · subst e
      rw [Function.update_self]
      rcases hl with ⟨l1, l2⟩ | ⟨-, l2, l3⟩ | ⟨-, l2, l3⟩
      · rw [l1, l2, h.lock]
      · simp [l2, l3]
      · simp [l2, l3]
    · rw [Function.update_of_ne e, h.lock]
      rcases hl with ⟨l1, -⟩ | ⟨l1, l2, -⟩ | ⟨l1, l2, -⟩
      · rw [l1]
      · rw [l1, l2]
        simp [Ne.symm e]
      · rw [l1, l2]
        simp [Ne.symm e]
  · rw [e3, e4]
    rw [e2] at hj
    by_cases e : j = i
    · subst e
      rw [Function.update_self] at hj
      rw [hp k hj]
      exact ⟨(Nat.le_refl _), h.bound⟩
    · rw [Function.update_of_ne e] at hj
      exact h.next j k hj

theorem started_of_ne (s : State) (h : Inv s) (i : ℕ) (hi : s.threads i ≠ .ended) : i < s.started := by
  by_contra hc
  exact hi (h.unborn i (by omega))

theorem inv_thread (s : State) (h : Inv s) (i : ℕ) : Inv (threadStep s i) := by
  unfold threadStep
  have hlock := h.lock i
  cases hp : s.threads i with
  | ended => exact h
  | crashed => exact h
  | send k =>
    have hs := started_of_ne s h i (by simp [hp])
    rw [hp] at hlock
    have hl : s.lock = some i := hlock.1 rfl
    have e : statesOf (s.packets ++ [.state k]) = statesOf s.packets ++ [k] := by simp [statesOf]
    obtain ⟨n1, n2⟩ := h.next i k hp
    refine ⟨fun j hj => ?_, fun j => ?_, ?_, ?_, fun j l hj => ?_⟩
    · simp only at hj ⊢
      rw [Function.update_of_ne (by omega)]
      exact h.unborn j hj
    · simp only
      by_cases e : j = i
      · subst e
        simp [holds, sending, hl]
      · rw [Function.update_of_ne e]
        exact h.lock j
    · simp only [e]
      rw [List.pairwise_append]
      exact ⟨h.sorted, by simp, fun a ha b hb => by rw [List.mem_singleton.1 hb]; exact n2 a ha⟩
    · simp only [e]
      intro j hj
      rcases List.mem_append.1 hj with hj | hj
      · exact h.bound j hj
      · rw [List.mem_singleton.1 hj]
        exact n1
    · simp only at hj
      by_cases e : j = i
      · subst e
        simp at hj
      · rw [Function.update_of_ne e] at hj
        have := (h.lock j).1 (by rw [hj]; rfl)
        rw [hl] at this
        exact absurd (Option.some.inj this).symm e
  | start => exact inv_move s _ i _ h (started_of_ne s h i (by simp [hp])) rfl rfl rfl rfl (.inl ⟨rfl, by rw [hp]; rfl⟩) (by simp)
  | tryLock =>
    simp only
    split_ifs with hn
    · exact inv_move s _ i _ h (started_of_ne s h i (by simp [hp])) rfl rfl rfl rfl (.inr (.inl ⟨hn, rfl, rfl⟩)) (by simp)
    · exact inv_move s _ i _ h (started_of_ne s h i (by simp [hp])) rfl rfl rfl rfl (.inl ⟨rfl, by rw [hp]; rfl⟩) (by simp)
  | listen => exact inv_move s _ i _ h (started_of_ne s h i (by simp [hp])) rfl rfl rfl rfl (.inl ⟨rfl, by rw [hp]; rfl⟩) (by simp)
  | read => exact inv_move s _ i _ h (started_of_ne s h i (by simp [hp])) rfl rfl rfl rfl (.inl ⟨rfl, by rw [hp]; rfl⟩) (by simp)
  | release => exact inv_move s _ i _ h (started_of_ne s h i (by simp [hp])) rfl rfl rfl rfl (.inr (.inr ⟨by rw [hp] at hlock; exact hlock.1 rfl, rfl, rfl⟩)) (by simp)
  | setDone => exact inv_move s _ i _ h (started_of_ne s h i (by simp [hp])) rfl rfl rfl rfl (.inl ⟨rfl, by rw [hp]; rfl⟩) (by simp)

theorem inv_crash (s : State) (h : Inv s) (i : ℕ) : Inv (crash s i) := by
  unfold crash
  cases hp : s.threads i with
  | listen => exact inv_move s _ i _ h (started_of_ne s h i (by simp [hp])) rfl rfl rfl rfl (.inl ⟨rfl, by rw [hp]; rfl⟩) (by simp)
  | send k => exact inv_move s _ i _ h (started_of_ne s h i (by simp [hp])) rfl rfl rfl rfl (.inl ⟨rfl, by rw [hp]; rfl⟩) (by simp)
  | _ => exact h

theorem inv_step (s : State) (h : Inv s) (e : Ev) : Inv (step s e) := by
  cases e with
  | env => exact inv_env s h
  | thread i => exact inv_thread s h i
  | crash i => exact inv_crash s h i

theorem run_induct (P : State → Prop) (hstep : ∀ s e, P s → P (step s e)) (schedule : List Ev) (s : State) (h : P s) : P (run s schedule) := by
  induction schedule generalizing s with
  | nil => exact h
  | cons e es ih => exact ih _ (hstep s e h)

theorem inv_run (ops : List Op) (schedule : List Ev) : Inv (run (init ops) schedule) := run_induct Inv (fun s e h => inv_step s h e) schedule _ (inv_init ops)

/-- somebody is going to set `updateDone` -/
def pending (p : Pc) : Bool := sending p || p == .tryLock || p == .setDone

/-- without exceptions -/
structure Calm (s : State) : Prop where
  inv : Inv s
  alive : ∀ i, s.threads i ≠ .crashed
  done : s.updateDone = false → ∃ i, pending (s.threads i) = true

theorem calm_move (s t : State) (i : ℕ) (p : Pc) (h : Calm s) (ht : Inv t) (e1 : t.threads = Function.update s.threads i p) (hp : p ≠ .crashed) (hd : t.updateDone = false → (s.updateDone = false ∧ pending (s.threads i) = false) ∨ ∃ j, pending (t.threads j) = true) : Calm t := by
  refine ⟨ht, fun j => ?_, fun hf => ?_⟩
  · rw [e1]
    by_cases e : j = i
    · subst e
      rw [Function.update_self]
      exact hp
    · rw [Function.update_of_ne e]
      exact h.alive j
  · rcases hd hf with ⟨h1, h2⟩ | h1
    · obtain ⟨j, hj⟩ := h.done h1
      refine ⟨j, ?_⟩
      rw [e1, Function.update_of_ne]
      · exact hj
      · rintro rfl
        rw [h2] at hj
        simp at hj
    · exact h1

theorem calm_step (s : State) (e : Ev) (he : ∀ i, e ≠ .crash i) (h : Calm s) : Calm (step s e) := by
  have ht := inv_step s h.inv e
  cases e with
  | crash i => exact absurd rfl (he i)
  | env =>
    change Calm (envStep s)
    change Inv (envStep s) at ht
    unfold envStep at *
    rcases henv : s.env with _ | ⟨_ | _ | _, is⟩
    · exact h
    · rw [henv] at ht
      exact ⟨ht, h.alive, h.done⟩
    · rw [henv] at ht
      simp only at *
      split_ifs at * with hd
      · exact calm_move s _ s.started .start h ht rfl (by simp) (by simp [hd])
      · exact ⟨ht, h.alive, h.done⟩
    · rw [henv] at ht
      exact ⟨ht, h.alive, h.done⟩
  | thread i =>
    change Calm (threadStep s i)
    change Inv (threadStep s i) at ht
    unfold threadStep at *
    have self : ∀ (p : Pc), pending p = true → ∃ j, pending (Function.update s.threads i p j) = true := fun p hp => ⟨i, by rw [Function.update_self]; exact hp⟩
    cases hp : s.threads i with
    | ended => exact h
    | crashed => exact h
    | start =>
      rw [hp] at ht
      exact calm_move s _ i .tryLock h ht rfl (by simp) (fun _ => .inr (self _ rfl))
    | tryLock =>
      rw [hp] at ht
      simp only at *
      split_ifs at * with hn
      · exact calm_move s _ i .listen h ht rfl (by simp) (fun _ => .inr (self _ rfl))
      · refine calm_move s _ i .ended h ht rfl (by simp) (fun _ => .inr ?_)
        obtain ⟨j, hj⟩ := Option.ne_none_iff_exists'.1 hn
        have h1 := (h.inv.lock j).2 hj
        have h2 : sending (s.threads j) = true := by
          have := h.alive j
          simpa [holds, this] using h1
        refine ⟨j, ?_⟩
        change pending (Function.update s.threads i .ended j) = true
        rw [Function.update_of_ne]
        · simp [pending, h2]
        · rintro rfl
          rw [hp] at h2
          simp [sending] at h2
    | listen =>
      rw [hp] at ht
      exact calm_move s _ i .read h ht rfl (by simp) (fun _ => .inr (self _ rfl))
    | read =>
      rw [hp] at ht
      exact calm_move s _ i (.send s.sensors) h ht rfl (by simp) (fun _ => .inr (self _ rfl))
    | send k =>
      rw [hp] at ht
      exact calm_move s _ i .release h ht rfl (by simp) (fun _ => .inr (self _ rfl))
    | release =>
      rw [hp] at ht
      exact calm_move s _ i .setDone h ht rfl (by simp) (fun _ => .inr (self _ rfl))
    | setDone =>
      rw [hp] at ht
      exact calm_move s _ i .ended h ht rfl (by simp) (by simp)

theorem calm_run (ops : List Op) (schedule : List Ev) (hs : ∀ i, .crash i ∉ schedule) : Calm (run (init ops) schedule) := by
  have key : ∀ (schedule : List Ev) (s : State), (∀ i, .crash i ∉ schedule) → Calm s → Calm (run s schedule) := by
    intro schedule
    induction schedule with
    | nil => exact fun s _ h => h
    | cons e es ih =>
      intro s hs h
      refine ih _ (fun i hi => hs i (List.mem_cons_of_mem _ hi)) (calm_step s e ?_ h)
      rintro i rfl
      exact hs i List.mem_cons_self
  exact key schedule _ hs ⟨inv_init ops, by simp [init], by simp [init]⟩

/-- a thread has crashed -/
def Dead (s : State) : Prop := Inv s ∧ ∃ i, s.threads i = .crashed

theorem dead_step (s : State) (e : Ev) (h : Dead s) : Dead (step s e) ∧ statesOf (step s e).packets = statesOf s.packets := by
  obtain ⟨hi, c, hc⟩ := h
  have hlock : s.lock = some c := (hi.lock c).1 (by rw [hc]; rfl)
  have hstep := inv_step s hi e
  have keep : ∀ (i : ℕ) (p : Pc), s.threads i ≠ .crashed → Function.update s.threads i p c = .crashed := by
    intro i p h
    rw [Function.update_of_ne]
    · exact hc
    · rintro rfl
      exact h hc
  have hno : ∀ i, sending (s.threads i) = false := by
    intro i
    by_contra hs
    rw [Bool.not_eq_false] at hs
    have h1 := (hi.lock i).1 (by simp [holds, hs])
    rw [hlock] at h1
    obtain rfl := Option.some.inj h1
    rw [hc] at hs
    simp [sending] at hs
  refine ⟨⟨hstep, c, ?_⟩, ?_⟩
  · cases e with
    | env =>
      change (envStep s).threads c = _
      unfold envStep
      rcases s.env with _ | ⟨_ | _ | _, is⟩
      · exact hc
      · exact hc
      · simp only
        split_ifs
        · exact keep _ _ (by rw [hi.unborn _ (Nat.le_refl _)]; simp)
        · exact hc
      · exact hc
    | crash i =>
      change (crash s i).threads c = _
      have := hno i
      unfold crash
      cases hp : s.threads i <;> rw [hp] at this <;> simp [sending] at this <;> exact hc
    | thread i =>
      change (threadStep s i).threads c = _
      have := hno i
      unfold threadStep
      cases hp : s.threads i <;> rw [hp] at this <;> simp [sending] at this
      · exact keep i _ (by simp [hp])
      · simp only
        split_ifs
        all_goals exact keep i _ (by simp [hp])
      · exact keep i _ (by simp [hp])
      · exact hc
      · exact hc
  · cases e with
    | env =>
      change statesOf (envStep s).packets = _
      unfold envStep
      rcases s.env with _ | ⟨_ | _ | _, is⟩
      · rfl
      · rfl
      · simp only
        split_ifs <;> rfl
      · simp [statesOf]
    | crash i =>
      change statesOf (crash s i).packets = _
      unfold crash
      cases s.threads i <;> rfl
    | thread i =>
      change statesOf (threadStep s i).packets = _
      have := hno i
      unfold threadStep
      cases hp : s.threads i <;> rw [hp] at this <;> simp [sending] at this <;> simp only
      split_ifs <;> rfl

end Verif.UpdateThreads

namespace Verif.Props
open Verif.Spec Verif.UpdateThreads

/-- For every schedule of any number of threads, also with exceptions: never do two threads send at the same time. -/
theorem C202_exclusive (ops : List Op) (schedule : List Ev) (i j : ℕ) (hi : sending ((run (init ops) schedule).threads i) = true) (hj : sending ((run (init ops) schedule).threads j) = true) : i = j := by
  have h := inv_run ops schedule
  have h1 := (h.lock i).1 (by simp [holds, hi])
  have h2 := (h.lock j).1 (by simp [holds, hj])
  rw [h1] at h2
  exact Option.some.inj h2

/-- For every schedule, the states that were sent are states the environment has had, in their order. -/
theorem C202_order (ops : List Op) (schedule : List Ev) : (statesOf (run (init ops) schedule).packets).Pairwise (· ≤ ·) ∧ ∀ k ∈ statesOf (run (init ops) schedule).packets, k ≤ (run (init ops) schedule).sensors :=
  ⟨(inv_run ops schedule).sorted, (inv_run ops schedule).bound⟩

/-- For every schedule without exceptions: whenever no thread is under way, `updateDone` is set and the lock is free, so that the next action starts an update, and this thread sends the state then reached. -/
theorem C202_shown (ops : List Op) (schedule : List Ev) (hs : ∀ i, .crash i ∉ schedule) (hq : ∀ i, (run (init ops) schedule).threads i = .ended) (rest : List Instr) (he : (run (init ops) schedule).env = .assign :: .test :: rest) :
    let s := run (init ops) schedule
    let t := run s ([.env, .env] ++ List.replicate 7 (.thread s.started))
    t.packets = s.packets ++ [.state (s.sensors + 1)] ∧ t.sensors = s.sensors + 1 ∧ t.updateDone = true ∧ t.lock = none ∧ ∀ i, t.threads i = .ended := by
  intro s t
  obtain ⟨hi, -, hd⟩ := calm_run ops schedule hs
  have hdone : s.updateDone = true := by
    by_contra h
    obtain ⟨i, hp⟩ := hd (by simpa using h)
    rw [hq i] at hp
    simp [pending, sending] at hp
  have hlock : s.lock = none := by
    rcases h : s.lock with _ | i
    · rfl
    · have := (hi.lock i).2 h
      rw [hq i] at this
      simp [holds, sending] at this
  have hthr : s.threads = fun _ => .ended := funext hq
  have ht : t = run s ([.env, .env] ++ List.replicate 7 (.thread s.started)) := rfl
  clear_value t
  change s.env = _ at he
  clear_value s
  obtain ⟨n, u, l, env, th, st, ps⟩ := s
  simp only at hdone hlock hthr he ht
  subst hdone hlock hthr he ht
  simp [run, step, envStep, threadStep, List.replicate, Function.update]

/-- **C202 fails after an exception** in `listen` or `send`: the lock is never released, and no state is sent any more, whatever is done. -/
theorem C202_negation_exception (ops : List Op) (schedule after : List Ev) (i : ℕ) (hc : (run (init ops) schedule).threads i = .crashed) :
    statesOf (run (init ops) (schedule ++ after)).packets = statesOf (run (init ops) schedule).packets := by
  have e : run (init ops) (schedule ++ after) = run (run (init ops) schedule) after := List.foldl_append
  rw [e]
  exact (run_induct (fun s => Dead s ∧ statesOf s.packets = statesOf (run (init ops) schedule).packets) (fun s e h => ⟨(dead_step s e h.1).1, (dead_step s e h.1).2.trans h.2⟩) after _
    ⟨⟨inv_run ops schedule, i, hc⟩, rfl⟩).2

example : (run (init [.action, .action]) [.env, .env, .thread 0, .thread 0, .crash 0]).threads 0 = .crashed := by decide

/-- **C202 fails for `reset`**, which sends its signal without the lock: the state before the reset may be sent after the signal. -/
theorem C202_negation_stale : ∃ schedule, (∀ i, .crash i ∉ schedule) ∧ (run (init [.action, .reset]) schedule).packets = [.reset, .state 1] ∧ (run (init [.action, .reset]) schedule).sensors = 2 :=
  ⟨[.env, .env, .thread 0, .thread 0, .thread 0, .thread 0, .env, .env, .thread 0], by simp, by decide, by decide⟩

/-- The hypotheses are met: two threads, of which the second one ends at once, and then another action. -/
example : let s := run (init [.action, .action, .action]) ([.env, .env, .env, .env, .thread 0, .thread 0, .thread 1, .thread 1] ++ List.replicate 5 (.thread 0))
    s.started = 2 ∧ s.env = [.assign, .test] ∧ s.threads 0 = .ended ∧ s.threads 1 = .ended ∧ s.packets = [.state 2] := by decide

/-- two threads that want to send -/
example : let s := run (init [.action, .action]) [.env, .env, .env, .env, .thread 0, .thread 1, .thread 0]
    s.threads 0 = .listen ∧ s.threads 1 = .tryLock := by decide

end Verif.Props
