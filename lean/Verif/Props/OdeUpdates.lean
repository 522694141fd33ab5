import Verif.Model.OdeUpdates
import Mathlib.Tactic.Common
/-
Properties of the messages to the viewers of an ODE world.
-/
namespace Verif.OdeUpdates

/-- the values a thread carries -/
def carried : Pc → Option (List ℕ)
  | .build l => some l
  | .listen l => some l
  | .send l => some l
  | _ => none

/-- has the lock -/
def holds (p : Pc) : Bool := (carried p).isSome || p == .release || p == .crashed

/-- the message is complete -/
def complete (n : ℕ) : Pc → Prop
  | .build l => l.length ≤ n
  | .listen l => l.length = n
  | .send l => l.length = n
  | _ => True

structure Inv (n : ℕ) (s : State) : Prop where
  unborn : ∀ i, s.started ≤ i → s.threads i = .ended
  lock : ∀ i, holds (s.threads i) = true ↔ s.lock = some i
  sorted : s.sent.flatten.Pairwise (· ≤ ·)
  bound : ∀ k ∈ s.sent.flatten, k ≤ s.world
  len : ∀ m ∈ s.sent, m.length = n
  next : ∀ i l, carried (s.threads i) = some l → (s.sent.flatten ++ l).Pairwise (· ≤ ·) ∧ ∀ k ∈ l, k ≤ s.world
  full : ∀ i, complete n (s.threads i)

theorem inv_init (n k : ℕ) : Inv n (init k) := ⟨fun _ _ => rfl, by simp [init, holds, carried], by simp [init], by simp [init], by simp [init], by simp [init, carried], by simp [init, complete]⟩

theorem inv_env (n : ℕ) (s : State) (h : Inv n s) : Inv n (envStep s) := by
  unfold envStep
  rcases s.env with _ | ⟨_ | _, is⟩
  · exact h
  · exact ⟨h.unborn, h.lock, h.sorted, fun k hk => Nat.le_succ_of_le (h.bound k hk), h.len, fun i l hi => ⟨(h.next i l hi).1, fun k hk => Nat.le_succ_of_le ((h.next i l hi).2 k hk)⟩, h.full⟩
  · simp only
    split_ifs
    · refine ⟨fun i hi => ?_, fun i => ?_, h.sorted, h.bound, h.len, fun i l hi => ?_, fun i => ?_⟩
      · simp only at hi ⊢
        rw [Function.update_of_ne (by omega)]
        exact h.unborn i (by omega)
      · simp only
        by_cases e : i = s.started
        · subst e
          rw [Function.update_self, ← h.lock, h.unborn _ (Nat.le_refl _)]
          simp [holds, carried]
        · rw [Function.update_of_ne e]
          exact h.lock i
      · simp only at hi
        by_cases e : i = s.started
        · subst e
          simp [carried] at hi
        · rw [Function.update_of_ne e] at hi
          exact h.next i l hi
      · simp only
        by_cases e : i = s.started
        · subst e
          simp [complete]
        · rw [Function.update_of_ne e]
          exact h.full i
    · exact ⟨h.unborn, h.lock, h.sorted, h.bound, h.len, h.next, h.full⟩

/-- a thread moves on: what has to be shown -/
theorem inv_move (n : ℕ) (s t : State) (i : ℕ) (p : Pc) (h : Inv n s) (hi : s.threads i ≠ .ended) (e1 : t.started = s.started) (e2 : t.threads = Function.update s.threads i p) (e3 : t.world = s.world) (e4 : t.sent = s.sent)
    (hl : (t.lock = s.lock ∧ holds p = holds (s.threads i)) ∨ (s.lock = none ∧ t.lock = some i ∧ holds p = true) ∨ (s.lock = some i ∧ t.lock = none ∧ holds p = false))
    (hp : ∀ l, carried p = some l → (s.sent.flatten ++ l).Pairwise (· ≤ ·) ∧ ∀ k ∈ l, k ≤ s.world) (hf : complete n p) : Inv n t := by
  have his : i < s.started := by
    by_contra hc
    exact hi (h.unborn i (by omega))
  refine ⟨fun j hj => ?_, fun j => ?_, by rw [e4]; exact h.sorted, by rw [e3, e4]; exact h.bound, by rw [e4]; exact h.len, fun j l hj => ?_, fun j => ?_⟩
  · rw [e1] at hj
    rw [e2, Function.update_of_ne (by omega)]
    exact h.unborn j hj
  · rw [e2]
    by_cases e : j = i
    · subst e
      rw [Function.update_self]
      rcases hl with ⟨l1, l2⟩ | ⟨-, l2, l3⟩ | ⟨-, l2, l3⟩
      · rw [l1, l2, h.lock]
      · simp [l2, l3]
      · simp [l2, l3]
    · rw [Function.update_of_ne e, h.lock]
      rcases hl with ⟨l1, -⟩ | ⟨l1, l2, -⟩ | ⟨l1, l2, -⟩
      · rw [l1]
      · rw [l1, l2]
        simp [Ne.symm e]
      · rw [l1, l2]
        simp [Ne.symm e]
  · rw [e3, e4]
    rw [e2] at hj
    by_cases e : j = i
    · subst e
      rw [Function.update_self] at hj
      exact hp l hj
    · rw [Function.update_of_ne e] at hj
      exact h.next j l hj
  · rw [e2]
    by_cases e : j = i
    · subst e
      rw [Function.update_self]
      exact hf
    · rw [Function.update_of_ne e]
      exact h.full j

theorem inv_thread (n : ℕ) (s : State) (h : Inv n s) (i : ℕ) : Inv n (threadStep n s i) := by
  unfold threadStep
  have hlock := h.lock i
  have hnext := h.next i
  have hfull := h.full i
  cases hp : s.threads i with
  | ended => exact h
  | crashed => exact h
  | start => exact inv_move n s _ i _ h (by simp [hp]) rfl rfl rfl rfl (.inl ⟨rfl, by rw [hp]; rfl⟩) (by simp [carried]) (by simp [complete])
  | tryLock =>
    simp only
    split_ifs with hn
    · exact inv_move n s _ i _ h (by simp [hp]) rfl rfl rfl rfl (.inr (.inl ⟨hn, rfl, rfl⟩)) (by simpa [carried] using h.sorted) (by simp [complete])
    · exact inv_move n s _ i _ h (by simp [hp]) rfl rfl rfl rfl (.inl ⟨rfl, by rw [hp]; rfl⟩) (by simp [carried]) (by simp [complete])
  | build l =>
    rw [hp] at hnext hfull
    obtain ⟨n1, n2⟩ := hnext l rfl
    simp only
    split_ifs with hn
    · refine inv_move n s _ i _ h (by simp [hp]) rfl rfl rfl rfl (.inl ⟨rfl, by rw [hp]; rfl⟩) ?_ (by simp [complete]; omega)
      rintro l' hl'
      injection hl' with hl'
      subst hl'
      refine ⟨?_, fun k hk => ?_⟩
      · rw [← List.append_assoc, List.pairwise_append]
        refine ⟨n1, by simp, fun a ha b hb => ?_⟩
        rw [List.mem_singleton.1 hb]
        rcases List.mem_append.1 ha with ha | ha
        · exact h.bound a ha
        · exact n2 a ha
      · rcases List.mem_append.1 hk with hk | hk
        · exact n2 k hk
        · exact Nat.le_of_eq (List.mem_singleton.1 hk)
    · exact inv_move n s _ i _ h (by simp [hp]) rfl rfl rfl rfl (.inl ⟨rfl, by rw [hp]; rfl⟩) (fun l' hl' => hnext l' hl') (by simp [complete] at hfull ⊢; omega)
  | listen l =>
    rw [hp] at hnext hfull
    exact inv_move n s _ i _ h (by simp [hp]) rfl rfl rfl rfl (.inl ⟨rfl, by rw [hp]; rfl⟩) (fun l' hl' => hnext l' hl') hfull
  | release => exact inv_move n s _ i _ h (by simp [hp]) rfl rfl rfl rfl (.inr (.inr ⟨by rw [hp] at hlock; exact hlock.1 rfl, rfl, rfl⟩)) (by simp [carried]) (by simp [complete])
  | setDone => exact inv_move n s _ i _ h (by simp [hp]) rfl rfl rfl rfl (.inl ⟨rfl, by rw [hp]; rfl⟩) (by simp [carried]) (by simp [complete])
  | send l =>
    rw [hp] at hnext hfull hlock
    have hl : s.lock = some i := hlock.1 rfl
    obtain ⟨n1, n2⟩ := hnext l rfl
    have his : i < s.started := by
      by_contra hc
      rw [h.unborn i (by omega)] at hp
      simp at hp
    have e : (s.sent ++ [l]).flatten = s.sent.flatten ++ l := by simp
    refine ⟨fun j hj => ?_, fun j => ?_, ?_, ?_, ?_, fun j l' hj => ?_, fun j => ?_⟩
    · simp only at hj ⊢
      rw [Function.update_of_ne (by omega)]
      exact h.unborn j hj
    · simp only
      by_cases e : j = i
      · subst e
        simp [holds, hl]
      · rw [Function.update_of_ne e]
        exact h.lock j
    · simp only [e]
      exact n1
    · simp only [e]
      intro k hk
      rcases List.mem_append.1 hk with hk | hk
      · exact h.bound k hk
      · exact n2 k hk
    · intro m hm
      rcases List.mem_append.1 hm with hm | hm
      · exact h.len m hm
      · rw [List.mem_singleton.1 hm]
        exact hfull
    · simp only at hj
      by_cases e : j = i
      · subst e
        simp [carried] at hj
      · rw [Function.update_of_ne e] at hj
        have := (h.lock j).1 (by simp [holds, hj])
        rw [hl] at this
        exact absurd (Option.some.inj this).symm e
    · simp only
      by_cases e : j = i
      · subst e
        simp [complete]
      · rw [Function.update_of_ne e]
        exact h.full j

theorem inv_crash (n : ℕ) (s : State) (h : Inv n s) (i : ℕ) : Inv n (crash s i) := by
  unfold crash
  cases hp : s.threads i with
  | listen l => exact inv_move n s _ i _ h (by simp [hp]) rfl rfl rfl rfl (.inl ⟨rfl, by rw [hp]; rfl⟩) (by simp [carried]) (by simp [complete])
  | send l => exact inv_move n s _ i _ h (by simp [hp]) rfl rfl rfl rfl (.inl ⟨rfl, by rw [hp]; rfl⟩) (by simp [carried]) (by simp [complete])
  | _ => exact h

theorem inv_step (n : ℕ) (s : State) (h : Inv n s) (e : Ev) : Inv n (step n s e) := by
  cases e with
  | env => exact inv_env n s h
  | thread i => exact inv_thread n s h i
  | crash i => exact inv_crash n s h i

theorem inv_run (n k : ℕ) (schedule : List Ev) : Inv n (run n (init k) schedule) := by
  have key : ∀ (schedule : List Ev) (s : State), Inv n s → Inv n (run n s schedule) := by
    intro schedule
    induction schedule with
    | nil => exact fun s h => h
    | cons e es ih => exact fun s h => ih _ (inv_step n s h e)
  exact key schedule _ (inv_init n k)

/-- a thread reads the rest of its message without interruption -/
theorem run_build (n i : ℕ) (r : ℕ) (s : State) (l : List ℕ) (hp : s.threads i = .build l) (hl : l.length + r ≤ n) :
    run n s (List.replicate r (.thread i)) = { s with threads := Function.update s.threads i (.build (l ++ List.replicate r s.world)) } := by
  induction r generalizing s l with
  | zero =>
    have : Function.update s.threads i (.build l) = s.threads := by rw [← hp, Function.update_eq_self]
    simp [run, this]
  | succ r ih =>
    have e : step n s (.thread i) = { s with threads := Function.update s.threads i (.build (l ++ [s.world])) } := by
      simp only [step, threadStep, hp]
      rw [if_pos (by omega)]
    change run n (step n s (.thread i)) (List.replicate r (.thread i)) = _
    rw [e, ih _ (l ++ [s.world]) (by simp) (by simp; omega)]
    simp [List.replicate_succ]

/-- the world makes no steps: after the messages `old`, all show `w` -/
structure Still (n w : ℕ) (old : List (List ℕ)) (s : State) : Prop where
  inv : Inv n s
  world : s.world = w
  carry : ∀ i l, carried (s.threads i) = some l → ∀ k ∈ l, k = w
  new : ∃ new, s.sent = old ++ new ∧ ∀ m ∈ new, m = List.replicate n w

theorem still_move (n w : ℕ) (old : List (List ℕ)) (s t : State) (i : ℕ) (p : Pc) (h : Still n w old s) (ht : Inv n t) (e1 : t.threads = Function.update s.threads i p) (e2 : t.world = s.world) (hp : ∀ l, carried p = some l → ∀ k ∈ l, k = w)
    (hn : t.sent = s.sent ∨ t.sent = s.sent ++ [List.replicate n w]) : Still n w old t := by
  obtain ⟨new, h1, h2⟩ := h.new
  refine ⟨ht, e2.trans h.world, fun j l hj => ?_, ?_⟩
  · rw [e1] at hj
    by_cases e : j = i
    · subst e
      rw [Function.update_self] at hj
      exact hp l hj
    · rw [Function.update_of_ne e] at hj
      exact h.carry j l hj
  · rcases hn with hn | hn
    · exact ⟨new, hn.trans h1, h2⟩
    · refine ⟨new ++ [List.replicate n w], by rw [hn, h1, List.append_assoc], fun m hm => ?_⟩
      rcases List.mem_append.1 hm with hm | hm
      · exact h2 m hm
      · exact List.mem_singleton.1 hm

theorem still_step (n w : ℕ) (old : List (List ℕ)) (s : State) (e : Ev) (he : e ≠ .env) (h : Still n w old s) : Still n w old (step n s e) := by
  have ht := inv_step n s h.inv e
  cases e with
  | env => exact absurd rfl he
  | crash i =>
    change Still n w old (crash s i)
    change Inv n (crash s i) at ht
    unfold crash at *
    cases hp : s.threads i with
    | listen l => rw [hp] at ht; exact still_move n w old s _ i .crashed h ht rfl rfl (by simp [carried]) (.inl rfl)
    | send l => rw [hp] at ht; exact still_move n w old s _ i .crashed h ht rfl rfl (by simp [carried]) (.inl rfl)
    | _ => exact h
  | thread i =>
    change Still n w old (threadStep n s i)
    change Inv n (threadStep n s i) at ht
    have hc := h.carry i
    have hfull := h.inv.full i
    unfold threadStep at *
    cases hp : s.threads i with
    | ended => exact h
    | crashed => exact h
    | start => rw [hp] at ht; exact still_move n w old s _ i _ h ht rfl rfl (by simp [carried]) (.inl rfl)
    | release => rw [hp] at ht; exact still_move n w old s _ i _ h ht rfl rfl (by simp [carried]) (.inl rfl)
    | setDone => rw [hp] at ht; exact still_move n w old s _ i _ h ht rfl rfl (by simp [carried]) (.inl rfl)
    | tryLock =>
      rw [hp] at ht
      simp only at *
      split_ifs at * with hn
      · exact still_move n w old s _ i (.build []) h ht rfl rfl (by simp [carried]) (.inl rfl)
      · exact still_move n w old s _ i .ended h ht rfl rfl (by simp [carried]) (.inl rfl)
    | listen l =>
      rw [hp] at ht hc
      exact still_move n w old s _ i (.send l) h ht rfl rfl (fun l' hl' => hc l' hl') (.inl rfl)
    | build l =>
      rw [hp] at ht hc
      simp only at *
      split_ifs at * with hn
      · refine still_move n w old s _ i (.build (l ++ [s.world])) h ht rfl rfl (fun l' hl' k hk => ?_) (.inl rfl)
        injection hl' with hl'
        rw [← hl', List.mem_append] at hk
        rcases hk with hk | hk
        · exact hc l rfl k hk
        · exact (List.mem_singleton.1 hk).trans h.world
      · exact still_move n w old s _ i (.listen l) h ht rfl rfl (fun l' hl' => hc l' hl') (.inl rfl)
    | send l =>
      rw [hp] at ht hc hfull
      refine still_move n w old s _ i .release h ht rfl rfl (by simp [carried]) (.inr ?_)
      have : l = List.replicate n w := List.eq_replicate_iff.2 ⟨hfull, hc l rfl⟩
      rw [this]

theorem run_append (n : ℕ) (s : State) (a b : List Ev) : run n s (a ++ b) = run n (run n s a) b := List.foldl_append

end Verif.OdeUpdates

namespace Verif.Props
open Verif.OdeUpdates

/-- For every schedule of any number of threads, also with exceptions: each message has all its values, the values are values the world has had, and read one after the other, in a message and from one message to the next, they never go back. -/
theorem C204_order (n k : ℕ) (schedule : List Ev) :
    let s := run n (init k) schedule
    (∀ m ∈ s.sent, m.length = n) ∧ s.sent.flatten.Pairwise (· ≤ ·) ∧ ∀ v ∈ s.sent.flatten, v ≤ s.world :=
  ⟨(inv_run n k schedule).len, (inv_run n k schedule).sorted, (inv_run n k schedule).bound⟩

/-- Whatever happened before: a message that is built and sent without another thread's steps in between shows the state of the world. -/
theorem C204_whole_partial (n k : ℕ) (schedule : List Ev) (i : ℕ) (hi : (run n (init k) schedule).threads i = .build []) :
    let s := run n (init k) schedule
    (run n s (List.replicate (n + 3) (.thread i))).sent = s.sent ++ [List.replicate n s.world] := by
  intro s
  rw [← List.replicate_append_replicate, run_append, run_build n i n s [] hi (by simp)]
  simp [run, step, threadStep, List.replicate]

/-- Whatever happened before: from the moment a thread begins to build a message, as long as the world makes no step, all messages of all threads show the state of the world, for every schedule of the threads and also with exceptions. -/
theorem C204_still_partial (n k : ℕ) (schedule after : List Ev) (i : ℕ) (hi : (run n (init k) schedule).threads i = .build []) (ha : .env ∉ after) :
    let s := run n (init k) schedule
    ∃ new, (run n s after).sent = s.sent ++ new ∧ ∀ m ∈ new, m = List.replicate n s.world := by
  intro s
  have hs : Inv n s := inv_run n k schedule
  have hl : s.lock = some i := (hs.lock i).1 (by rw [hi]; rfl)
  have key : ∀ (after : List Ev) (t : State), .env ∉ after → Still n s.world s.sent t → Still n s.world s.sent (run n t after) := by
    intro after
    induction after with
    | nil => exact fun t _ h => h
    | cons e es ih => exact fun t ha h => ih _ (fun h => ha (List.mem_cons_of_mem _ h)) (still_step n _ _ t e (fun h => ha (h ▸ List.mem_cons_self)) h)
  refine (key after s ha ⟨hs, rfl, fun j l hj => ?_, [], by simp, by simp⟩).new
  have h1 := (hs.lock j).1 (by simp [holds, hj])
  rw [hl] at h1
  obtain rfl := Option.some.inj h1
  change carried ((run n (init k) schedule).threads i) = _ at hj
  rw [hi] at hj
  injection hj with hj
  simp [← hj]

/-- **C204 fails if the world makes a step while a message is built**, for any number of values from two on: the message then shows a state the world has never had, here the first `r` values before and the others after the step. -/
theorem C204_negation_torn (n r : ℕ) (hr : 0 < r) (hn : r < n) : ∃ schedule, (∀ i, .crash i ∉ schedule) ∧ (run n (init 2) schedule).sent = [List.replicate r 1 ++ List.replicate (n - r) 2] ∧
    ∀ w, List.replicate r 1 ++ List.replicate (n - r) 2 ≠ List.replicate n w := by
  refine ⟨[.env, .env, .thread 0, .thread 0] ++ (List.replicate r (.thread 0) ++ ([.env] ++ (List.replicate (n - r) (.thread 0) ++ [.thread 0, .thread 0, .thread 0]))), ?_, ?_, fun w hw => ?_⟩
  · intro i
    simp [List.mem_replicate]
  · rw [run_append]
    have h1 : (run n (init 2) [.env, .env, .thread 0, .thread 0]).threads 0 = .build [] := by simp [run, step, envStep, threadStep, init, calls, List.replicate]
    have h2 : (run n (init 2) [.env, .env, .thread 0, .thread 0]).world = 1 ∧ (run n (init 2) [.env, .env, .thread 0, .thread 0]).env = [.step, .test] ∧ (run n (init 2) [.env, .env, .thread 0, .thread 0]).sent = [] := by
      simp [run, step, envStep, threadStep, init, calls, List.replicate]
    generalize run n (init 2) [.env, .env, .thread 0, .thread 0] = s at *
    obtain ⟨w, u, lk, env, th, st, ps⟩ := s
    obtain ⟨rfl, rfl, rfl⟩ := h2
    rw [run_append, run_build n 0 r _ [] h1 (by simp; omega), run_append]
    simp only [List.nil_append]
    have h3 : ∀ t : State, run n t [.env] = envStep t := fun _ => rfl
    rw [h3]
    simp only [envStep]
    rw [run_append, run_build n 0 (n - r) _ (List.replicate r 1) (by simp) (by simp; omega)]
    have h4 : ¬ r + (n - r) < n := by omega
    simp [run, step, threadStep, h4]
  · have h1 : 1 ∈ List.replicate n w := by
      rw [← hw, List.mem_append]
      exact .inl (List.mem_replicate.2 ⟨by omega, rfl⟩)
    have h2 : 2 ∈ List.replicate n w := by
      rw [← hw, List.mem_append]
      exact .inr (List.mem_replicate.2 ⟨by omega, rfl⟩)
    have := (List.mem_replicate.1 h1).2.trans (List.mem_replicate.1 h2).2.symm
    omega

/-- The hypotheses are met: the second thread builds its message after the first one has sent. -/
example : let s := run 4 (init 3) ([.env, .env, .env] ++ List.replicate 11 (.thread 0) ++ [.env, .env, .env, .thread 1, .thread 1])
    s.threads 1 = .build [] ∧ s.sent = [[2, 2, 2, 2]] ∧ s.world = 3 := by decide

end Verif.Props
