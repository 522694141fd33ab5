import Verif.Props.UpdateThreads
/-
What is sent after the signal of a reset.
-/
namespace Verif.UpdateThreads
open Verif.Spec

/-- what is left of the work of the environment -/
structure Work (ops : List Op) (s : State) : Prop where
  suffix : s.env <:+ ops.flatMap compile
  assigned : s.sensors + s.env.count .assign = ops.length
  signalled : s.packets.count .reset + s.env.count .signal = ops.count .reset

theorem count_assign (ops : List Op) : (ops.flatMap compile).count .assign = ops.length := by
  induction ops with
  | nil => rfl
  | cons o os ih => cases o <;> simp [compile, ih]

theorem count_signal (ops : List Op) : (ops.flatMap compile).count .signal = ops.count .reset := by
  induction ops with
  | nil => rfl
  | cons o os ih => cases o <;> simp [compile, ih]

theorem work_init (ops : List Op) : Work ops (init ops) := ⟨List.suffix_rfl, by simp [init, count_assign], by simp [init, count_signal]⟩

theorem work_same (ops : List Op) (s t : State) (h : Work ops s) (e1 : t.env = s.env) (e2 : t.sensors = s.sensors) (e3 : t.packets.count .reset = s.packets.count .reset) : Work ops t :=
  ⟨by rw [e1]; exact h.suffix, by rw [e1, e2]; exact h.assigned, by rw [e1, e3]; exact h.signalled⟩

theorem work_step (ops : List Op) (s : State) (e : Ev) (h : Work ops s) : Work ops (step s e) := by
  cases e with
  | env =>
    obtain ⟨h1, h2, h3⟩ := h
    change Work ops (envStep s)
    unfold envStep
    rcases henv : s.env with _ | ⟨a, is⟩
    · exact ⟨h1, h2, h3⟩
    · rw [henv] at h1 h2 h3
      have h4 : is <:+ ops.flatMap compile := (List.suffix_cons a is).trans h1
      cases a
      · exact ⟨h4, by simp at h2 ⊢; omega, by simpa using h3⟩
      · simp only
        split_ifs
        · exact ⟨h4, by simpa using h2, by simpa using h3⟩
        · exact ⟨h4, by simpa using h2, by simpa using h3⟩
      · exact ⟨h4, by simpa using h2, by simp at h3 ⊢; omega⟩
  | crash i =>
    change Work ops (crash s i)
    unfold crash
    cases s.threads i <;> exact work_same ops s _ h rfl rfl rfl
  | thread i =>
    change Work ops (threadStep s i)
    unfold threadStep
    cases s.threads i with
    | tryLock =>
      simp only
      split_ifs <;> exact work_same ops s _ h rfl rfl rfl
    | send k => exact work_same ops s _ h rfl rfl (by simp)
    | _ => exact work_same ops s _ h rfl rfl rfl

/-- the signal of a reset is sent after the reset -/
theorem reset_done (ops₁ ops₂ : List Op) (s : State) (h : Work (ops₁ ++ .reset :: ops₂) s) (hr : ops₁.count .reset + 1 ≤ s.packets.count .reset) : ops₁.length + 1 ≤ s.sensors := by
  obtain ⟨h1, h2, h3⟩ := h
  have e : (ops₁ ++ .reset :: ops₂).flatMap compile = (ops₁.flatMap compile ++ [.assign]) ++ .signal :: ops₂.flatMap compile := by simp [compile]
  rw [e] at h1
  simp only [List.count_append, List.count_cons_self, List.length_append, List.length_cons] at h2 h3
  have hB : .signal :: ops₂.flatMap compile <:+ (ops₁.flatMap compile ++ [.assign]) ++ .signal :: ops₂.flatMap compile := List.suffix_append _ _
  rcases List.suffix_or_suffix_of_suffix h1 hB with hs | hs
  · have := hs.sublist.count_le .assign
    simp only [List.count_cons, count_assign] at this
    simp at this
    omega
  · have := hs.sublist.count_le .signal
    simp only [List.count_cons_self, count_signal] at this
    omega

/-- after the packets `old`, at most `m` states older than `N` have been sent, and if there are `m`, none is to come -/
structure Fresh (m N : ℕ) (old : List Packet) (s : State) : Prop where
  inv : Inv s
  le : N ≤ s.sensors
  stale : ∃ new, s.packets = old ++ new ∧ (((statesOf new).filter (· < N)).length + 1 ≤ m ∨ (((statesOf new).filter (· < N)).length ≤ m ∧ ∀ i k, s.threads i = .send k → N ≤ k))

theorem fresh_move (m N : ℕ) (old : List Packet) (s t : State) (i : ℕ) (p : Pc) (h : Fresh m N old s) (ht : Inv t) (e1 : t.threads = Function.update s.threads i p) (e2 : t.sensors = s.sensors) (e3 : t.packets = s.packets) (hp : ∀ k, p = .send k → N ≤ k) : Fresh m N old t := by
  obtain ⟨new, hn, hc⟩ := h.stale
  refine ⟨ht, by rw [e2]; exact h.le, new, by rw [e3]; exact hn, hc.imp id fun hc => ⟨hc.1, fun j k hj => ?_⟩⟩
  rw [e1] at hj
  by_cases e : j = i
  · subst e
    rw [Function.update_self] at hj
    exact hp k hj
  · rw [Function.update_of_ne e] at hj
    exact hc.2 j k hj

theorem fresh_step (m N : ℕ) (old : List Packet) (s : State) (e : Ev) (h : Fresh m N old s) : Fresh m N old (step s e) := by
  have ht := inv_step s h.inv e
  cases e with
  | env =>
    change Fresh m N old (envStep s)
    change Inv (envStep s) at ht
    unfold envStep at *
    rcases henv : s.env with _ | ⟨_ | _ | _, is⟩
    · exact h
    · rw [henv] at ht
      exact ⟨ht, Nat.le_succ_of_le h.le, h.stale⟩
    · rw [henv] at ht
      simp only at *
      split_ifs at * with hd
      · exact fresh_move m N old s _ s.started .start h ht rfl rfl rfl (by simp)
      · exact ⟨ht, h.le, h.stale⟩
    · rw [henv] at ht
      obtain ⟨new, hn, hc⟩ := h.stale
      have e : statesOf (new ++ [.reset]) = statesOf new := by simp [statesOf]
      exact ⟨ht, h.le, new ++ [.reset], by simp [hn], by rw [e]; exact hc⟩
  | crash i =>
    change Fresh m N old (crash s i)
    change Inv (crash s i) at ht
    unfold crash at *
    cases hp : s.threads i with
    | listen => rw [hp] at ht; exact fresh_move m N old s _ i .crashed h ht rfl rfl rfl (by simp)
    | send k => rw [hp] at ht; exact fresh_move m N old s _ i .crashed h ht rfl rfl rfl (by simp)
    | _ => exact h
  | thread i =>
    change Fresh m N old (threadStep s i)
    change Inv (threadStep s i) at ht
    unfold threadStep at *
    cases hp : s.threads i with
    | ended => exact h
    | crashed => exact h
    | tryLock =>
      rw [hp] at ht
      simp only at *
      split_ifs at * with hn
      · exact fresh_move m N old s _ i .listen h ht rfl rfl rfl (by simp)
      · exact fresh_move m N old s _ i .ended h ht rfl rfl rfl (by simp)
    | start => rw [hp] at ht; exact fresh_move m N old s _ i .tryLock h ht rfl rfl rfl (by simp)
    | listen => rw [hp] at ht; exact fresh_move m N old s _ i .read h ht rfl rfl rfl (by simp)
    | release => rw [hp] at ht; exact fresh_move m N old s _ i .setDone h ht rfl rfl rfl (by simp)
    | setDone => rw [hp] at ht; exact fresh_move m N old s _ i .ended h ht rfl rfl rfl (by simp)
    | read =>
      rw [hp] at ht
      exact fresh_move m N old s _ i (.send s.sensors) h ht rfl rfl rfl (by rintro k hk; injection hk with hk; rw [← hk]; exact h.le)
    | send k =>
      rw [hp] at ht
      obtain ⟨new, hn, hc⟩ := h.stale
      have e : statesOf (new ++ [.state k]) = statesOf new ++ [k] := by simp [statesOf]
      have hl : s.lock = some i := (h.inv.lock i).1 (by rw [hp]; rfl)
      refine ⟨ht, h.le, new ++ [.state k], by simp [hn], .inr ⟨?_, fun j l hj => ?_⟩⟩
      · rw [e, List.filter_append, List.length_append]
        by_cases hk : k < N
        · have h0 : ((statesOf new).filter (· < N)).length + 1 ≤ m := hc.resolve_right fun hc => by
            have := hc.2 i k hp
            omega
          simpa [hk] using h0
        · have h1 : ((statesOf new).filter (· < N)).length ≤ m := by
            rcases hc with hc | hc
            · omega
            · exact hc.1
          simpa [hk] using h1
      · simp only at hj
        by_cases e : j = i
        · subst e
          simp at hj
        · rw [Function.update_of_ne e] at hj
          have := (h.inv.lock j).1 (by rw [hj]; rfl)
          rw [hl] at this
          exact absurd (Option.some.inj this).symm e

end Verif.UpdateThreads

namespace Verif.Props
open Verif.Spec Verif.UpdateThreads

/-- For every schedule, also with exceptions: after the signal of a reset has been sent, at most one state from before this reset is sent, and none if no thread is about to send. (A reset after the operations `ops₁` gives the state number
`ops₁.length + 1`; its signal has been sent when there are more signals than resets in `ops₁`.) That one such state may be sent is `C202_negation_stale`. -/
theorem C202_reset_partial (ops₁ ops₂ : List Op) (schedule after : List Ev) (hr : ops₁.count .reset < (run (init (ops₁ ++ .reset :: ops₂)) schedule).packets.count .reset) :
    let s := run (init (ops₁ ++ .reset :: ops₂)) schedule
    ∃ new, (run s after).packets = s.packets ++ new ∧ ((statesOf new).filter (· < ops₁.length + 1)).length ≤ 1 ∧
      ((∀ i k, s.threads i ≠ .send k) → ∀ k ∈ statesOf new, ops₁.length + 1 ≤ k) := by
  intro s
  have hw : Work (ops₁ ++ .reset :: ops₂) s := run_induct _ (fun s e h => work_step _ s e h) schedule _ (work_init _)
  have hN := reset_done ops₁ ops₂ s hw hr
  have hi : Inv s := inv_run _ _
  have fresh := fun (m : ℕ) => run_induct (Fresh m (ops₁.length + 1) s.packets) (fun s e h => fresh_step _ _ _ s e h) after s
  obtain ⟨-, -, new, hn, hc⟩ := fresh 1 ⟨hi, hN, [], by simp, .inl (by simp [statesOf])⟩
  refine ⟨new, hn, by omega, fun hq k hk => ?_⟩
  obtain ⟨-, -, new', hn', hc'⟩ := fresh 0 ⟨hi, hN, [], by simp, .inr ⟨by simp [statesOf], fun i k hk => absurd hk (hq i k)⟩⟩
  rw [hn] at hn'
  obtain rfl := List.append_cancel_left hn'
  have h0 : ((statesOf new).filter (· < ops₁.length + 1)).length = 0 := by omega
  rw [List.length_eq_zero_iff, List.filter_eq_nil_iff] at h0
  simpa using h0 k hk

/-- The hypothesis is met while a thread is about to send the state before the reset. -/
example : let s := run (init ([.action] ++ .reset :: [.action])) [.env, .env, .thread 0, .thread 0, .thread 0, .thread 0, .env, .env]
    s.packets.count .reset = 1 ∧ s.threads 0 = .send 1 ∧ (run s [.thread 0, .thread 0, .thread 0, .env, .env, .thread 1, .thread 1, .thread 1, .thread 1, .thread 1]).packets = [.reset, .state 1, .state 3] := by decide

end Verif.Props
