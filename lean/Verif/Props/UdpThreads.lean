import Verif.Model.UdpThreads
import Mathlib.Tactic.Common
/-
Properties of sending while another thread listens.
-/
namespace Verif.UdpThreads

/-- only additions: `rest` are still to come -/
structure Adding (old new : List ℕ) (s : State) : Prop where
  lists : ∃ rest, s.loopSocks = none ∧ ((s.env = rest.flatMap (fun c => compile (.add c)) ∧ s.addrs = s.socks ∧ s.socks ++ rest = old ++ new) ∨
    ∃ c, s.env = .addSock c :: rest.flatMap (fun c => compile (.add c)) ∧ s.addrs = s.socks ++ [c] ∧ s.socks ++ c :: rest = old ++ new)
  begins : old <+: s.socks
  sent : s.packets = s.socks.take s.packets.length
  place : match s.pc with
    | .start => s.packets = []
    | .loop count => count = s.packets.length ∧ count ≤ s.socks.length
    | .turn count => count = s.packets.length ∧ count < s.socks.length
    | .done => old.length ≤ s.packets.length ∧ s.packets.length ≤ s.socks.length
    | .raised => False

theorem packets_le (old new : List ℕ) (s : State) (h : Adding old new s) : s.packets.length ≤ s.socks.length := by
  have := congrArg List.length h.sent
  rw [List.length_take] at this
  omega

theorem adding_listen (old new : List ℕ) (s : State) (h : Adding old new s) : Adding old new (listenStep s) := by
  have hle := packets_le old new s h
  obtain ⟨⟨rest, hl, hc⟩, hb, hs, hp⟩ := h
  rcases hc with ⟨h1, h2, h3⟩ | ⟨c, h1, h2, h3⟩
  · cases rest with
    | nil =>
      have : listenStep s = s := by simp [listenStep, h1]
      rw [this]
      exact ⟨⟨[], hl, .inl ⟨h1, h2, h3⟩⟩, hb, hs, hp⟩
    | cons c rest =>
      have : listenStep s = { s with addrs := s.addrs ++ [c], env := .addSock c :: rest.flatMap (fun c => compile (.add c)) } := by simp [listenStep, h1, compile]
      rw [this]
      exact ⟨⟨rest, hl, .inr ⟨c, rfl, by simp [h2], h3⟩⟩, hb, hs, hp⟩
  · have : listenStep s = { s with socks := s.socks ++ [c], env := rest.flatMap (fun c => compile (.add c)) } := by simp [listenStep, h1]
    rw [this]
    refine ⟨⟨rest, hl, .inl ⟨rfl, h2, by simpa using h3⟩⟩, hb.trans (List.prefix_append _ _), ?_, ?_⟩
    · change s.packets = (s.socks ++ [c]).take s.packets.length
      rw [List.take_append_of_le_length hle]
      exact hs
    · change (match s.pc with
        | .start => s.packets = []
        | .loop count => count = s.packets.length ∧ count ≤ (s.socks ++ [c]).length
        | .turn count => count = s.packets.length ∧ count < (s.socks ++ [c]).length
        | .done => old.length ≤ s.packets.length ∧ s.packets.length ≤ (s.socks ++ [c]).length
        | .raised => False)
      cases hpc : s.pc <;> rw [hpc] at hp <;> simp only [List.length_append, List.length_singleton] at hp ⊢
      · exact hp
      all_goals omega

theorem adding_send (old new : List ℕ) (s : State) (h : Adding old new s) : Adding old new (sendStep s) := by
  have hle := packets_le old new s h
  obtain ⟨⟨rest, hl, hc⟩, hb, hs, hp⟩ := h
  have hlist : ∃ rest, s.loopSocks = none ∧ ((s.env = rest.flatMap (fun c => compile (.add c)) ∧ s.addrs = s.socks ∧ s.socks ++ rest = old ++ new) ∨
    ∃ c, s.env = .addSock c :: rest.flatMap (fun c => compile (.add c)) ∧ s.addrs = s.socks ++ [c] ∧ s.socks ++ c :: rest = old ++ new) := ⟨rest, hl, hc⟩
  unfold sendStep
  cases hpc : s.pc with
  | start =>
    rw [hpc] at hp
    simp only at hp
    exact ⟨hlist, hb, hs, by simp [hp]⟩
  | loop count =>
    rw [hpc] at hp
    have hg : s.loopSocks.getD s.socks = s.socks := by rw [hl]; rfl
    simp only [hg] at hp ⊢
    split_ifs with hlt
    · exact ⟨hlist, hb, hs, ⟨hp.1, hlt⟩⟩
    · refine ⟨hlist, hb, hs, ⟨?_, hle⟩⟩
      have := hb.length_le
      simp only
      omega
  | turn count =>
    rw [hpc] at hp
    simp only at hp
    obtain ⟨h1, h2⟩ := hp
    have hget : s.addrs[count]? = some s.socks[count] := by
      rcases hc with ⟨-, h, -⟩ | ⟨c, -, h, -⟩
      · rw [h, List.getElem?_eq_getElem h2]
      · rw [h, List.getElem?_append_left h2, List.getElem?_eq_getElem h2]
    simp only [hget]
    refine ⟨hlist, hb, ?_, ?_⟩
    · simp only [List.length_append, List.length_singleton]
      rw [← h1, List.take_add_one, List.getElem?_eq_getElem h2]
      simp only [Option.toList_some]
      congr 1
      rw [h1]
      exact hs
    · simp only [List.length_append, List.length_singleton]
      omega
  | done =>
    rw [hpc] at hp
    exact ⟨hlist, hb, hs, by rw [hpc]; exact hp⟩
  | raised =>
    rw [hpc] at hp
    exact absurd hp id

theorem adding_run (old new : List ℕ) (schedule : List Ev) : Adding old new (run (init old (new.map .add)) schedule) := by
  have key : ∀ (schedule : List Ev) (s : State), Adding old new s → Adding old new (run s schedule) := by
    intro schedule
    induction schedule with
    | nil => exact fun s h => h
    | cons e es ih =>
      intro s h
      refine ih _ ?_
      cases e
      · exact adding_listen old new s h
      · exact adding_send old new s h
  refine key schedule _ ⟨⟨new, rfl, .inl ⟨?_, rfl, rfl⟩⟩, List.prefix_rfl, by simp [init], by simp [init]⟩
  simp [init, List.flatMap_map]

end Verif.UdpThreads

namespace Verif.Props
open Verif.UdpThreads

/-- For every schedule: while clients are added by another thread, `send` raises no exception, sends at most once to each of the clients, in the order of their connections, and when it has ended, it has sent to all clients that were connected before. -/
theorem C205_adding_partial (old new : List ℕ) (schedule : List Ev) :
    let s := run (init old (new.map .add)) schedule
    s.pc ≠ .raised ∧ s.packets <+: old ++ new ∧ (s.pc = .done → old <+: s.packets) := by
  intro s
  have h : Adding old new s := adding_run old new schedule
  have h1 : s.packets <+: s.socks := by
    rw [h.sent]
    exact List.take_prefix _ _
  have h2 : s.socks <+: old ++ new := by
    obtain ⟨rest, -, ⟨-, -, e⟩ | ⟨c, -, -, e⟩⟩ := h.lists
    · exact ⟨rest, e⟩
    · exact ⟨c :: rest, e⟩
  refine ⟨fun hr => ?_, h1.trans h2, fun hd => ?_⟩
  · have := h.place
    rw [hr] at this
    exact this
  · have := h.place
    rw [hd] at this
    exact List.prefix_of_prefix_length_le h.begins h1 this.1

/-- Without steps of the other thread in between, `send` sends once to each client, in the order of their connections, and ends. -/
theorem C205_alone (old : List ℕ) (ops : List Op) : (run (init old ops) (List.replicate (2 * old.length + 2) .send)).packets = old ∧ (run (init old ops) (List.replicate (2 * old.length + 2) .send)).pc = .done := by
  have key : ∀ (r : ℕ) (s : State) (k : ℕ), s.pc = .loop k → s.loopSocks = none → s.addrs = s.socks → k + r = s.socks.length → s.packets = s.socks.take k →
      (run s (List.replicate (2 * r + 1) .send)).packets = s.socks ∧ (run s (List.replicate (2 * r + 1) .send)).pc = .done := by
    intro r
    induction r with
    | zero =>
      intro s k hp hl ha hk hs
      have e : step s .send = { s with pc := .done } := by
        simp only [step, sendStep, hp, hl, Option.getD_none]
        rw [if_neg (by omega)]
      change (step s .send).packets = _ ∧ (step s .send).pc = _
      rw [e]
      refine ⟨?_, rfl⟩
      simp only
      rw [hs, List.take_of_length_le (by omega)]
    | succ r ih =>
      intro s k hp hl ha hk hs
      have hlt : k < s.socks.length := by omega
      have e : step (step s .send) .send = { s with packets := s.packets ++ [s.socks[k]], pc := .loop (k + 1) } := by
        have e1 : step s .send = { s with pc := .turn k } := by
          simp only [step, sendStep, hp, hl, Option.getD_none]
          rw [if_pos hlt]
        rw [e1]
        simp [step, sendStep, ha, List.getElem?_eq_getElem hlt]
      have e2 : run s (List.replicate (2 * (r + 1) + 1) .send) = run (step (step s .send) .send) (List.replicate (2 * r + 1) .send) := rfl
      rw [e2, e]
      refine ih { s with packets := s.packets ++ [s.socks[k]], pc := .loop (k + 1) } (k + 1) rfl hl ha (by simp only; omega) ?_
      simp only
      rw [hs, List.take_add_one, List.getElem?_eq_getElem hlt]
      rfl
  have e : run (init old ops) (List.replicate (2 * old.length + 2) .send) = run (step (init old ops) .send) (List.replicate (2 * old.length + 1) .send) := rfl
  rw [e]
  exact key old.length (step (init old ops) .send) 0 rfl rfl rfl (by simp [step, sendStep, init]) (by simp [step, sendStep, init])

/-- **C205 fails when the clients are dropped while `send` runs**, for any clients and after any number of packets but the last: `send` finds no address and raises an exception, in the environment's `reset`. -/
theorem C205_negation_drop (clients : List ℕ) (k : ℕ) (hk : k < clients.length) : ∃ schedule, (run (init clients [.drop]) schedule).pc = .raised ∧ (run (init clients [.drop]) schedule).packets = clients.take k := by
  have key : ∀ k ≤ clients.length, run (init clients [.drop]) (List.replicate (2 * k + 1) .send) = { init clients [.drop] with pc := .loop k, packets := clients.take k } := by
    intro k
    induction k with
    | zero => exact fun _ => rfl
    | succ k ih =>
      intro hk
      have e : List.replicate (2 * (k + 1) + 1) Ev.send = List.replicate (2 * k + 1) .send ++ [.send, .send] := by
        rw [show [Ev.send, .send] = List.replicate 2 .send from rfl, List.replicate_append_replicate]
        congr 1
      have hlt : k < clients.length := hk
      rw [e]
      change List.foldl step (init clients [.drop]) _ = _
      rw [List.foldl_append]
      change List.foldl step (run (init clients [.drop]) (List.replicate (2 * k + 1) .send)) _ = _
      rw [ih (by omega)]
      rw [List.take_add_one, List.getElem?_eq_getElem hlt]
      simp [step, sendStep, init, hlt]
  refine ⟨List.replicate (2 * k + 1) .send ++ [.send, .listen, .send], ?_⟩
  have e : run (init clients [.drop]) (List.replicate (2 * k + 1) .send ++ [.send, .listen, .send]) = run (run (init clients [.drop]) (List.replicate (2 * k + 1) .send)) [.send, .listen, .send] := List.foldl_append
  rw [e, key k (by omega)]
  simp [run, step, sendStep, listenStep, init, hk, compile]

/-- The hypotheses are met: a client is added during the loop and gets the packet as well. -/
example : let s := run (init [7, 8] [.add 9]) [.send, .send, .listen, .send, .send, .listen, .send, .send, .send, .send]
    s.packets = [7, 8, 9] ∧ s.pc = .done := by decide

end Verif.Props
