import Verif.Model.Udp
import Mathlib.Data.List.Basic
import Mathlib.Data.List.Induction
import Mathlib.Tactic.SplitIfs
import Mathlib.Tactic.Ring
/-
C160: lists over UDP: which clients a server serves, and what they receive.
-/
namespace Verif.Udp
open Verif.DataSet (Err)
variable {IP : Type} [DecidableEq IP]

/-- the datagrams received since the last timeout -/
def sinceTimeout : List (Option IP) → List IP → List IP
  | [], acc => acc
  | none :: h, _ => sinceTimeout h []
  | some ip :: h, acc => sinceTimeout h (acc ++ [ip])

/-- the distinct addresses, in the order of their first arrival -/
def distinct (l : List IP) : List IP := l.foldl (fun acc ip => if ip ∈ acc then acc else acc ++ [ip]) []

theorem distinct_concat (l : List IP) (ip : IP) : distinct (l ++ [ip]) = if ip ∈ distinct l then distinct l else distinct l ++ [ip] := by
  unfold distinct
  rw [List.foldl_append]
  rfl

theorem mem_distinct (l : List IP) (x : IP) : x ∈ distinct l ↔ x ∈ l := by
  induction l using List.reverseRecOn with
  | nil => simp [distinct]
  | append_singleton l a ih =>
    rw [distinct_concat]
    split_ifs with h
    · rw [ih, List.mem_append, List.mem_singleton]
      constructor
      · exact Or.inl
      · rintro (h' | rfl)
        · exact h'
        · exact ih.1 h
    · rw [List.mem_append, List.mem_append, ih]

theorem distinct_nodup (l : List IP) : (distinct l).Nodup := by
  induction l using List.reverseRecOn with
  | nil => simp [distinct]
  | append_singleton l a ih =>
    rw [distinct_concat]
    split_ifs with h
    · exact ih
    · rw [List.nodup_append]
      refine ⟨ih, by simp, ?_⟩
      rintro x hx y hy rfl
      rw [List.mem_singleton] at hy
      exact h (hy ▸ hx)

/-- the server serves exactly the addresses `l` -/
structure Serves (port : Nat) (s : Server IP) (l : List IP) : Prop where
  clients : s.clients = l.length
  cIP : s.cIP = l
  addrs : s.addrList = l.map fun ip => (ip, port)
  socks : s.socks = l.length

theorem serves_listen {port : Nat} {s : Server IP} {l : List IP} (h : Serves port s (distinct l)) (r : Option IP) :
    Serves port (s.listen port r) (distinct (match r with | none => [] | some ip => l ++ [ip])) := by
  have hadd : ∀ ip, ip ∉ distinct l → Serves port (s.addClient port ip) (distinct (l ++ [ip])) := by
    intro ip hip
    rw [distinct_concat, if_neg hip]
    exact ⟨by simp [Server.addClient, h.clients], by simp [Server.addClient, h.cIP], by simp [Server.addClient, h.addrs], by simp [Server.addClient, h.socks]⟩
  unfold Server.listen
  by_cases hc : s.clients < 1
  · rw [if_pos hc]
    have he : distinct l = [] := by
      rw [h.clients] at hc
      exact List.eq_nil_of_length_eq_zero (by omega)
    cases r with
    | none => simp only; rw [he] at h; exact h
    | some ip => exact hadd ip (by rw [he]; simp)
  · rw [if_neg hc]
    cases r with
    | none => exact ⟨rfl, rfl, rfl, rfl⟩
    | some ip =>
      simp only [List.any_eq_true, decide_eq_true_eq]
      by_cases hm : ip ∈ distinct l
      · rw [if_pos ⟨ip, by rw [h.cIP]; exact hm, rfl⟩, distinct_concat, if_pos hm]
        exact h
      · rw [if_neg]
        · exact hadd ip hm
        · rintro ⟨x, hx, rfl⟩
          rw [h.cIP] at hx
          exact hm hx

theorem serves_run (port : Nat) : ∀ (hist : List (Option IP)) (s : Server IP) (l : List IP), Serves port s (distinct l) →
    Serves port (hist.foldl (Server.listen port) s) (distinct (sinceTimeout hist l))
  | [], _, _, h => h
  | r :: hist, s, l, h => by
    rw [List.foldl_cons]
    cases r with
    | none => exact serves_run port hist _ _ (serves_listen h none)
    | some ip => exact serves_run port hist _ _ (serves_listen h (some ip))

theorem send_eq {M : Type} {port : Nat} {s : Server IP} {l : List IP} (h : Serves port s l) (m : M) : s.send m = .ok (l.map fun ip => ((ip, port), m)) := by
  unfold Server.send
  rw [h.socks, h.addrs]
  have key : ∀ n ≤ l.length, (List.range n).mapM (sendOne (l.map fun ip => (ip, port)) m) = .ok ((l.take n).map fun ip => ((ip, port), m)) := by
    intro n
    induction n with
    | zero => intro _; rfl
    | succ n ih =>
      intro hn
      have : sendOne (l.map fun ip => (ip, port)) m n = .ok ((l[n], port), m) := by
        unfold sendOne
        rw [List.getElem?_map, List.getElem?_eq_getElem (by omega)]
        rfl
      rw [List.range_succ, List.mapM_append, ih (by omega), List.mapM_cons, this, List.take_add_one, List.getElem?_eq_getElem (by omega), List.map_append]
      rfl
  rw [key _ (le_refl _), List.take_length]

/-! ### waiting datagrams -/

theorem listen_some_clients (port : Nat) (s : Server IP) (ip : IP) : 1 ≤ (s.listen port (some ip)).clients := by
  unfold Server.listen
  by_cases h : s.clients < 1
  · rw [if_pos h]
    simp [Server.addClient]
  · rw [if_neg h]
    simp only
    split_ifs
    · omega
    · simp [Server.addClient]

theorem round_queue (port : Nat) (ips : List IP) (hn : ips ≠ []) (y : Sys IP) : (y.round port ips).queue.length = y.queue.length + ips.length - 1 ∧ 1 ≤ (y.round port ips).server.clients := by
  unfold Sys.round Sys.serverListen
  cases hq : y.queue ++ ips with
  | nil => exact absurd (List.append_eq_nil_iff.1 hq).2 hn
  | cons ip q =>
    simp only
    refine ⟨?_, listen_some_clients _ _ _⟩
    have := congrArg List.length hq
    simp only [List.length_append, List.length_cons] at this
    omega

theorem rounds_queue (port : Nat) (ips : List IP) (hn : ips ≠ []) : ∀ (r : Nat) (y : Sys IP), ((Sys.round port ips)^[r] y).queue.length = y.queue.length + r * (ips.length - 1)
  | 0, y => by simp
  | r + 1, y => by
    have hl : 1 ≤ ips.length := List.length_pos_iff.2 hn
    rw [Function.iterate_succ, Function.comp, rounds_queue port ips hn r, (round_queue port ips hn y).1, Nat.add_mul]
    omega

theorem drain (port : Nat) : ∀ (k : Nat) (y : Sys IP), k ≤ y.queue.length → 1 ≤ y.server.clients → 1 ≤ ((Sys.serverListen port)^[k] y).server.clients
  | 0, _, _, h => h
  | k + 1, y, hk, _ => by
    rw [Function.iterate_succ, Function.comp]
    cases hq : y.queue with
    | nil => rw [hq] at hk; simp at hk
    | cons ip q =>
      rw [hq] at hk
      simp only [List.length_cons] at hk
      apply drain
      · simp only [Sys.serverListen, hq]; omega
      · simp only [Sys.serverListen, hq]; exact listen_some_clients _ _ _

/-! ### data -/

mutual
/-- no array anywhere -/
def Val.plain : Val → Bool
  | .num _ => true
  | .list l => plainList l
  | .arr _ => false
def plainList : List Val → Bool
  | [] => true
  | v :: l => v.plain && plainList l
end

theorem repr_list (l : List Val) : (Val.list l).repr = .list (l.map Val.repr) := by
  rw [Val.repr, List.attach_map_val (f := Val.repr)]

mutual
theorem eval_repr : ∀ v : Val, v.repr.eval = if v.plain then some v else none
  | .num x => by simp [Val.repr, Expr.eval, Val.plain]
  | .list l => by
    rw [repr_list, Expr.eval, eval_list l, Val.plain]
    split_ifs <;> rfl
  | .arr l => by
    rw [Val.repr, Expr.eval, if_neg (by decide), Val.plain]
    rfl
theorem eval_list : ∀ l : List Val, evalList (l.map Val.repr) = if plainList l then some l else none
  | [] => by simp [evalList, plainList]
  | v :: l => by
    rw [List.map_cons, evalList, eval_repr v, eval_list l, plainList]
    cases v.plain <;> cases plainList l <;> rfl
end

end Verif.Udp

namespace Verif.Props
open Verif.Udp
variable {IP : Type} [DecidableEq IP]

/-- **C160, clients.** In every history of datagrams and timeouts, the server's clients are the distinct addresses from which a datagram was received since the last timeout, and data is sent to each of them exactly once. -/
theorem C160_clients {M : Type} (port : Nat) (hist : List (Option IP)) (m : M) :
    let s := hist.foldl (Server.listen port) Server.init
    ∃ ips : List IP, ips.Nodup ∧ (∀ ip, ip ∈ ips ↔ ip ∈ sinceTimeout hist []) ∧ s.clients = ips.length ∧ s.send m = .ok (ips.map fun ip => ((ip, port), m)) := by
  intro s
  have h : Serves port s (distinct (sinceTimeout hist [])) := serves_run port hist _ [] ⟨rfl, rfl, rfl, rfl⟩
  exact ⟨_, distinct_nodup _, fun ip => mem_distinct _ ip, h.clients, send_eq h m⟩

example : (sinceTimeout [some 1, none, some 2, some 3, some 2] [] : List Nat) = [2, 3, 2] := rfl

/-- **C160, data (partial).** Nested lists of numbers whose text fits into the buffer are received as they were sent. What is missing: arrays and longer texts (see the negations). -/
theorem C160_data_partial {C : Type} (text : Expr → List C) (parse : List C → Option Expr) (h : ∀ e, parse (text e) = some e) (buf : Nat) (v : Val) (hv : v.plain = true) (hb : (text v.repr).length ≤ buf) :
    clientListen parse buf (some (text v.repr)) = some v := by
  show (parse ((text v.repr).take buf)).bind Expr.eval = _
  rw [List.take_of_length_le hb, h]
  show v.repr.eval = some v
  rw [eval_repr, if_pos hv]

example : (Val.list [.num 1, .list [.num 2]]).plain = true := rfl

/-- **C160 violated: arrays.** Although the server is documented to send lists of arrays too, a list that contains an array anywhere is never received, whatever the sizes: the client's module does not know the name `array` that the
text uses. -/
theorem C160_negation_arrays {C : Type} (text : Expr → List C) (parse : List C → Option Expr) (h : ∀ e, parse (text e) = some e) (buf : Nat) (v : Val) (hv : v.plain = false) (hb : (text v.repr).length ≤ buf) :
    clientListen parse buf (some (text v.repr)) = none := by
  show (parse ((text v.repr).take buf)).bind Expr.eval = _
  rw [List.take_of_length_le hb, h]
  show v.repr.eval = none
  rw [eval_repr, if_neg (by rw [hv]; simp)]

example : (Val.list [.num 1, .arr [2, 3]]).plain = false := rfl

/-- **C160 violated: long data.** Data whose text is longer than the buffer is not received, since the end of the text is cut off, with its closing bracket (a proper beginning of the text of an expression with brackets is not
an expression). -/
theorem C160_negation_long {C : Type} (text : Expr → List C) (parse : List C → Option Expr) (hcut : ∀ l : List Val, ∀ n < (text (Val.list l).repr).length, parse ((text (Val.list l).repr).take n) = none)
    (buf : Nat) (l : List Val) (hb : buf < (text (Val.list l).repr).length) : clientListen parse buf (some (text (Val.list l).repr)) = none := by
  show (parse ((text (Val.list l).repr).take buf)).bind Expr.eval = _
  rw [hcut l buf hb]
  rfl

/-- **C160 violated: clients that quit.** A server that listens once per round, while two or more clients report to it, serves clients that have quit for any number of rounds: their old datagrams still wait at the socket, so the
timeout does not occur. -/
theorem C160_negation_quit (port : Nat) (ips : List IP) (hn : 2 ≤ ips.length) (N : Nat) : ∃ r, ∀ k ≤ N, 1 ≤ ((Sys.serverListen port)^[k] ((Sys.round port ips)^[r] ⟨Server.init, []⟩)).server.clients := by
  have hne : ips ≠ [] := by rintro rfl; simp at hn
  refine ⟨N + 1, fun k hk => ?_⟩
  apply drain
  · rw [rounds_queue port ips hne]
    have : (N + 1) * 1 ≤ (N + 1) * (ips.length - 1) := Nat.mul_le_mul_left _ (by omega)
    simp only [List.length_nil]
    omega
  · rw [Function.iterate_succ_apply']
    exact (round_queue port ips hne _).2

example : 2 ≤ ["10.0.0.1", "10.0.0.2"].length := by decide

end Verif.Props
