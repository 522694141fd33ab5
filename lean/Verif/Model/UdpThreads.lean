import Mathlib.Data.Nat.Notation
/-
Model of `UDPServer` of pybrain/tools/networking/udpconnection.py, used by two threads: one of them sends (as `reset` of an environment does, without a lock) while the other one listens (as the thread of `updateRenderer`).

Clients are numbers. `listen` either adds a client (`add`) or drops all of them after its timeout (`drop`); what it does otherwise does not touch the lists that `send` uses. Each access to one of the lists is a step. The loop of
`send` runs over the list of sockets it has found at first: an append to this list is seen by the loop, a new list is not. Sockets are represented by their clients.
-/
namespace Verif.UdpThreads

/-- what `listen` does to the lists -/
inductive Op where
  | add (c : ℕ)
  | drop
deriving DecidableEq, Repr

inductive Instr where
  | addAddr (c : ℕ)
  | addSock (c : ℕ)
  | newAddr
  | newSock
deriving DecidableEq, Repr

/-- `addClient`, udpconnection.py:46-51, and the end of `listen`, udpconnection.py:75-80 -/
def compile : Op → List Instr
  | .add c => [.addAddr c, .addSock c]
  | .drop => [.newAddr, .newSock]

/-- where `send` is: `loop` before the next turn, `turn` in it; `raised`: `self.addrList[count]` was out of range -/
inductive Pc where
  | start
  | loop (count : ℕ)
  | turn (count : ℕ)
  | done
  | raised
deriving DecidableEq, Repr

/-- `loopSocks` is the list the loop of `send` runs over if it is no longer the attribute -/
structure State where
  addrs : List ℕ
  socks : List ℕ
  loopSocks : Option (List ℕ)
  env : List Instr
  pc : Pc
  packets : List ℕ

/-- `clients` are connected; `listen` is going to do `ops` -/
def init (clients : List ℕ) (ops : List Op) : State := ⟨clients, clients, none, ops.flatMap compile, .start, []⟩

/-- a step of the thread that listens -/
def listenStep (s : State) : State :=
  match s.env with
  | [] => s
  | .addAddr c :: is => { s with addrs := s.addrs ++ [c], env := is }
  | .addSock c :: is => { s with socks := s.socks ++ [c], env := is }
  | .newAddr :: is => { s with addrs := [], env := is }
  | .newSock :: is =>
    match s.pc with
    | .start => { s with socks := [], env := is }
    | _ => { s with socks := [], loopSocks := some (s.loopSocks.getD s.socks), env := is }

/-- a step of `send`, udpconnection.py:85-90; the packet goes to `self.addrList[count]` -/
def sendStep (s : State) : State :=
  match s.pc with
  | .start => { s with pc := .loop 0 }
  | .loop count => if count < (s.loopSocks.getD s.socks).length then { s with pc := .turn count } else { s with pc := .done }
  | .turn count =>
    match s.addrs[count]? with
    | some c => { s with packets := s.packets ++ [c], pc := .loop (count + 1) }
    | none => { s with pc := .raised }
  | .done => s
  | .raised => s

/-- whose step is next -/
inductive Ev where
  | listen
  | send
deriving DecidableEq, Repr

def step (s : State) : Ev → State
  | .listen => listenStep s
  | .send => sendStep s

def run (s : State) (schedule : List Ev) : State := schedule.foldl step s

end Verif.UdpThreads
