import Verif.Model.DataSet
/-
Model of pybrain/tools/networking/udpconnection.py: the server and the client that exchange lists over UDP.

A call of `recv` returns a datagram or runs into the timeout (`none`). Text is Python 2 text (in Python 3 `sendto` refuses strings). Writing and reading a Python expression as text is an argument; which names an expression
may use is modelled: the module imports `socket` only.
-/
namespace Verif.Udp
open Verif.DataSet (Err)

/-- the state of `UDPServer`, udpconnection.py:24-41; only the number of sockets matters -/
structure Server (IP : Type) where
  clients : Nat
  cIP : List IP
  addrList : List (IP × Nat)
  socks : Nat

variable {IP : Type} [DecidableEq IP]

/-- udpconnection.py:35-40 -/
def Server.init : Server IP := ⟨0, [], [], 0⟩

/-- `addClient`, udpconnection.py:44-49 -/
def Server.addClient (port : Nat) (s : Server IP) (ip : IP) : Server IP := ⟨s.clients + 1, s.cIP ++ [ip], s.addrList ++ [(ip, port)], s.socks + 1⟩

/-- `listen` of the server, udpconnection.py:52-81 -/
def Server.listen (port : Nat) (s : Server IP) (recv : Option IP) : Server IP :=
  if s.clients < 1 then
    match recv with
    | none => s
    | some ip => s.addClient port ip
  else
    match recv with
    | none => Server.init
    | some ip => if s.cIP.any (fun i => decide (ip = i)) then s else s.addClient port ip

/-- one step of the loop of `send`, udpconnection.py:88-90 -/
def sendOne {M : Type} (addrs : List (IP × Nat)) (data : M) (i : Nat) : Except Err ((IP × Nat) × M) :=
  match addrs[i]? with
  | some a => .ok (a, data)
  | none => .error .indexError

/-- `send`, udpconnection.py:85-90: the addresses and data that are sent -/
def Server.send {M : Type} (s : Server IP) (data : M) : Except Err (List ((IP × Nat) × M)) := (List.range s.socks).mapM (sendOne s.addrList data)

/-! ### the datagrams on their way to the server -/

/-- the server and the datagrams that wait at its socket (an unbounded buffer) -/
structure Sys (IP : Type) where
  server : Server IP
  queue : List IP

/-- one call of `listen`: the first waiting datagram, or the timeout if nothing arrives -/
def Sys.serverListen (port : Nat) (y : Sys IP) : Sys IP :=
  match y.queue with
  | [] => { y with server := y.server.listen port none }
  | ip :: q => ⟨y.server.listen port (some ip), q⟩

/-- a round of an application: each of the clients `ips` calls `listen` once (sending its address, udpconnection.py:110), the server listens once (and sends) -/
def Sys.round (port : Nat) (ips : List IP) (y : Sys IP) : Sys IP := ({ y with queue := y.queue ++ ips } : Sys IP).serverListen port

/-! ### data -/

/-- what is sent: numbers, lists and arrays -/
inductive Val where
  | num (x : Int)
  | list (l : List Val)
  | arr (l : List Int)

/-- the expressions that `repr` writes -/
inductive Expr where
  | num (x : Int)
  | list (l : List Expr)
  | call (name : String) (arg : List Expr)

/-- `repr(arrayList)`, udpconnection.py:86 -/
def Val.repr : Val → Expr
  | .num x => .num x
  | .list l => .list (l.attach.map fun v => v.1.repr)
  | .arr l => .call "array" (l.map .num)
decreasing_by
  have := List.sizeOf_lt_of_mem v.2
  simp only [Val.list.sizeOf_spec]
  omega

/-- the names known to `eval` in the module that are not builtins, udpconnection.py:1-93 -/
def names : List String := ["print_function", "__author__", "socket", "UDPServer", "UDPClient"]

mutual
/-- `eval` of an expression: a call needs a known name -/
def Expr.eval : Expr → Option Val
  | .num x => some (.num x)
  | .list l => (evalList l).map .list
  | .call name arg => if name ∈ names then (evalNums arg).map .arr else none
def evalList : List Expr → Option (List Val)
  | [] => some []
  | e :: l => match e.eval, evalList l with
    | some v, some vs => some (v :: vs)
    | _, _ => none
def evalNums : List Expr → Option (List Int)
  | [] => some []
  | .num x :: l => (evalNums l).map (x :: ·)
  | _ :: _ => none
end

/-- `listen` of the client, udpconnection.py:108-126, for the datagram that arrives: it is cut to the size of the buffer, read and evaluated; all failures give `None` -/
def clientListen {C : Type} (parse : List C → Option Expr) (buf : Nat) (recv : Option (List C)) : Option Val :=
  match recv with
  | none => none
  | some d => (parse (d.take buf)).bind Expr.eval

end Verif.Udp
