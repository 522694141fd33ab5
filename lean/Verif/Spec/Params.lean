import Verif.Model.Params
/-
Specification: a network's parameters are one flat vector, cut into consecutive pieces.
-/
namespace Verif.Params.Spec
open Verif.Params

variable {K : Type}

/-- cut a vector into consecutive pieces of the given lengths -/
def pieces : List Nat → List K → List (List K)
  | [], _ => []
  | d :: ds, v => v.take d :: pieces ds (v.drop d)

/-- where piece `i` starts -/
def start (dims : List Nat) (i : Nat) : Nat := (dims.take i).sum

/-- The abstract state: the flat vectors of parameters and derivatives, the length of the array the caller last passed
in, and whether that array is still the network's. -/
structure Abs (K : Type) where
  vec : List K
  dvec : List K
  userLen : Nat
  shared : Bool

/-- The effect of an operation on the flat vectors of a network with pieces of lengths `dims`. -/
def astep [Zero K] (dims : List Nat) (a : Abs K) : Op K → Option (Abs K)
  | .setParams p => some { a with vec := p, userLen := p.length, shared := true }
  | .writeNet k x => if k < dims.sum then some { a with vec := a.vec.set k x } else none
  | .writeComp i k x =>
    match dims[i]? with
    | none => none
    | some d => if k < d then some { a with vec := a.vec.set (start dims i + k) x } else none
  | .writeUser k x =>
    if k < a.userLen then (if a.shared then some { a with vec := a.vec.set k x } else some a) else none
  | .writeDeriv i k x =>
    match dims[i]? with
    | none => none
    | some d => if k < d then some { a with dvec := a.dvec.set (start dims i + k) x } else none
  | .resetDerivs => some { a with dvec := a.dvec.map (fun _ => 0) }
  | .sort => some { a with shared := false }

/-- What can be seen: the network's vectors and the vectors of each component. -/
structure Shows (s : PS K) (dims : List Nat) (vec dvec : List K) : Prop where
  net : read s.heap s.netP = vec
  comps : s.compP.map (read s.heap) = pieces dims vec
  netD : read s.heap s.netD = dvec
  compsD : s.compD.map (read s.heap) = pieces dims dvec

/-- Operations with vectors of the right length. -/
def Fits (dims : List Nat) : Op K → Prop
  | .setParams p => p.length = dims.sum
  | _ => True

/-- Run a list of operations; `none` as soon as one raises. -/
def runs {S O : Type} (f : S → O → Option S) : S → List O → Option S
  | s, [] => some s
  | s, o :: os => match f s o with
    | none => none
    | some s1 => runs f s1 os

end Verif.Params.Spec
