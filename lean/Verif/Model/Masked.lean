import Verif.Model.DataSet
import Mathlib.Algebra.Group.Defs
/-
Model of pybrain/structure/evolvables/maskedparameters.py (class MaskedParameters).

The wrapped container is represented by its parameter array `cont` (its `paramdim` is the length of the array); mask and
`maskableParams` are arrays of the same length. Random numbers are arguments: `int(random() * n)` is a stream of positions.
-/
namespace Verif.Masked
open Verif.DataSet

/-- attributes of MaskedParameters, maskedparameters.py:14-33 -/
structure Masked (K : Type) where
  mask : List Bool
  vals : List K
  cont : List K
  maxComplexity : Nat
deriving DecidableEq, Repr

variable {K : Type}

/-- `sum(self.mask)` -/
def active (mask : List Bool) : Nat := mask.foldl (fun n b => if b then n + 1 else n) 0

/-- `mask * maskableParams` -/
def masked [Zero K] (mask : List Bool) (vals : List K) : List K := List.zipWith (fun b v => if b then v else 0) mask vals

/-- `_applyMask`, maskedparameters.py:35-37 -/
def applyMask [Zero K] (s : Masked K) : Masked K := { s with cont := masked s.mask s.vals }

/-- the loop of `params`, maskedparameters.py:53-57; the arguments are the remaining positions, `x` and `paramcount` -/
def packLoop : List (Bool × K) → List K → Nat → List K
  | [], x, _ => x
  | (b, v) :: rest, x, pc => if b then packLoop rest (x.set pc v) (pc + 1) else packLoop rest x pc

/-- `params`, maskedparameters.py:46-58 -/
def params [Zero K] (returnZeros : Bool) (s : Masked K) : List K :=
  if returnZeros then s.cont else packLoop (s.mask.zip s.vals) (List.replicate (active s.mask) 0) 0

/-- the loop of `_setParameters`, maskedparameters.py:62-66: the new `maskableParams` and whether IndexError was raised -/
def setLoop : List Bool → List K → List K → Nat → List K × Option Err
  | b :: bs, v :: vs, x, pc =>
    if b then
      match x[pc]? with
      | none => (v :: vs, some .indexError)
      | some y => let r := setLoop bs vs x (pc + 1); (y :: r.1, r.2)
    else let r := setLoop bs vs x pc; (v :: r.1, r.2)
  | _, vs, _, _ => (vs, none)

/-- `_setParameters`, maskedparameters.py:60-67 -/
def setParameters [Zero K] (s : Masked K) (x : List K) : Masked K × Option Err :=
  let r := setLoop s.mask s.vals x 0
  match r.2 with
  | none => (applyMask { s with vals := r.1 }, none)
  | some e => ({ s with vals := r.1 }, some e)

/-- `randomize`, maskedparameters.py:69-83. `on i`: whether `random() > maskOnProbability` at position `i`; `sample over onbits`:
the sample drawn; `new`: the random parameters. -/
def randomize [Zero K] (on : Nat → Bool) (sample : Nat → List Nat → List Nat) (new : List K) (s : Masked K) : Masked K :=
  let n := s.cont.length
  let onbits := (List.range n).filter on
  let mask := (List.range n).map on
  let over := onbits.length - s.maxComplexity
  let mask1 := if over > 0 then (sample over onbits).foldl (fun m i => m.set i false) mask else mask
  applyMask { s with mask := mask1, vals := new }

/-- `__init__`, maskedparameters.py:27-33; `cont` is the container's parameter array before -/
def init [Zero K] (on : Nat → Bool) (sample : Nat → List Nat → List Nat) (new : List K) (cont : List K) (maxComplexity : Option Nat) : Masked K :=
  let s := randomize on sample new { mask := [], vals := [], cont := cont, maxComplexity := maxComplexity.getD cont.length }
  applyMask { s with vals := s.cont }

/-- the loop of maskedparameters.py:92-97: `k` bits are still to be switched off, `pos` random positions were drawn. The first
argument bounds the number of draws. -/
def dropLoop (draw : Nat → Nat) : Nat → Nat → Nat → List Bool → Option (List Bool × Nat)
  | _, 0, pos, mask => some (mask, pos)
  | 0, _ + 1, _, _ => none
  | fuel + 1, k + 1, pos, mask =>
    if mask.getD (draw pos) false then dropLoop draw fuel k (pos + 1) (mask.set (draw pos) false)
    else dropLoop draw fuel (k + 1) (pos + 1) mask

/-- maskedparameters.py:88-90 -/
def flipBits (flip : Nat → Bool) (mask : List Bool) : List Bool := mask.mapIdx (fun i b => if flip i then !b else b)

/-- `topologyMutate`, maskedparameters.py:85-103; `none`: not finished within the fuel -/
def topologyMutate [Zero K] (flip : Nat → Bool) (draw : Nat → Nat) (fuel : Nat) (s : Masked K) : Option (Masked K) :=
  let m1 := flipBits flip s.mask
  match dropLoop draw fuel (active m1 - s.maxComplexity) 0 m1 with
  | none => none
  | some (m2, pos) =>
    let m3 := if active m2 = 0 then m2.set (draw pos) true else m2
    some (applyMask { s with mask := m3 })

/-- `mutate`, maskedparameters.py:105-110 -/
def mutate [Zero K] [Add K] (noise : Nat → K) (s : Masked K) : Masked K :=
  applyMask { s with vals := s.vals.mapIdx (fun i v => v + noise i) }

/-- `TopologyEvolvable.copy`, topology.py:31-39: mask and values are copied, the container is the same object. A pair of an
original and its copy therefore shares `cont`: after an operation on one of them the other's container is that of the first. -/
def opOnCopy (op : Masked K → Masked K) (original copy : Masked K) : Masked K × Masked K :=
  let c := op copy
  ({ original with cont := c.cont }, c)

end Verif.Masked
