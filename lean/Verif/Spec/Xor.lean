import Verif.Model.Xor
import Mathlib.Algebra.BigOperators.Group.List.Basic
/-
Specifications for C102: interactions with the XOR tasks.
-/
namespace Verif.Xor.Spec
open Verif.Xor

/-- one interaction: observation, action (chosen from the observation), and what is then recorded; `u` is the random number of the reward -/
noncomputable def interact (o : Opts) (draw : Option (Nat × Nat)) (u : ℝ) (policy : Nat × Nat → Nat) (x : Xor) : Except Exc Xor :=
  let (d, x') := getObservation o draw x
  performAction o u x' (policy d)

/-- one interaction with the chain -/
noncomputable def interactChain (o : Opts) (u : ℝ) (policy : Nat × Nat → Nat) (x : Chain) : Except Exc Chain :=
  let (d, x') := observeChain x
  performChain o u x' (policy d)

/-- interactions one after the other -/
noncomputable def runXor (o : Opts) (x : Xor) : List (Option (Nat × Nat) × ℝ × (Nat × Nat → Nat)) → Except Exc Xor
  | [] => .ok x
  | (d, u, p) :: rest => match interact o d u p x with
    | .error e => .error e
    | .ok x' => runXor o x' rest

/-- interactions with the chain one after the other -/
noncomputable def runChain (o : Opts) (x : Chain) : List (ℝ × (Nat × Nat → Nat)) → Except Exc Chain
  | [] => .ok x
  | (u, p) :: rest => match interactChain o u p x with
    | .error e => .error e
    | .ok x' => runChain o x' rest

/-- the right answer as a truth table: both bits 1, or exactly one of them 1 -/
def answer (andTask : Bool) (d : Nat × Nat) : Nat :=
  if andTask then (if d.1 = 1 ∧ d.2 = 1 then 1 else 0) else (if (d.1 = 1 ∧ d.2 = 0) ∨ (d.1 = 0 ∧ d.2 = 1) then 1 else 0)

/-- bits -/
def Bits (d : Nat × Nat) : Prop := d.1 < 2 ∧ d.2 < 2

end Verif.Xor.Spec
