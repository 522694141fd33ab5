import Verif.Model.EvolinoNet
/-
Specification of Evolino networks: an LSTM network that sees its own last output, or the last value of a given sequence, scaled.
-/
namespace Verif.EvoNet.Spec
open Verif.EvoNet
open Verif.Lstm (Trans)

/-- what is remembered between two steps: the states and outputs of the LSTM cells, and the last output of the network -/
structure Mem where
  c : Nat → ℝ
  h : Nat → ℝ
  y : Nat → ℝ

/-- the memory at the beginning -/
def zero : Mem := ⟨fun _ => 0, fun _ => 0, fun _ => 0⟩

/-- the input number `k` of the LSTM layer (its four blocks are for input gates, forget gates, cells and output gates) -/
noncomputable def input (d : Dims) (w : Weights) (factor : ℝ) (m : Mem) (k : Nat) : ℝ :=
  ∑ i ∈ Finset.range d.hid, w.wrec (k * d.hid + i) * m.h i + ∑ i ∈ Finset.range d.out, w.win (k * d.out + i) * (m.y i * factor) + w.wbias k

/-- one step -/
noncomputable def step (T : Trans ℝ) (d : Dims) (w : Weights) (factor : ℝ) (m : Mem) : Mem :=
  let z := input d w factor m
  let c : Nat → ℝ := fun j => T.f (z j) * T.g (z (2 * d.hid + j)) + T.f (z (d.hid + j)) * m.c j
  let h : Nat → ℝ := fun j => T.f (z (3 * d.hid + j)) * T.h (c j)
  { c := c, h := h, y := fun o => ∑ i ∈ Finset.range d.hid, w.wout (o * d.hid + i) * h i }

/-- the memory after the values of a sequence have been forced upon the network -/
noncomputable def force (T : Trans ℝ) (d : Dims) (w : Weights) (factor : ℝ) : Mem → List (Nat → ℝ) → Mem
  | m, [] => m
  | m, v :: seq => force T d w factor { step T d w factor m with y := v } seq

/-- the steps that are taken meanwhile -/
noncomputable def forcedSteps (T : Trans ℝ) (d : Dims) (w : Weights) (factor : ℝ) : Mem → List (Nat → ℝ) → List Mem
  | _, [] => []
  | m, v :: seq => step T d w factor m :: forcedSteps T d w factor { step T d w factor m with y := v } seq

/-- the outputs when the network runs freely -/
noncomputable def free (T : Trans ℝ) (d : Dims) (w : Weights) (factor : ℝ) : Mem → Nat → List (Nat → ℝ)
  | _, 0 => []
  | m, n + 1 => (step T d w factor m).y :: free T d w factor (step T d w factor m) n

/-- the sum of squared errors of output `o` in one-step predictions of a sequence of targets, after the network has seen `seen` -/
noncomputable def predictionError (T : Trans ℝ) (d : Dims) (w : Weights) (factor : ℝ) (seen targets : List (Nat → ℝ)) (o : Nat) : ℝ :=
  (((forcedSteps T d w factor (force T d w factor zero seen) targets).zip targets).map fun p => (p.1.y o - p.2 o) ^ 2).sum

end Verif.EvoNet.Spec
