import Verif.Model.Bidirectional
/-
Specification of bidirectional recurrent networks: one recurrent layer reads the sequence from the first element to the last, another one
from the last to the first; the output at each position combines the states of both at that position.
-/
namespace Verif.Bidir.Spec
open Verif.Net

/-- the states of a simple recurrent layer with `h` neurons reading `x 0, x 1, ...` (`n` entries each): `s_t = f (Win x_t + Wrec s_{t-1})`; `W j i` is the weight
from entry `i` to entry `j` -/
noncomputable def states (f : ℝ → ℝ) (n h : Nat) (win wrec : Nat → Nat → ℝ) (x : Nat → Nat → ℝ) : Nat → Nat → ℝ
  | 0, j => f (∑ i ∈ Finset.range n, win j i * x 0 i)
  | t + 1, j => f ((∑ i ∈ Finset.range n, win j i * x (t + 1) i) + ∑ i ∈ Finset.range h, wrec j i * states f n h win wrec x t i)

/-- the output at position `t` of a sequence of length `T`; `win true` are the weights of the forward layer -/
noncomputable def output (f g : ℝ → ℝ) (n h T : Nat) (win wrec wout : Bool → Nat → Nat → ℝ) (x : Nat → Nat → ℝ) (t j : Nat) : ℝ :=
  g ((∑ i ∈ Finset.range h, wout true j i * states f n h (win true) (wrec true) x t i) +
     ∑ i ∈ Finset.range h, wout false j i * states f n h (win false) (wrec false) (fun k => x (T - 1 - k)) (T - 1 - t) i)

end Verif.Bidir.Spec
