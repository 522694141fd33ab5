import Verif.Model.Network
import Mathlib.Data.Real.Basic
import Mathlib.Algebra.BigOperators.Group.Finset.Basic
/-
Specification of a convolutional network with one layer of feature maps.

`X r s c` is channel `c` of the input at row `r` and column `s`.
-/
namespace Verif.Conv.Spec
open Verif.Net

/-- feature `m` at `(i, j)`: the windows is `w` cells wide and starts at `(i, j)`; `K k m l c` is the weight of row `k`, column `l` of the window, channel `c`, in feature map `m` -/
noncomputable def feature (f : ℝ → ℝ) (channels w : Nat) (K : Nat → Nat → Nat → Nat → ℝ) (X : Nat → Nat → Nat → ℝ) (i j m : Nat) : ℝ :=
  f (∑ k ∈ Finset.range w, ∑ l ∈ Finset.range w, ∑ c ∈ Finset.range channels, K k m l c * X (i + k) (j + l) c)

/-- the output at `(i, j)` combines the features there -/
noncomputable def output (f g : ℝ → ℝ) (channels w maps : Nat) (K : Nat → Nat → Nat → Nat → ℝ) (wout : Nat → ℝ) (X : Nat → Nat → Nat → ℝ) (i j : Nat) : ℝ :=
  g (∑ m ∈ Finset.range maps, wout m * feature f channels w K X i j m)

/-- a board of `n` by `n` cells with `before` cells of the constant `β` before the first row and column, and arbitrarily many after the last -/
def padded (n before : Nat) (β : Nat → ℝ) (X : Nat → Nat → Nat → ℝ) (r s c : Nat) : ℝ :=
  if (before ≤ r ∧ r < before + n) ∧ (before ≤ s ∧ s < before + n) then X (r - before) (s - before) c else β c

end Verif.Conv.Spec
