import Verif.Model.Border
import Verif.Spec.Swiping
/-
Specification of swiping with borders: where a swipe enters the grid in some dimension, it gets the weights of the border instead of a state.
-/
namespace Verif.Border.Spec
open Verif.Mesh.Spec Verif.Net Verif.Swiping Verif.Swiping.Spec

/-- the equations of the swipes; `B d u` are the weights of the border in dimension `d` at unit `u` -/
def BorderSwipes (c : Cfg) (W : Weights) (B : Nat → List Nat → Nat → ℝ) (x : List Nat → Nat → ℝ) (H : List Nat → Nat → Nat → ℝ) : Prop :=
  ∀ u, InGrid c.dims u → ∀ s < 2 ^ c.dims.length, ∀ j < c.hsize, H u s j = c.f ((∑ i ∈ Finset.range c.insize, W.win j i * x u i) +
    ∑ d ∈ Finset.range c.dims.length, (prev c.dims s d u).elim (B d u j) fun v => ∑ i ∈ Finset.range c.hsize, W.wh d (decide (Up s d)) j i * H v s i)

/-- the distance from the nearer side, for all coordinates but number `d` -/
def depth (dims : List Nat) (d : Nat) (u : List Nat) : List Nat := List.zipWith (fun n x => min (n - 1 - x) x) (dims.eraseIdx d) (u.eraseIdx d)

/-- the place can be found along the border in dimension 0 too -/
def Shared (dims : List Nat) (t : List Nat) : Prop := List.Forall₂ (fun x n => x < n ∧ 2 * x < n) t (dims.eraseIdx 0)

open Classical in
/-- the container of the weights of a border: with symmetric dimensions those of a place at the given depth, shared with dimension 0 if there is such a place; otherwise one for each place and dimension -/
noncomputable def container (c : Cfg) (simple : Bool) (d : Nat) (u : List Nat) : Mother :=
  if simple then .border
  else if c.symmetricdimensions then .bord (if Shared c.dims (depth c.dims d u) then 0 else d) (depth c.dims d u)
  else .bord d (u.eraseIdx d)

/-- the weights of the borders -/
noncomputable def borders (c : Cfg) (simple : Bool) (θ : Mother → Vec ℝ) (d : Nat) (u : List Nat) (j : Nat) : ℝ := θ (container c simple d u) j

end Verif.Border.Spec
