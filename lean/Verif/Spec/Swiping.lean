import Verif.Model.Swiping
import Verif.Spec.Mesh
/-
Specification of swiping: 2^n times a unit is moved over the n-dimensional grid of inputs, from each of its corners; at every place it combines the input there
with its own states at the neighbours it comes from. The output at a place combines the states of all swipes there.
-/
namespace Verif.Swiping.Spec
open Verif.Mesh.Spec Verif.Net

/-- in dimension `d`, swipe `s` goes towards higher coordinates -/
def Up (s d : Nat) : Prop := (s / 2 ^ d) % 2 = 0

instance (s d : Nat) : Decidable (Up s d) := inferInstanceAs (Decidable (_ = _))

/-- where swipe `s` comes from, in dimension `d`, at unit `u`; nowhere at the border -/
def prev (dims : List Nat) (s d : Nat) (u : List Nat) : Option (List Nat) :=
  if Up s d then (if u.getD d 0 = 0 then none else some (u.set d (u.getD d 0 - 1)))
  else (if u.getD d 0 + 1 < dims.getD d 0 then some (u.set d (u.getD d 0 + 1)) else none)

/-- the weights: `W j i` is the weight from entry `i` to entry `j` -/
structure Weights where
  win : Nat → Nat → ℝ
  wout : Nat → Nat → ℝ
  wh : Nat → Bool → Nat → Nat → ℝ

/-- `H u s` is the state of swipe `s` at unit `u`, for the inputs `x u`: the equations of the swipes -/
def Swipes (c : Cfg) (W : Weights) (x : List Nat → Nat → ℝ) (H : List Nat → Nat → Nat → ℝ) : Prop :=
  ∀ u, InGrid c.dims u → ∀ s < 2 ^ c.dims.length, ∀ j < c.hsize, H u s j = c.f ((∑ i ∈ Finset.range c.insize, W.win j i * x u i) +
    ∑ d ∈ Finset.range c.dims.length, (prev c.dims s d u).elim 0 fun v => ∑ i ∈ Finset.range c.hsize, W.wh d (decide (Up s d)) j i * H v s i)

/-- the output at unit `u` -/
noncomputable def result (c : Cfg) (W : Weights) (H : List Nat → Nat → Nat → ℝ) (u : List Nat) (j : Nat) : ℝ :=
  c.g (∑ s ∈ Finset.range (2 ^ c.dims.length), ∑ i ∈ Finset.range c.hsize, W.wout j i * H u s i)

/-- the unit on the opposite side in dimension `d` -/
def mirror (dims : List Nat) (d : Nat) (u : List Nat) : List Nat := u.set d (dims.getD d 0 - 1 - u.getD d 0)

/-- coordinates `a` and `b` exchanged -/
def exchange (a b : Nat) (u : List Nat) : List Nat := (u.set a (u.getD b 0)).set b (u.getD a 0)

/-- swipe `s` visits `v` before `u`, or they are the same unit: in no dimension `v` lies ahead -/
def Behind (dims : List Nat) (s : Nat) (v u : List Nat) : Prop :=
  ∀ d < dims.length, if Up s d then v.getD d 0 ≤ u.getD d 0 else u.getD d 0 ≤ v.getD d 0

/-- the weights in the MotherConnections -/
def weights (c : Cfg) (θ : Mother → Vec ℝ) : Weights where
  win := fun j i => θ .inconn (j * c.insize + i)
  wout := fun j i => θ .outconn (j * c.hsize + i)
  wh := fun d up j i =>
    if c.symmetricdirections then θ (.h (if 0 < d ∧ c.symmetricdimensions = true then 0 else d)) (j * c.hsize + i)
    else θ (.hd (if 0 < d ∧ c.symmetricdimensions = true then 0 else d) up) (j * c.hsize + i)

/-- the input of unit `u`, in the flat input -/
def inputAt (c : Cfg) (x : Vec ℝ) (u : List Nat) (i : Nat) : ℝ := x (c.insize * rowMajor c.dims u + i)

/-- sizes for which a network can be built -/
structure Cfg.Ok (c : Cfg) : Prop where
  dims : c.dims ≠ []
  two : ∀ d ∈ c.dims, 1 < d
  ins : 0 < c.insize
  outs : 0 < c.outputs
  hid : 0 < c.hsize

end Verif.Swiping.Spec
