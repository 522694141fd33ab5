import Verif.Model.CartPole
import Mathlib.Analysis.Calculus.Deriv.Basic
/-
Specifications for C98 and C99: the mechanics of a pole on a cart, mirror images and shifts of states, outcomes of balancing episodes.

The pole is a uniform rod of length 2 l and mass mp, fixed with one end to a cart of mass mc on a line; the angle is measured from the
upright position; the force F acts on the cart; there is no friction.
-/
namespace Verif.CartPole.Spec
open Verif.CartPole Real

/-- Newton's laws (Lagrange's equations) for the angular acceleration `a` of the pole and the acceleration `b` of the cart -/
def EquationsOfMotion (p : Par) (F : ℝ) (x : Cart) (a b : ℝ) : Prop :=
  (p.mc + p.mp) * b + p.mp * p.l * (a * cos x.th - x.om ^ 2 * sin x.th) = F ∧
  4 / 3 * p.l * a + b * cos x.th = p.g * sin x.th

/-- the energy: cart, translation of the rod's centre at (s + l sin θ, l cos θ), rotation of the rod, height of the rod's centre -/
noncomputable def energy (p : Par) (x : Cart) : ℝ :=
  p.mc * x.v ^ 2 / 2 + p.mp * ((x.v + p.l * x.om * cos x.th) ^ 2 + (p.l * x.om * sin x.th) ^ 2) / 2 +
    (p.mp * (2 * p.l) ^ 2 / 12) * x.om ^ 2 / 2 + p.mp * p.g * (p.l * cos x.th)

/-- `x` moves according to `_derivs` under the force `F` -/
def Solves (p : Par) (F : ℝ → ℝ) (x : ℝ → Cart) : Prop :=
  ∀ t, HasDerivAt (fun t => (x t).th) (derivs p (F t) (x t)).th t ∧ HasDerivAt (fun t => (x t).om) (derivs p (F t) (x t)).om t ∧
    HasDerivAt (fun t => (x t).s) (derivs p (F t) (x t)).s t ∧ HasDerivAt (fun t => (x t).v) (derivs p (F t) (x t)).v t

/-- left and right exchanged -/
def mirror (x : Cart) : Cart := { th := -x.th, om := -x.om, s := -x.s, v := -x.v }

/-- the cart placed `d` further to the right -/
def shift (d : ℝ) (x : Cart) : Cart := { x with s := x.s + d }

/-- one action after the other -/
noncomputable def run (p : Par) (x : Cart) (Fs : List ℝ) : Cart := Fs.foldl (fun x F => step p F x) x

end Verif.CartPole.Spec

namespace Verif.CartPole.Spec
open Verif.CartPole Real

/-- the goal of balancing with one pole: nearly upright, nearly in the middle -/
def Centred (x : Cart) : Prop := |x.th| < 0.05 ∧ |x.s| < 0.05

/-- the pole has fallen or the cart has left the track -/
def Lost (x : Cart) : Prop := 0.7 < |x.th| ∨ 2.4 < |x.s|

/-- the force meant by an action: 50 Newton times the action, between -50 and 50 -/
noncomputable def newton (a : ℝ) : ℝ := min (max (50 * a) (-50)) 50

/-- the state after the first `k` of the actions -/
noncomputable def after (p : Par) (x : Cart) (as : List ℝ) (k : Nat) : Cart := run p x ((as.take k).map newton)

end Verif.CartPole.Spec
