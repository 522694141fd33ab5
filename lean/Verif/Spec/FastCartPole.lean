import Mathlib.Analysis.SpecialFunctions.Trigonometric.Basic
/-
Specification for the fast cart-pole: equations of motion of a cart with hinged uniform poles, and the classical Runge-Kutta step.
-/
namespace Verif.FastCart.Spec
open Real

/-- a pole: mass, half its length, angle, angular velocity -/
structure Pole where
  m : ℝ
  l : ℝ
  th : ℝ
  om : ℝ

/-- A pole with friction `μ` at its hinge, on a cart with acceleration `a`: `α` is its angular acceleration (gravity `g` counted downwards, angles from the upright). -/
def PoleEq (g μ a : ℝ) (p : Pole) (α : ℝ) : Prop := 4 / 3 * p.l * α = g * sin p.th - a * cos p.th - μ * p.om / (p.m * p.l)

/-- what a pole adds to the balance of horizontal momentum -/
noncomputable def pull (a : ℝ) (p : Pole) (α : ℝ) : ℝ := p.m * (a + p.l * (α * cos p.th - p.om ^ 2 * sin p.th))

/-- Newton's law in the horizontal direction for a cart of mass `M` with some poles under the force `F` -/
def CartEq (M F a : ℝ) (ps : List (Pole × ℝ)) : Prop := M * a + (ps.map fun p => pull a p.1 p.2).sum = F

/-- one step of the classical Runge-Kutta method -/
noncomputable def rungeKutta {n : Nat} (G : (Fin n → ℝ) → Fin n → ℝ) (h : ℝ) (y : Fin n → ℝ) : Fin n → ℝ :=
  let k1 := G y
  let k2 := G (y + (h / 2) • k1)
  let k3 := G (y + (h / 2) • k2)
  let k4 := G (y + h • k3)
  y + (h / 6) • (k1 + (2 : ℝ) • k2 + (2 : ℝ) • k3 + k4)

/-- The state holds position and velocity of the cart, and angle and angular velocity of each pole: the long one (100 g, half a metre to its centre) and the short one (10 g, 5 cm). -/
noncomputable def pole1 (y : Fin 6 → ℝ) : Pole := ⟨0.1, 0.5, y 2, y 3⟩
noncomputable def pole2 (y : Fin 6 → ℝ) : Pole := ⟨0.01, 0.05, y 4, y 5⟩

/-- `d` is the derivative of the state `y` of a cart with one pole, or two, under the force `F` -/
structure Motion (np : Nat) (F : ℝ) (y d : Fin 6 → ℝ) : Prop where
  cart : d 0 = y 1
  angle : d 2 = y 3
  pole : PoleEq 9.8 0.000002 (d 1) (pole1 y) (d 3)
  one : np ≤ 1 → d 4 = 0 ∧ d 5 = 0 ∧ CartEq 1 F (d 1) [(pole1 y, d 3)]
  two : 1 < np → d 4 = y 5 ∧ PoleEq 9.8 0.000002 (d 1) (pole2 y) (d 5) ∧ CartEq 1 F (d 1) [(pole1 y, d 3), (pole2 y, d 5)]

end Verif.FastCart.Spec
