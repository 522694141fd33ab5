import Verif.Spec.CartPole
import Mathlib.Analysis.SpecialFunctions.Trigonometric.Deriv
import Mathlib.Analysis.SpecialFunctions.Trigonometric.Bounds
import Mathlib.Analysis.Calculus.Deriv.Pow
import Mathlib.Tactic.Linarith
import Mathlib.Tactic.FieldSimp
import Mathlib.Tactic.LinearCombination
import Mathlib.Tactic.NormNum
import Mathlib.Algebra.BigOperators.Fin
import Mathlib.Tactic.FinCases
/-
C98 The cart-pole simulation follows the mechanics of a pole on a cart.
-/
namespace Verif.CartPole
open Spec Real

/-- sensible constants -/
structure Par.Pos (p : Par) : Prop where
  l : 0 < p.l
  mp : 0 < p.mp
  mc : 0 < p.mc

theorem den_pos (p : Par) (h : p.Pos) (x : Cart) : 0 < 4 / 3 * p.l * (p.mc + p.mp) - p.mp * p.l * cos x.th ^ 2 := by
  have hc : cos x.th ^ 2 ≤ 1 := cos_sq_le_one x.th
  have h1 := h.l
  have h2 := h.mp
  have h3 := h.mc
  have h4 : p.mp * p.l * cos x.th ^ 2 ≤ p.mp * p.l * 1 := mul_le_mul_of_nonneg_left hc (by positivity)
  have h5 : 0 < p.l * p.mc := by positivity
  have h6 : 0 < p.l * p.mp := by positivity
  nlinarith

theorem mirror_derivs (p : Par) (F : ℝ) (x : Cart) : derivs p (-F) (mirror x) = mirror (derivs p F x) := by
  have ha : angAcc p (-F) (mirror x) = -angAcc p F x := by
    simp only [angAcc, mirror, sin_neg, cos_neg]
    rw [← neg_div]
    congr 1
    ring
  have hb : cartAcc p (-F) (mirror x) = -cartAcc p F x := by
    simp only [cartAcc, ha]
    simp only [mirror, sin_neg, cos_neg]
    rw [← neg_div]
    congr 1
    ring
  ext
  · rfl
  · exact ha
  · rfl
  · exact hb

theorem mirror_axpy (x k : Cart) (c : ℝ) : axpy (mirror x) c (mirror k) = mirror (axpy x c k) := by
  ext <;> simp only [axpy, mirror] <;> ring

theorem mirror_rkSum (k1 k2 k3 k4 : Cart) : rkSum (mirror k1) (mirror k2) (mirror k3) (mirror k4) = mirror (rkSum k1 k2 k3 k4) := by
  ext <;> simp only [rkSum, mirror] <;> ring

theorem mirror_step (p : Par) (F : ℝ) (x : Cart) : step p (-F) (mirror x) = mirror (step p F x) := by
  simp only [step, mirror_derivs, mirror_axpy, mirror_rkSum]

theorem shift_derivs (p : Par) (F d : ℝ) (x : Cart) : derivs p F (shift d x) = derivs p F x := rfl

theorem shift_axpy (x k : Cart) (c d : ℝ) : axpy (shift d x) c k = shift d (axpy x c k) := by
  ext <;> simp only [axpy, shift] <;> ring

theorem shift_step (p : Par) (F d : ℝ) (x : Cart) : step p F (shift d x) = shift d (step p F x) := by
  simp only [step, shift_derivs, shift_axpy]

end Verif.CartPole

namespace Verif.Props
open Verif.CartPole Verif.CartPole.Spec Real

/-- **C98.** For positive lengths and masses nothing is divided by zero, and the derivatives are the velocities and the only accelerations
that satisfy the equations of motion of a pole on a cart. -/
theorem C98_equations (p : Par) (h : p.Pos) (F : ℝ) (x : Cart) :
    4 / 3 * p.l * (p.mc + p.mp) - p.mp * p.l * cos x.th ^ 2 ≠ 0 ∧ p.mc + p.mp ≠ 0 ∧
    (derivs p F x).th = x.om ∧ (derivs p F x).s = x.v ∧
    ∀ a b, EquationsOfMotion p F x a b ↔ a = (derivs p F x).om ∧ b = (derivs p F x).v := by
  have hden := den_pos p h x
  have hM : 0 < p.mc + p.mp := add_pos h.mc h.mp
  refine ⟨hden.ne', hM.ne', rfl, rfl, fun a b => ?_⟩
  show _ ↔ a = angAcc p F x ∧ b = cartAcc p F x
  have ha : a = angAcc p F x ↔ a * (4 / 3 * p.l * (p.mc + p.mp) - p.mp * p.l * cos x.th ^ 2) =
      p.g * sin x.th * (p.mc + p.mp) - (F + p.mp * p.l * x.om ^ 2 * sin x.th) * cos x.th := by
    unfold angAcc; exact eq_div_iff hden.ne'
  have hb : b = cartAcc p F x ↔ b * (p.mc + p.mp) = F - p.mp * p.l * (angAcc p F x * cos x.th - x.om ^ 2 * sin x.th) := by
    unfold cartAcc; exact eq_div_iff hM.ne'
  constructor
  · rintro ⟨h1, h2⟩
    have h3 : a = angAcc p F x := by
      rw [ha]
      linear_combination (p.mc + p.mp) * h2 - cos x.th * h1
    refine ⟨h3, hb.2 ?_⟩
    rw [← h3]
    linear_combination h1
  · rintro ⟨h1, h2⟩
    have h3 := ha.1 h1
    have h4 := hb.1 h2
    rw [← h1] at h4
    refine ⟨by linear_combination h4, ?_⟩
    have : (p.mc + p.mp) * (4 / 3 * p.l * a + b * cos x.th) = (p.mc + p.mp) * (p.g * sin x.th) := by
      linear_combination h3 + cos x.th * h4
    exact mul_left_cancel₀ hM.ne' this

/-- **C98, energy.** Along every motion according to the derivatives, the energy of pole and cart changes exactly by the work of the force on
the cart; without force it is constant. -/
theorem C98_energy (p : Par) (h : p.Pos) (F : ℝ → ℝ) (x : ℝ → Cart) (hx : Solves p F x) :
    (∀ t, HasDerivAt (fun t => energy p (x t)) (F t * (x t).v) t) ∧ ((∀ t, F t = 0) → ∀ t t', energy p (x t) = energy p (x t')) := by
  have key : ∀ t, HasDerivAt (fun t => energy p (x t)) (F t * (x t).v) t := by
    intro t
    obtain ⟨h1, h2, -, h4⟩ := hx t
    obtain ⟨-, -, -, -, heq⟩ := C98_equations p h (F t) (x t)
    obtain ⟨e1, e2⟩ := (heq _ _).2 ⟨rfl, rfl⟩
    have hc := h1.cos
    have hs := h1.sin
    unfold energy
    have d := ((((h4.fun_pow 2).const_mul p.mc).div_const 2).fun_add
      (((((h4.fun_add ((h2.const_mul p.l).fun_mul hc)).fun_pow 2).fun_add (((h2.const_mul p.l).fun_mul hs).fun_pow 2)).const_mul p.mp).div_const 2)).fun_add
      ((((h2.fun_pow 2).const_mul (p.mp * (2 * p.l) ^ 2 / 12))).div_const 2) |>.fun_add ((hc.const_mul p.l).const_mul (p.mp * p.g))
    refine d.congr_deriv ?_
    have hsc : sin (x t).th ^ 2 + cos (x t).th ^ 2 = 1 := sin_sq_add_cos_sq _
    simp only [show (derivs p (F t) (x t)).th = (x t).om from rfl]
    simp only [Nat.cast_ofNat, Nat.add_one_sub_one, pow_one]
    linear_combination (x t).v * e1 + p.mp * p.l * (x t).om * e2 + (p.mp * p.l ^ 2 * (x t).om * (derivs p (F t) (x t)).om) * hsc
  refine ⟨key, fun h0 t t' => ?_⟩
  have hd : Differentiable ℝ (fun t => energy p (x t)) := fun t => (key t).differentiableAt
  exact is_const_of_deriv_eq_zero hd (fun t => by rw [(key t).deriv, h0 t, zero_mul]) t t'

/-- **C98, mirror images.** After any sequence of forces, the simulation of the mirrored state with opposite forces is the mirror image. -/
theorem C98_mirror (p : Par) (x : Cart) (Fs : List ℝ) : run p (mirror x) (Fs.map (-·)) = mirror (run p x Fs) := by
  unfold run
  induction Fs generalizing x with
  | nil => rfl
  | cons F Fs ih => rw [List.map_cons, List.foldl_cons, List.foldl_cons, mirror_step, ih]

/-- **C98, shifts.** The motion does not depend on where on the track the cart is. -/
theorem C98_shift (p : Par) (x : Cart) (d : ℝ) (Fs : List ℝ) : run p (shift d x) Fs = shift d (run p x Fs) := by
  unfold run
  induction Fs generalizing x with
  | nil => rfl
  | cons F Fs ih => rw [List.foldl_cons, List.foldl_cons, shift_step, ih]

/-- **C98, rest.** A pole at rest exactly upright (or hanging exactly down) on a cart at rest stays so without a force, however many steps. -/
theorem C98_rest (p : Par) (s th : ℝ) (hth : sin th = 0) (n : Nat) :
    run p { th := th, om := 0, s := s, v := 0 } (List.replicate n 0) = { th := th, om := 0, s := s, v := 0 } := by
  have hd : derivs p 0 { th := th, om := 0, s := s, v := 0 } = { th := 0, om := 0, s := 0, v := 0 } := by
    ext <;> simp [derivs, angAcc, cartAcc, hth]
  have ha : ∀ c, axpy { th := th, om := 0, s := s, v := 0 } c { th := 0, om := 0, s := 0, v := 0 } = { th := th, om := 0, s := s, v := 0 } := by
    intro c; simp [axpy]
  have hstep : step p 0 { th := th, om := 0, s := s, v := 0 } = { th := th, om := 0, s := s, v := 0 } := by
    simp only [step, hd, ha]
    simp [rkSum, axpy]
  unfold run
  induction n with
  | zero => rfl
  | succ n ih => rw [List.replicate_succ, List.foldl_cons, hstep, ih]

/-- the constants of both environments are sensible, and there are motions: the pole at rest -/
example : par0.Pos ∧ par2.Pos ∧ Solves par0 (fun _ => 0) (fun _ => { th := 0, om := 0, s := 1, v := 0 }) := by
  refine ⟨⟨?_, ?_, ?_⟩, ⟨?_, ?_, ?_⟩, ?_⟩
  iterate 6 (norm_num [par0, par2])
  intro t
  simp only [derivs, angAcc, cartAcc, sin_zero]
  refine ⟨by simpa using hasDerivAt_const t (0 : ℝ), ?_, by simpa using hasDerivAt_const t (1 : ℝ), ?_⟩
  · simpa using hasDerivAt_const t (0 : ℝ)
  · simpa using hasDerivAt_const t (0 : ℝ)

/-- **C98, negation (linearized environment).** In CartPoleLinEnvironment the cart does not move, whatever its velocity and whatever force is
applied: apart from the noise its position stays the same at every step, while its velocity grows with the position, the angle with the scaled
angular velocity and the angular velocity hardly with the angle. (`sensors * A` multiplies by the transposed matrix.) -/
theorem C98_negation_linear (steps : List ((Fin 4 → ℝ) × ℝ)) (x : Fin 4 → ℝ) (h : ∀ st ∈ steps, st.1 = 0) :
    (steps.foldl (fun x st => linStep st.1 st.2 x) x) 2 = x 2 ∧
    ∀ F, linStep 0 F x 0 = x 0 + 13.2 / 60 * x 1 ∧ linStep 0 F x 1 = x 1 + x 0 / 60 + F * (13.2 / 60 / 9.80665) ∧
      linStep 0 F x 3 = x 3 + x 2 / 60 + F / 60 := by
  constructor
  · induction steps generalizing x with
    | nil => rfl
    | cons st steps ih =>
      rw [List.foldl_cons, ih _ (fun s hs => h s (by simp [hs]))]
      simp [linStep, Fin.sum_univ_four, linA, linB, h st (by simp)]
  · intro F
    refine ⟨?_, ?_, ?_⟩ <;> simp [linStep, Fin.sum_univ_four, linA, linB, tau, nu] <;> ring

end Verif.Props
