import Verif.Props.Classic
import Mathlib.Analysis.SpecialFunctions.Trigonometric.Deriv
import Mathlib.Tactic.FieldSimp
import Mathlib.Tactic.Ring
import Mathlib.Tactic.LinearCombination
/-
C101 Acrobot.
-/
namespace Verif.Classic
open Spec Real

theorem d1_pos (x : Arm) : 0 < d1 x := by
  have := neg_one_le_cos x.t2
  unfold d1 lc
  norm_num
  linarith

theorem den2_pos (x : Arm) : 0 < lc ^ 2 + 1 - d2 x * d2 x / d1 x := by
  have h1 := d1_pos x
  rw [sub_pos, div_lt_iff₀ h1]
  have hc := neg_one_le_cos x.t2
  have hc1 := cos_le_one x.t2
  unfold d1 d2 lc
  norm_num
  nlinarith

/-- the accelerations solve the two linear equations -/
theorem accel_iff (torque : ℝ) (x : Arm) (a b : ℝ) :
    (d1 x * a + d2 x * b + phi1 x = 0 ∧ d2 x * a + (lc ^ 2 + 1) * b + lc * x.w1 ^ 2 * sin x.t2 + phi2 x = torque) ↔ a = accel1 torque x ∧ b = accel2 torque x := by
  have h1 := (d1_pos x).ne'
  have h2 := (den2_pos x).ne'
  constructor
  · rintro ⟨e1, e2⟩
    have ha : a = -(d2 x * b + phi1 x) / d1 x := by
      rw [eq_div_iff h1]; linarith
    have hb : b = accel2 torque x := by
      unfold accel2
      rw [eq_div_iff h2]
      rw [ha] at e2
      rw [← e2]
      field_simp
      ring
    exact ⟨by rw [ha, hb]; rfl, hb⟩
  · rintro ⟨rfl, rfl⟩
    have hb : accel2 torque x * (lc ^ 2 + 1 - d2 x * d2 x / d1 x) = torque + phi1 x * (d2 x / d1 x) - lc * x.w1 * x.w1 * sin x.t2 - phi2 x := by
      unfold accel2
      rw [div_mul_cancel₀ _ h2]
    have ha : d1 x * accel1 torque x = -(d2 x * accel2 torque x + phi1 x) := by
      unfold accel1
      rw [mul_div_cancel₀ _ h1]
    refine ⟨by rw [ha]; ring, ?_⟩
    have hd : d2 x * accel1 torque x = -(d2 x * accel2 torque x + phi1 x) * (d2 x / d1 x) := by
      rw [← ha]; field_simp
    rw [hd]
    have e3 : d2 x * accel2 torque x * (d2 x / d1 x) = accel2 torque x * (d2 x * d2 x / d1 x) := by ring
    linear_combination hb - e3

theorem cut_bound (w M : ℝ) (h : 0 ≤ M) : |cut w M| ≤ M := by
  unfold cut
  simp only
  rw [abs_le]
  split_ifs <;> constructor <;> linarith

theorem cut_neg (w M : ℝ) (h : 0 ≤ M) : cut (-w) M = -cut w M := by
  unfold cut
  simp only
  split_ifs <;> linarith

theorem wrap_bound (t : ℝ) (h : |t| ≤ 3 * π) : |wrap t| ≤ π := by
  have hp := pi_pos
  rw [abs_le] at h ⊢
  unfold wrap
  split_ifs with h1 h2 <;> constructor <;> linarith [h.1, h.2]

theorem wrap_neg (t : ℝ) : wrap (-t) = -wrap t := by
  have hp := pi_pos
  unfold wrap
  split_ifs <;> linarith

theorem sub_bound (torque : ℝ) (x : Arm) : |(armSub torque x).w1| ≤ 4 * π ∧ |(armSub torque x).w2| ≤ 9 * π ∧
    |(armSub torque x).t1| ≤ |x.t1| + 0.2 * π ∧ |(armSub torque x).t2| ≤ |x.t2| + 0.45 * π := by
  have hp := pi_pos
  have h1 : |(armSub torque x).w1| ≤ 4 * π := cut_bound _ _ (by positivity)
  have h2 : |(armSub torque x).w2| ≤ 9 * π := cut_bound _ _ (by positivity)
  refine ⟨h1, h2, ?_, ?_⟩
  · show |x.t1 + (armSub torque x).w1 * dt| ≤ _
    refine (abs_add_le _ _).trans ?_
    rw [abs_mul, show |dt| = 0.05 by unfold dt; norm_num]
    linarith
  · show |x.t2 + (armSub torque x).w2 * dt| ≤ _
    refine (abs_add_le _ _).trans ?_
    rw [abs_mul, show |dt| = 0.05 by unfold dt; norm_num]
    linarith

/-- the state is inside the documented ranges -/
def InRange (x : Arm) : Prop := |x.t1| ≤ π ∧ |x.t2| ≤ π ∧ |x.w1| ≤ 4 * π ∧ |x.w2| ≤ 9 * π

theorem act_range (torque : ℝ) (x : Arm) (h : InRange x) : InRange (armAct torque x) := by
  have hp := pi_pos
  have s1 := sub_bound torque x
  have s2 := sub_bound torque (armSub torque x)
  have s3 := sub_bound torque (armSub torque (armSub torque x))
  have s4 := sub_bound torque (armSub torque (armSub torque (armSub torque x)))
  exact ⟨wrap_bound _ (by linarith [h.1, s1.2.2.1, s2.2.2.1, s3.2.2.1, s4.2.2.1]), wrap_bound _ (by linarith [h.2.1, s1.2.2.2, s2.2.2.2, s3.2.2.2, s4.2.2.2]), s4.1, s4.2.1⟩

theorem range_of_reachable (m : Sim Arm) (ha : m.act = armAct) (h0 : InRange m.init) (hf : ∀ x, InRange x → InRange (m.fix x)) (e : Ep Arm) (h : Reachable m e) : InRange e.state := by
  induction h with
  | start => exact h0
  | next e e' c he hc ih =>
    cases c with
    | reset => simp only [call, Except.ok.injEq] at hc; subst hc; exact h0
    | ask =>
      simp only [call, Except.ok.injEq] at hc
      subst hc
      unfold isFinished
      split_ifs
      · exact h0
      · exact ih
    | act a =>
      simp only [call, perform] at hc
      split_ifs at hc with hd
      · simp only [Except.ok.injEq] at hc
        subst hc
        exact hf _ ih
      · cases hfo : Py.getIdx actionList a with
        | none => rw [hfo] at hc; simp at hc
        | some force =>
          rw [hfo] at hc
          simp only [Except.ok.injEq] at hc
          subst hc
          apply hf
          rw [ha]
          exact act_range _ _ ih

theorem mirror_accel (torque : ℝ) (x : Arm) : accel1 (-torque) (mirror x) = -accel1 torque x ∧ accel2 (-torque) (mirror x) = -accel2 torque x := by
  have e1 : d1 (mirror x) = d1 x := by simp [d1, mirror]
  have e2 : d2 (mirror x) = d2 x := by simp [d2, mirror]
  have e3 : phi2 (mirror x) = -phi2 x := by
    simp only [phi2, mirror, cos_sub_pi_div_two]
    rw [show -x.t1 + -x.t2 = -(x.t1 + x.t2) by ring, sin_neg]; ring
  have e4 : phi1 (mirror x) = -phi1 x := by
    unfold phi1
    rw [e3]
    simp only [mirror, cos_sub_pi_div_two, sin_neg]
    ring
  have h2 : accel2 (-torque) (mirror x) = -accel2 torque x := by
    unfold accel2
    rw [e1, e2, e3, e4, ← neg_div]
    congr 1
    simp only [mirror, sin_neg]
    ring
  refine ⟨?_, h2⟩
  unfold accel1
  rw [h2, e1, e2, e4]
  ring

theorem mirror_sub (torque : ℝ) (x : Arm) : armSub (-torque) (mirror x) = mirror (armSub torque x) := by
  have hp := pi_pos
  obtain ⟨h1, h2⟩ := mirror_accel torque x
  have c1 : cut (-x.w1 + -accel1 torque x * dt) (4 * π) = -cut (x.w1 + accel1 torque x * dt) (4 * π) := by
    rw [← cut_neg _ _ (by positivity)]; congr 1; ring
  have c2 : cut (-x.w2 + -accel2 torque x * dt) (9 * π) = -cut (x.w2 + accel2 torque x * dt) (9 * π) := by
    rw [← cut_neg _ _ (by positivity)]; congr 1; ring
  unfold armSub
  rw [h1, h2]
  simp only [mirror]
  rw [c1, c2]
  ext <;> simp only <;> ring

theorem mirror_act (torque : ℝ) (x : Arm) : armAct (-torque) (mirror x) = mirror (armAct torque x) := by
  unfold armAct
  simp only [mirror_sub]
  ext <;> simp only [mirror, wrap_neg]

theorem energy_eq (x : Arm) : energy x = x.w1 ^ 2 / 8 + x.w1 ^ 2 / 2 + (x.w1 ^ 2 + (x.w1 + x.w2) ^ 2 / 4 + x.w1 * (x.w1 + x.w2) * cos x.t2) / 2 + (x.w1 + x.w2) ^ 2 / 2 -
    14.7 * cos x.t1 - 4.9 * cos (x.t1 + x.t2) := by
  have hc : cos x.t2 = cos (x.t1 + x.t2) * cos x.t1 + sin (x.t1 + x.t2) * sin x.t1 := by
    rw [← cos_sub]; congr 1; ring
  have h1 := sin_sq_add_cos_sq x.t1
  have h2 := sin_sq_add_cos_sq (x.t1 + x.t2)
  unfold energy
  linear_combination (x.w1 ^ 2 / 8 + x.w1 ^ 2 / 2) * h1 + (x.w1 + x.w2) ^ 2 / 8 * h2 - x.w1 * (x.w1 + x.w2) / 2 * hc

theorem forceOf_rev (a : Fin 3) : forceOf (Fin.rev a) = -forceOf a := by
  fin_cases a <;> norm_num [forceOf, Fin.rev]

end Verif.Classic

namespace Verif.Props
open Verif.Classic Verif.Classic.Spec Real

/-- **C101, ranges.** In every state AcrobotTask, its variants and SingleArmSwinger can get into, by whatever calls, the angles are within π and the
angular velocities within 4π and 9π, as documented. The denominators of the simulation are never 0. -/
theorem C101_ranges (target : ℝ) (easy : Bool) (maxSteps : Nat) (rs : Bool) (e : Ep Arm) :
    (Reachable (acrobot target easy maxSteps rs) e → |e.state.t1| ≤ π ∧ |e.state.t2| ≤ π ∧ |e.state.w1| ≤ 4 * π ∧ |e.state.w2| ≤ 9 * π) ∧
    (Reachable (swinger target easy maxSteps rs) e → e.state.t1 = π ∧ |e.state.t2| ≤ π ∧ e.state.w1 = 0 ∧ |e.state.w2| ≤ 9 * π) ∧
    ∀ x, d1 x ≠ 0 ∧ lc ^ 2 + 1 - d2 x * d2 x / d1 x ≠ 0 := by
  have hp := pi_pos
  refine ⟨fun h => ?_, fun h => ?_, fun x => ⟨(d1_pos x).ne', (den2_pos x).ne'⟩⟩
  · refine range_of_reachable _ rfl ?_ (fun _ hx => hx) e h
    refine ⟨?_, ?_, ?_, ?_⟩ <;> simp [acrobot] <;> positivity
  · have hr : InRange e.state := by
      refine range_of_reachable _ rfl ?_ (fun x hx => ⟨?_, hx.2.1, ?_, hx.2.2.2⟩) e h
      · refine ⟨?_, ?_, ?_, ?_⟩ <;> simp [swinger, abs_of_pos hp] <;> positivity
      · simp [swinger, abs_of_pos hp]
      · simp only [swinger, abs_zero]; positivity
    have hfix : e.state.t1 = π ∧ e.state.w1 = 0 := by
      cases h with
      | start => exact ⟨rfl, rfl⟩
      | next e₀ _ c he hc =>
        clear hr
        induction he generalizing c e with
        | start =>
          cases c with
          | reset => simp only [call, Except.ok.injEq] at hc; subst hc; exact ⟨rfl, rfl⟩
          | ask => simp only [call, Except.ok.injEq] at hc; subst hc; unfold isFinished; split_ifs <;> exact ⟨rfl, rfl⟩
          | act a =>
            simp only [call, perform] at hc
            split_ifs at hc
            · simp only [Except.ok.injEq] at hc; subst hc; exact ⟨rfl, rfl⟩
            · split at hc
              · simp at hc
              · simp only [Except.ok.injEq] at hc; subst hc; exact ⟨rfl, rfl⟩
        | next e₁ e₂ c' he' hc' ih =>
          cases c with
          | reset => simp only [call, Except.ok.injEq] at hc; subst hc; exact ⟨rfl, rfl⟩
          | ask =>
            simp only [call, Except.ok.injEq] at hc; subst hc; unfold isFinished; split_ifs
            · exact ⟨rfl, rfl⟩
            · exact ih e₂ c' hc'
          | act a =>
            simp only [call, perform] at hc
            split_ifs at hc
            · simp only [Except.ok.injEq] at hc; subst hc; exact ⟨rfl, rfl⟩
            · split at hc
              · simp at hc
              · simp only [Except.ok.injEq] at hc; subst hc; exact ⟨rfl, rfl⟩
    exact ⟨hfix.1, hr.2.1, hfix.2, hr.2.2.2⟩

/-- **C101, mirror images.** Opposite actions give the mirrored simulation, with the same rewards: the path of the states, and so (C100) the
rewards and the end of the episode. -/
theorem C101_mirror (target : ℝ) (easy : Bool) (maxSteps : Nat) (rs : Bool) (as : Nat → Fin 3) (n : Nat) :
    path (acrobot target easy maxSteps rs) (fun k => Fin.rev (as k)) n = mirror (path (acrobot target easy maxSteps rs) as n) ∧
    ∀ x, ((acrobot target easy maxSteps rs).goal (mirror x) ↔ (acrobot target easy maxSteps rs).goal x) ∧ (acrobot target easy maxSteps rs).rGoal (mirror x) = (acrobot target easy maxSteps rs).rGoal x ∧
      (acrobot target easy maxSteps rs).rElse (mirror x) = (acrobot target easy maxSteps rs).rElse x := by
  constructor
  · induction n with
    | zero => ext <;> simp [path, acrobot, mirror]
    | succ n ih =>
      simp only [path]
      rw [ih, forceOf_rev]
      exact mirror_act _ _
  · intro x
    have hh : height (mirror x) = height x := by simp [height, mirror]
    simp only [acrobot, hh]
    simp

/-- **C101, hanging.** Without torque the hanging arms stay at rest, in every episode. -/
theorem C101_rest (target : ℝ) (easy : Bool) (maxSteps : Nat) (rs : Bool) (n : Nat) :
    path (acrobot target easy maxSteps rs) (fun _ => 1) n = { t1 := 0, t2 := 0, w1 := 0, w2 := 0 } := by
  have hp := pi_pos
  have hf : forceOf 1 = 0 := by norm_num [forceOf]
  have hs : armSub 0 { t1 := 0, t2 := 0, w1 := 0, w2 := 0 } = { t1 := 0, t2 := 0, w1 := 0, w2 := 0 } := by
    have p2 : phi2 { t1 := 0, t2 := 0, w1 := 0, w2 := 0 } = 0 := by simp [phi2]
    have p1 : phi1 { t1 := 0, t2 := 0, w1 := 0, w2 := 0 } = 0 := by simp [phi1, p2]
    have a2 : accel2 0 { t1 := 0, t2 := 0, w1 := 0, w2 := 0 } = 0 := by simp [accel2, p1, p2]
    have a1 : accel1 0 { t1 := 0, t2 := 0, w1 := 0, w2 := 0 } = 0 := by simp [accel1, a2, p1]
    have c : ∀ M, 0 ≤ M → cut 0 M = 0 := by
      intro M hM
      unfold cut; simp only
      split_ifs <;> linarith
    unfold armSub
    rw [a1, a2]
    simp [c, hp.le]
  have hw : wrap 0 = 0 := by
    unfold wrap
    split_ifs <;> linarith
  induction n with
  | zero => rfl
  | succ n ih =>
    simp only [path]
    rw [ih, hf]
    show armAct 0 _ = _
    unfold armAct
    simp only [hs, hw]

/-- **C101, negation (energy).** The simulated accelerations do not belong to two arms: without friction the energy should change by torque times the
velocity of the joint only, but along every motion with the accelerations of the simulation it changes at another rate whenever the second arm
is neither stretched nor folded and both joints move. (The sign of the Coriolis term in `phi1` is wrong: `theta2_dot - 2 * theta1_dot` should
be `theta2_dot + 2 * theta1_dot`.) -/
theorem C101_negation_energy (torque : ℝ) (x : ℝ → Arm) (t : ℝ) (hx : Moves torque x t) :
    HasDerivAt (fun t => energy (x t)) (torque * (x t).w2 - 2 * (x t).w1 ^ 2 * (x t).w2 * sin (x t).t2) t := by
  obtain ⟨h1, h2, h3, h4⟩ := hx
  obtain ⟨e1, e2⟩ := (accel_iff torque (x t) _ _).2 ⟨rfl, rfl⟩
  have hE : (fun t => energy (x t)) = fun t => (x t).w1 ^ 2 / 8 + (x t).w1 ^ 2 / 2 + ((x t).w1 ^ 2 + ((x t).w1 + (x t).w2) ^ 2 / 4 + (x t).w1 * ((x t).w1 + (x t).w2) * cos (x t).t2) / 2 +
      ((x t).w1 + (x t).w2) ^ 2 / 2 - 14.7 * cos (x t).t1 - 4.9 * cos ((x t).t1 + (x t).t2) := funext fun t => energy_eq (x t)
  rw [hE]
  have w12 := h3.add h4
  have hh := ((((h3.pow 2).div_const 8).add ((h3.pow 2).div_const 2)).add ((((h3.pow 2).add ((w12.pow 2).div_const 4)).add ((h3.mul w12).mul h2.cos)).div_const 2)).add ((w12.pow 2).div_const 2)
  have hh2 := (hh.sub (h1.cos.const_mul 14.7)).sub ((h1.add h2).cos.const_mul 4.9)
  refine hh2.congr_deriv ?_
  simp only [d1, d2, phi1, phi2, lc, grav, cos_sub_pi_div_two] at e1 e2
  simp only [Pi.add_apply]
  norm_num
  norm_num at e1 e2
  linear_combination (x t).w1 * e1 + (x t).w2 * e2

/-- there are such motions through every state; with the second arm at a right angle and both velocities 1 the energy falls at the rate 2 -/
example : ∃ x : ℝ → Arm, x 0 = { t1 := 0, t2 := π / 2, w1 := 1, w2 := 1 } ∧ Moves 0 x 0 ∧ HasDerivAt (fun t => energy (x t)) (-2) 0 := by
  set y : Arm := { t1 := 0, t2 := π / 2, w1 := 1, w2 := 1 } with hy
  let x : ℝ → Arm := fun t => { t1 := y.t1 + t * y.w1, t2 := y.t2 + t * y.w2, w1 := y.w1 + t * accel1 0 y, w2 := y.w2 + t * accel2 0 y }
  have h0 : x 0 = y := by ext <;> simp [x]
  have hl : ∀ a b : ℝ, HasDerivAt (fun t : ℝ => a + t * b) b 0 := fun a b => by
    simpa using ((hasDerivAt_id (0 : ℝ)).mul_const b).const_add a
  have hm : Moves 0 x 0 := by
    unfold Moves
    rw [h0]
    exact ⟨hl _ _, hl _ _, hl _ _, hl _ _⟩
  refine ⟨x, h0, hm, ?_⟩
  have := C101_negation_energy 0 x 0 hm
  rw [h0] at this
  refine this.congr_deriv ?_
  simp [hy]

/-- **C101, negation (height).** The goal is not about the tip of the second arm: with both arms pointing straight up, the tip at its greatest height 2,
the computed height is 0 and the goal 1.5 is not reached; with the second arm folded back to the fixed point it is 2 and the goal is reached.
(The second arm's own angle is used as if it were measured from hanging down.) -/
theorem C101_negation_height :
    tip { t1 := π, t2 := 0, w1 := 0, w2 := 0 } = 2 ∧ ¬ (acrobot 1.5 false 999 false).goal { t1 := π, t2 := 0, w1 := 0, w2 := 0 } ∧
    tip { t1 := π, t2 := π, w1 := 0, w2 := 0 } = 0 ∧ (acrobot 1.5 false 999 false).goal { t1 := π, t2 := π, w1 := 0, w2 := 0 } := by
  refine ⟨?_, ?_, ?_, ?_⟩
  · simp only [tip, add_zero, cos_pi]; norm_num
  · simp only [acrobot, height, cos_pi, cos_zero]; norm_num
  · simp only [tip, cos_pi]
    rw [show π + π = 2 * π by ring, cos_two_pi]; norm_num
  · simp only [acrobot, height, cos_pi]; norm_num

/-- **C101, negation (observation).** In SingleArmSwinger the observation does not contain the angle of the arm: the observations of two states are the
same whenever the velocity is, and their first entry is always 0. -/
theorem C101_negation_observation (target : ℝ) (easy : Bool) (maxSteps : Nat) (rs : Bool) (e e' : Ep Arm)
    (h : Reachable (swinger target easy maxSteps rs) e) (h' : Reachable (swinger target easy maxSteps rs) e') :
    (swingerObs e.state).headD 1 = 0 ∧ (e.state.w2 = e'.state.w2 → swingerObs e.state = swingerObs e'.state) := by
  obtain ⟨-, -, hw, -⟩ := (C101_ranges target easy maxSteps rs e).2.1 h
  obtain ⟨-, -, hw', -⟩ := (C101_ranges target easy maxSteps rs e').2.1 h'
  simp only [swingerObs, hw, hw', List.map_cons, List.map_nil, List.headD_cons, zero_div]
  exact ⟨trivial, fun h => by rw [h]⟩

end Verif.Props
