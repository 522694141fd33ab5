import Verif.Model.Classic
import Mathlib.Analysis.Calculus.Deriv.Basic
/-
Specifications for C100 and C101: histories of calls, the course of an episode, and the mechanics of two arms.
-/
namespace Verif.Classic.Spec
open Verif.Classic
open Verif.DataSet (Err)
open Real

/-- a call of the user -/
inductive Call where
  | act (a : Int)
  | reset
  | ask

/-- a task after one call -/
noncomputable def call {σ : Type} (m : Sim σ) (e : Ep σ) : Call → Except Err (Ep σ)
  | .act a => perform m e a
  | .reset => .ok (Classic.reset m e)
  | .ask => .ok (isFinished m e).2

/-- the states a task can be in: after construction and any calls none of which raised -/
inductive Reachable {σ : Type} (m : Sim σ) : Ep σ → Prop
  | start : Reachable m (create m)
  | next (e e' : Ep σ) (c : Call) (he : Reachable m e) (hc : call m e c = .ok e') : Reachable m e'

/-- -1, 0 or 1: the force of action 0, 1 or 2 -/
def forceOf (a : Fin 3) : ℝ := (a.1 : ℝ) - 1

/-- the state after the first `k` actions if nothing stopped the simulation -/
def path {σ : Type} (m : Sim σ) (as : Nat → Fin 3) : Nat → σ
  | 0 => m.init
  | k + 1 => m.fix (m.act (forceOf (as k)) (path m as k))

/-- the state the (k+1)-th action leads to, before the override of SingleArmSwinger -/
def raw {σ : Type} (m : Sim σ) (as : Nat → Fin 3) (k : Nat) : σ := m.act (forceOf (as k)) (path m as k)

/-- the episode is decided by action number `T + 1`: the goal is reached for the first time, or it is the last action allowed -/
def Decided {σ : Type} (m : Sim σ) (as : Nat → Fin 3) (T : Nat) : Prop :=
  (m.goal (raw m as T) ∨ T + 1 = m.maxSteps) ∧ ∀ k < T, ¬ m.goal (raw m as k) ∧ k + 1 ≠ m.maxSteps

/-- the actions of an episode one after the other -/
noncomputable def play {σ : Type} (m : Sim σ) (e : Ep σ) (as : Nat → Fin 3) : Nat → Except Err (Ep σ)
  | 0 => .ok e
  | n + 1 => match play m e as n with
    | .error err => .error err
    | .ok e' => perform m e' (as n).1

/-! ### Two arms

Two uniform arms of mass 1 and length 1 with moments of inertia 1 about their centres; the first hangs from a fixed point, the second from the
end of the first. `t1` is the angle of the first arm from hanging down, `t1 + t2` that of the second. -/

/-- the height of the tip of the second arm above the fixed point -/
noncomputable def tip (x : Arm) : ℝ := -cos x.t1 - cos (x.t1 + x.t2)

/-- the energy: the centre of the first arm is at (sin t1, -cos t1)/2, that of the second at (sin t1, -cos t1) + (sin (t1 + t2), -cos (t1 + t2))/2 -/
noncomputable def energy (x : Arm) : ℝ :=
  ((cos x.t1 * x.w1 / 2) ^ 2 + (sin x.t1 * x.w1 / 2) ^ 2) / 2 + x.w1 ^ 2 / 2 +
  ((cos x.t1 * x.w1 + cos (x.t1 + x.t2) * (x.w1 + x.w2) / 2) ^ 2 + (sin x.t1 * x.w1 + sin (x.t1 + x.t2) * (x.w1 + x.w2) / 2) ^ 2) / 2 + (x.w1 + x.w2) ^ 2 / 2 +
  9.8 * (-cos x.t1 / 2) + 9.8 * (-cos x.t1 - cos (x.t1 + x.t2) / 2)

/-- at time `t`, `x` moves with the accelerations of the simulation under the given torque -/
def Moves (torque : ℝ) (x : ℝ → Arm) (t : ℝ) : Prop :=
  HasDerivAt (fun t => (x t).t1) (x t).w1 t ∧ HasDerivAt (fun t => (x t).t2) (x t).w2 t ∧
    HasDerivAt (fun t => (x t).w1) (accel1 torque (x t)) t ∧ HasDerivAt (fun t => (x t).w2) (accel2 torque (x t)) t

/-- left and right exchanged -/
def mirror (x : Arm) : Arm := { t1 := -x.t1, t2 := -x.t2, w1 := -x.w1, w2 := -x.w2 }

end Verif.Classic.Spec
