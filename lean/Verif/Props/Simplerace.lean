import Verif.Model.Simplerace
import Mathlib.Tactic.Linarith
import Mathlib.Tactic.NormNum
import Mathlib.Tactic.SplitIfs
/-
C155: the simplerace environment.
-/
namespace Verif.Simplerace
open Verif.DataSet (Err)
variable {K : Type} [Field K] [LinearOrder K]

/-! ### specification -/
namespace Spec

/-- backwards, neutral, forwards; or left, neutral, right -/
def level (x : K) : Nat := if x > 3 / 10 then 2 else if x < -(3 / 10) then 0 else 1

/-- is the answer a reset? -/
def isReset : Answer K → Bool
  | .reset => true
  | _ => false

/-- what should be sent in the steps of a history: nothing before the server's first reset, nothing in the step after a reset, and otherwise the command -/
def sent (ready wait : Bool) : List ((K × K) × Answer K) → List (Option Nat)
  | [] => []
  | (a, m) :: l => (if ready && !wait then some (command a) else none) :: sent (ready || (isReset m)) (isReset m) l

end Spec
open Spec

theorem run_sent : ∀ (l : List ((K × K) × Answer K)) (s : Env K) (cs : List (Option Nat)) (s' : Env K), s.run l = .ok (cs, s') → cs = sent s.serverIsReady s.waitOne l
  | [], s, cs, s', h => by
    simp only [Env.run, Except.ok.injEq, Prod.mk.injEq] at h
    rw [← h.1]
    rfl
  | (a, m) :: l, s, cs, s', h => by
    rw [Env.run] at h
    split at h
    · cases h
    · rename_i c s1 h1
      split at h
      · cases h
      · rename_i cs1 s2 h2
        have ih := run_sent l s1 cs1 s2 h2
        simp only [Except.ok.injEq, Prod.mk.injEq] at h
        rw [← h.1, ih, sent]
        unfold Env.performAction at h1
        simp only at h1
        split at h1
        · cases h1
        · rename_i s3 h3
          simp only [Except.ok.injEq, Prod.mk.injEq] at h1
          obtain ⟨h1, rfl⟩ := h1
          have hc : c = if s.serverIsReady && !s.waitOne then some (command a) else none := by
            rw [← h1]
            cases s.waitOne <;> cases s.serverIsReady <;> rfl
          rw [hc]
          have hflags : s3.serverIsReady = (s.serverIsReady || (isReset m)) ∧ s3.waitOne = (isReset m) := by
            cases m with
            | reset =>
              simp only [Env.process, Except.ok.injEq] at h3
              rw [← h3]
              simp [isReset]
            | other =>
              simp only [Env.process, Except.ok.injEq] at h3
              rw [← h3]
              cases hw : s.waitOne <;> simp [hw, isReset]
            | data x =>
              simp only [Env.process] at h3
              cases hw : s.waitOne <;> simp only [hw, Bool.false_eq_true, if_false, if_true] at h3 <;> split_ifs at h3 <;> cases h3 <;> simp [hw, isReset]
          rw [hflags.1, hflags.2]

/-- the next waypoint is never stored -/
theorem run_wp : ∀ (l : List ((K × K) × Answer K)) (s : Env K) (cs : List (Option Nat)) (s' : Env K), s.lastStepNextWp = (0, 0) → s.run l = .ok (cs, s') → s'.lastStepNextWp = (0, 0)
  | [], s, cs, s', h0, h => by
    simp only [Env.run, Except.ok.injEq, Prod.mk.injEq] at h
    rw [← h.2]
    exact h0
  | (a, m) :: l, s, cs, s', h0, h => by
    rw [Env.run] at h
    split at h
    · cases h
    · rename_i c s1 h1
      split at h
      · cases h
      · rename_i cs1 s2 h2
        simp only [Except.ok.injEq, Prod.mk.injEq] at h
        rw [← h.2]
        refine run_wp l s1 cs1 s2 ?_ h2
        unfold Env.performAction at h1
        simp only at h1
        split at h1
        · cases h1
        · rename_i s3 h3
          simp only [Except.ok.injEq, Prod.mk.injEq] at h1
          obtain ⟨_, rfl⟩ := h1
          cases m with
          | reset =>
            simp only [Env.process, Except.ok.injEq] at h3
            rw [← h3]
            simp [Env.reset]
          | other =>
            simp only [Env.process, Except.ok.injEq] at h3
            rw [← h3]
            cases hw : s.waitOne <;> simp [hw, h0]
          | data x =>
            simp only [Env.process] at h3
            cases hw : s.waitOne <;> simp only [hw, Bool.false_eq_true, if_false, if_true] at h3 <;> split_ifs at h3 <;> cases h3 <;> exact h0

/-- the first coordinate of the waypoint of an answer is not zero -/
def WpNonzero : Answer K → Prop
  | .data x => x 16 ≠ 0
  | _ => True

theorem run_scores : ∀ (l : List ((K × K) × Answer K)) (s : Env K) (cs : List (Option Nat)) (s' : Env K), s.lastStepNextWp = (0, 0) → s.firstCarScore = 0 → s.secondCarScore = 0 →
    (∀ p ∈ l, WpNonzero p.2) → s.run l = .ok (cs, s') → s'.firstCarScore = 0 ∧ s'.secondCarScore = 0
  | [], s, cs, s', h0, f0, g0, _, h => by
    simp only [Env.run, Except.ok.injEq, Prod.mk.injEq] at h
    rw [← h.2]
    exact ⟨f0, g0⟩
  | (a, m) :: l, s, cs, s', h0, f0, g0, hm, h => by
    rw [Env.run] at h
    split at h
    · cases h
    · rename_i c s1 h1
      split at h
      · cases h
      · rename_i cs1 s2 h2
        simp only [Except.ok.injEq, Prod.mk.injEq] at h
        rw [← h.2]
        have hmm : WpNonzero m := hm (a, m) List.mem_cons_self
        have key : s1.lastStepNextWp = (0, 0) ∧ s1.firstCarScore = 0 ∧ s1.secondCarScore = 0 := by
          unfold Env.performAction at h1
          simp only at h1
          split at h1
          · cases h1
          · rename_i s3 h3
            simp only [Except.ok.injEq, Prod.mk.injEq] at h1
            obtain ⟨_, rfl⟩ := h1
            cases m with
            | reset =>
              simp only [Env.process, Except.ok.injEq] at h3
              rw [← h3]
              simp [Env.reset]
            | other =>
              simp only [Env.process, Except.ok.injEq] at h3
              rw [← h3]
              cases hw : s.waitOne <;> simp [hw, h0, f0, g0]
            | data x =>
              have hx : x 16 ≠ 0 := hmm
              simp only [Env.process] at h3
              cases hw : s.waitOne <;> simp only [hw, Bool.false_eq_true, if_false, if_true, h0] at h3 <;> split_ifs at h3 <;> cases h3 <;> exact ⟨rfl, f0, g0⟩
        exact run_scores l s1 cs1 s2 key.1 key.2.1 key.2.2 (fun p hp => hm p (List.mem_cons_of_mem _ hp)) h2

end Verif.Simplerace

namespace Verif.Props
open Verif.Simplerace Verif.Simplerace.Spec
open Verif.DataSet (Err)
variable {K : Type} [Field K] [LinearOrder K]

/-- **C155, commands.** The nine commands encode the nine combinations of driving (backwards, neutral, forwards) and steering (left, neutral, right): different combinations have different commands. -/
theorem C155_commands (a : K × K) : command a = 3 * level a.1 + level a.2 ∧ command a / 3 = level a.1 ∧ command a % 3 = level a.2 ∧ command a < 9 := by
  have h : command a = 3 * level a.1 + level a.2 := by
    unfold command level
    split_ifs <;> rfl
  have h2 : level a.2 < 3 := by
    unfold level
    split_ifs <;> decide
  have h1 : level a.1 < 3 := by
    unfold level
    split_ifs <;> decide
  refine ⟨h, ?_, ?_, ?_⟩ <;> omega

/-- **C155, protocol.** In every history, nothing is sent to the server before it has sent its first reset, nothing in the step after each reset, and in all other steps the command of the action. -/
theorem C155_protocol (l : List ((K × K) × Answer K)) (cs : List (Option Nat)) (s : Env K) (h : Env.new.run l = .ok (cs, s)) : cs = sent false false l :=
  run_sent l _ cs s h

example : sent false false [(((1 : Rat), 1), .other), ((1, 1), .reset), ((1, 1), .other), ((1, 0), .other), ((-1, 0), .reset), ((0, 0), .other)] = [none, none, none, some 7, some 1, none] := by decide +kernel

/-- **C155, the controller.** The simple controller drives forwards below speed 10, never backwards, and always steers, to the side of the sign of the angle. -/
theorem C155_controller [IsStrictOrderedRing K] (speed angle : K) : command (controller speed angle) = (if speed < 10 then 6 else 3) + (if angle > 0 then 0 else 2) := by
  unfold command controller
  have h1 : (3 : K) / 10 < 1 := by norm_num
  have h2 : (-1 : K) < -(3 / 10) := by norm_num
  have h3 : ¬ (3 : K) / 10 < 0 := by norm_num
  have h4 : ¬ (0 : K) < -(3 / 10) := by norm_num
  have h5 : ¬ (3 : K) / 10 < -1 := by norm_num
  by_cases hs : speed < 10 <;> by_cases ha : angle > 0 <;> simp only [hs, ha, if_true, if_false, gt_iff_lt, h1, h2, h3, h4, h5]

/-- **C155 violated: passing a waypoint.** In every state the environment can be in, an answer with a new current waypoint raises "Unexpected episode change", also when it is the waypoint announced as the next one (which is
never stored), unless its first coordinate is zero. -/
theorem C155_negation_waypoint (l : List ((K × K) × Answer K)) (cs : List (Option Nat)) (s : Env K) (h : Env.new.run l = .ok (cs, s)) (a : K × K) (x : Fin 18 → K)
    (h1 : s.lastStepCurrentWp.1 ≠ 0) (h2 : x 16 ≠ s.lastStepCurrentWp.1) (h3 : x 16 ≠ 0) : s.performAction a (.data x) = .error .valueError := by
  have h0 := run_wp l _ cs s rfl h
  unfold Env.performAction
  cases hw : s.waitOne <;> simp [Env.process, h0, h1, h2, h3]

/-- **C155 violated: scores.** As long as no waypoint has first coordinate zero, no history ever gives a car a score, so the fitness of every controller is zero. -/
theorem C155_negation_scores (l : List ((K × K) × Answer K)) (hl : ∀ p ∈ l, WpNonzero p.2) (cs : List (Option Nat)) (s : Env K) (h : Env.new.run l = .ok (cs, s)) :
    s.firstCarScore = 0 ∧ s.secondCarScore = 0 := run_scores l _ cs s rfl rfl rfl hl h

example : ((Env.new.run [((1, 1), .reset), (((1 : Rat), 1), .data fun _ => 5), ((1, 1), .data fun _ => 5)]).toOption.map fun r => (r.1, r.2.step, r.2.lastStepCurrentWp)) = some ([none, none, some 8], 2, (5, 5)) := by decide +kernel

end Verif.Props
