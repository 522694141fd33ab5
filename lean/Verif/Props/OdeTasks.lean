import Verif.Model.OdeTasks
import Mathlib.Tactic.Linarith
import Mathlib.Tactic.NormNum
import Mathlib.Tactic.Push
import Mathlib.Tactic.Positivity
import Mathlib.Tactic.FieldSimp
import Mathlib.Algebra.BigOperators.Group.Finset.Basic
import Mathlib.Algebra.BigOperators.Intervals

/-!
# C172, C173: the tasks of Johnnie and of the arm in the ODE environment
-/

namespace Verif.OdeTasks

variable {K : Type} [AddCommMonoid K]

/-- The loop from a given state: the number of actions is what is missing to the end, the rewards are
added, the counters are set. -/
theorem episode_run (t : JTask K) (r : Nat → K) (n : Nat) (h : t.count + n = t.epiLen + 1) (fuel : Nat) (hf : n < fuel) :
    episode fuel r t = some { t with count := 0, incLearn := t.incLearn + 1, samples := t.samples + n, cumreward := t.cumreward + ∑ i ∈ Finset.range n, r i, history := t.history ++ [t.cumreward + ∑ i ∈ Finset.range n, r i] } := by
  induction n generalizing t r fuel with
  | zero =>
    obtain ⟨fuel, rfl⟩ : ∃ k, fuel = k + 1 := ⟨fuel - 1, by omega⟩
    have : t.count > t.epiLen := by omega
    simp [episode, JTask.isFinished, this, JTask.res]
  | succ n ih =>
    obtain ⟨fuel, rfl⟩ : ∃ k, fuel = k + 1 := ⟨fuel - 1, by omega⟩
    have : ¬ t.count > t.epiLen := by omega
    simp only [episode, JTask.isFinished, this, if_false, Bool.false_eq_true]
    rw [ih _ _ (by simp only [JTask.performAction]; omega) fuel (by omega)]
    simp only [JTask.performAction, Finset.sum_range_succ' r n, Option.some.injEq]
    have e : t.cumreward + r 0 + ∑ i ∈ Finset.range n, r (i + 1) = t.cumreward + (∑ i ∈ Finset.range n, r (i + 1) + r 0) := by
      rw [add_assoc, add_comm (r 0)]
    have e2 : t.samples + 1 + n = t.samples + (n + 1) := by omega
    rw [e, e2]

theorem tanh_lt_one (x : ℝ) : |Real.tanh x| < 1 := by
  rw [Real.tanh_eq_sinh_div_cosh, abs_div, abs_of_pos (Real.cosh_pos x), div_lt_one (Real.cosh_pos x), abs_lt]
  constructor
  · have := Real.exp_pos x
    have h := Real.cosh_add_sinh x
    linarith
  · exact Real.sinh_lt_cosh x

theorem tanh_pos_iff (x : ℝ) : 0 < Real.tanh x ↔ 0 < x := by
  rw [Real.tanh_eq_sinh_div_cosh, div_pos_iff_of_pos_right (Real.cosh_pos x), Real.sinh_pos_iff]

/-- The gravity for a duration that is a natural number. -/
theorem gravity_nat (n : Nat) (hn : n < 1000) (c : Nat) :
    gravityAt (n : ℚ) c =
      if 1000 ≤ c ∧ c < 1000 + n then .backward else if 3000 ≤ c ∧ c < 3000 + n then .forward else .standard := by
  induction c with
  | zero => simp [gravityAt]
  | succ c ih =>
    have e1 : (((c + 1 : Nat) : ℚ) = 4000 / 4) ↔ c + 1 = 1000 := by
      rw [show ((4000 : ℚ) / 4) = ((1000 : Nat) : ℚ) by norm_num]; exact Nat.cast_inj
    have e2 : (((c + 1 : Nat) : ℚ) = 4000 / 4 + n) ↔ c + 1 = 1000 + n := by
      rw [show ((4000 : ℚ) / 4 + n) = ((1000 + n : Nat) : ℚ) by push_cast; norm_num]; exact Nat.cast_inj
    have e3 : (((c + 1 : Nat) : ℚ) = 4000 / 2) ↔ c + 1 = 2000 := by
      rw [show ((4000 : ℚ) / 2) = ((2000 : Nat) : ℚ) by norm_num]; exact Nat.cast_inj
    have e4 : (((c + 1 : Nat) : ℚ) = 3 * 4000 / 4) ↔ c + 1 = 3000 := by
      rw [show ((3 * 4000 : ℚ) / 4) = ((3000 : Nat) : ℚ) by norm_num]; exact Nat.cast_inj
    have e5 : (((c + 1 : Nat) : ℚ) = 3 * 4000 / 4 + n) ↔ c + 1 = 3000 + n := by
      rw [show ((3 * 4000 : ℚ) / 4 + n) = ((3000 + n : Nat) : ℚ) by push_cast; norm_num]; exact Nat.cast_inj
    simp only [gravityAt, disturb, e1, e2, e3, e4, e5, ih]
    split_ifs <;> first | rfl | omega

/-- The gravity for a duration that is not a natural number. -/
theorem gravity_frac (d : ℚ) (h : ∀ n : Nat, d ≠ n) (hd : 0 < d) (c : Nat) :
    gravityAt d c =
      if 1000 ≤ c ∧ c < 2000 then .backward else if 3000 ≤ c then .forward else .standard := by
  induction c with
  | zero => simp [gravityAt]
  | succ c ih =>
    have e1 : (((c + 1 : Nat) : ℚ) = 4000 / 4) ↔ c + 1 = 1000 := by
      rw [show ((4000 : ℚ) / 4) = ((1000 : Nat) : ℚ) by norm_num]; exact Nat.cast_inj
    have e2 : ¬ (((c + 1 : Nat) : ℚ) = 4000 / 4 + d) := by
      intro e
      have hc : 1000 ≤ c + 1 := by
        have : (1000 : ℚ) ≤ ((c + 1 : Nat) : ℚ) := by rw [e]; linarith
        exact_mod_cast this
      apply h (c + 1 - 1000)
      rw [Nat.cast_sub hc, e]; norm_num
    have e3 : (((c + 1 : Nat) : ℚ) = 4000 / 2) ↔ c + 1 = 2000 := by
      rw [show ((4000 : ℚ) / 2) = ((2000 : Nat) : ℚ) by norm_num]; exact Nat.cast_inj
    have e4 : (((c + 1 : Nat) : ℚ) = 3 * 4000 / 4) ↔ c + 1 = 3000 := by
      rw [show ((3 * 4000 : ℚ) / 4) = ((3000 : Nat) : ℚ) by norm_num]; exact Nat.cast_inj
    have e5 : ¬ (((c + 1 : Nat) : ℚ) = 3 * 4000 / 4 + d) := by
      intro e
      have hc : 3000 ≤ c + 1 := by
        have : (3000 : ℚ) ≤ ((c + 1 : Nat) : ℚ) := by rw [e]; linarith
        exact_mod_cast this
      apply h (c + 1 - 3000)
      rw [Nat.cast_sub hc, e]; norm_num
    simp only [gravityAt, disturb, e1, e2, e3, e4, e5, ih]
    split_ifs <;> first | rfl | omega

/-- The place of the object and the perturbation that is set after `c` calls from a reset. -/
theorem place_calls {V : Type} (after : V) (perts : Nat → V) (s : Place V) (h0 : s.count = 0) (c : Nat) (hc : c ≤ 5001) :
    Place.calls after perts c s =
      { count := c, pert := if c ≤ 1 then s.pert else perts ((c - 2) / 1000), placed := if c ≤ 1001 then s.placed else perts ((c - 2) / 1000 - 1) } := by
  induction c with
  | zero => cases s; simp_all [Place.calls]
  | succ c ih =>
    have ih := ih (by omega)
    simp only [Place.calls, ih]
    have hn : ¬ c > 5000 := by omega
    simp only [Place.isFinished, if_neg hn]
    by_cases h1 : c = 1
    · subst h1; simp [Place.cut]
    by_cases h2 : c = 1001
    · subst h2; simp [Place.cut, Place.reset]
    by_cases h3 : c = 2001
    · subst h3; simp [Place.cut, Place.reset]
    by_cases h4 : c = 3001
    · subst h4; simp [Place.cut, Place.reset]
    by_cases h5 : c = 4001
    · subst h5; simp [Place.cut, Place.reset]
    have g1 : ¬ c = 1 * 1000 + 1 := by omega
    have g2 : ¬ c = 2 * 1000 + 1 := by omega
    have g3 : ¬ c = 3 * 1000 + 1 := by omega
    have g4 : ¬ c = 4 * 1000 + 1 := by omega
    simp only [Place.cut, if_neg h1, if_neg g1, if_neg g2, if_neg g3, if_neg g4]
    rcases Nat.eq_zero_or_pos c with rfl | hp
    · simp
    have k1 : ¬ c ≤ 1 := by omega
    have k2 : ¬ c + 1 ≤ 1 := by omega
    have k3 : (c + 1 - 2) / 1000 = (c - 2) / 1000 := by omega
    simp only [if_neg k1, if_neg k2, k3]
    by_cases k4 : c ≤ 1001
    · have : c + 1 ≤ 1001 := by omega
      simp only [if_pos k4, if_pos this]
    · have : ¬ c + 1 ≤ 1001 := by omega
      simp only [if_neg k4, if_neg this]

theorem calls_succ {V : Type} (after : V) (perts : Nat → V) (n : Nat) (s : Place V) :
    Place.calls after perts (n + 1) s = ((Place.calls after perts n s).isFinished after perts).2 := rfl

theorem place_episode {V : Type} (after : V) (perts : Nat → V) (s : Place V) (h0 : s.count = 0) :
    s.episode after perts = { count := 0, pert := perts 4, placed := perts 3 } := by
  have e : s.episode after perts = ((Place.calls after perts 5001 (s.reset after)).isFinished after perts).2 :=
    calls_succ after perts 5001 _
  rw [e, place_calls after perts (s.reset after) h0 5001 le_rfl]
  simp [Place.isFinished]

end Verif.OdeTasks

namespace Verif.OdeTasks

/-- Specification: the episode with 5000 steps consists of five parts; the part of the action before
which `isFinished` was called `c` times. -/
def partOf (c : Nat) : Nat := (c - 2) / 1000

theorem generated_name (a : Nat) : "SpecificBodyPositionSensor-" ++ toString a ≠ "SpecificBodyPositionSensor8" := by
  intro h
  have := congrArg (fun s : String => s.toList[26]?) h
  simp only [String.toList_append] at this
  rw [List.getElem?_append_left (by decide)] at this
  revert this
  decide

theorem find_none (ss : Sensors) (name : String) (h : name ∉ ss.map Prod.fst) : byName ss name = [] := by
  have : ss.find? (fun s => s.1 == name) = none := by
    rw [List.find?_eq_none]
    intro x hx e
    apply h
    rw [← (beq_iff_eq.1 e)]
    exact List.mem_map_of_mem hx
  simp [byName, this]

/-- The flags of the table along the steps of an episode. -/
def flags : ℚ → List Nat → ℚ
  | f, [] => f
  | f, t :: ts => flags (glasReward 1000 0 t 0 0 f).2 ts

theorem flag_step (l g t : Nat) (d n f : ℚ) : (glasReward l g t d n f).2 = if t > 0 then -1 else f := rfl

theorem flags_from (f : ℚ) (ts : List Nat) : flags f ts = if ∃ t ∈ ts, 0 < t then -1 else f := by
  induction ts generalizing f with
  | nil => simp [flags]
  | cons t ts ih =>
    simp only [flags, ih, flag_step, List.mem_cons, exists_eq_or_imp]
    by_cases h : 0 < t <;> by_cases h2 : ∃ t ∈ ts, 0 < t <;> simp [h, h2]

end Verif.OdeTasks

namespace Verif.Props

open Verif.OdeTasks

/-! ### C172 -/

/-- **C172**: an episode of a Johnnie task that starts after the construction of the task or after a
complete episode consists of exactly `epiLen + 1` actions, ends, counts as one episode, and its total
reward, the sum of the rewards of its actions, is appended to the history; the count is ready for the
next episode. -/
theorem C172_episode {K : Type} [AddCommMonoid K] (t : JTask K) (r : Nat → K) (h : t.count = 0) (fuel : Nat)
    (hf : t.epiLen + 1 < fuel) :
    ∃ t', episode fuel r t.reset = some t' ∧ t'.samples = t.epiLen + 1 ∧ t'.cumreward = ∑ i ∈ Finset.range (t.epiLen + 1), r i ∧
      t'.history = t.history ++ [∑ i ∈ Finset.range (t.epiLen + 1), r i] ∧ t'.incLearn = t.incLearn + 1 ∧ t'.count = 0 ∧
      t'.epiLen = t.epiLen := by
  rw [episode_run t.reset r (t.epiLen + 1) (by simp [JTask.reset, h]) fuel hf]
  refine ⟨_, rfl, ?_, ?_, ?_, rfl, rfl, rfl⟩ <;> simp [JTask.reset]

example : (episode 10 (fun i => (i : ℤ)) ((⟨0, 3, 5, [7], 7, 4⟩ : JTask ℤ).reset)).map (fun t => (t.samples, t.history, t.incLearn)) =
    some (4, [7, 6], 6) := by decide +kernel

/-- **C172, negation**: resetting a task does not start its count again.  If an episode is broken off
after `k` actions and the task is reset, the next episode has only `epiLen + 1 - k` actions. -/
theorem C172_negation_broken {K : Type} [AddCommMonoid K] (t : JTask K) (r : Nat → K) (k : Nat) (hk : t.count = k)
    (hl : k ≤ t.epiLen) (fuel : Nat) (hf : t.epiLen + 1 < fuel) :
    (episode fuel r t.reset).map JTask.samples = some (t.epiLen + 1 - k) := by
  rw [episode_run t.reset r (t.epiLen + 1 - k) (by simp only [JTask.reset]; omega) fuel (by omega)]
  simp [JTask.reset]

example : (episode 10 (fun i => (i : ℤ)) ((⟨2, 3, 5, [7], 7, 4⟩ : JTask ℤ).reset)).map (fun t => (t.samples, t.history)) =
    some (2, [7, 1]) := by decide +kernel

/-- **C172**: an action between -1 and 1 demands an angle between the limits of the joint, and every
angle between the limits is demanded by such an action. -/
theorem C172_targets (lo hi : ℝ) (h : lo < hi) (x : ℝ) :
    (lo ≤ x ∧ x ≤ hi) ↔ ∃ a, -1 ≤ a ∧ a ≤ 1 ∧ target lo hi a = x := by
  have hp : 0 < hi - lo := by linarith
  constructor
  · rintro ⟨h1, h2⟩
    refine ⟨2 * ((x - lo) / (hi - lo)) - 1, ?_, ?_, ?_⟩
    · have : 0 ≤ (x - lo) / (hi - lo) := div_nonneg (by linarith) hp.le
      linarith
    · have : (x - lo) / (hi - lo) ≤ 1 := by rw [div_le_one hp]; linarith
      linarith
    · simp only [target]
      field_simp
      ring
  · rintro ⟨a, h1, h2, rfl⟩
    simp only [target]
    constructor
    · have : 0 ≤ (a + 1) / 2 * (hi - lo) := mul_nonneg (by linarith) hp.le
      linarith
    · have : (a + 1) / 2 * (hi - lo) ≤ 1 * (hi - lo) := mul_le_mul_of_nonneg_right (by linarith) hp.le
      linarith

/-- **C172**: the torque of a joint stays below its limit, and it pushes towards the demanded angle:
it is positive exactly if the angle plus the speed is below it, and negative exactly if above. -/
theorem C172_torques (maxPower rel lo hi a angle speed : ℝ) (hm : 0 < maxPower) (hr : 0 < rel) :
    |torque maxPower rel lo hi a angle speed| < maxPower * rel ∧
      (0 < torque maxPower rel lo hi a angle speed ↔ angle + speed < target lo hi a) ∧
      (torque maxPower rel lo hi a angle speed < 0 ↔ target lo hi a < angle + speed) := by
  have hp : 0 < maxPower * rel := mul_pos hm hr
  have e : torque maxPower rel lo hi a angle speed = Real.tanh ((target lo hi a - angle - speed) * 16) * (maxPower * rel) := by
    simp only [torque]; ring
  rw [e]
  refine ⟨?_, ?_, ?_⟩
  · rw [abs_mul, abs_of_pos hp]
    exact mul_lt_of_lt_one_left hp (tanh_lt_one _)
  · rw [mul_pos_iff_of_pos_right hp, tanh_pos_iff]
    constructor <;> intro h <;> linarith
  · rw [← neg_pos, ← neg_mul, mul_pos_iff_of_pos_right hp, ← Real.tanh_neg, tanh_pos_iff]
    constructor <;> intro h <;> linarith

example : (0 : ℝ) < 100 ∧ (0 : ℝ) < 2 := by norm_num

/-- **C172**: the perturbations of the robust standing tasks.  For a duration of `n` steps (50 in
`RStandingTask`) gravity is tilted backwards in the `n` steps from step 1000 and forwards in the `n`
steps from step 3000, and is the standard one in all other steps. -/
theorem C172_perturbations (n : Nat) (hn : n < 1000) (c : Nat) :
    (gravityAt n c = .backward ↔ 1000 ≤ c ∧ c < 1000 + n) ∧ (gravityAt n c = .forward ↔ 3000 ≤ c ∧ c < 3000 + n) ∧
      (gravityAt n c = .standard ↔ ¬ (1000 ≤ c ∧ c < 1000 + n) ∧ ¬ (3000 ≤ c ∧ c < 3000 + n)) := by
  rw [gravity_nat n hn c]
  refine ⟨?_, ?_, ?_⟩ <;> split_ifs <;> simp <;> omega

example : (50 : Nat) < 1000 ∧ disturbR = ((50 : Nat) : ℚ) := by constructor <;> norm_num [disturbR]

/-- **C172**: with integral division (Python 2) the perturbations of the incremental tasks last
`min (10 + k / 50) 50` and `min (k / 200) 50` steps in episode `k`. -/
theorem C172_durations (k : Nat) :
    disturbRob2 k = ((min (10 + k / 50) 50 : Nat) : ℚ) ∧ disturbRobust2 k = ((min (k / 200) 50 : Nat) : ℚ) := by
  constructor
  · simp only [disturbRob2, clip]
    rw [max_eq_left (by positivity)]
    push_cast
    rfl
  · simp only [disturbRobust2, clip]
    rw [max_eq_left (by positivity)]
    push_cast
    rfl

example : disturbRob2 170 = 13 ∧ disturbRobust2 170 = 0 := by
  constructor <;> norm_num [disturbRob2, disturbRobust2, clip]

/-- **C172, negation**: with the division of Python 3 the perturbations of `RobStandingTask` do not
last at most 50 steps.  In every episode before the 2000th whose number is not a multiple of 50, the
step at which gravity would be set back is not integral: gravity stays tilted from step 1000 to step
2000, and from step 3000 to the end. -/
theorem C172_negation_rob (k : Nat) (hk : k < 2000) (hm : k % 50 ≠ 0) (c : Nat) :
    (gravityAt (disturbRob k) c = .backward ↔ 1000 ≤ c ∧ c < 2000) ∧ (gravityAt (disturbRob k) c = .forward ↔ 3000 ≤ c) := by
  have e : disturbRob k = 10 + (k : ℚ) / 50 := by
    simp only [disturbRob, clip]
    rw [max_eq_left (by positivity), min_eq_left]
    have : (k : ℚ) < 2000 := by exact_mod_cast hk
    linarith
  have h : ∀ n : Nat, disturbRob k ≠ n := by
    intro n hn
    rw [e] at hn
    have h2 : (k : ℚ) + 500 = 50 * n := by linarith
    have h3 : k + 500 = 50 * n := by exact_mod_cast h2
    omega
  rw [gravity_frac _ h (by rw [e]; positivity) c]
  constructor <;> split_ifs <;> simp <;> omega

/-- **C172, negation**: the same for `RobustStandingTask` in every episode before the 10000th whose
number is not a multiple of 200. -/
theorem C172_negation_robust (k : Nat) (hk : k < 10000) (hm : k % 200 ≠ 0) (c : Nat) :
    (gravityAt (disturbRobust k) c = .backward ↔ 1000 ≤ c ∧ c < 2000) ∧ (gravityAt (disturbRobust k) c = .forward ↔ 3000 ≤ c) := by
  have e : disturbRobust k = (k : ℚ) / 200 := by
    simp only [disturbRobust, clip]
    rw [max_eq_left (by positivity), min_eq_left]
    have : (k : ℚ) < 10000 := by exact_mod_cast hk
    linarith
  have h : ∀ n : Nat, disturbRobust k ≠ n := by
    intro n hn
    rw [e] at hn
    have h2 : (k : ℚ) = 200 * n := by linarith
    have h3 : k = 200 * n := by exact_mod_cast h2
    omega
  have hp : 0 < k := by omega
  rw [gravity_frac _ h (by rw [e]; positivity) c]
  constructor <;> split_ifs <;> simp <;> omega

example : 1 < 2000 ∧ 1 % 50 ≠ 0 := by decide

/-- **C172**: the reward for standing in one step is the height of the head divided by the length of
the episode, for every height between `-14 * epiLen` and `4 * epiLen`. -/
theorem C172_standing (epiLen : Nat) (hl : 0 < epiLen) (ss : Sensors) (x h z : ℚ) (hs : byName ss "headPos" = [x, h, z])
    (h1 : -14 * epiLen ≤ h) (h2 : h ≤ 4 * epiLen) : standingReward epiLen ss = .ok (h / epiLen) := by
  have hp : (0 : ℚ) < epiLen := by exact_mod_cast hl
  simp only [standingReward, hs, second, List.getElem?_cons_succ, List.getElem?_cons_zero, clip]
  rw [max_eq_left (by rw [le_div_iff₀ hp]; linarith), min_eq_left (by rw [div_le_iff₀ hp]; linarith)]

/-- **C172, negation**: the limit of the reward for standing does not prevent jumping.  The height is
divided by the length of the episode before it is compared with the height 4 of an upright head, so
with the 1000 steps of the task jumping higher than that gives more reward, up to a height of 4000. -/
theorem C172_negation_limit (ss ss' : Sensors) (x h z x' h' z' : ℚ) (hs : byName ss "headPos" = [x, h, z])
    (hs' : byName ss' "headPos" = [x', h', z']) (h1 : 4 ≤ h) (h2 : h < h') (h3 : h' ≤ 4000) :
    ∃ r r', standingReward 1000 ss = .ok r ∧ standingReward 1000 ss' = .ok r' ∧ r < r' := by
  refine ⟨_, _, C172_standing 1000 (by norm_num) ss x h z hs (by push_cast; linarith) (by push_cast; linarith),
    C172_standing 1000 (by norm_num) ss' x' h' z' hs' (by push_cast; linarith) (by push_cast; linarith), ?_⟩
  push_cast
  linarith

example : byName (standingNames.map fun n => (n, [0, if n == "headPos" then 5 else 1, 0])) "headPos" = [0, 5, 0] := by
  decide +kernel

/-- **C172, negation**: the jumping task cannot be used.  Its sensors get generated names, the reward
asks for a sensor with another name, and every action fails with an `IndexError`. -/
theorem C172_negation_jumping (a b c d : Nat) (ss : Sensors) (h : ss.map Prod.fst = jumpingNames a b c d)
    (count epiLen : Nat) (m : ℚ) : jumpingReward count epiLen m ss = .error .indexError := by
  have : byName ss "SpecificBodyPositionSensor8" = [] := by
    apply find_none
    rw [h]
    simp only [jumpingNames, List.mem_cons, List.not_mem_nil, or_false, not_or]
    exact ⟨by decide, by decide, (generated_name a).symm, (generated_name b).symm, (generated_name c).symm, (generated_name d).symm⟩
  simp [jumpingReward, this, second]

/-- **C172, negation**: the task of standing up gives no reward for standing up.  In the first 800
steps the reward is 0, afterwards it asks for a sensor that does not exist and every action fails. -/
theorem C172_negation_standing_up (ss : Sensors) (h : ss.map Prod.fst = standingNames) (count epiLen : Nat) :
    standingUpReward count epiLen ss = if count < 800 then .ok 0 else .error .indexError := by
  have : byName ss "SpecificBodyPositionSensor8" = [] := by
    apply find_none
    rw [h]
    decide
  simp [standingUpReward, this, second]

example : (standingNames.map fun n => (n, [(1 : ℚ)])).map Prod.fst = standingNames := by decide +kernel

/-! ### C173 -/

/-- **C173**: the task with five locations.  In every episode the object stands in the parts 1 to 4 at
the locations 0 to 3, each time from the first to the last action of the part. -/
theorem C173_places {V : Type} (after : V) (perts : Nat → V) (s : Place V) (h0 : s.count = 0) (c : Nat) (hc : c ≤ 5001)
    (hp : 0 < partOf c) : (Place.calls after perts c (s.reset after)).placed = perts (partOf c - 1) := by
  rw [place_calls after perts (s.reset after) h0 c hc]
  have : ¬ c ≤ 1001 := by simp only [partOf] at hp; omega
  simp [this, partOf]

/-- **C173**: from the second episode on each of the five locations is used in exactly one part: part
`k` has the location `(k + 4) % 5`, whatever the environment sets the perturbation to when it is
reset. -/
theorem C173_each_location {V : Type} (after : V) (perts : Nat → V) (s : Place V) (h0 : s.count = 0) (c : Nat) (hc : c ≤ 5001) :
    (Place.calls after perts c ((s.episode after perts).reset after)).placed = perts ((partOf c + 4) % 5) := by
  have he := place_episode after perts s h0
  rw [he, place_calls after perts _ rfl c hc]
  by_cases h : c ≤ 1001
  · have : partOf c = 0 := by simp only [partOf]; omega
    simp [h, this, Place.reset]
  · have h1 : 1 ≤ (c - 2) / 1000 := by omega
    have h2 : (c - 2) / 1000 ≤ 4 := by omega
    have h3 : (partOf c + 4) % 5 = (c - 2) / 1000 - 1 := by simp only [partOf]; omega
    simp only [if_neg h, h3]

example : (List.range 5).map partOf = [0, 0, 0, 0, 0] ∧ partOf 1001 = 0 ∧ partOf 1002 = 1 ∧ partOf 5001 = 4 := by decide

/-- **C173, negation**: the location that the task chooses for a part is not the one of that part.  It
is chosen after the environment has been reset and only has an effect at the next reset: with different
locations the object never stands, in any part of any episode but the first, at the location chosen for
that part; in part `k ≥ 1` of the first episode neither. -/
theorem C173_negation_places {V : Type} (after : V) (perts : Nat → V) (hi : ∀ i j, i < 5 → j < 5 → perts i = perts j → i = j)
    (s : Place V) (h0 : s.count = 0) (c : Nat) (hc : c ≤ 5001) :
    (Place.calls after perts c ((s.episode after perts).reset after)).placed ≠ perts (partOf c) ∧
      (0 < partOf c → (Place.calls after perts c (s.reset after)).placed ≠ perts (partOf c)) := by
  have hb : partOf c < 5 := by simp only [partOf]; omega
  constructor
  · rw [C173_each_location after perts s h0 c hc]
    intro e
    have := hi _ _ (Nat.mod_lt _ (by omega)) hb e
    omega
  · intro hp
    rw [C173_places after perts s h0 c hc hp]
    intro e
    have := hi _ _ (by omega) hb e
    omega

/-- **C173, negation**: in the first part of the first episode the object stands where the file puts it
(or where an earlier reset has put it), at none of the locations of the task: its fifth location is not
used in the first episode. -/
theorem C173_negation_first {V : Type} (after : V) (perts : Nat → V) (s : Place V) (h0 : s.count = 0) (c : Nat)
    (hc : c ≤ 1001) : (Place.calls after perts c (s.reset after)).placed = s.pert := by
  rw [place_calls after perts (s.reset after) h0 c (by omega)]
  simp [hc, Place.reset]

/-- **C173**: the large reward is given exactly once in each of the five parts. -/
theorem C173_bonus (k : Nat) (hk : k < 5) : ∃! c, 1 ≤ c ∧ c ≤ 5001 ∧ partOf c = k ∧ bonusCount c = true := by
  refine ⟨1000 * (k + 1), ⟨by omega, by omega, by simp only [partOf]; omega, ?_⟩, ?_⟩
  · simp only [bonusCount, Bool.or_eq_true, beq_iff_eq]; omega
  · rintro c ⟨-, -, h3, h4⟩
    simp only [partOf] at h3
    simp only [bonusCount, Bool.or_eq_true, beq_iff_eq] at h4
    omega

/-- **C173, negation**: the punishment for touching the table in the glass task does not end when the
table is no longer touched.  The flag stays set until the end of the episode, because the branch that
should clear it sets a variable of its own: after the steps `ts` it is set exactly if the table has
been touched in any of them, and it enters the reward of each later step. -/
theorem C173_negation_flag (ts : List Nat) (epiLen glasSum : Nat) (dis nig : ℚ) :
    flags 0 ts = (if ∃ t ∈ ts, 0 < t then -1 else 0) ∧
      (glasReward epiLen glasSum 0 dis nig (flags 0 ts)).1 =
        (10 + (if 2 ≤ glasSum then 1000 else 0) + nig + dis + (if ∃ t ∈ ts, 0 < t then -1 else 0)) / epiLen := by
  rw [flags_from]
  exact ⟨rfl, rfl⟩

example : ∃ t ∈ [0, 2, 0], 0 < t := by decide

/-- **C173**: what a pair of colliding objects adds to the contacts of the table and to the contacts of
the hand with the glass does not depend on the order of the two objects. -/
theorem C173_contacts (a b : List Char) (n : Nat) : ccrlContacts a b n = ccrlContacts b a n := by
  simp only [ccrlContacts, Prod.mk.injEq]
  exact ⟨Nat.add_comm _ _, Nat.add_comm _ _⟩

/-- **C173**: parts of the glass on the table are not counted as contacts of the table; other objects
on the table are counted with the number of their contacts, and a finger of the hand at the glass
counts once. -/
theorem C173_table (x y : Char) (b : List Char) (n : Nat) (hb : b ≠ "plate".toList)
    (ho : b.take (b.length - 2) ≠ "objectP".toList) :
    ccrlContacts "plate".toList ("objectP".toList ++ [x, y]) n = (0, 0) ∧
      ccrlContacts "plate".toList b n = (n, 0) ∧
      (0 < n → ccrlContacts ("pressLeft".toList ++ [x]) ("objectP".toList ++ [x, y]) n = (0, 1)) := by
  have e1 : ("objectP".toList ++ [x, y]).take (("objectP".toList ++ [x, y]).length - 2) = "objectP".toList := by
    simp
  have e2 : ("plate".toList).take (("plate".toList).length - 2) ≠ "objectP".toList := by decide
  have e3 : ("objectP".toList ++ [x, y]) ≠ "plate".toList := fun h => absurd (congrArg List.length h) (by simp)
  have e4 : ("plate".toList).take (("plate".toList).length - 1) ≠ "pressLeft".toList := by decide
  have e5 : ("pressLeft".toList ++ [x]).take (("pressLeft".toList ++ [x]).length - 1) = "pressLeft".toList := by
    simp
  have e6 : ("pressLeft".toList ++ [x]) ≠ "plate".toList := fun h => absurd (congrArg List.length h) (by simp)
  have e7 : ("pressLeft".toList ++ [x]).take (("pressLeft".toList ++ [x]).length - 2) ≠ "objectP".toList := fun h =>
    absurd (congrArg List.length h) (by simp)
  refine ⟨?_, ?_, fun hn => ?_⟩
  · simp only [ccrlContacts, beq_iff_eq, e1, beq_eq_false_iff_ne.2 e2, beq_eq_false_iff_ne.2 e3, beq_eq_false_iff_ne.2 e4]
    simp
  · simp only [ccrlContacts, beq_eq_false_iff_ne.2 e2, beq_eq_false_iff_ne.2 hb, beq_eq_false_iff_ne.2 ho]
    simp
  · simp only [ccrlContacts, e1, e5, beq_eq_false_iff_ne.2 e3, beq_eq_false_iff_ne.2 e6, beq_eq_false_iff_ne.2 e7]
    simp [hn]

example : ccrlContacts "plate".toList "armLeft".toList 3 = (3, 0) := by decide +kernel

/-- **C173**: the reflex of the hand changes only the action of the grip: it closes the hand if the
object is near and opens it otherwise. -/
theorem C173_reflex (near : ℚ) (action : List ℚ) (h : 15 < action.length) :
    ∃ a, graspReflex near action = some a ∧ a.length = action.length ∧ a[15]? = some (if |near| < 2 then (1 : ℚ) else -1) ∧
      ∀ i, i ≠ 15 → a[i]? = action[i]? := by
  refine ⟨_, by rw [graspReflex, if_pos h], by simp, by simp [h], fun i hi => ?_⟩
  rw [List.getElem?_set_ne (Ne.symm hi)]

/-- **C173, negation**: the learner does not control the grip.  What it puts into the sixteenth
component of its action has no effect on what is done, on the old action that it observes, nor on the
array that it keeps itself. -/
theorem C173_negation_grip (near x y : ℚ) (action : List ℚ) :
    graspReflex near (action.set 15 x) = graspReflex near (action.set 15 y) := by
  simp [graspReflex]

example : 15 < (List.replicate 16 (0 : ℚ)).length := by decide

end Verif.Props
