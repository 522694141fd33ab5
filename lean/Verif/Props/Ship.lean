import Verif.Model.Ship
import Mathlib.Tactic.Linarith
import Mathlib.Tactic.NormNum
import Mathlib.Tactic.Ring
import Mathlib.Tactic.FieldSimp
import Mathlib.Algebra.BigOperators.Fin
import Mathlib.Algebra.Order.BigOperators.Group.List
/-
C103 Ship steering.
-/
namespace Verif.Ship
open Verif.DataSet (Err)

/-- the documented ranges -/
def InRange (x : Ship) : Prop := (-180 ≤ x.h ∧ x.h ≤ 180) ∧ (-180 ≤ x.hdot ∧ x.hdot ≤ 180) ∧ -10 ≤ x.v ∧ x.v ≤ 40

theorem clamp (x lo hi : ℝ) (h : lo ≤ hi) : lo ≤ min (max x lo) hi ∧ min (max x lo) hi ≤ hi := ⟨le_min (le_max_right _ _) h, min_le_right _ _⟩

theorem step_range (thrust rudder : ℝ) (rnd : Fin 3 → ℝ) (x : Ship) (hx : InRange x) : InRange (step thrust rudder rnd x) := by
  obtain ⟨⟨h1, h2⟩, ⟨h3, h4⟩, -⟩ := hx
  unfold step
  simp only
  set w : ℝ := min (max _ (-180)) 180 with hw
  have hwb : -180 ≤ w ∧ w ≤ 180 := clamp _ _ _ (by norm_num)
  refine ⟨?_, hwb, clamp _ _ _ (by norm_num)⟩
  simp only
  split_ifs <;> constructor <;> linarith [hwb.1, hwb.2]

/-- the thrust and the rudder angle an action stands for -/
noncomputable def thrustOf (a : ℝ) : ℝ := min (max (-1 + 3 * ((a + 1) / 2)) (-1)) 2
noncomputable def rudderOf (a : ℝ) : ℝ := min (max (90 * a) (-90)) 90

theorem sent (a r : ℝ) : Task.sentAction true (some actorLimits) [a, r] = .ok [thrustOf a, rudderOf r] := by
  simp only [Task.sentAction, actorLimits, Task.denormalize, List.length_cons, List.length_nil, if_true, List.zip_cons_cons, List.zip_nil_left, List.map_cons, List.map_nil,
    Task.denormalizeOne, Task.clip, thrustOf, rudderOf]
  congr 4
  · ring_nf
  · ring_nf

/-- the states of an episode: actions with the random numbers drawn -/
noncomputable def voyage (x : Ship) : List ((ℝ × ℝ) × (Fin 3 → ℝ)) → Ship
  | [] => x
  | ((a, r), rnd) :: rest => voyage (step (thrustOf a) (rudderOf r) rnd x) rest

/-- the actions one after the other -/
noncomputable def performs (b : North) : List ((ℝ × ℝ) × (Fin 3 → ℝ)) → Except Err North
  | [] => .ok b
  | ((a, r), rnd) :: rest => match perform b [a, r] rnd with
    | .error e => .error e
    | .ok b' => performs b' rest

theorem performs_eq (as : List ((ℝ × ℝ) × (Fin 3 → ℝ))) : ∀ b : North, ∃ b', performs b as = .ok b' ∧ b'.N = b.N ∧ b'.scale = b.scale ∧ b'.t = b.t + as.length ∧
    b'.env = voyage b.env as ∧ b'.cum = b.cum + ((List.range as.length).map (fun k => reward b.scale (voyage b.env (as.take (k + 1))))).sum := by
  induction as with
  | nil => intro b; exact ⟨b, rfl, rfl, rfl, by simp, rfl, by simp⟩
  | cons i rest ih =>
    intro b
    obtain ⟨⟨a, r⟩, rnd⟩ := i
    obtain ⟨b', h1, h2, h3, h4, h5, h6⟩ := ih { b with t := b.t + 1, env := step (thrustOf a) (rudderOf r) rnd b.env, samples := b.samples + 1,
                                                       cum := b.cum + reward b.scale (step (thrustOf a) (rudderOf r) rnd b.env) }
    refine ⟨b', ?_, h2, h3, ?_, h5, ?_⟩
    · simp only [performs, perform, sent]; exact h1
    · rw [h4]; simp only [List.length_cons]; push_cast; ring
    · rw [h6]
      simp only [List.length_cons, List.range_succ_eq_map, List.map_cons, List.sum_cons, List.map_map, List.take_succ_cons, List.take_zero, voyage]
      rw [add_assoc]
      rfl

theorem voyage_range (as : List ((ℝ × ℝ) × (Fin 3 → ℝ))) : ∀ x, InRange x → InRange (voyage x as) := by
  induction as with
  | nil => exact fun x h => h
  | cons i rest ih => intro x h; exact ih _ (step_range _ _ _ _ h)

theorem reward_le (x : Ship) (hx : InRange x) (s : ℝ) (hs : 0 ≤ s) : reward s x ≤ 40 * s := by
  unfold reward
  split_ifs
  · exact mul_le_mul_of_nonneg_right hx.2.2.2 hs
  · positivity

end Verif.Ship

namespace Verif.Props
open Verif.Ship

/-- **C103, ranges.** From every start in the documented ranges, with whatever actions and random numbers, heading and rate of turn stay within 180
degrees and the speed between -10 and 40; the observation of the task has three entries between -1 and 1. -/
theorem C103_ranges (x : Ship) (hx : InRange x) (as : List ((ℝ × ℝ) × (Fin 3 → ℝ))) :
    InRange (voyage x as) ∧ ∃ o, observe (voyage x as) = .ok o ∧ o.length = 3 ∧ ∀ y ∈ o, -1 ≤ y ∧ y ≤ 1 := by
  have h := voyage_range as x hx
  refine ⟨h, ?_⟩
  generalize voyage x as = y at h
  obtain ⟨⟨h1, h2⟩, ⟨h3, h4⟩, h5, h6⟩ := h
  refine ⟨[(y.h + 180) / 180 - 1, (y.hdot + 180) / 180 - 1, (y.v + 10) / 25 - 1], ?_, rfl, ?_⟩
  · simp only [observe, Task.observation, sensorLimits, Task.normalize, List.length_cons, List.length_nil, if_true, List.zip_cons_cons, List.zip_nil_left, Task.normalizeAll, Task.normalizeOne]
    norm_num
    refine ⟨by ring, by ring, by ring⟩
  · intro z hz
    simp only [List.mem_cons, List.not_mem_nil, or_false] at hz
    rcases hz with rfl | rfl | rfl <;> constructor <;> linarith

example (h : ℝ) (h1 : -30 ≤ h) (h2 : h ≤ 30) : InRange (reset h) := by
  refine ⟨⟨?_, ?_⟩, ⟨?_, ?_⟩, ?_, ?_⟩ <;> norm_num [reset] <;> linarith

/-- **C103, actions.** Both entries of an action are cut to [-1, 1]; then -1, 1 of the first are thrust -1 and 2, of the second the rudder at 90
degrees to either side. Actions of another length raise an AssertionError. -/
theorem C103_actions (b : North) (rnd : Fin 3 → ℝ) :
    (∀ a r, ∃ b', perform b [a, r] rnd = .ok b' ∧ b'.env = step (thrustOf a) (rudderOf r) rnd b.env ∧ b'.t = b.t + 1) ∧
    (∀ a, -1 ≤ a → a ≤ 1 → thrustOf a = (3 * a + 1) / 2 ∧ rudderOf a = 90 * a) ∧
    (∀ a, 1 ≤ a → thrustOf a = 2 ∧ rudderOf a = 90) ∧ (∀ a, a ≤ -1 → thrustOf a = -1 ∧ rudderOf a = -90) ∧
    (∀ action, action.length ≠ 2 → perform b action rnd = .error .assertion) := by
  refine ⟨fun a r => ?_, fun a h1 h2 => ⟨?_, ?_⟩, fun a h => ⟨?_, ?_⟩, fun a h => ⟨?_, ?_⟩, fun action hl => ?_⟩
  · simp only [perform, sent]; exact ⟨_, rfl, rfl, rfl⟩
  · unfold thrustOf; rw [max_eq_left (by linarith), min_eq_left (by linarith)]; ring
  · unfold rudderOf; rw [max_eq_left (by linarith), min_eq_left (by linarith)]
  · unfold thrustOf; rw [max_eq_left (by linarith), min_eq_right (by linarith)]
  · unfold rudderOf; rw [max_eq_left (by linarith), min_eq_right (by linarith)]
  · unfold thrustOf; rw [max_eq_right (by linarith), min_eq_left (by norm_num)]
  · unfold rudderOf; rw [max_eq_right (by linarith), min_eq_left (by norm_num)]
  · have : Task.sentAction true (some actorLimits) action = .error .assertion := by
      simp only [Task.sentAction, actorLimits, Task.denormalize]
      rw [if_neg (by simpa using fun h => hl h.symm)]
    simp only [perform, this]

/-- **C103, steering.** As long as the ship moves forward, a rudder to the one side turns it to the other: with the rudder at r > 0 it turns less (towards
positive headings) than with the rudder at -r, with the same speed, whatever the noise; strictly less without noise while it turns by at most 160 degrees per step. -/
theorem C103_steering (thrust r : ℝ) (hr : 0 < r) (hr' : r ≤ 90) (rnd : Fin 3 → ℝ) (x : Ship) (hx : InRange x) (hv : 0 < (step thrust r rnd x).v) :
    (step thrust (-r) rnd x).v = (step thrust r rnd x).v ∧ (step thrust r rnd x).hdot ≤ (step thrust (-r) rnd x).hdot ∧
    ((∀ i, rnd i = 0) → |x.hdot| ≤ 160 → (step thrust r rnd x).hdot < x.hdot - (step thrust r rnd x).v * (x.h + x.hdot) / 1000 ∧
      x.hdot - (step thrust r rnd x).v * (x.h + x.hdot) / 1000 < (step thrust (-r) rnd x).hdot) := by
  have e1 : min (max r (-90)) 90 = r := by rw [max_eq_left (by linarith), min_eq_left hr']
  have e2 : min (max (-r) (-90)) 90 = -r := by rw [max_eq_left (by linarith), min_eq_left (by linarith)]
  obtain ⟨⟨h1, h2⟩, ⟨h3, h4⟩, -⟩ := hx
  have hvr : (step thrust (-r) rnd x).v = (step thrust r rnd x).v := by
    simp only [step, e1, e2, neg_sq]
  have hd : ∀ q, min (max q (-90)) 90 = q → (step thrust q rnd x).hdot =
      min (max (x.hdot + (-(step thrust q rnd x).v * (q + x.h + 1 * x.hdot + rnd 2 * 10)) / 1000) (-180)) 180 := by
    intro q hq
    simp only [step, hq]
  have hv40 : (step thrust r rnd x).v ≤ 40 := (clamp _ (-10) 40 (by norm_num)).2
  rw [hd r e1, hd (-r) e2, hvr]
  generalize (step thrust r rnd x).v = v at hv hv40
  refine ⟨rfl, ?_, fun h0 hw => ?_⟩
  · apply min_le_min_right
    apply max_le_max_right
    nlinarith
  · rw [h0 2]
    obtain ⟨w1, w2⟩ := abs_le.1 hw
    have b1 : v * (r + x.h + x.hdot) ≤ 40 * 430 := by nlinarith
    have b2 : -(40 * 430) ≤ v * (r + x.h + x.hdot) := by nlinarith
    have b3 : v * (-r + x.h + x.hdot) ≤ 40 * 430 := by nlinarith
    have b4 : -(40 * 430) ≤ v * (-r + x.h + x.hdot) := by nlinarith
    constructor
    · rw [max_eq_left (by linarith), min_eq_left (by linarith)]
      nlinarith
    · rw [max_eq_left (by linarith), min_eq_left (by linarith)]
      nlinarith

example : InRange { h := 10, hdot := 0, v := 10 } ∧ 0 < (step 1 30 (fun _ => 0) { h := 10, hdot := 0, v := 10 }).v := by
  constructor
  · refine ⟨⟨?_, ?_⟩, ⟨?_, ?_⟩, ?_, ?_⟩ <;> norm_num
  · unfold step; norm_num

/-- **C103, episodes.** For every maximal number of steps N ≥ 1, whatever was done before the reset: an episode is over exactly after N actions; the total reward is the sum, over the
steps after which the ship heads north within 5 degrees, of its speed times 2.5/N; it is at most 100, and after n ≤ N steps at most 100 n/N. -/
theorem C103_episode (env : Ship) (N : Nat) (hN : 1 ≤ N) (h : ℝ) (hh : -30 ≤ h ∧ h ≤ 30) (before as : List ((ℝ × ℝ) × (Fin 3 → ℝ))) :
    ∃ b b₁ b', Ship.create env N = .ok b ∧ performs b before = .ok b₁ ∧ performs (resetTask b₁ h) as = .ok b' ∧ (finished b' ↔ N ≤ as.length) ∧
      b'.cum = ((List.range as.length).map (fun k => if |(voyage (reset h) (as.take (k + 1))).h| < 5 then (voyage (reset h) (as.take (k + 1))).v * (5 / 2 / N) else 0)).sum ∧
      b'.cum ≤ 100 * as.length / N ∧ (as.length ≤ N → b'.cum ≤ 100) := by
  have hNr : (0 : ℝ) < N := by exact_mod_cast hN
  have hr0 : InRange (reset h) := by
    refine ⟨⟨?_, ?_⟩, ⟨?_, ?_⟩, ?_, ?_⟩ <;> norm_num [reset] <;> linarith [hh.1, hh.2]
  have hcreate : Ship.create env N = .ok { N := N, t := 0, scale := 100 / ((N : Int) : ℝ) / 40, env := env, samples := 0, cum := 0 } := by
    unfold Ship.create
    rw [if_neg (by omega)]
  obtain ⟨b₁, g1, g2, g3, -⟩ := performs_eq before { N := N, t := 0, scale := 100 / ((N : Int) : ℝ) / 40, env := env, samples := 0, cum := 0 }
  obtain ⟨b', h1, h2, h3, h4, h5, h6⟩ := performs_eq as (resetTask b₁ h)
  have hsc : (100 / ((N : Int) : ℝ) / 40 : ℝ) = 5 / 2 / N := by
    push_cast
    field_simp
    norm_num
  have hle : ((List.range as.length).map (fun k => reward (5 / 2 / N) (voyage (reset h) (as.take (k + 1))))).sum ≤ 100 * as.length / N := by
    have hone : ∀ k ∈ List.range as.length, reward (5 / 2 / N) (voyage (reset h) (as.take (k + 1))) ≤ 100 / N := by
      intro k _
      refine (reward_le _ (voyage_range _ _ hr0) _ (by positivity)).trans (le_of_eq ?_)
      ring
    have := List.sum_le_card_nsmul ((List.range as.length).map (fun k => reward (5 / 2 / N) (voyage (reset h) (as.take (k + 1))))) (100 / N) (by
      intro y hy
      obtain ⟨k, hk, rfl⟩ := List.mem_map.1 hy
      exact hone k hk)
    rw [List.length_map, List.length_range, nsmul_eq_mul] at this
    refine this.trans (le_of_eq ?_)
    ring
  have hcum : b'.cum = ((List.range as.length).map (fun k => reward (5 / 2 / N) (voyage (reset h) (as.take (k + 1))))).sum := by
    rw [h6]
    simp only [resetTask, zero_add, g3, hsc]
  refine ⟨_, b₁, b', hcreate, g1, h1, ?_, hcum, by rw [hcum]; exact hle, fun hn => ?_⟩
  · unfold finished
    rw [h4, h2]
    simp only [resetTask, g2]
    omega
  · rw [hcum]
    refine hle.trans ?_
    rw [div_le_iff₀ hNr]
    have : (as.length : ℝ) ≤ N := by exact_mod_cast hn
    linarith

/-- **C103, negation (longer episodes).** `setMaxLength` does not adjust the scale of the rewards: a task made for one step and then set to 30 steps
gives a total above 100, with full thrust, a straight rudder and no noise. -/
theorem C103_negation_length (env : Ship) : ∃ b b', Ship.create env 1 = .ok b ∧
    performs (resetTask (setMaxLength b 30) 0) (List.replicate 30 ((1, 0), fun _ => 0)) = .ok b' ∧ finished b' ∧ 100 < b'.cum := by
  have hcreate : Ship.create env 1 = .ok { N := 1, t := 0, scale := 100 / ((1 : Int) : ℝ) / 40, env := env, samples := 0, cum := 0 } := by
    unfold Ship.create
    rw [if_neg (by omega)]
  obtain ⟨b', h1, h2, h3, h4, h5, h6⟩ := performs_eq (List.replicate 30 ((1, 0), fun _ => 0))
    (resetTask (setMaxLength { N := 1, t := 0, scale := 100 / ((1 : Int) : ℝ) / 40, env := env, samples := 0, cum := 0 } 30) 0)
  have ht : thrustOf 1 = 2 := by unfold thrustOf; norm_num
  have hr : rudderOf 0 = 0 := by unfold rudderOf; norm_num
  have hstep : ∀ v : ℝ, 0 ≤ v → v ≤ 30 → step (thrustOf 1) (rudderOf 0) (fun _ => 0) { h := 0, hdot := 0, v := v } = { h := 0, hdot := 0, v := 30 - (30 - v) * 0.992 } := by
    intro v h0 h30
    unfold step
    rw [ht, hr]
    norm_num
    rw [max_eq_left (by linarith), min_eq_left (by linarith)]
    ring
  have hv : ∀ k, ∀ q : ℝ, 0 ≤ q → q ≤ 1 → voyage { h := 0, hdot := 0, v := 30 - 30 * q } (List.replicate k ((1, 0), fun _ => 0)) = { h := 0, hdot := 0, v := 30 - 30 * (q * 0.992 ^ k) } := by
    intro k
    induction k with
    | zero => intro q _ _; simp [voyage]
    | succ k ih =>
      intro q h0 h1
      rw [List.replicate_succ]
      simp only [voyage]
      rw [hstep _ (by linarith) (by linarith)]
      have := ih (q * 0.992) (by positivity) (by linarith)
      rw [show (30 - (30 - (30 - 30 * q)) * 0.992 : ℝ) = 30 - 30 * (q * 0.992) by ring, this]
      congr 2
      ring
  refine ⟨_, b', hcreate, h1, ?_, ?_⟩
  · unfold finished
    rw [h4, h2]
    simp [resetTask, setMaxLength]
  · rw [h6]
    have hterm : ∀ k ∈ List.range 30, reward (100 / ((1 : Int) : ℝ) / 40) (voyage (reset 0) ((List.replicate 30 (((1, 0), fun _ => 0) : (ℝ × ℝ) × (Fin 3 → ℝ))).take (k + 1))) = 5 / 2 * (30 - 30 * 0.992 ^ (k + 1)) := by
      intro k hk
      rw [List.take_replicate, min_eq_left (by have := List.mem_range.1 hk; omega)]
      have := hv (k + 1) 1 (by norm_num) le_rfl
      rw [show (30 - 30 * 1 : ℝ) = 0 by norm_num] at this
      unfold reset reward
      rw [this]
      norm_num
      ring
    simp only [resetTask, setMaxLength, List.length_replicate, zero_add]
    rw [List.map_congr_left hterm]
    norm_num [List.range_succ]

/-- **C103, negation (drag).** The drag depends on the sign of the heading: on a heading more than 20 degrees west of north the ship gains speed with
the engine off, the rudder straight and no noise, whatever its speed; on the opposite heading it loses speed. (`drag = 5 * h + ...` without an
absolute value.) -/
theorem C103_negation_drag (x : Ship) (hx : InRange x) (h : x.h < -20) (hv : 0 < x.v) (hv' : x.v < 40) :
    x.v < (step 0 0 (fun _ => 0) x).v ∧ (step 0 0 (fun _ => 0) { x with h := -x.h }).v < x.v := by
  obtain ⟨⟨h1, h2⟩, -, -⟩ := hx
  constructor
  · unfold step
    norm_num
    refine ⟨Or.inl ?_, hv'⟩
    nlinarith
  · unfold step
    norm_num
    left
    constructor
    · nlinarith
    · linarith

end Verif.Props
