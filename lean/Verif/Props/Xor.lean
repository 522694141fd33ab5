import Verif.Spec.Xor
import Mathlib.MeasureTheory.Measure.Lebesgue.Basic
import Mathlib.Tactic.IntervalCases
import Mathlib.Tactic.Linarith
/-
C102 XOR tasks.
-/
namespace Verif.Xor
open Spec

theorem right_iff (o : Opts) (d : Nat × Nat) (hd : Bits d) (a : Nat) : right o d a = true ↔ a = answer o.andTask d := by
  obtain ⟨x, y⟩ := d
  obtain ⟨h1, h2⟩ := hd
  simp only at h1 h2
  cases h : o.andTask <;> interval_cases x <;> interval_cases y <;> simp [right, answer, h]

theorem addReward_eq (o : Opts) (u : ℝ) (r : Int) (cum : ℝ) : addReward o u r cum = cum + getReward o u r := by
  unfold addReward
  cases o.discount with
  | none => rfl
  | some g => simp

/-- the observation of step `k` -/
def seen (d : Option (Nat × Nat)) (k : Nat) : Nat × Nat := d.getD (k % 2, k / 2 % 2)

theorem interact_eq (o : Opts) (hdiv : o.trueDiv = false) (draw : Option (Nat × Nat)) (hd : ∀ d, draw = some d → Bits d) (u : ℝ) (policy : Nat × Nat → Nat) (x : Xor) :
    interact o draw u policy x = .ok { r := if policy (seen draw x.counter) = answer o.andTask (seen draw x.counter) then 1 else -1, counter := x.counter + 1,
                                       obs := some (seen draw x.counter), float := false,
                                       cum := x.cum + getReward o u (if policy (seen draw x.counter) = answer o.andTask (seen draw x.counter) then 1 else -1) } := by
  have hb : Bits (seen draw x.counter) := by
    cases draw with
    | none => exact ⟨Nat.mod_lt _ (by omega), Nat.mod_lt _ (by omega)⟩
    | some d => exact hd d rfl
  cases draw with
  | none =>
    simp only [seen, Option.getD_none] at hb
    simp only [interact, getObservation, performAction, hdiv, seen, Option.getD_none, right_iff o _ hb, addReward_eq]
    simp
    constructor <;> congr
  | some d =>
    simp only [seen, Option.getD_some] at hb
    simp only [interact, getObservation, performAction, seen, Option.getD_some, right_iff o _ hb, addReward_eq]
    simp
    constructor <;> congr

end Verif.Xor

namespace Verif.Props
open Verif.Xor Verif.Xor.Spec MeasureTheory

/-- **C102, interactions (integer division).** For every history, with any policies: the observation of step k is (k mod 2, k/2 mod 2), so that four
steps in a row show all four pairs of bits once, or the drawn bits in random order; the reward is 1 for the right answer and -1 otherwise,
possibly negated by chance; the total is the sum of the rewards. -/
theorem C102_interactions (o : Opts) (hdiv : o.trueDiv = false) (hist : List (Option (Nat × Nat) × ℝ × (Nat × Nat → Nat))) (hd : ∀ i ∈ hist, ∀ d, i.1 = some d → Bits d) :
    ∃ x, runXor o create hist = .ok x ∧ x.counter = hist.length ∧
      x.cum = ((List.range hist.length).map (fun k => match hist[k]? with
        | some (draw, u, policy) => getReward o u (if policy (seen draw k) = answer o.andTask (seen draw k) then 1 else -1)
        | none => 0)).sum := by
  have key : ∀ (hist : List (Option (Nat × Nat) × ℝ × (Nat × Nat → Nat))) (x0 : Xor), (∀ i ∈ hist, ∀ d, i.1 = some d → Bits d) →
      ∃ x, runXor o x0 hist = .ok x ∧ x.counter = x0.counter + hist.length ∧
      x.cum = x0.cum + ((List.range hist.length).map (fun k => match hist[k]? with
        | some (draw, u, policy) => getReward o u (if policy (seen draw (x0.counter + k)) = answer o.andTask (seen draw (x0.counter + k)) then 1 else -1)
        | none => 0)).sum := by
    intro hist
    induction hist with
    | nil => intro x0 _; exact ⟨x0, rfl, by simp, by simp⟩
    | cons i rest ih =>
      intro x0 h
      obtain ⟨d, u, p⟩ := i
      have he := interact_eq o hdiv d (fun d' hd' => h (d, u, p) (by simp) d' hd') u p x0
      obtain ⟨x, h1, h2, h3⟩ := ih _ (fun i hi => h i (by simp [hi]))
      refine ⟨x, by simp only [runXor, he]; exact h1, by rw [h2]; simp only [List.length_cons]; omega, ?_⟩
      rw [h3]
      simp only [List.length_cons, List.range_succ_eq_map, List.map_cons, List.sum_cons, List.map_map, List.getElem?_cons_zero, Nat.add_zero]
      rw [add_assoc]
      congr 2
      congr 1
      refine List.map_congr_left fun k _ => ?_
      simp only [Function.comp, List.getElem?_cons_succ]
      rw [show x0.counter + 1 + k = x0.counter + (k + 1) by omega]
  obtain ⟨x, h1, h2, h3⟩ := key hist create hd
  refine ⟨x, h1, by rw [h2]; simp [create], ?_⟩
  rw [h3]
  simp [create]

/-- four observations in a row are all four pairs -/
example (k : Nat) : ∀ d : Nat × Nat, Bits d → ∃ j < 4, seen none (k + j) = d := by
  rintro ⟨a, b⟩ ⟨h1, h2⟩
  simp only at h1 h2
  refine ⟨((a + 2 * b) + 4 - k % 4) % 4, Nat.mod_lt _ (by omega), ?_⟩
  simp only [seen, Option.getD_none, Prod.mk.injEq]
  have := Nat.mod_lt k (show 4 > 0 by omega)
  omega

/-- **C102, stochasticity.** With a stochasticity s between 0 and 1 a reward is negated with probability s. -/
theorem C102_stochastic (o : Opts) (h0 : 0 ≤ o.stochasticity) (h1 : o.stochasticity ≤ 1) (r : Int) (hr : r ≠ 0) :
    volume {u : ℝ | 0 ≤ u ∧ u < 1 ∧ getReward o u r = -r} = ENNReal.ofReal o.stochasticity ∧
    volume {u : ℝ | 0 ≤ u ∧ u < 1 ∧ getReward o u r = r} = ENNReal.ofReal (1 - o.stochasticity) := by
  have hr' : (r : ℝ) ≠ 0 := by exact_mod_cast hr
  have e1 : {u : ℝ | 0 ≤ u ∧ u < 1 ∧ getReward o u r = -r} = Set.Ico 0 o.stochasticity := by
    ext u
    simp only [Set.mem_setOf_eq, Set.mem_Ico, getReward]
    constructor
    · rintro ⟨a, b, c⟩
      refine ⟨a, ?_⟩
      by_contra hn
      rw [if_neg hn] at c
      exact hr' (by linarith)
    · rintro ⟨a, b⟩
      exact ⟨a, by linarith, by rw [if_pos b]⟩
  have e2 : {u : ℝ | 0 ≤ u ∧ u < 1 ∧ getReward o u r = r} = Set.Ico o.stochasticity 1 := by
    ext u
    simp only [Set.mem_setOf_eq, Set.mem_Ico, getReward]
    constructor
    · rintro ⟨a, b, c⟩
      refine ⟨?_, b⟩
      by_contra hn
      rw [if_pos (not_le.1 hn)] at c
      exact hr' (by linarith)
    · rintro ⟨a, b⟩
      exact ⟨by linarith, b, by rw [if_neg (not_lt.2 a)]⟩
  rw [e1, e2, Real.volume_Ico, Real.volume_Ico, sub_zero]
  exact ⟨rfl, rfl⟩

/-- **C102, chain (integer division).** After any history the position in the chain is the number of right answers since the last wrong one, at most
3, and the observation is that number in binary. A wrong answer costs 1 and leads back to the start; a right one is rewarded with 1 from the
position `reward_cutoff` on, and costs 1 before. -/
theorem C102_chain (o : Opts) (hdiv : o.trueDiv = false) (x : Chain) (hx : x.state ≤ 3) (u : ℝ) (policy : Nat × Nat → Nat) :
    let d := (x.state % 2, x.state / 2)
    ∃ x', interactChain o u policy x = .ok x' ∧ x'.obs = some d ∧ x'.state ≤ 3 ∧ x'.cum = x.cum + getReward o u x'.r ∧
      (policy d = answer o.andTask d → x'.state = min (x.state + 1) 3 ∧ x'.r = if o.cutoff ≤ x.state then 1 else -1) ∧
      (policy d ≠ answer o.andTask d → x'.state = 0 ∧ x'.r = -1) := by
  intro d
  have hd : (x.state % 2, x.state / 2 % 2) = d := by simp only [d, Prod.mk.injEq, true_and]; omega
  have hb : Bits d := ⟨Nat.mod_lt _ (by omega), by simp only [d]; omega⟩
  have hri := right_iff o d hb (policy d)
  simp only [interactChain, observeChain, performChain, hdiv, hd, addReward_eq, Bool.false_eq_true, if_false]
  by_cases hp : policy d = answer o.andTask d
  · rw [if_pos (hri.2 hp)]
    refine ⟨_, rfl, rfl, by simp only; omega, rfl, fun _ => ⟨rfl, ?_⟩, fun h => absurd hp h⟩
    simp only
    by_cases hc : o.cutoff ≤ x.state
    · rw [if_pos hc, if_pos hc]; rfl
    · rw [if_neg hc, if_neg hc]; rfl
  · rw [if_neg (fun h => hp (hri.1 h))]
    exact ⟨_, rfl, rfl, by simp, rfl, fun h => absurd h hp, fun _ => ⟨rfl, rfl⟩⟩

/-- **C102, chain, totals.** Without stochasticity, n right answers in a row from the start give n minus twice the number of steps before the cutoff:
with cutoff c between 0 and 3 the total is n - 2 min(n, c). -/
theorem C102_chain_total (o : Opts) (hdiv : o.trueDiv = false) (hs : o.stochasticity = 0) (c : Nat) (hc : o.cutoff = c) (hc3 : c ≤ 3) (us : List ℝ) (hu : ∀ u ∈ us, 0 ≤ u) :
    ∃ x, runChain o createChain (us.map (fun u => (u, answer o.andTask))) = .ok x ∧ x.state = min us.length 3 ∧ x.cum = us.length - 2 * (min us.length c : Nat) := by
  have key : ∀ (us : List ℝ) (x0 : Chain) (n : Nat), (∀ u ∈ us, 0 ≤ u) → x0.state = min n 3 → x0.cum = n - 2 * (min n c : Nat) →
      ∃ x, runChain o x0 (us.map (fun u => (u, answer o.andTask))) = .ok x ∧ x.state = min (n + us.length) 3 ∧
        x.cum = ((n + us.length : Nat) : ℝ) - 2 * (min (n + us.length) c : Nat) := by
    intro us
    induction us with
    | nil => intro x0 n _ h1 h2; exact ⟨x0, rfl, h1, h2⟩
    | cons u us ih =>
      intro x0 n hu h1 h2
      obtain ⟨x', e1, -, -, e3, e4, -⟩ := C102_chain o hdiv x0 (by omega) u (answer o.andTask)
      obtain ⟨e5, e6⟩ := e4 rfl
      have hu0 : ¬ u < o.stochasticity := by rw [hs]; exact not_lt.2 (hu u (by simp))
      obtain ⟨x, f1, f2, f3⟩ := ih x' (n + 1) (fun v hv => hu v (by simp [hv])) (by rw [e5, h1]; omega) (by
        rw [e3, e6, h2, getReward, if_neg hu0, hc]
        by_cases hcn : (c : Int) ≤ x0.state
        · rw [if_pos hcn]
          rw [show min (n + 1) c = min n c by omega]
          push_cast; ring
        · rw [if_neg hcn]
          rw [show min (n + 1) c = min n c + 1 by omega]
          push_cast; ring)
      refine ⟨x, by simp only [List.map_cons, runChain, e1]; exact f1, by rw [f2]; simp only [List.length_cons]; omega, ?_⟩
      rw [f3]
      simp only [List.length_cons]
      rw [show n + 1 + us.length = n + (us.length + 1) by omega]
  obtain ⟨x, h1, h2, h3⟩ := key us createChain 0 hu rfl (by simp [createChain])
  exact ⟨x, h1, by rw [h2]; simp, by rw [h3]; simp⟩

example : ∃ x, runChain { trueDiv := false, andTask := false, stochasticity := 0, cutoff := 2, discount := none } createChain
    ([0, 0, 0].map (fun u => (u, answer false))) = .ok x ∧ x.cum = -1 := by
  obtain ⟨x, h1, -, h3⟩ := C102_chain_total { trueDiv := false, andTask := false, stochasticity := 0, cutoff := 2, discount := none } rfl rfl 2 rfl (by omega) [0, 0, 0] (by simp)
  exact ⟨x, h1, by rw [h3]; norm_num⟩

/-- **C102, negation (Python 3).** With true division every action raises a TypeError, in XORTask in its default order and in XORChainTask: the
observation is an array of floats, which have no `^` and `&`. -/
theorem C102_negation_division (o : Opts) (hdiv : o.trueDiv = true) (u : ℝ) (policy : Nat × Nat → Nat) (x : Xor) (y : Chain) :
    interact o none u policy x = .error .type ∧ interactChain o u policy y = .error .type := by
  simp [interact, getObservation, performAction, interactChain, observeChain, performChain, hdiv]

/-- **C102, negation (evaluation).** The tasks cannot be reset, so that they cannot be used as fitness evaluators (`f` calls `reset`): there is no
`env`. -/
theorem C102_negation_reset (x : Xor) : reset x = .error .attribute := rfl

/-- **C102, negation (discount).** A discount factor has no effect: `performAction` does not count the samples. -/
theorem C102_negation_discount (o : Opts) (g : ℝ) (u : ℝ) (x : Xor) (action : Nat) :
    performAction { o with discount := some g } u x action = performAction { o with discount := none } u x action := by
  unfold performAction
  have h : ∀ obs, right { o with discount := some g } obs action = right { o with discount := none } obs action := fun _ => rfl
  simp only [addReward_eq]
  rfl

/-- **C102, negation (two draws).** With a stochasticity strictly between 0 and 1 the reward added to the total and the reward the agent is told for
the same action are drawn independently and can differ. -/
theorem C102_negation_draws (o : Opts) (h0 : 0 < o.stochasticity) (h1 : o.stochasticity < 1) :
    ∃ u v : ℝ, 0 ≤ u ∧ u < 1 ∧ 0 ≤ v ∧ v < 1 ∧ ∀ cum, addReward o u 1 cum = cum - 1 ∧ getReward o v 1 = 1 := by
  refine ⟨0, o.stochasticity, le_rfl, one_pos, h0.le, h1, fun cum => ⟨?_, ?_⟩⟩
  · rw [addReward_eq, getReward, if_pos h0]; push_cast; ring
  · rw [getReward, if_neg (lt_irrefl _)]; norm_num

end Verif.Props
