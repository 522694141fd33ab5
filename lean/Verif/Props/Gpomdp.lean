import Verif.Model.Gpomdp
import Mathlib.Tactic.Linarith
import Mathlib.Tactic.Ring
import Mathlib.Tactic.FieldSimp
import Mathlib.Tactic.NormNum
import Mathlib.Algebra.BigOperators.Field
import Mathlib.Algebra.Order.BigOperators.Group.Finset
import Mathlib.Algebra.BigOperators.Ring.List
import Mathlib.Tactic.Positivity
/-
Properties of the GPOMDP policy gradient learner.
-/
namespace Verif.Gpomdp

open Verif.DataSet (Err)

variable {d : ℕ}

namespace Spec

/-- The average reward at a time step, over the episodes that are long enough. -/
noncomputable def meanReward (es : List (Episode d)) (t : ℕ) : ℝ :=
  ((es.filter fun e => t < e.len).map fun e => e.reward t).sum / (es.filter fun e => t < e.len).length

/-- The policy gradient estimated with the given baselines: the average over the episodes of the sum over the time steps of the
derivative of the log likelihood up to the step times the reward of the step relative to the baseline. -/
noncomputable def gradient (es : List (Episode d)) (b : Episode d → ℕ → Fin d → ℝ) (j : Fin d) : ℝ :=
  (es.map fun e => ∑ t ∈ Finset.range e.len, (∑ k ∈ Finset.range (t + 1), e.loglh k j) * (e.reward t - b e t j)).sum / es.length

/-- The baseline of the smallest variance, for each time step and component. -/
noncomputable def optimal (es : List (Episode d)) (t : ℕ) (j : Fin d) : ℝ :=
  ((es.filter fun e => t < e.len).map fun e => (∑ k ∈ Finset.range (t + 1), e.loglh k j) ^ 2 * e.reward t).sum /
    ((es.filter fun e => t < e.len).map fun e => (∑ k ∈ Finset.range (t + 1), e.loglh k j) ^ 2).sum

end Spec

theorem mapM_some {α β : Type} (f : α → Option β) (g : α → β) : ∀ l : List α, (∀ x ∈ l, f x = some (g x)) → l.mapM f = some (l.map g)
  | [], _ => rfl
  | x :: l, h => by
    rw [List.mapM_cons, h x (by simp), mapM_some f g l fun y hy => h y (List.mem_cons_of_mem _ hy)]
    rfl

theorem mapM_none {α β : Type} (f : α → Option β) : ∀ l : List α, (∃ x ∈ l, f x = none) → l.mapM f = none
  | [], h => by simp at h
  | x :: l, h => by
    rw [List.mapM_cons]
    cases hx : f x with
    | none => rfl
    | some y =>
      obtain ⟨z, hz, e⟩ := h
      rcases List.mem_cons.1 hz with rfl | hz
      · rw [hx] at e; cases e
      · rw [mapM_none f l ⟨z, hz, e⟩]; rfl

theorem list_range_sum (f : ℕ → ℝ) : ∀ n : ℕ, ((List.range n).map f).sum = ∑ t ∈ Finset.range n, f t
  | 0 => by simp
  | n + 1 => by rw [List.range_succ, Finset.sum_range_succ, ← list_range_sum f n]; simp

theorem sumLog_eq (e : Episode d) (t : ℕ) (j : Fin d) : sumLog e t j = ∑ k ∈ Finset.range (t + 1), e.loglh k j :=
  list_range_sum _ _

/-- Some derivative of the log likelihood up to the time step is not zero. -/
def Informative (e : Episode d) (t : ℕ) : Prop := ∃ j, ∑ k ∈ Finset.range (t + 1), e.loglh k j ≠ 0

theorem contribution_eq (e : Episode d) (t : ℕ) (h : Informative e t) : contribution e t = some (e.reward t) := by
  obtain ⟨j, hj⟩ := h
  have hd : (d : ℝ) ≠ 0 := by
    have := j.pos
    exact_mod_cast this.ne'
  have hq : ∑ j, sumLog e t j ^ 2 ≠ 0 := by
    have h1 : 0 < sumLog e t j ^ 2 := by rw [sumLog_eq]; positivity
    exact (lt_of_lt_of_le h1 (Finset.single_le_sum (f := fun j => sumLog e t j ^ 2) (fun k _ => sq_nonneg _) (Finset.mem_univ j))).ne'
  unfold contribution
  simp only
  rw [if_neg (div_ne_zero hq hd), ← Finset.sum_mul]
  congr 1
  field_simp

theorem contribution_none (e : Episode d) (t : ℕ) (h : ¬Informative e t) : contribution e t = none := by
  unfold Informative at h
  push Not at h
  unfold contribution
  simp only
  rw [if_pos]
  simp [sumLog_eq, h]

theorem baseline_eq (es : List (Episode d)) (h : ∀ e ∈ es, ∀ t < e.len, Informative e t) (t : ℕ) : baseline es t = some (Spec.meanReward es t) := by
  unfold baseline
  rw [mapM_some _ (fun e => e.reward t) _ fun e he => contribution_eq e t (h e (List.mem_filter.1 he).1 t (by simpa using (List.mem_filter.1 he).2))]
  simp [Spec.meanReward]

theorem gOf_eq (es : List (Episode d)) (h : ∀ e ∈ es, ∀ t < e.len, Informative e t) (e : Episode d) (j : Fin d) :
    gOf es e j = some (∑ t ∈ Finset.range e.len, (∑ k ∈ Finset.range (t + 1), e.loglh k j) * (e.reward t - Spec.meanReward es t)) := by
  unfold gOf
  rw [mapM_some _ (fun t => sumLog e t j * (e.reward t - Spec.meanReward es t)) _ fun t _ => by rw [baseline_eq es h]; rfl]
  simp only [Option.map_some, list_range_sum, sumLog_eq]

theorem gradient_eq (es : List (Episode d)) (hne : es ≠ []) (h : ∀ e ∈ es, ∀ t < e.len, Informative e t) :
    calculateGradient es = .ok fun j => some (Spec.gradient es (fun _ t _ => Spec.meanReward es t) j) := by
  unfold calculateGradient
  rw [if_neg hne]
  congr 1
  funext j
  rw [mapM_some _ (fun e => ∑ t ∈ Finset.range e.len, (∑ k ∈ Finset.range (t + 1), e.loglh k j) * (e.reward t - Spec.meanReward es t)) _ fun e _ => gOf_eq es h e j]
  rfl

end Verif.Gpomdp

namespace Verif.Props

open Verif.Gpomdp
open Verif.DataSet (Err)

variable {d : ℕ}

/-- Two episodes of different lengths with two parameters. -/
private def sample : List (Episode 2) := [⟨2, fun _ _ => 1, fun t => t⟩, ⟨3, fun _ j => j.val + 1, fun _ => 1⟩]

private theorem sample_informative : ∀ e ∈ sample, ∀ t < e.len, Informative e t := by
  intro e he t _
  simp only [sample, List.mem_cons, List.not_mem_nil, or_false] at he
  rcases he with rfl | rfl <;> refine ⟨0, ?_⟩ <;> simp <;> positivity

/-- For episodes of any number and lengths in which no sum of the derivatives of the log likelihoods vanishes, the gradient is the policy
gradient estimate in which the baseline of each time step is the average reward of this time step over the episodes that are long
enough. -/
theorem C143_gradient (es : List (Episode d)) (hne : es ≠ []) (h : ∀ e ∈ es, ∀ t < e.len, Informative e t) :
    calculateGradient es = .ok fun j => some (Spec.gradient es (fun _ t _ => Spec.meanReward es t) j) :=
  gradient_eq es hne h

example : sample ≠ [] ∧ ∀ e ∈ sample, ∀ t < e.len, Informative e t := ⟨by simp [sample], sample_informative⟩

/-- Rewards that depend on the time step only do not influence the gradient: it is the same for rewards `r t + c t`. -/
theorem C143_shift (es : List (Episode d)) (hne : es ≠ []) (h : ∀ e ∈ es, ∀ t < e.len, Informative e t) (c : ℕ → ℝ) :
    calculateGradient (es.map fun e => { e with reward := fun t => e.reward t + c t }) = calculateGradient es := by
  have h' : ∀ e ∈ es.map (fun e => { e with reward := fun t => e.reward t + c t } : Episode d → Episode d), ∀ t < e.len, Informative e t := by
    intro e he t ht
    obtain ⟨e0, he0, rfl⟩ := List.mem_map.1 he
    exact h e0 he0 t ht
  rw [gradient_eq _ (by simpa using hne) h', gradient_eq es hne h]
  congr 1
  funext j
  unfold Spec.gradient
  rw [List.length_map, List.map_map]
  congr 3
  apply List.map_congr_left
  intro e he
  refine Finset.sum_congr rfl fun t ht => ?_
  have ht' : t < e.len := Finset.mem_range.1 ht
  simp only
  congr 1
  have : Spec.meanReward (es.map fun e => ({ e with reward := fun t => e.reward t + c t } : Episode d)) t = Spec.meanReward es t + c t := by
    unfold Spec.meanReward
    rw [List.filter_map, List.map_map, List.length_map]
    have hf : (es.filter ((fun e : Episode d => decide (t < e.len)) ∘ fun e => { e with reward := fun t => e.reward t + c t })) = es.filter fun e => decide (t < e.len) := rfl
    rw [hf]
    have hm : e ∈ es.filter fun e => decide (t < e.len) := List.mem_filter.2 ⟨he, by simpa using ht'⟩
    generalize es.filter (fun e => decide (t < e.len)) = l at hm
    have hl : (l.length : ℝ) ≠ 0 := by
      have := List.length_pos_of_mem hm
      exact_mod_cast this.ne'
    have hs : ∀ l : List (Episode d), (l.map ((fun e : Episode d => e.reward t) ∘ fun e => { e with reward := fun t => e.reward t + c t })).sum = (l.map fun e => e.reward t).sum + l.length * c t := by
      intro l
      induction l with
      | nil => simp
      | cons a l ih => simp only [List.map_cons, List.sum_cons, ih, Function.comp_apply, List.length_cons]; push_cast; ring
    rw [hs]
    field_simp
  rw [this]
  ring

example : sample.map (fun e => ({ e with reward := fun t => e.reward t + t } : Episode 2)) ≠ sample := by
  simp [sample]
  intro h
  have := congrFun h 1
  norm_num at this

/-- For at least two episodes of equal length, the gradient is `(N - 1) / N` times the estimate that takes as the baseline of an
episode the average reward of the other episodes, which is independent of the actions in the episode. -/
theorem C143_leave_one_out (es : List (Episode d)) (T : ℕ) (hT : ∀ e ∈ es, e.len = T) (hN : 2 ≤ es.length) (h : ∀ e ∈ es, ∀ t < e.len, Informative e t) :
    calculateGradient es = .ok fun j => some ((es.length - 1) / es.length *
      Spec.gradient es (fun e t _ => ((es.map fun e' => e'.reward t).sum - e.reward t) / (es.length - 1)) j) := by
  have hne : es ≠ [] := by rintro rfl; simp at hN
  rw [gradient_eq es hne h]
  congr 1
  funext j
  congr 1
  have hn2 : (2 : ℝ) ≤ es.length := by exact_mod_cast hN
  have hn0 : (es.length : ℝ) ≠ 0 := by linarith
  have hn1 : (es.length : ℝ) - 1 ≠ 0 := by linarith
  unfold Spec.gradient
  rw [← mul_div_assoc]
  congr 1
  rw [← List.sum_map_mul_left]
  apply congrArg
  apply List.map_congr_left
  intro e he
  rw [Finset.mul_sum]
  refine Finset.sum_congr rfl fun t ht => ?_
  have hf : (es.filter fun e => decide (t < e.len)) = es := List.filter_eq_self.2 fun e' he' => by
    have := Finset.mem_range.1 ht
    rw [hT e he] at this
    simp [hT e' he', this]
  unfold Spec.meanReward
  beta_reduce
  rw [hf]
  field_simp
  ring

example : let es : List (Episode 1) := [⟨1, fun _ _ => 1, fun _ => 1⟩, ⟨1, fun _ _ => 2, fun _ => 0⟩]
    (∀ e ∈ es, e.len = 1) ∧ 2 ≤ es.length ∧ ∀ e ∈ es, ∀ t < e.len, Informative e t := by
  refine ⟨by simp, by simp, ?_⟩
  intro e he t ht
  simp only [List.mem_cons, List.not_mem_nil, or_false] at he
  rcases he with rfl | rfl <;> refine ⟨0, ?_⟩ <;> simp <;> positivity

/-- The gradient of a single episode is always zero, whatever the rewards: nothing can be learned episode by episode. -/
theorem C143_negation_single (e : Episode d) (h : ∀ t < e.len, Informative e t) : calculateGradient [e] = .ok fun _ => some 0 := by
  rw [gradient_eq [e] (by simp) (by simpa using h)]
  congr 1
  funext j
  congr 1
  unfold Spec.gradient
  simp only [List.map_cons, List.map_nil, List.sum_cons, List.sum_nil, add_zero, List.length_cons, List.length_nil, zero_add, Nat.cast_one, div_one]
  refine Finset.sum_eq_zero fun t ht => ?_
  have : Spec.meanReward [e] t = e.reward t := by
    unfold Spec.meanReward
    rw [List.filter_cons_of_pos (by simpa using ht)]
    simp
  rw [this]
  ring

example : ∀ t < (⟨2, fun _ _ => 1, fun t => t⟩ : Episode 2).len, Informative (⟨2, fun _ _ => 1, fun t => t⟩ : Episode 2) t :=
  fun t ht => sample_informative _ (by simp [sample]) t ht

/-- The baselines are not weighted by the squared log likelihood derivatives, as the code intends: the weights cancel in each episode.  With the
baselines of smallest variance the estimate can even have the other sign. -/
theorem C143_negation_optimal : ∃ es : List (Episode 1), calculateGradient es = .ok (fun _ => some (-1 / 4)) ∧
    Spec.gradient es (fun _ t j => Spec.optimal es t j) 0 = 1 / 5 := by
  refine ⟨[⟨1, fun _ _ => 1, fun _ => 1⟩, ⟨1, fun _ _ => 2, fun _ => 0⟩], ?_, ?_⟩
  · rw [gradient_eq]
    · congr 1
      funext j
      norm_num [Spec.gradient, Spec.meanReward]
    · simp
    · intro e he t ht
      simp only [List.mem_cons, List.not_mem_nil, or_false] at he
      rcases he with rfl | rfl <;> refine ⟨0, ?_⟩ <;> simp <;> positivity
  · norm_num [Spec.gradient, Spec.optimal]

/-- As soon as the derivatives of the log likelihood up to some time step of some episode sum to zero, all components of the gradient are nan. -/
theorem C143_negation_nan (es : List (Episode d)) (e : Episode d) (he : e ∈ es) (t : ℕ) (ht : t < e.len) (h : ∀ j, ∑ k ∈ Finset.range (t + 1), e.loglh k j = 0) :
    calculateGradient es = .ok fun _ => none := by
  unfold calculateGradient
  rw [if_neg (List.ne_nil_of_mem he)]
  congr 1
  funext j
  have hb : baseline es t = none := by
    unfold baseline
    rw [mapM_none _ _ ⟨e, List.mem_filter.2 ⟨he, by simpa using ht⟩, contribution_none e t (by rintro ⟨j, hj⟩; exact hj (h j))⟩]
    rfl
  rw [mapM_none _ _ ⟨e, he, by
    unfold gOf
    rw [mapM_none _ _ ⟨t, List.mem_range.2 ht, by rw [hb]; rfl⟩]
    rfl⟩]
  rfl

example : ∃ e : Episode 1, ∃ t < e.len, ∀ j, ∑ k ∈ Finset.range (t + 1), e.loglh k j = 0 :=
  ⟨⟨2, fun k _ => if k = 0 then 1 else -1, fun _ => 1⟩, 1, by norm_num, fun j => by norm_num [Finset.sum_range_succ]⟩

/-- Without episodes the gradient cannot be computed. -/
theorem C143_empty : calculateGradient ([] : List (Episode d)) = .error .emptySequence := by
  simp [calculateGradient]

end Verif.Props
