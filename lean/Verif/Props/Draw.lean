import Verif.Model.Draw
import Verif.Lemmas.Layers
import Mathlib.MeasureTheory.Measure.Lebesgue.Basic
import Mathlib.Tactic.Linarith
import Mathlib.Tactic.NormNum
import Mathlib.Tactic.FieldSimp
import Mathlib.Algebra.Order.BigOperators.Group.List
import Mathlib.Algebra.Order.BigOperators.Ring.List
/-
C77: drawing an index from an array of probabilities and from a Gibbs distribution. C78: explorers.
"Drawn with probability p" is stated as: the set of random numbers in [0,1) for which the index is returned has length (Lebesgue
measure) p.
-/
namespace Verif.Draw
open Verif.DataSet (Err)

/-- The sum of the entries before index `i`. -/
def before (probs : List ℝ) (i : Nat) : ℝ := (probs.take i).sum

theorem before_succ (probs : List ℝ) (i : Nat) (hi : i < probs.length) : before probs (i + 1) = before probs i + probs[i] := by
  unfold before
  rw [List.take_succ_eq_append_getElem hi, List.sum_append]
  simp

theorem before_mono (probs : List ℝ) (h0 : ∀ p ∈ probs, 0 ≤ p) : ∀ {i j : Nat}, i ≤ j → before probs i ≤ before probs j := by
  intro i j hij
  obtain ⟨k, rfl⟩ := Nat.exists_eq_add_of_le hij
  unfold before
  rw [List.take_add, List.sum_append]
  have : 0 ≤ ((probs.drop i).take k).sum := List.sum_nonneg fun p hp => h0 p (List.mem_of_mem_drop (List.mem_of_mem_take hp))
  linarith

theorem drawLoop_shift (r : ℝ) : ∀ (probs : List ℝ) (i : Nat) (s : ℝ), drawLoop r probs i s = (drawLoop (r - s) probs 0 0).map (· + i)
  | [], i, s => rfl
  | p :: ps, i, s => by
    simp only [drawLoop]
    by_cases h : s + p > r
    · rw [if_pos h, if_pos (by linarith)]; simp
    · rw [if_neg h, if_neg (by linarith), drawLoop_shift r ps (i + 1) (s + p), drawLoop_shift (r - s) ps (0 + 1) (0 + p)]
      rw [Option.map_map, show r - s - (0 + p) = r - (s + p) by ring]
      congr 1
      funext k; simp only [Function.comp]; omega

/-- The loop returns the first index at which the sums exceed `r`. -/
theorem drawLoop_some (r : ℝ) : ∀ (probs : List ℝ), (∀ p ∈ probs, 0 ≤ p) → 0 ≤ r → ∀ i,
    drawLoop r probs 0 0 = some i ↔ i < probs.length ∧ before probs i ≤ r ∧ r < before probs (i + 1)
  | [], _, _, i => by simp [drawLoop]
  | p :: ps, h0, hr, i => by
    simp only [drawLoop]
    have hp := h0 p (by simp)
    have hps : ∀ q ∈ ps, 0 ≤ q := fun q hq => h0 q (by simp [hq])
    by_cases h : 0 + p > r
    · rw [if_pos h]
      cases i with
      | zero => simp only [before]; simp; exact ⟨hr, by linarith⟩
      | succ i =>
        simp only [Option.some.injEq]
        constructor
        · intro h; omega
        · rintro ⟨_, h2, _⟩
          simp only [before, List.take_succ_cons, List.sum_cons] at h2
          have : 0 ≤ (ps.take i).sum := List.sum_nonneg fun q hq => hps q (List.mem_of_mem_take hq)
          linarith
    · rw [if_neg h, drawLoop_shift]
      cases i with
      | zero =>
        simp only [before]
        constructor
        · intro h; obtain ⟨k, _, hk⟩ := Option.map_eq_some_iff.1 h; omega
        · rintro ⟨_, _, h3⟩
          simp at h3; linarith
      | succ i =>
        have ih := drawLoop_some (r - (0 + p)) ps hps (by linarith) i
        have hb : ∀ k, before (p :: ps) (k + 1) = p + before ps k := fun k => by simp [before]
        rw [hb, hb, List.length_cons]
        constructor
        · intro h
          obtain ⟨k, hk1, hk⟩ := Option.map_eq_some_iff.1 h
          have : k = i := by omega
          subst this
          obtain ⟨a, b, c⟩ := ih.1 hk1
          exact ⟨by omega, by linarith, by linarith⟩
        · rintro ⟨a, b, c⟩
          rw [ih.2 ⟨by omega, by linarith, by linarith⟩]; rfl

theorem drawLoop_none (r : ℝ) (probs : List ℝ) (h0 : ∀ p ∈ probs, 0 ≤ p) (hr : 0 ≤ r) (hs : r < probs.sum) : drawLoop r probs 0 0 ≠ none := by
  have key : ∀ n ≤ probs.length, r < before probs n → ∃ i < n, before probs i ≤ r ∧ r < before probs (i + 1) := by
    intro n
    induction n with
    | zero => intro _ h; simp [before] at h; linarith
    | succ n ih =>
      intro hn h
      by_cases hc : r < before probs n
      · obtain ⟨i, hi, h1⟩ := ih (by omega) hc
        exact ⟨i, by omega, h1⟩
      · exact ⟨n, by omega, not_lt.1 hc, h⟩
  obtain ⟨i, hi, h1⟩ := key probs.length (le_refl _) (by simpa [before] using hs)
  rw [(drawLoop_some r probs h0 hr i).2 ⟨hi, h1⟩]
  simp

end Verif.Draw

namespace Verif.Props
open Verif.Draw MeasureTheory
open Verif.DataSet (Err)

/-- **C77**, `drawIndex` on an array of probabilities (non-negative, summing to 1): the random numbers for which index `i` is returned form
the interval of length `p_i` after the sum of the earlier probabilities; it is never an error and always an index of the array. -/
theorem C77_interval (ch : Nat → Nat) (probs : List ℝ) (tolerant : Bool) (h0 : ∀ p ∈ probs, 0 ≤ p) (h1 : probs.sum = 1) (r : ℝ) (hr : 0 ≤ r ∧ r < 1) (i : Nat) :
    (drawIndex ch r probs tolerant).1 = .ok i ↔ i < probs.length ∧ (probs.take i).sum ≤ r ∧ r < (probs.take (i + 1)).sum := by
  unfold drawIndex
  rw [if_neg (by rw [h1]; norm_num)]
  dsimp only [drawFrom]
  have hn := drawLoop_none r probs h0 hr.1 (by rw [h1]; exact hr.2)
  cases hd : drawLoop r probs 0 0 with
  | none => exact absurd hd hn
  | some k =>
    have := drawLoop_some r probs h0 hr.1 i
    rw [hd] at this
    simp only [before] at this
    rw [← this]
    simp

/-- **C77**: index `i` is drawn with probability exactly `probs[i]`. -/
theorem C77_probability (ch : Nat → Nat) (probs : List ℝ) (tolerant : Bool) (h0 : ∀ p ∈ probs, 0 ≤ p) (h1 : probs.sum = 1) (i : Nat) (hi : i < probs.length) :
    volume {r : ℝ | 0 ≤ r ∧ r < 1 ∧ (drawIndex ch r probs tolerant).1 = .ok i} = ENNReal.ofReal probs[i] := by
  have hset : {r : ℝ | 0 ≤ r ∧ r < 1 ∧ (drawIndex ch r probs tolerant).1 = .ok i} = Set.Ico (before probs i) (before probs (i + 1)) := by
    ext r
    simp only [Set.mem_setOf_eq, Set.mem_Ico]
    constructor
    · rintro ⟨a, b, c⟩
      exact ((C77_interval ch probs tolerant h0 h1 r ⟨a, b⟩ i).1 c).2
    · rintro ⟨a, b⟩
      have hlo : 0 ≤ before probs i := by simpa [before] using before_mono probs h0 (Nat.zero_le i)
      have hhi : before probs (i + 1) ≤ 1 := by
        have := before_mono probs h0 (show i + 1 ≤ probs.length from hi)
        rwa [show before probs probs.length = 1 by simpa [before] using h1] at this
      have hr : 0 ≤ r ∧ r < 1 := ⟨by linarith, by linarith⟩
      exact ⟨hr.1, hr.2, (C77_interval ch probs tolerant h0 h1 r hr i).2 ⟨hi, a, b⟩⟩
  rw [hset, Real.volume_Ico, before_succ probs i hi]
  congr 1
  ring

/-- **C77**: without `tolerant`, an array whose sum is off by 1/100000 or more is refused with a ValueError. -/
theorem C77_refused (ch : Nat → Nat) (r : ℝ) (probs : List ℝ) (h : probs.sum ≤ 0.99999 ∨ 1.00001 ≤ probs.sum) :
    drawIndex ch r probs false = (.error .valueError, probs) := by
  unfold drawIndex
  rw [if_pos]
  · simp
  · rcases h with h | h
    · exact Or.inr (not_lt.2 h)
    · exact Or.inl (not_lt.2 h)

/-- **C77**: with `tolerant` an array of non-negative weights with another positive sum is drawn from in proportion to the weights. The
caller's own array is normalised on the way. -/
theorem C77_tolerant (ch : Nat → Nat) (weights : List ℝ) (h0 : ∀ p ∈ weights, 0 ≤ p) (hs : 0 < weights.sum)
    (hoff : weights.sum ≤ 0.99999 ∨ 1.00001 ≤ weights.sum) (i : Nat) (hi : i < weights.length) :
    volume {r : ℝ | 0 ≤ r ∧ r < 1 ∧ (drawIndex ch r weights true).1 = .ok i} = ENNReal.ofReal (weights[i] / weights.sum) ∧
    ∀ r, (drawIndex ch r weights true).2 = weights.map fun p => p / weights.sum := by
  have hif : ¬ weights.sum < 1.00001 ∨ ¬ weights.sum > 0.99999 := by
    rcases hoff with h | h
    · exact Or.inr (not_lt.2 h)
    · exact Or.inl (not_lt.2 h)
  have hsum : (weights.map fun p => p / weights.sum).sum = 1 := by
    simp only [div_eq_mul_inv]
    rw [List.sum_map_mul_right, List.map_id', mul_inv_cancel₀ hs.ne']
  have hnn : ∀ p ∈ weights.map (fun p => p / weights.sum), 0 ≤ p := by
    intro p hp
    obtain ⟨q, hq, rfl⟩ := List.mem_map.1 hp
    exact div_nonneg (h0 q hq) hs.le
  have heq : ∀ r, drawIndex ch r weights true = (drawFrom ch r (weights.map fun p => p / weights.sum), weights.map fun p => p / weights.sum) := by
    intro r; unfold drawIndex; rw [if_pos hif]; simp
  have heq2 : ∀ r, (drawIndex ch r (weights.map fun p => p / weights.sum) true).1 = drawFrom ch r (weights.map fun p => p / weights.sum) := by
    intro r; unfold drawIndex; rw [if_neg (by rw [hsum]; norm_num)]
  constructor
  · have := C77_probability ch (weights.map fun p => p / weights.sum) true hnn hsum i (by simpa using hi)
    simp only [heq2] at this
    simp only [heq]
    rw [this]; simp
  · intro r; rw [heq]

/-- **C77 violated for arrays that are no probabilities**: only the sum is checked. `[2, -1]` is accepted, and index 0 is always drawn. -/
theorem C77_negation_negative (ch : Nat → Nat) (r : ℝ) (hr : 0 ≤ r ∧ r < 1) : (drawIndex ch r [2, -1] false).1 = .ok 0 := by
  unfold drawIndex
  rw [if_neg (by norm_num)]
  dsimp only [drawFrom, drawLoop]
  rw [if_pos (by linarith)]

end Verif.Props

namespace Verif.Draw

theorem foldr_max_ge (l : List ℝ) (b : ℝ) : b ≤ l.foldr max b ∧ ∀ x ∈ l, x ≤ l.foldr max b := by
  induction l with
  | nil => simp
  | cons a l ih =>
    simp only [List.foldr_cons]
    refine ⟨ih.1.trans (le_max_right _ _), fun x hx => ?_⟩
    rcases List.mem_cons.1 hx with rfl | hx
    · exact le_max_left _ _
    · exact (ih.2 x hx).trans (le_max_right _ _)

theorem foldr_max_mem (l : List ℝ) (b : ℝ) : l.foldr max b = b ∨ l.foldr max b ∈ l := by
  induction l with
  | nil => simp
  | cons a l ih =>
    simp only [List.foldr_cons]
    rcases max_choice a (l.foldr max b) with h | h
    · rw [h]; simp
    · rw [h]
      rcases ih with h | h
      · exact Or.inl h
      · exact Or.inr (by simp [h])

/-- The largest entry of a non-empty list. -/
def IsMax (l : List ℝ) (m : ℝ) : Prop := m ∈ l ∧ ∀ x ∈ l, x ≤ m

theorem isMax_foldr (l : List ℝ) (h : l ≠ []) : IsMax l (l.foldr max (l.headD 0)) := by
  refine ⟨?_, (foldr_max_ge l _).2⟩
  rcases foldr_max_mem l (l.headD 0) with h1 | h1
  · rw [h1]
    cases l with
    | nil => exact absurd rfl h
    | cons a l => simp
  · exact h1

theorem IsMax.unique {l : List ℝ} {m m' : ℝ} (h : IsMax l m) (h' : IsMax l m') : m = m' := le_antisymm (h'.2 m h.1) (h.2 m' h'.1)

/-- The weight of the value `v` when the largest scaled value is `m`. -/
noncomputable def weight (m temperature v : ℝ) : ℝ := Real.exp (max (v / temperature - m) (-40))

theorem gibbsWeights_eq (vals : List ℝ) (temperature m : ℝ) (hm : IsMax (vals.map fun v => v / temperature) m) :
    gibbsWeights vals temperature = vals.map fun v => weight m temperature v / (vals.map (weight m temperature)).sum := by
  have hne : (vals.map fun v => v / temperature) ≠ [] := fun h => by have := hm.1; rw [h] at this; simp at this
  have hm' : (vals.map fun v => v / temperature).foldr max ((vals.map fun v => v / temperature).headD 0) = m :=
    (isMax_foldr _ hne).unique hm
  unfold gibbsWeights
  simp only [hm', List.map_map]
  have hw : ∀ v : ℝ, (Real.exp ∘ (fun v => if v < -20 then -20 else v) ∘ (fun v => v + (20 - m)) ∘ fun v => v / temperature) v =
      Real.exp 20 * weight m temperature v := by
    intro v
    simp only [Function.comp, weight]
    rw [← Real.exp_add]
    congr 1
    split_ifs with h
    · rw [max_eq_right (by linarith)]; norm_num
    · rw [max_eq_left (by linarith)]; ring
  have hfun : (Real.exp ∘ (fun v => if v < -20 then -20 else v) ∘ (fun v => v + (20 - m)) ∘ fun v => v / temperature) = fun v => Real.exp 20 * weight m temperature v :=
    funext hw
  rw [hfun]
  refine List.map_congr_left fun v _ => ?_
  simp only [Function.comp]
  rw [List.sum_map_mul_left]
  exact mul_div_mul_left _ _ (Real.exp_pos 20).ne'

theorem sum_weight_pos (vals : List ℝ) (hne : vals ≠ []) (m temperature : ℝ) : 0 < (vals.map (weight m temperature)).sum := by
  refine List.sum_pos _ (fun x hx => ?_) (by simpa using hne)
  obtain ⟨v, _, rfl⟩ := List.mem_map.1 hx
  exact Real.exp_pos _

end Verif.Draw

namespace Verif.Props
open Verif.Draw MeasureTheory
open Verif.DataSet (Err)

/-- **C77**, `drawGibbs` with a temperature other than 0: index `i` is drawn with probability `exp(v_i / T)`, divided by the sum over all
values, where values more than 40 temperatures below the best count as 40 below. Never an error. -/
theorem C77_gibbs (ch : Nat → Nat) (vals : List ℝ) (temperature m : ℝ) (ht : temperature ≠ 0) (hm : IsMax (vals.map fun v => v / temperature) m)
    (i : Nat) (hi : i < vals.length) :
    volume {r : ℝ | 0 ≤ r ∧ r < 1 ∧ drawGibbs ch r vals temperature = .ok i} =
      ENNReal.ofReal (Real.exp (max (vals[i] / temperature - m) (-40)) / (vals.map fun v => Real.exp (max (v / temperature - m) (-40))).sum) := by
  have hne : vals ≠ [] := fun h => by subst h; simp at hi
  have hw := gibbsWeights_eq vals temperature m hm
  have hpos := sum_weight_pos vals hne m temperature
  have heq : ∀ r, drawGibbs ch r vals temperature = (drawIndex ch r (gibbsWeights vals temperature) false).1 := by
    intro r; unfold drawGibbs; rw [if_neg hne, if_neg ht]
  simp only [heq]
  rw [C77_probability ch (gibbsWeights vals temperature) false ?_ ?_ i (by rw [hw]; simpa using hi)]
  · simp only [hw, List.getElem_map]; rfl
  · intro p hp
    rw [hw] at hp
    obtain ⟨v, _, rfl⟩ := List.mem_map.1 hp
    exact div_nonneg (Real.exp_pos _).le hpos.le
  · rw [hw]
    simp only [div_eq_mul_inv]
    rw [List.sum_map_mul_right, mul_inv_cancel₀ hpos.ne']

/-- **C77**: when no value is more than 40 temperatures below the best, this is exactly the Gibbs distribution. -/
theorem C77_gibbs_exact (ch : Nat → Nat) (vals : List ℝ) (temperature m : ℝ) (ht : temperature ≠ 0) (hm : IsMax (vals.map fun v => v / temperature) m)
    (hclose : ∀ v ∈ vals, m - 40 ≤ v / temperature) (i : Nat) (hi : i < vals.length) :
    volume {r : ℝ | 0 ≤ r ∧ r < 1 ∧ drawGibbs ch r vals temperature = .ok i} =
      ENNReal.ofReal (Real.exp (vals[i] / temperature) / (vals.map fun v => Real.exp (v / temperature)).sum) := by
  rw [C77_gibbs ch vals temperature m ht hm i hi]
  have hx : ∀ v ∈ vals, Real.exp (max (v / temperature - m) (-40)) = Real.exp (-m) * Real.exp (v / temperature) := by
    intro v hv
    rw [max_eq_left (by linarith [hclose v hv]), ← Real.exp_add]
    congr 1; ring
  rw [hx _ (List.getElem_mem hi), List.map_congr_left hx, List.sum_map_mul_left, mul_div_mul_left _ _ (Real.exp_pos _).ne']

/-- **C77**: at a positive temperature a better value is drawn at least as often, and every index has a positive probability. -/
theorem C77_gibbs_order (ch : Nat → Nat) (vals : List ℝ) (temperature : ℝ) (ht : 0 < temperature) (i j : Nat) (hi : i < vals.length) (hj : j < vals.length)
    (hij : vals[i] ≤ vals[j]) :
    volume {r : ℝ | 0 ≤ r ∧ r < 1 ∧ drawGibbs ch r vals temperature = .ok i} ≤ volume {r : ℝ | 0 ≤ r ∧ r < 1 ∧ drawGibbs ch r vals temperature = .ok j} ∧
    0 < volume {r : ℝ | 0 ≤ r ∧ r < 1 ∧ drawGibbs ch r vals temperature = .ok i} := by
  have hne : vals ≠ [] := fun h => by subst h; simp at hi
  obtain ⟨m, hm⟩ : ∃ m, IsMax (vals.map fun v => v / temperature) m := ⟨_, isMax_foldr _ (by simpa using hne)⟩
  have hpos := sum_weight_pos vals hne m temperature
  rw [C77_gibbs ch vals temperature m ht.ne' hm i hi, C77_gibbs ch vals temperature m ht.ne' hm j hj]
  constructor
  · refine ENNReal.ofReal_le_ofReal (div_le_div_of_nonneg_right (Real.exp_le_exp.2 (max_le_max ?_ (le_refl _))) hpos.le)
    have := div_le_div_of_nonneg_right hij ht.le
    linarith
  · exact ENNReal.ofReal_pos.2 (div_pos (Real.exp_pos _) hpos)

/-- **C77**: at temperature 0 one of the largest values is drawn, whatever is chosen among them. -/
theorem C77_gibbs_zero (ch : Nat → Nat) (hch : ∀ n, 0 < n → ch n < n) (r : ℝ) (vals : List ℝ) (hne : vals ≠ []) :
    ∃ i, ∃ h : i < vals.length, drawGibbs ch r vals 0 = .ok i ∧ ∀ v ∈ vals, v ≤ vals[i] := by
  have hm := isMax_foldr vals hne
  set m := vals.foldr max (vals.headD 0) with hmd
  obtain ⟨k, hk, hkm⟩ := List.mem_iff_getElem.1 hm.1
  have hbest : (bestIndices vals m) ≠ [] := by
    intro h
    have : k ∈ bestIndices vals m := by
      unfold bestIndices
      rw [List.mem_filter]
      exact ⟨List.mem_range.2 hk, by simp [List.getD_eq_getElem?_getD, hk, hkm]⟩
    rw [h] at this; simp at this
  have hlen : 0 < (bestIndices vals m).length := List.length_pos_iff.2 hbest
  have hc := hch _ hlen
  have hmem : (bestIndices vals m).getD (ch (bestIndices vals m).length) 0 ∈ bestIndices vals m := by
    rw [List.getD_eq_getElem?_getD, List.getElem?_eq_getElem hc]
    exact List.getElem_mem _
  have h2 := hmem
  unfold bestIndices at h2
  rw [List.mem_filter] at h2
  have hlt := List.mem_range.1 h2.1
  refine ⟨_, hlt, ?_, ?_⟩
  · unfold drawGibbs
    rw [if_neg hne, if_pos rfl, ← hmd]
    rfl
  · intro v hv
    have h3 := of_decide_eq_true h2.2
    rw [List.getD_eq_getElem?_getD, List.getElem?_eq_getElem hlt, Option.getD_some] at h3
    have h4 := hm.2 v hv
    exact h4.trans (le_of_eq h3.symm)

/-- **C78**, epsilon-greedy exploration: a random action replaces the proposed one for the random numbers below epsilon, a set of measure
epsilon, and the executed action is always one of the module's actions. -/
theorem C78_epsilon (decay epsilon : ℝ) (he : 0 ≤ epsilon ∧ epsilon ≤ 1) (n k a : Nat) (hk : k < n) (ha : a < n) :
    (∀ r, (epsGreedy decay epsilon r k a).1 < n) ∧ (∀ r, (epsGreedy decay epsilon r k a).1 ≠ a → r < epsilon) ∧
    (k ≠ a → volume {r : ℝ | 0 ≤ r ∧ r < 1 ∧ (epsGreedy decay epsilon r k a).1 ≠ a} = ENNReal.ofReal epsilon) := by
  refine ⟨fun r => ?_, fun r h => ?_, fun hka => ?_⟩
  · unfold epsGreedy; dsimp only; split_ifs <;> assumption
  · unfold epsGreedy at h; dsimp only at h
    by_contra hc
    rw [if_neg hc] at h
    exact h rfl
  · have : {r : ℝ | 0 ≤ r ∧ r < 1 ∧ (epsGreedy decay epsilon r k a).1 ≠ a} = Set.Ico 0 epsilon := by
      ext r
      simp only [Set.mem_setOf_eq, Set.mem_Ico, epsGreedy]
      constructor
      · rintro ⟨h1, _, h3⟩
        refine ⟨h1, ?_⟩
        by_contra hc
        rw [if_neg hc] at h3
        exact h3 rfl
      · rintro ⟨h1, h2⟩
        refine ⟨h1, by linarith [he.2], ?_⟩
        rw [if_pos h2]; exact hka
    rw [this, Real.volume_Ico, sub_zero]

/-- **C78**: over any run of the epsilon-greedy explorer, epsilon after `n` activations is `epsilon * decay ^ n`, and activation `t` executes
the proposed action unless its random number is below `epsilon * decay ^ t`; with `epsilon = 0` the policy is followed exactly. -/
theorem C78_epsilon_run (decay : ℝ) : ∀ (xs : List (ℝ × Nat × Nat)) (epsilon : ℝ),
    (epsGreedyRun decay epsilon xs).2 = epsilon * decay ^ xs.length ∧
    (epsGreedyRun decay epsilon xs).1 = (List.range xs.length).map fun t =>
      let x := xs.getD t (0, 0, 0)
      if x.1 < epsilon * decay ^ t then x.2.1 else x.2.2
  | [], e => by simp [epsGreedyRun]
  | (r, k, a) :: xs, e => by
    obtain ⟨h1, h2⟩ := C78_epsilon_run decay xs (e * decay)
    constructor
    · show (epsGreedyRun decay (e * decay) xs).2 = _
      rw [h1, List.length_cons, pow_succ]; ring
    · show (if r < e then k else a) :: (epsGreedyRun decay (e * decay) xs).1 = _
      rw [h2, List.length_cons, List.range_succ_eq_map, List.map_cons, List.map_map]
      refine congrArg₂ _ (by simp) (List.map_congr_left fun t _ => ?_)
      simp only [Function.comp, List.getD_cons_succ, pow_succ]
      rw [show e * decay * decay ^ t = e * (decay ^ t * decay) by ring]

/-- The logarithm of the normal density with mean `u` and standard deviation `sd`, without the constant. -/
noncomputable def logNormal (u sd a : ℝ) : ℝ := -(a - u) ^ 2 / (2 * sd ^ 2) - Real.log sd

theorem logNormal_deriv_sd (u a sd : ℝ) (h : sd ≠ 0) : HasDerivAt (fun s => logNormal u s a) (((a - u) ^ 2 - sd ^ 2) / sd ^ 3) sd := by
  unfold logNormal
  have h1 : HasDerivAt (fun s : ℝ => 2 * s ^ 2) (2 * (2 * sd)) sd := by
    have := ((hasDerivAt_id sd).pow 2).const_mul 2
    simpa using this
  have h2 := (hasDerivAt_const sd (-(a - u) ^ 2)).div h1 (by positivity)
  have h3 := h2.sub (Real.hasDerivAt_log h)
  refine h3.congr_deriv ?_
  field_simp
  ring

theorem expln_pos' (p : ℝ) : 0 < Verif.Net.expln p := by
  unfold Verif.Net.expln
  split_ifs with h
  · exact Real.exp_pos p
  · have := Real.log_nonneg (show (1 : ℝ) ≤ p + 1 by linarith)
    linarith

/-- **C78**, `NormalExplorer` back-propagates the derivative of the logarithm of the density of the executed action, multiplied by the
variance, for its own parameters and for the mean: the direction is that of the likelihood gradient. -/
theorem C78_normal (p u a : ℝ) :
    HasDerivAt (fun q => logNormal u (Verif.Net.expln q) a) ((normalBackward p u a).1 / Verif.Net.expln p ^ 2) p ∧
    HasDerivAt (fun v => logNormal v (Verif.Net.expln p) a) ((normalBackward p u a).2 / Verif.Net.expln p ^ 2) u := by
  have hp := expln_pos' p
  constructor
  · have h := HasDerivAt.comp p (h₂ := fun s => logNormal u s a) (h := Verif.Net.expln) (logNormal_deriv_sd u a _ hp.ne') (Verif.Net.hasDerivAt_expln p)
    refine h.congr_deriv ?_
    unfold normalBackward
    field_simp
  · unfold logNormal normalBackward
    have h1 : HasDerivAt (fun v : ℝ => -(a - v) ^ 2) (2 * (a - u)) u := by
      have h0 := (((hasDerivAt_id u).const_sub a).pow 2).neg
      exact h0.congr_deriv (by simp)
    have h2 := (h1.div_const (2 * Verif.Net.expln p ^ 2)).sub_const (Real.log (Verif.Net.expln p))
    refine h2.congr_deriv ?_
    field_simp

/-- **C78 violated for state-dependent exploration**: its constructor creates one parameter per action, but the backward pass wants one per
action and state: it raises a ValueError whenever the state has more than one number. -/
theorem C78_negation_sde (params state u a : List ℝ) (h1 : params.length = a.length) (h2 : 0 < a.length) (h3 : 1 < state.length) :
    sdeBackward params state u a = .error .valueError := by
  unfold sdeBackward
  rw [if_neg]
  rw [h1]
  intro h
  have := Nat.mul_lt_mul_of_pos_left h3 h2
  omega

example : (∀ p ∈ [(1 : ℝ) / 4, 1 / 4, 1 / 2], 0 ≤ p) ∧ [(1 : ℝ) / 4, 1 / 4, 1 / 2].sum = 1 ∧ 2 < [(1 : ℝ) / 4, 1 / 4, 1 / 2].length := by
  refine ⟨by intro p hp; simp at hp; rcases hp with rfl | rfl <;> norm_num, by norm_num, by simp⟩

example : (∀ p ∈ [(1 : ℝ), 3], 0 ≤ p) ∧ 0 < [(1 : ℝ), 3].sum ∧ ([(1 : ℝ), 3].sum ≤ 0.99999 ∨ 1.00001 ≤ [(1 : ℝ), 3].sum) := by
  refine ⟨by intro p hp; simp at hp; rcases hp with rfl | rfl <;> norm_num, by norm_num, Or.inr (by norm_num)⟩

example : (2 : ℝ) ≠ 0 ∧ IsMax ([1, 4, 2].map fun v : ℝ => v / 2) 2 ∧ ∀ v ∈ [(1 : ℝ), 4, 2], 2 - 40 ≤ v / 2 := by
  refine ⟨by norm_num, ⟨by norm_num, ?_⟩, ?_⟩ <;> · intro v hv; simp at hv; rcases hv with rfl | rfl | rfl <;> norm_num

example : ([0, 0] : List ℝ).length = ([1, 2] : List ℝ).length ∧ 0 < ([1, 2] : List ℝ).length ∧ 1 < ([5, 6, 7] : List ℝ).length := by simp

end Verif.Props
