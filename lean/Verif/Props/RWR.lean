import Verif.Model.RWR
import Mathlib.Algebra.BigOperators.Group.Finset.Basic
import Mathlib.Algebra.BigOperators.Fin
import Mathlib.Algebra.Order.BigOperators.Group.List
import Mathlib.Tactic.Linarith
import Mathlib.Tactic.Positivity
import Mathlib.Tactic.FieldSimp
import Mathlib.Tactic.Ring
import Mathlib.Tactic.NormNum
/- Properties of reward-weighted regression (C139). -/
namespace Verif.RWR
open Verif.DataSet (Err)

variable {O : Type} {n : Nat}

namespace Spec
/-- the discounted return of the rewards `r_0, r_1, …`: the sum of `γ^k * r_k` -/
def discounted (γ : ℝ) (rs : List ℝ) : ℝ := ∑ k : Fin rs.length, γ ^ (k : Nat) * rs[k]

/-- the return of an episode -/
def ret (γ : ℝ) (e : List (Step O n)) : ℝ := discounted γ (e.map (·.reward))
end Spec
open Spec

theorem discounted_cons (γ r : ℝ) (rs : List ℝ) : discounted γ (r :: rs) = r + γ * discounted γ rs := by
  unfold discounted
  refine (Fin.sum_univ_succ (n := rs.length) (fun k : Fin (rs.length + 1) => γ ^ (k : Nat) * (r :: rs)[(k : Nat)])).trans ?_
  rw [Finset.mul_sum]
  simp [pow_succ, mul_assoc, mul_comm, mul_left_comm]

theorem discounted_nil (γ : ℝ) : discounted γ [] = 0 := Fin.sum_univ_zero _

theorem back_eq (γ : ℝ) (rs : List ℝ) : (rs.reverse.foldl (back γ) (0, [])).1 = discounted γ rs := by
  induction rs with
  | nil => simp [discounted]
  | cons r rs ih => rw [List.reverse_cons, List.foldl_append]; simp only [List.foldl_cons, List.foldl_nil, back, ih, discounted_cons]; ring

theorem returns_cons (γ r : ℝ) (rs : List ℝ) : returns γ (r :: rs) = discounted γ (r :: rs) :: returns γ rs := by
  have h := back_eq γ (r :: rs)
  rw [List.reverse_cons, List.foldl_append] at h
  simp only [List.foldl_cons, List.foldl_nil, back] at h
  simp only [returns, List.reverse_cons, List.foldl_append, List.foldl_cons, List.foldl_nil, back, List.reverse_append, List.reverse_nil, List.nil_append, List.singleton_append, h]

theorem returns_length (γ : ℝ) (rs : List ℝ) : (returns γ rs).length = rs.length := by
  induction rs with
  | nil => simp [returns]
  | cons r rs ih => simp [returns_cons, ih]

theorem zip_returns {α : Type} (γ : ℝ) (f : Step O n → ℝ → α) (e : List (Step O n)) :
    List.zipWith f e (returns γ (e.map (·.reward))) = List.zipWith (fun s t => f s (ret γ t)) e e.tails := by
  induction e with
  | nil => simp
  | cons s e ih =>
    rw [List.map_cons, returns_cons, List.zipWith_cons_cons, ih, List.tails_cons, List.zipWith_cons_cons]
    rfl

theorem episode_ok (γ : ℝ) (e : List (Step O n)) (h : e ≠ []) :
    episode γ e = .ok ((e.map (·.reward)).sum / e.length, List.zipWith (fun s t => (s.obs, action s.chosen, ret γ t)) e e.tails, ret γ e, e.length) := by
  obtain ⟨s, e, rfl⟩ := List.exists_cons_of_ne_nil h
  have hz := zip_returns γ (fun s r => (s.obs, action s.chosen, r)) (s :: e)
  have hl := returns_length γ ((s :: e).map (·.reward))
  have hr : returns γ ((s :: e).map (·.reward)) = ret γ (s :: e) :: returns γ (e.map (·.reward)) := by rw [List.map_cons, returns_cons]; rfl
  unfold episode
  simp only [List.map_cons, List.length_cons, Nat.add_eq_zero_iff, one_ne_zero, and_false, if_false] at *
  rw [hr] at hz hl ⊢
  simp only [List.length_cons, List.length_map] at hl
  simp only [pure, Except.pure, List.length_map, hz, List.length_cons, hl]

theorem mapM_ok {α β : Type} (f : α → Except Err β) (g : α → β) (l : List α) (h : ∀ a ∈ l, f a = .ok (g a)) : l.mapM f = .ok (l.map g) := by
  induction l with
  | nil => rfl
  | cons a l ih => rw [List.mapM_cons, h a (by simp), ih (fun b hb => h b (by simp [hb]))]; rfl

theorem mapM_error {α β : Type} (f : α → Except Err β) (x : Err) (l : List α) (h : ∀ a ∈ l, (∃ b, f a = .ok b) ∨ f a = .error x) (h' : ∃ a ∈ l, f a = .error x) : l.mapM f = .error x := by
  induction l with
  | nil => simp at h'
  | cons a l ih =>
    rw [List.mapM_cons]
    rcases h a (by simp) with ⟨b, hb⟩ | hb
    · have : ∃ a ∈ l, f a = .error x := by
        obtain ⟨a', ha', he⟩ := h'
        rcases List.mem_cons.mp ha' with rfl | ha'
        · rw [hb] at he; cases he
        · exact ⟨a', ha', he⟩
      rw [hb, ih (fun c hc => h c (by simp [hc])) this]; rfl
    · rw [hb]; rfl

theorem foldl_max_spec (xs : List ℝ) (x : ℝ) : xs.foldl max x ∈ x :: xs ∧ ∀ y ∈ x :: xs, y ≤ xs.foldl max x := by
  induction xs generalizing x with
  | nil => simp
  | cons z xs ih =>
    obtain ⟨h1, h2⟩ := ih (max x z)
    rw [List.foldl_cons]
    refine ⟨?_, ?_⟩
    · rcases List.mem_cons.mp h1 with h | h
      · rw [h]; rcases max_choice x z with h | h <;> simp [h]
      · simp [h]
    · intro y hy
      have h3 := h2 (max x z) (by simp)
      rcases List.mem_cons.mp hy with rfl | hy
      · exact le_trans (le_max_left _ _) h3
      rcases List.mem_cons.mp hy with rfl | hy
      · exact le_trans (le_max_right _ _) h3
      · exact h2 y (by simp [hy])

theorem zip_maps {α β γ' δ : Type} (f : α → β → γ') (g : δ → α) (h : δ → β) (l : List δ) : List.zipWith f (l.map g) (l.map h) = l.map fun x => f (g x) (h x) := by
  induction l with
  | nil => rfl
  | cons x l ih => simp [ih]

theorem zip_const {α : Type} (f : Step O n → α) (e : List (Step O n)) : List.zipWith (fun s (_ : List (Step O n)) => f s) e e.tails = e.map f := by
  induction e with
  | nil => simp
  | cons s e ih => rw [List.tails_cons, List.zipWith_cons_cons, ih, List.map_cons]

/-- the whole of a batch -/
theorem batch_eq (γ minReward tau : ℝ) (batch : List (List (Step O n))) (hb : batch ≠ []) (he : ∀ e ∈ batch, e ≠ []) :
    ∃ best ∈ batch, (∀ e ∈ batch, tau * ret γ e ≤ tau * ret γ best) ∧
      learnOneBatch γ minReward tau batch = .ok
        { weighted := batch.map fun e => e.map fun s => (s.obs, action s.chosen, fun _ => Real.exp (tau * (ret γ e - ret γ best)))
          values := batch.map fun e => List.zipWith (fun s t => (s.obs, ret γ t)) e e.tails
          tau := updateTau minReward (batch.map (ret γ)) (batch.map fun e => Real.exp (tau * ret γ e))
          avgReward := (batch.map fun e => (e.map (·.reward)).sum / (e.length : ℝ)).sum / batch.length
          avgLen := (((batch.map fun e => e.length).sum : Nat) : ℝ) / (batch.length : ℝ)
          avgR0 := (batch.map (ret γ)).sum / batch.length } := by
  have hm := mapM_ok (episode γ) _ batch (fun e h => episode_ok γ e (he e h))
  obtain ⟨m, hmax, hmem, hle⟩ : ∃ m, maxOf (batch.map fun e => shaping tau (ret γ e)) = .ok m ∧ m ∈ batch.map (fun e => shaping tau (ret γ e)) ∧ ∀ y ∈ batch.map (fun e => shaping tau (ret γ e)), y ≤ m := by
    obtain ⟨b, bs, rfl⟩ := List.exists_cons_of_ne_nil hb
    exact ⟨_, rfl, foldl_max_spec _ _⟩
  obtain ⟨best, hbest, rfl⟩ := List.mem_map.mp hmem
  refine ⟨best, hbest, fun e hx => Real.exp_le_exp.mp (hle _ (List.mem_map.mpr ⟨e, hx, rfl⟩)), ?_⟩
  unfold shaping at hmax
  have hlen : batch.length ≠ 0 := by simpa using hb
  unfold learnOneBatch
  rw [hm]
  simp only [bind, Except.bind, pure, Except.pure, List.map_map, Function.comp_def, hlen, if_false, hmax, zip_maps, List.length_map, List.map_zipWith, zip_const, shaping, mul_sub, Real.exp_sub]

theorem sum_zip (f : ℝ → ℝ → ℝ) (g h : List (Step O n) → ℝ) (l : List (List (Step O n))) : (List.zipWith f (l.map g) (l.map h)).sum = (l.map fun e => f (g e) (h e)).sum := by
  rw [zip_maps]

theorem sum_pos_of {α : Type} (f : α → ℝ) (l : List α) (h : ∀ a ∈ l, 0 ≤ f a) (h' : ∃ a ∈ l, 0 < f a) : 0 < (l.map f).sum := by
  induction l with
  | nil => simp at h'
  | cons a l ih =>
    rw [List.map_cons, List.sum_cons]
    have hl : 0 ≤ (l.map f).sum := List.sum_nonneg fun x hx => by obtain ⟨b, hb, rfl⟩ := List.mem_map.mp hx; exact h b (by simp [hb])
    obtain ⟨b, hb, hp⟩ := h'
    rcases List.mem_cons.mp hb with rfl | hb
    · linarith
    · have := ih (fun c hc => h c (by simp [hc])) ⟨b, hb, hp⟩
      have := h a (by simp)
      linarith

theorem updateTau_pos (γ minReward tau : ℝ) (batch : List (List (Step O n))) (h : ∀ e ∈ batch, minReward ≤ ret γ e) (h' : ∃ e ∈ batch, minReward < ret γ e) :
    ∃ t, 0 < t ∧ updateTau minReward (batch.map (ret γ)) (batch.map fun e => Real.exp (tau * ret γ e)) = some t ∧
      t * (batch.map fun e => (ret γ e - minReward) * Real.exp (tau * ret γ e)).sum = (batch.map fun e => Real.exp (tau * ret γ e)).sum := by
  have hd : 0 < (batch.map fun e => (ret γ e - minReward) * Real.exp (tau * ret γ e)).sum :=
    sum_pos_of _ _ (fun e he => mul_nonneg (by linarith [h e he]) (Real.exp_pos _).le) (by obtain ⟨e, he, hp⟩ := h'; exact ⟨e, he, mul_pos (by linarith) (Real.exp_pos _)⟩)
  have hn : 0 < (batch.map fun e => Real.exp (tau * ret γ e)).sum := sum_pos_of _ _ (fun e _ => (Real.exp_pos _).le) (by obtain ⟨e, he, _⟩ := h'; exact ⟨e, he, Real.exp_pos _⟩)
  refine ⟨_, div_pos hn hd, ?_, div_mul_cancel₀ _ hd.ne'⟩
  unfold updateTau
  rw [sum_zip]
  simp only [hd.ne', if_false]

theorem ret_ge (γ minReward : ℝ) (hγ : 0 ≤ γ) (hm : 0 ≤ minReward) (e : List (Step O n)) (he : e ≠ []) (h : ∀ s ∈ e, minReward ≤ s.reward) : minReward ≤ ret γ e := by
  obtain ⟨s, e, rfl⟩ := List.exists_cons_of_ne_nil he
  have hr : ∀ e : List (Step O n), (∀ s ∈ e, minReward ≤ s.reward) → 0 ≤ ret γ e := by
    intro e h
    induction e with
    | nil => simp [ret, discounted_nil]
    | cons s e ih =>
      have h1 := ih (fun t ht => h t (by simp [ht]))
      have h2 := h s (by simp)
      show 0 ≤ discounted γ (s.reward :: e.map (·.reward))
      rw [discounted_cons]
      have : 0 ≤ γ * discounted γ (e.map (·.reward)) := mul_nonneg hγ h1
      linarith
  show minReward ≤ discounted γ (s.reward :: e.map (·.reward))
  rw [discounted_cons]
  have h1 : 0 ≤ γ * discounted γ (e.map (·.reward)) := mul_nonneg hγ (hr e fun t ht => h t (by simp [ht]))
  have h2 := h s (by simp)
  linarith

theorem ret_scale (γ c : ℝ) (e : List (Step O n)) : ret γ (e.map fun s => { s with reward := c * s.reward }) = c * ret γ e := by
  induction e with
  | nil => simp [ret, discounted_nil]
  | cons s e ih =>
    unfold ret at ih ⊢
    simp only [List.map_cons, discounted_cons] at ih ⊢
    rw [ih]; ring

end Verif.RWR

namespace Verif.Props
open Verif.RWR Verif.RWR.Spec
open Verif.DataSet (Err)

variable {O : Type} {n : Nat}

/-- **C139, the data of a batch.** From a batch of episodes (at least one, all with at least one step) the learner makes a data set with one sequence for each episode and one sample for each step: the observation, the chosen action and
an importance, the same for all samples of an episode, `exp (tau * (return of the episode - return of a best one))`. The data set for values holds the discounted return from each step on. With a positive `tau` the best ones are those with the
greatest return (and so the importance is at most 1). -/
theorem C139_data (γ minReward tau : ℝ) (batch : List (List (Step O n))) (hb : batch ≠ []) (he : ∀ e ∈ batch, e ≠ []) : ∃ r, learnOneBatch γ minReward tau batch = .ok r ∧
    (∃ best ∈ batch, (0 < tau → ∀ e ∈ batch, ret γ e ≤ ret γ best) ∧
      r.weighted = batch.map fun e => e.map fun s => (s.obs, Pi.single s.chosen 1, fun _ => Real.exp (tau * (ret γ e - ret γ best)))) ∧
    r.values = (batch.map fun e => List.zipWith (fun s rest => (s.obs, ret γ rest)) e e.tails) ∧
    r.avgR0 * batch.length = (batch.map (ret γ)).sum ∧ r.avgLen * batch.length = batch.flatten.length := by
  obtain ⟨best, hbest, hle, heq⟩ := batch_eq γ minReward tau batch hb he
  have hl : (batch.length : ℝ) ≠ 0 := by simpa using hb
  have ha : ∀ c : Fin n, action c = Pi.single c 1 := fun c => by funext i; simp [action, Pi.single_apply]
  refine ⟨_, heq, ⟨best, hbest, fun ht e hx => le_of_mul_le_mul_left (hle e hx) ht, ?_⟩, rfl, ?_, ?_⟩
  · simp only [ha]
  · exact div_mul_cancel₀ _ hl
  · simp only [List.length_flatten]; exact div_mul_cancel₀ _ hl

/-- **C139, temperature.** If no return is below the minimal reward and one is above, the new `tau` is positive: one over the mean of the returns above the minimal reward, weighted with the importances. -/
theorem C139_temperature (γ minReward tau : ℝ) (batch : List (List (Step O n))) (he : ∀ e ∈ batch, e ≠ []) (h : ∀ e ∈ batch, minReward ≤ ret γ e) (h' : ∃ e ∈ batch, minReward < ret γ e) :
    ∃ r t, learnOneBatch γ minReward tau batch = .ok r ∧ r.tau = some t ∧ 0 < t ∧
      t * (batch.map fun e => (ret γ e - minReward) * Real.exp (tau * ret γ e)).sum = (batch.map fun e => Real.exp (tau * ret γ e)).sum := by
  have hb : batch ≠ [] := by rintro rfl; simp at h'
  obtain ⟨_, _, _, heq⟩ := batch_eq γ minReward tau batch hb he
  obtain ⟨t, h0, h1, h2⟩ := updateTau_pos γ minReward tau batch h h'
  exact ⟨_, t, heq, h1, h0, h2⟩

/-- **C139, temperature over batches, partial.** If the minimal reward is not negative and in every batch some return is above it, `tau` stays positive over any number of batches. Missing: negative minimal rewards (see the negation). -/
theorem C139_stays_positive_partial (γ minReward : ℝ) (hγ : 0 ≤ γ) (hm : 0 ≤ minReward) (bs : List (List (List (Step O n)))) (he : ∀ b ∈ bs, ∀ e ∈ b, e ≠ [] ∧ ∀ s ∈ e, minReward ≤ s.reward)
    (h' : ∀ b ∈ bs, ∃ e ∈ b, minReward < ret γ e) (tau : ℝ) (ht : 0 < tau) : ∃ t, batches γ minReward tau bs = .ok (some t) ∧ 0 < t := by
  induction bs generalizing tau with
  | nil => exact ⟨tau, rfl, ht⟩
  | cons b bs ih =>
    obtain ⟨r, t, h1, h2, h3, -⟩ := C139_temperature γ minReward tau b (fun e hx => (he b (by simp) e hx).1) (fun e hx => ret_ge γ minReward hγ hm e (he b (by simp) e hx).1 (he b (by simp) e hx).2) (h' b (by simp))
    obtain ⟨t', h4, h5⟩ := ih (fun c hc => he c (by simp [hc])) (fun c hc => h' c (by simp [hc])) t h3
    refine ⟨t', ?_, h5⟩
    rw [batches, h1]
    simp only [bind, Except.bind, h2, h4]

/-- **C139, units.** If all rewards are multiplied by a positive number and `tau` is divided by it, the importances stay the same and the new `tau` is the old one divided by the number. -/
theorem C139_units (γ minReward tau c : ℝ) (hc : 0 < c) (batch : List (List (Step O n))) (hb : batch ≠ []) (he : ∀ e ∈ batch, e ≠ []) :
    ∃ r r', learnOneBatch γ minReward tau batch = .ok r ∧ learnOneBatch γ (c * minReward) (tau / c) (batch.map (·.map fun s => { s with reward := c * s.reward })) = .ok r' ∧
      r'.weighted = r.weighted ∧ r'.tau = r.tau.map (· / c) := by
  obtain ⟨best, hbest, hle, heq⟩ := batch_eq γ minReward tau batch hb he
  obtain ⟨best', hbest', hle', heq'⟩ := batch_eq γ (c * minReward) (tau / c) (batch.map (·.map fun s => { s with reward := c * s.reward })) (by simpa using hb)
    (by intro e hx; obtain ⟨e', hx', rfl⟩ := List.mem_map.mp hx; simpa using he e' hx')
  obtain ⟨b, hbb, rfl⟩ := List.mem_map.mp hbest'
  have key : ∀ x : ℝ, tau / c * (c * x) = tau * x := fun x => by field_simp
  have hbest2 : tau * ret γ b = tau * ret γ best := by
    refine le_antisymm (hle b hbb) ?_
    have := hle' _ (List.mem_map.mpr ⟨best, hbest, rfl⟩)
    rwa [ret_scale, ret_scale, key, key] at this
  refine ⟨_, _, heq, heq', ?_, ?_⟩
  · simp only [List.map_map, Function.comp_def, ret_scale]
    refine List.map_congr_left fun e _ => List.map_congr_left fun s _ => ?_
    rw [← mul_sub, key, mul_sub, mul_sub, hbest2]
  · simp only [updateTau, List.map_map, Function.comp_def, ret_scale, key, sum_zip]
    have hs : (batch.map fun e => (c * ret γ e - c * minReward) * Real.exp (tau * ret γ e)).sum = c * (batch.map fun e => (ret γ e - minReward) * Real.exp (tau * ret γ e)).sum := by
      rw [← List.sum_map_mul_left]; congr 1; refine List.map_congr_left fun e _ => by ring
    rw [hs]
    by_cases h0 : (batch.map fun e => (ret γ e - minReward) * Real.exp (tau * ret γ e)).sum = 0
    · simp [h0]
    · rw [if_neg h0, if_neg (mul_ne_zero hc.ne' h0), Option.map_some, div_div, mul_comm c]

/-- **C139 violated: temperature.** The minimal reward is a bound for single rewards, but returns are compared with it. If the bound is negative, `tau` can become negative although all rewards respect the bound (here after
one episode with two steps, and discount 0.95); with a negative `tau` the learner gives higher importances to episodes with smaller returns. -/
theorem C139_negation_temperature :
    (∃ e : List (Step Unit 1), (∀ s ∈ e, -1 ≤ s.reward) ∧ ∃ r t, learnOneBatch 0.95 (-1) 1 [e] = .ok r ∧ r.tau = some t ∧ t < 0) ∧
    ∀ (γ minReward tau : ℝ) (batch : List (List (Step O n))), tau < 0 → batch ≠ [] → (∀ e ∈ batch, e ≠ []) → ∃ (r : Result O n) (w : List (Step O n) → ℝ), learnOneBatch γ minReward tau batch = .ok r ∧
      r.weighted = (batch.map fun e => e.map fun s => (s.obs, action s.chosen, fun _ => w e)) ∧ ∀ e e', ret γ e < ret γ e' → w e' < w e := by
  refine ⟨⟨[⟨(), 0, -1⟩, ⟨(), 0, -1⟩], by simp, ?_⟩, ?_⟩
  · obtain ⟨best, hbest, hle, heq⟩ := batch_eq 0.95 (-1) 1 [[(⟨(), 0, -1⟩ : Step Unit 1), ⟨(), 0, -1⟩]] (by simp) (by simp)
    have hr : ret 0.95 [(⟨(), 0, -1⟩ : Step Unit 1), ⟨(), 0, -1⟩] = -1.95 := by
      simp only [ret, List.map_cons, List.map_nil, discounted_cons]; simp [discounted]; norm_num
    have hu : updateTau (-1) [(-1.95 : ℝ)] [Real.exp (1 * -1.95)] = some (-(1 / 0.95)) := by
      have : Real.exp (1 * -1.95) ≠ 0 := (Real.exp_pos _).ne'
      generalize Real.exp (1 * -1.95) = x at this
      have h2 : (-1.95 - -1) * x ≠ 0 := mul_ne_zero (by norm_num) this
      simp only [updateTau, List.zipWith_cons_cons, List.zipWith_nil_left, List.sum_cons, List.sum_nil, add_zero, h2, if_false]
      congr 1
      rw [div_mul_eq_div_div_swap, div_self this]; norm_num
    refine ⟨_, -(1 / 0.95), heq, ?_, by norm_num⟩
    simp only [List.map_cons, List.map_nil, hr]
    exact hu
  · intro γ minReward tau batch ht hb he
    obtain ⟨best, hbest, hle, heq⟩ := batch_eq γ minReward tau batch hb he
    refine ⟨_, fun e => Real.exp (tau * (ret γ e - ret γ best)), heq, rfl, fun e e' h => Real.exp_lt_exp.mpr ?_⟩
    nlinarith

/-- **C139 violated: equal returns.** If all episodes of a batch have the minimal reward as return (for example no reward was found, with a minimal reward of 0), there is no new `tau`: it is infinite. -/
theorem C139_negation_equal (γ minReward tau : ℝ) (batch : List (List (Step O n))) (hb : batch ≠ []) (he : ∀ e ∈ batch, e ≠ [] ∧ ret γ e = minReward) :
    ∃ r, learnOneBatch γ minReward tau batch = .ok r ∧ r.tau = none := by
  obtain ⟨best, hbest, hle, heq⟩ := batch_eq γ minReward tau batch hb (fun e h => (he e h).1)
  refine ⟨_, heq, ?_⟩
  have h0 : (batch.map fun e => (ret γ e - minReward) * Real.exp (tau * ret γ e)).sum = 0 := by
    refine List.sum_eq_zero fun x hx => ?_
    obtain ⟨e, h, rfl⟩ := List.mem_map.mp hx
    rw [(he e h).2, sub_self, zero_mul]
  simp only [updateTau, sum_zip, h0, if_true]

/-- **C139 violated: empty episodes.** If the task is finished at once in one of the episodes, the batch fails (`ZeroDivisionError`). -/
theorem C139_negation_empty (γ minReward tau : ℝ) (batch : List (List (Step O n))) (h : [] ∈ batch) : learnOneBatch γ minReward tau batch = .error .zeroDivision := by
  have hm : batch.mapM (episode γ) = .error .zeroDivision := by
    refine mapM_error _ _ _ (fun e _ => ?_) ⟨[], h, rfl⟩
    by_cases he : e = []
    · subst he; exact Or.inr rfl
    · exact Or.inl ⟨_, episode_ok γ e he⟩
  rw [learnOneBatch, hm]; rfl

/-- **C139 violated: learning.** `learn` fails for every positive number of batches (`AttributeError`), before the first batch: the trainer has no attribute `momentumvector` (its gradient descent has). -/
theorem C139_negation_learn {S : Type} (oneBatch : S → Except Fail S) (b : Nat) (s : S) : learn oneBatch (b + 1) s = .error .attributeError := by
  have : reset = .error .attributeError := by decide
  rw [learn, this]; rfl

/-- **C139 violated: momentum.** The momentum the user sets is handed to the trainer as decay of the learning rate: the descent has no momentum, and a learning rate that is multiplied by it in every step. -/
theorem C139_negation_momentum (learningRate momentum : ℝ) : (bp learningRate momentum).momentum = 0 ∧ (bp learningRate momentum).alphadecay = momentum ∧ (bp learningRate momentum).alpha = learningRate := ⟨rfl, rfl, rfl⟩

/-- the hypotheses are met: two episodes with positive returns -/
example : let batch : List (List (Step Unit 2)) := [[⟨(), 0, 0⟩, ⟨(), 1, 1⟩], [⟨(), 1, 2⟩]]
    (∀ e ∈ batch, e ≠ [] ∧ ∀ s ∈ e, 0 ≤ s.reward) ∧ (∃ e ∈ batch, 0 < ret 0.5 e) ∧ ∀ e ∈ batch, 0 ≤ ret 0.5 e := by
  refine ⟨by simp, ⟨[⟨(), 1, 2⟩], by simp, ?_⟩, ?_⟩
  · simp only [ret, List.map_cons, List.map_nil, discounted_cons]; simp [discounted]
  · intro e he
    simp only [List.mem_cons, List.not_mem_nil, or_false] at he
    rcases he with rfl | rfl <;> (simp only [ret, List.map_cons, List.map_nil, discounted_cons]; simp [discounted]) <;> norm_num

end Verif.Props
