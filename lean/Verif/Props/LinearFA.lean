import Verif.Spec.LinearFA
import Mathlib.Analysis.PSeries
import Mathlib.Tactic.FieldSimp
import Mathlib.Tactic.FinCases
import Mathlib.LinearAlgebra.Matrix.NonsingularInverse
/-
C93: learners with linear function approximation.
-/
namespace Verif.LinFA
open Matrix Verif.NES

variable {m n : Nat}

/-! ### Learning rate -/

theorem rate_step (decay : ℝ) (l : Lin m n) (k : Nat) : ((Lin.newEpisode decay)^[k] l).callcount = l.callcount + k := by
  induction k with
  | zero => rfl
  | succ k ih => rw [Function.iterate_succ_apply']; show _ + 1 = _; rw [ih]; omega

theorem rate_closed {decay : ℝ} (hd : 0 ≤ decay) (l : Lin m n) (k : Nat) :
    ((Lin.newEpisode decay)^[k] l).learningRate = l.learningRate * (decay + l.callcount + 1) / (decay + l.callcount + k + 1) := by
  induction k with
  | zero =>
    have : (0:ℝ) < decay + l.callcount + 1 := by positivity
    simp only [Function.iterate_zero, id, Nat.cast_zero, add_zero]
    field_simp
  | succ k ih =>
    rw [Function.iterate_succ_apply']
    show _ * _ = _
    rw [ih, rate_step]
    have h1 : (0:ℝ) < decay + l.callcount + k + 1 := by positivity
    have h2 : (0:ℝ) < decay + l.callcount + k + 1 + 1 := by positivity
    push_cast
    rw [show decay + ((l.callcount:ℝ) + k + 1) = decay + l.callcount + k + 1 by ring,
      show decay + (l.callcount:ℝ) + (k + 1) + 1 = decay + l.callcount + k + 1 + 1 by ring]
    field_simp

/-- the learning rate during episode number `k` -/
noncomputable def rate (m n : Nat) (decay rate0 : ℝ) (theta : Weights m n) (k : Nat) : ℝ := ((Lin.newEpisode decay)^[k] (Lin.init decay rate0 theta)).learningRate

theorem rate_eq {decay : ℝ} (hd : 0 ≤ decay) (rate0 : ℝ) (theta : Weights m n) (k : Nat) :
    rate m n decay rate0 theta k = rate0 * (decay + 1) / (decay + k + 2) := by
  unfold rate
  rw [rate_closed hd]
  have h1 : (Lin.init decay rate0 theta).callcount = 1 := rfl
  have h2 : (Lin.init decay rate0 theta).learningRate = rate0 * ((decay + (0 + 1 : Nat)) / (decay + (0 + 1 : Nat) + 1)) := rfl
  rw [h1, h2]
  have h3 : (0:ℝ) < decay + k + 2 := by positivity
  have h4 : (0:ℝ) < decay + 1 + 1 := by positivity
  push_cast
  rw [show decay + 1 + (k:ℝ) + 1 = decay + k + 2 by ring]
  field_simp

/-! ### Boltzmann probabilities -/

theorem le_maxValue (v : Vec (m + 1)) (a : Fin (m + 1)) : v a ≤ maxValue v := Finset.le_sup' v (Finset.mem_univ a)

theorem exists_maxValue (v : Vec (m + 1)) : ∃ a, v a = maxValue v := by
  obtain ⟨a, _, h⟩ := Finset.exists_mem_eq_sup' Finset.univ_nonempty v
  exact ⟨a, h.symm⟩

theorem maxbidders_ne (v : Vec (m + 1)) : 0 < (maxbidders v).length := by
  obtain ⟨a, h⟩ := exists_maxValue v
  exact List.length_pos_of_mem (a := a) (by simp [maxbidders, h])

/-- the choice is an action of the largest value -/
theorem rArgmax_max (pick : Nat) (v : Vec (m + 1)) : v (rArgmax pick v) = maxValue v := by
  unfold rArgmax
  split
  · next h =>
    obtain ⟨a, ha⟩ := exists_maxValue v
    have : a = 0 := by
      apply Fin.ext
      have := a.2
      simp only [Fin.val_zero]; omega
    rw [← this, ha]
  · have hl := Nat.mod_lt pick (maxbidders_ne v)
    rw [List.getD_eq_getElem?_getD, List.getElem?_eq_getElem hl, Option.getD_some]
    have := List.getElem_mem hl
    have := (List.mem_filter.1 this).2
    exact of_decide_eq_true this

theorem boltz_sum_pos (pick : Nat) (q : Vec (m + 1)) (temp : ℝ) : 0 < ∑ b, (if temp = 0 then (fun a => if a = rArgmax pick q then (1:ℝ) else 0)
      else fun a => Real.exp (max (-20) (min 0 (q a / temp - maxValue fun a => q a / temp)))) b := by
  split
  · simp
  · exact Finset.sum_pos (fun a _ => Real.exp_pos _) Finset.univ_nonempty

theorem boltz_zero (pick : Nat) (q : Vec (m + 1)) (a : Fin (m + 1)) : boltzmannProbs pick q 0 a = if a = rArgmax pick q then 1 else 0 := by
  simp [boltzmannProbs]

/-- the weight of an action before normalisation -/
noncomputable def bw (q : Vec (m + 1)) (temp : ℝ) (a : Fin (m + 1)) : ℝ := Real.exp (max (-20) ((q a - maxValue q) / temp))

theorem maxValue_div (q : Vec (m + 1)) {temp : ℝ} (ht : 0 < temp) : maxValue (fun a => q a / temp) = maxValue q / temp := by
  apply le_antisymm
  · exact Finset.sup'_le _ _ fun a _ => div_le_div_of_nonneg_right (le_maxValue q a) ht.le
  · obtain ⟨a, h⟩ := exists_maxValue q
    rw [← h]
    exact le_maxValue (fun a => q a / temp) a

theorem boltz_pos_temp (pick : Nat) (q : Vec (m + 1)) {temp : ℝ} (ht : 0 < temp) (a : Fin (m + 1)) :
    boltzmannProbs pick q temp a = bw q temp a / ∑ b, bw q temp b := by
  have h : ∀ a, Real.exp (max (-20) (min 0 (q a / temp - maxValue fun a => q a / temp))) = bw q temp a := by
    intro a
    unfold bw
    rw [maxValue_div q ht, ← sub_div, min_eq_right]
    exact div_nonpos_of_nonpos_of_nonneg (sub_nonpos.2 (le_maxValue q a)) ht.le
  unfold boltzmannProbs
  simp only [if_neg ht.ne', h]

/-! ### The tabular case -/

theorem dot_oneHot (w : Vec n) (s : Fin n) : w ⬝ᵥ oneHot s = w s := by
  simp [dotProduct, oneHot]

theorem best_of_agrees {t : ValueBased.Table ℝ} {theta : Weights m n} (h : Agrees t theta) (s : Fin n) (pick : Nat) :
    ∃ a, ValueBased.getMaxAction t s pick = .ok a ∧ ValueBased.getValue t s a = .ok (maxValue (qValues theta (oneHot s))) := by
  obtain ⟨hr, hc, hq⟩ := h
  have hval : ∀ a : Fin (m + 1), qValues theta (oneHot s) a = t.q s a := fun a => by
    unfold qValues; rw [dot_oneHot, hq]
  have hlen : 0 < (ValueBased.bestActions t s).length := by
    obtain ⟨a, ha⟩ := exists_maxValue (qValues theta (oneHot s))
    apply List.length_pos_of_mem (a := (a : Nat))
    simp only [ValueBased.bestActions, List.mem_filter, List.mem_range, List.all_eq_true, decide_eq_true_eq, hc]
    refine ⟨a.2, fun b hb => ?_⟩
    have := le_maxValue (qValues theta (oneHot s)) ⟨b, hb⟩
    rw [← ha, hval, hval] at this
    exact this
  have hl := Nat.mod_lt pick hlen
  have hmem := List.getElem_mem hl
  generalize hb : (ValueBased.bestActions t s)[pick % (ValueBased.bestActions t s).length] = b at hmem
  simp only [ValueBased.bestActions, List.mem_filter, List.mem_range, List.all_eq_true, decide_eq_true_eq, hc] at hmem
  refine ⟨b, ?_, ?_⟩
  · unfold ValueBased.getMaxAction
    rw [if_pos (by rw [hr]; exact s.2), List.getElem?_eq_getElem hl, hb]
  · unfold ValueBased.getValue
    rw [if_pos ⟨by rw [hr]; exact s.2, by rw [hc]; exact hmem.1⟩]
    congr 1
    apply le_antisymm
    · have := le_maxValue (qValues theta (oneHot s)) ⟨b, hmem.1⟩
      rwa [hval] at this
    · obtain ⟨a, ha⟩ := exists_maxValue (qValues theta (oneHot s))
      rw [← ha, hval]
      exact hmem.2 a a.2

theorem getValue_agrees {t : ValueBased.Table ℝ} {theta : Weights m n} (h : Agrees t theta) (s : Fin n) (a : Fin (m + 1)) :
    ValueBased.getValue t s a = .ok (theta a s) := by
  unfold ValueBased.getValue
  rw [if_pos ⟨by rw [h.1]; exact s.2, by rw [h.2.1]; exact a.2⟩, h.2.2]

theorem set_agrees {t : ValueBased.Table ℝ} {theta : Weights m n} (h : Agrees t theta) (s : Fin n) (a : Fin (m + 1)) (d : ℝ) :
    ∃ t', ValueBased.updateValue t s a (theta a s + d) = .ok t' ∧
      Agrees t' (fun b i => if b = a then theta b i + d * oneHot s i else theta b i) := by
  refine ⟨t.set s a (theta a s + d), ?_, h.1, h.2.1, fun s' a' => ?_⟩
  · unfold ValueBased.updateValue
    rw [if_pos ⟨by rw [h.1]; exact s.2, by rw [h.2.1]; exact a.2⟩]
  · simp only [ValueBased.Table.set, oneHot, ← Fin.ext_iff]
    by_cases ha : a' = a
    · subst ha
      by_cases hs : s' = s
      · subst hs; simp
      · simp [hs, h.2.2]
    · simp [ha, h.2.2]

theorem qStep_agrees (gamma : ℝ) {l : Lin m n} {t : ValueBased.Table ℝ} (h : Agrees t l.theta) (v w : Visit m n) :
    ∃ t', ValueBased.qStep l.learningRate gamma t v.sample w.sample = .ok t' ∧ Agrees t' (qUpdate gamma l (v.to w)).theta := by
  obtain ⟨a, h1, h2⟩ := best_of_agrees h w.state w.pick
  obtain ⟨t', h3, h4⟩ := set_agrees h v.state v.action
    (l.learningRate * (v.reward + gamma * maxValue (qValues l.theta (oneHot w.state)) - l.theta v.action v.state))
  refine ⟨t', ?_, ?_⟩
  · simp only [ValueBased.qStep, Visit.sample, getValue_agrees h, h1, h2, h3]
  · simpa only [qUpdate, tdQ, Visit.to, dot_oneHot] using h4

theorem sarsaStep_agrees (gamma : ℝ) {l : Lin m n} {t : ValueBased.Table ℝ} (h : Agrees t l.theta) (v w : Visit m n) :
    ∃ t', ValueBased.sarsaStep l.learningRate gamma t v.sample w.sample = .ok t' ∧ Agrees t' (sarsaUpdate gamma 0 l (v.to w)).theta := by
  obtain ⟨t', h3, h4⟩ := set_agrees h v.state v.action
    (l.learningRate * (v.reward + gamma * l.theta w.action w.state - l.theta v.action v.state))
  refine ⟨t', ?_, ?_⟩
  · simp only [ValueBased.sarsaStep, Visit.sample, getValue_agrees h, h3]
  · have e : (sarsaUpdate gamma 0 l (v.to w)).theta = fun b i => if b = v.action then
        l.theta b i + l.learningRate * (v.reward + gamma * l.theta w.action w.state - l.theta v.action v.state) * oneHot v.state i else l.theta b i := by
      funext b i
      simp only [sarsaUpdate, updateEtraces, tdSarsa, Visit.to, dot_oneHot]
      by_cases hb : b = v.action <;> simp [hb]
    rw [e]; exact h4

/-! ### Least squares -/

theorem features_eq (a : Fin (m + 1)) (s : Vec n) : ravel (phi a s) = features a s := rfl

theorem dot_features (theta : Weights m n) (a : Fin (m + 1)) (s : Vec n) : features a s ⬝ᵥ ravel theta = Q theta s a := by
  simp only [dotProduct, features, ravel, Q, Fintype.sum_prod_type]
  rw [Finset.sum_eq_single a]
  · exact Finset.sum_congr rfl fun i _ => by simp [mul_comm]
  · intro b _ hb; simp [hb]
  · simp

theorem pinv_unit {A P : Matrix (Pair m n) (Pair m n) ℝ} (h : Verif.Pinv.IsPinv A P) (hA : IsUnit A) : A * P = 1 := by
  have h2 := h.apa
  have hd := (Matrix.isUnit_iff_isUnit_det A).1 hA
  calc A * P = A * P * A * A⁻¹ := by rw [Matrix.mul_assoc (A * P), Matrix.mul_nonsing_inv A hd, Matrix.mul_one]
    _ = 1 := by rw [h2, Matrix.mul_nonsing_inv A hd]

theorem ravel_unravel (v : Pair m n → ℝ) : ravel (unravel v) = v := rfl

variable (gamma : ℝ) (lazy : Option Nat) (bonus : Option ℝ) (pinv : Matrix (Pair m n) (Pair m n) ℝ → Matrix (Pair m n) (Pair m n) ℝ)

theorem lspi_A (s : Lspi m n) (t : Tr m n) : (s.update gamma lazy bonus pinv t).A =
    s.A + vecMulVec (features t.action t.state) (features t.action t.state - gamma • features t.next t.nextState) := by
  unfold Lspi.update
  dsimp only
  split
  · cases bonus <;> rfl
  · rfl

theorem lspi_b (s : Lspi m n) (t : Tr m n) : (s.update gamma lazy bonus pinv t).b = s.b + t.reward • features t.action t.state := by
  unfold Lspi.update
  dsimp only
  split
  · cases bonus <;> rfl
  · rfl

theorem lspi_count (s : Lspi m n) (t : Tr m n) : (s.update gamma lazy bonus pinv t).count = s.count + 1 := by
  unfold Lspi.update
  dsimp only
  split
  · cases bonus <;> rfl
  · rfl

theorem lspi_run_A (ts : List (Tr m n)) (s : Lspi m n) : (ts.foldl (Lspi.update gamma lazy bonus pinv) s).A = s.A + lsMatrix gamma ts := by
  induction ts generalizing s with
  | nil => simp [lsMatrix]
  | cons t ts ih =>
    rw [List.foldl_cons, ih, lspi_A]
    simp only [lsMatrix, List.map_cons, List.sum_cons, add_assoc]

theorem lspi_run_b (ts : List (Tr m n)) (s : Lspi m n) : (ts.foldl (Lspi.update gamma lazy bonus pinv) s).b =
    s.b + (ts.map fun t => t.reward • features t.action t.state).sum := by
  induction ts generalizing s with
  | nil => simp
  | cons t ts ih =>
    rw [List.foldl_cons, ih, lspi_b]
    simp only [List.map_cons, List.sum_cons, add_assoc]

theorem lspi_run_count (ts : List (Tr m n)) (s : Lspi m n) : (ts.foldl (Lspi.update gamma lazy bonus pinv) s).count = s.count + ts.length := by
  induction ts generalizing s with
  | nil => rfl
  | cons t ts ih =>
    rw [List.foldl_cons, ih, lspi_count, List.length_cons]; omega

theorem lspi_theta (k : Nat) (s : Lspi m n) (t : Tr m n) (h : s.count % k = 0) : (s.update gamma (some k) none pinv t).theta =
    unravel (pinv (s.update gamma (some k) none pinv t).A *ᵥ (s.update gamma (some k) none pinv t).b) := by
  have : (some k = none ∨ ∃ k', some k = some k' ∧ s.count % k' = 0) := Or.inr ⟨k, rfl, h⟩
  unfold Lspi.update
  simp only [if_pos this]

theorem lspi_stale (k : Nat) (s : Lspi m n) (t : Tr m n) (h : s.count % k ≠ 0) : (s.update gamma (some k) bonus pinv t).theta = s.theta := by
  have : ¬ (some k = none ∨ ∃ k', some k = some k' ∧ s.count % k' = 0) := by
    rintro (h' | ⟨k', h', h''⟩)
    · cases h'
    · cases h'; exact h h''
  unfold Lspi.update
  simp only [if_neg this]

theorem lsMatrix_mulVec (ts : List (Tr m n)) (theta : Weights m n) (p : Pair m n) : (lsMatrix gamma ts *ᵥ ravel theta) p =
    (ts.map fun t => features t.action t.state p * (Q theta t.state t.action - gamma * Q theta t.nextState t.next)).sum := by
  induction ts with
  | nil => simp [lsMatrix]
  | cons t ts ih =>
    simp only [lsMatrix, List.map_cons, List.sum_cons, Matrix.add_mulVec, Pi.add_apply] at ih ⊢
    rw [ih]
    congr 1
    rw [vecMulVec_mulVec, sub_dotProduct, smul_dotProduct, dot_features, dot_features]
    simp

/-! ### LSTDQ(lambda) -/

theorem dot_outer (theta : Weights m n) (pi : Vec (m + 1)) (s : Vec n) : ravel (outerPolicy pi s) ⬝ᵥ ravel theta = ∑ a, pi a * Q theta s a := by
  simp only [dotProduct, ravel, outerPolicy, Q, Fintype.sum_prod_type, Finset.mul_sum]
  exact Finset.sum_congr rfl fun a _ => Finset.sum_congr rfl fun i _ => by ring

theorem rvDot_outer (theta : Weights m n) (pi : Vec (m + 1)) (s : Vec n) : rvDot theta (outerPolicy pi s) = ∑ a, pi a * Q theta s a := by
  rw [← dot_outer]
  simp only [rvDot, dotProduct, ravel, Fintype.sum_prod_type]
  exact Finset.sum_congr rfl fun a _ => Finset.sum_congr rfl fun i _ => by ring

theorem rvDot_phi (w : Weights m n) (a : Fin (m + 1)) (s : Vec n) : rvDot w (phi a s) = Q w s a := by
  rw [← dot_features, ← features_eq]
  simp only [rvDot, dotProduct, ravel, Fintype.sum_prod_type]
  exact Finset.sum_congr rfl fun a _ => Finset.sum_congr rfl fun i _ => by ring

theorem lstd_invariant (decay lambda : ℝ) (pi : Vec n → Vec (m + 1)) (evs : List (Ev m n)) (s : Lstd m n) :
    let s' := evs.foldl (Lstd.apply decay gamma lambda (fun _ => pi) pinv) s
    s'.A = s.A + lstdMatrix gamma pi (eligible gamma lambda s.lin.etraces evs) ∧
    s'.b = s.b + ((eligible gamma lambda s.lin.etraces evs).map fun x => x.1.reward • ravel x.2).sum := by
  induction evs generalizing s with
  | nil => simp [eligible, lstdMatrix]
  | cons ev evs ih =>
    rw [List.foldl_cons]
    have hi := ih (Lstd.apply decay gamma lambda (fun _ => pi) pinv s ev)
    dsimp only at hi ⊢
    cases ev with
    | newEpisode => exact hi
    | step t =>
      have e : (Lstd.apply decay gamma lambda (fun _ => pi) pinv s (.step t)).lin.etraces =
          fun a i => gamma * lambda * s.lin.etraces a i + features t.action t.state (a, i) := by
        funext a i
        show updateEtraces gamma lambda 1 s.lin.etraces t a i = _
        unfold updateEtraces features
        by_cases ha : a = t.action
        · simp only [ha, if_true]; ring
        · simp only [ha, if_false]; ring
      rw [e] at hi
      rw [hi.1, hi.2]
      simp only [eligible, lstdMatrix, List.map_cons, List.sum_cons, ← add_assoc]
      refine ⟨congrArg (· + _) ?_, congrArg (· + _) ?_⟩
      · show s.A + _ = s.A + _
        congr 2
        exact congrArg ravel e
      · show (fun p => s.b p + t.reward * ravel (updateEtraces gamma lambda 1 s.lin.etraces t) p) = _
        funext p
        exact congrArg (fun z => s.b p + t.reward * ravel z p) e

end Verif.LinFA

namespace Verif.Props
open Matrix Verif.NES Verif.LinFA

variable {m n : Nat}

/-- After `k` calls to newEpisode the learning rate is `α (n₀ + 1) / (n₀ + k + 2)`: the rates are positive and decrease, their sum diverges and the sum of
their squares converges, as stochastic approximation asks. -/
theorem C93_rate {decay rate0 : ℝ} (hd : 0 ≤ decay) (h0 : 0 < rate0) (theta : Weights m n) :
    let rate : Nat → ℝ := fun k => ((Lin.newEpisode decay)^[k] (Lin.init decay rate0 theta)).learningRate
    (∀ k, rate k = rate0 * (decay + 1) / (decay + k + 2)) ∧ (∀ k, 0 < rate k ∧ rate (k + 1) < rate k ∧ rate k < rate0) ∧
      ¬ Summable rate ∧ Summable fun k => rate k ^ 2 := by
  intro rate
  have he : ∀ k, rate k = rate0 * (decay + 1) / (decay + k + 2) := LinFA.rate_eq hd rate0 theta
  have hc : 0 < rate0 * (decay + 1) := by positivity
  refine ⟨he, fun k => ⟨?_, ?_, ?_⟩, ?_, ?_⟩
  · rw [he]; positivity
  · rw [he, he]
    apply div_lt_div_of_pos_left hc (by positivity)
    push_cast; linarith
  · rw [he, div_lt_iff₀ (by positivity)]
    have : (0:ℝ) ≤ k := Nat.cast_nonneg k
    exact mul_lt_mul_of_pos_left (by linarith) h0
  · intro hs
    obtain ⟨N, hN⟩ := exists_nat_ge (decay + 2)
    have h1 : Summable fun k : ℕ => rate0 * (decay + 1) * (1 / ((k + N : ℕ) : ℝ)) := by
      refine Summable.of_nonneg_of_le (fun k => by positivity) (fun k => ?_) hs
      rw [he, mul_one_div]
      apply div_le_div_of_nonneg_left hc.le (by positivity)
      push_cast; linarith
    have h2 : Summable fun k : ℕ => (1 / ((k + N : ℕ) : ℝ)) := by
      have := h1.mul_left (rate0 * (decay + 1))⁻¹
      simpa only [← mul_assoc, inv_mul_cancel₀ hc.ne', one_mul] using this
    exact Real.not_summable_one_div_natCast ((summable_nat_add_iff N).1 h2)
  · have h1 : Summable fun k : ℕ => (rate0 * (decay + 1)) ^ 2 * (1 / ((k + 1 : ℕ) : ℝ) ^ 2) :=
      (((summable_nat_add_iff 1).2 (Real.summable_one_div_nat_pow.2 (by norm_num : 1 < 2)))).mul_left _
    refine Summable.of_nonneg_of_le (fun k => sq_nonneg _) (fun k => ?_) h1
    rw [he, div_pow, mul_one_div]
    apply div_le_div_of_nonneg_left (by positivity) (by positivity)
    apply pow_le_pow_left₀ (by positivity)
    push_cast; linarith

/-- Discrepancy: `reset` starts the count of the schedule again but keeps the reduced learning rate, so that after a reset the rates are not those of a new
learner but smaller, whatever happened before. -/
theorem C93_negation_reset {decay rate0 : ℝ} (hd : 0 ≤ decay) (h0 : 0 < rate0) (theta : Weights m n) (k j : Nat) :
    ((Lin.newEpisode decay)^[j] (Lin.reset decay ((Lin.newEpisode decay)^[k] (Lin.init decay rate0 theta)))).learningRate <
      ((Lin.newEpisode decay)^[j] (Lin.init decay rate0 theta)).learningRate := by
  have h1 := (C93_rate hd h0 theta).2.1 k
  rw [LinFA.rate_closed hd, LinFA.rate_closed hd]
  have h2 : ∀ l : Lin m n, (Lin.reset decay l).callcount = 1 := fun l => rfl
  have h3 : ∀ l : Lin m n, (Lin.reset decay l).learningRate = l.learningRate * ((decay + (0 + 1 : Nat)) / (decay + (0 + 1 : Nat) + 1)) := fun l => rfl
  have h4 : (Lin.init decay rate0 theta).callcount = 1 := rfl
  have h5 : (Lin.init decay rate0 theta).learningRate = rate0 * ((decay + (0 + 1 : Nat)) / (decay + (0 + 1 : Nat) + 1)) := rfl
  rw [h2, h3, h4]
  rw [h5]
  apply div_lt_div_of_pos_right _ (by positivity)
  apply mul_lt_mul_of_pos_right _ (by positivity)
  apply mul_lt_mul_of_pos_right h1.2.2
  push_cast
  positivity

/-- The Boltzmann probabilities form a distribution, and a better action is at least as probable. With a positive temperature every action is possible,
and among the actions whose value is within 20 temperatures of the best the ratio of two probabilities is `exp ((q a - q b) / T)`. At temperature 0 one of
the best actions is certain. -/
theorem C93_boltzmann (pick : Nat) (q : Vec (m + 1)) {temp : ℝ} (ht : 0 ≤ temp) :
    (∑ a, boltzmannProbs pick q temp a = 1) ∧ (∀ a, 0 ≤ boltzmannProbs pick q temp a) ∧
    (∀ a b, q a < q b → boltzmannProbs pick q temp a ≤ boltzmannProbs pick q temp b) ∧
    (0 < temp → (∀ a, 0 < boltzmannProbs pick q temp a) ∧
      ∀ a b, (∀ c, q c - q a ≤ 20 * temp) → (∀ c, q c - q b ≤ 20 * temp) →
        boltzmannProbs pick q temp a / boltzmannProbs pick q temp b = Real.exp ((q a - q b) / temp)) ∧
    (temp = 0 → ∃ a, (∀ b, q b ≤ q a) ∧ boltzmannProbs pick q temp a = 1) := by
  rcases ht.eq_or_lt with h0 | h0
  · subst h0
    refine ⟨?_, fun a => ?_, fun a b hab => ?_, fun h => (lt_irrefl _ h).elim, fun _ => ⟨rArgmax pick q, fun b => ?_, ?_⟩⟩
    · simp [LinFA.boltz_zero]
    · rw [LinFA.boltz_zero]; split <;> norm_num
    · rw [LinFA.boltz_zero, LinFA.boltz_zero, if_neg]
      · split <;> norm_num
      · intro h
        have := LinFA.le_maxValue q b
        rw [← LinFA.rArgmax_max pick q, ← h] at this
        exact absurd hab (not_lt.2 this)
    · rw [LinFA.rArgmax_max pick q]; exact LinFA.le_maxValue q b
    · rw [LinFA.boltz_zero, if_pos rfl]
  · have hw : ∀ a, 0 < LinFA.bw q temp a := fun a => Real.exp_pos _
    have hs : 0 < ∑ b, LinFA.bw q temp b := Finset.sum_pos (fun a _ => hw a) Finset.univ_nonempty
    simp only [LinFA.boltz_pos_temp pick q h0]
    refine ⟨?_, fun a => (div_pos (hw a) hs).le, fun a b hab => ?_, fun _ => ⟨fun a => div_pos (hw a) hs, fun a b ha hb => ?_⟩, fun h => absurd h h0.ne'⟩
    · rw [← Finset.sum_div, div_self hs.ne']
    · apply div_le_div_of_nonneg_right _ hs.le
      apply Real.exp_le_exp.2
      apply max_le_max le_rfl
      exact div_le_div_of_nonneg_right (by linarith) h0.le
    · obtain ⟨c, hc⟩ := LinFA.exists_maxValue q
      rw [div_div_div_cancel_right₀ hs.ne']
      unfold LinFA.bw
      rw [max_eq_right, max_eq_right, ← Real.exp_sub, ← hc]
      · congr 1; ring
      · rw [le_div_iff₀ h0, ← hc]; linarith [hb c]
      · rw [le_div_iff₀ h0, ← hc]; linarith [ha c]

/-- Discrepancy: actions whose values are more than 20 temperatures below the best are all equally probable, however much they differ. -/
theorem C93_negation_boltzmann (pick : Nat) (q : Vec (m + 1)) {temp : ℝ} (ht : 0 < temp) (a b c : Fin (m + 1)) (hac : q a + 20 * temp ≤ q c)
    (hba : q b < q a) : boltzmannProbs pick q temp b = boltzmannProbs pick q temp a := by
  rw [LinFA.boltz_pos_temp pick q ht, LinFA.boltz_pos_temp pick q ht]
  have hm := LinFA.le_maxValue q c
  unfold LinFA.bw
  rw [max_eq_left, max_eq_left]
  · rw [div_le_iff₀ ht]; linarith
  · rw [div_le_iff₀ ht]; linarith

example : (fun a : Fin 3 => if a = 0 then (0:ℝ) else if a = 1 then -30 else -40) 1 + 20 * 1 ≤
      (fun a : Fin 3 => if a = 0 then (0:ℝ) else if a = 1 then -30 else -40) 0 ∧
    (fun a : Fin 3 => if a = 0 then (0:ℝ) else if a = 1 then -30 else -40) 2 < (fun a : Fin 3 => if a = 0 then (0:ℝ) else if a = 1 then -30 else -40) 1 := by
  constructor <;> simp <;> norm_num

/-- With one feature per state, Q-learning with linear function approximation is the table based Q-learning: along every episode the weights remain the
entries of the table. -/
theorem C93_q_tabular (gamma : ℝ) (l : Lin m n) (t : ValueBased.Table ℝ) (h : Agrees t l.theta) (vs : List (Visit m n)) :
    ∃ t', ValueBased.learnSeq (ValueBased.qStep l.learningRate gamma) none (vs.map Visit.sample) t = .ok t' ∧
      Agrees t' ((transitions vs).foldl (qUpdate gamma) l).theta := by
  cases vs with
  | nil => exact ⟨t, rfl, h⟩
  | cons v vs =>
    show ∃ t', ValueBased.learnSeq _ (some v.sample) (vs.map Visit.sample) t = .ok t' ∧ _
    induction vs generalizing v l t with
    | nil => exact ⟨t, rfl, h⟩
    | cons w vs ih =>
      obtain ⟨t1, h1, h2⟩ := LinFA.qStep_agrees gamma h v w
      obtain ⟨t2, h3, h4⟩ := ih (qUpdate gamma l (v.to w)) t1 h2 w
      refine ⟨t2, ?_, h4⟩
      simp only [List.map_cons, ValueBased.learnSeq, h1]
      exact h3

/-- With one feature per state and `λ = 0`, SARSA with linear function approximation is the table based SARSA. -/
theorem C93_sarsa_tabular (gamma : ℝ) (l : Lin m n) (t : ValueBased.Table ℝ) (h : Agrees t l.theta) (vs : List (Visit m n)) :
    ∃ t', ValueBased.learnSeq (ValueBased.sarsaStep l.learningRate gamma) none (vs.map Visit.sample) t = .ok t' ∧
      Agrees t' ((transitions vs).foldl (sarsaUpdate gamma 0) l).theta := by
  cases vs with
  | nil => exact ⟨t, rfl, h⟩
  | cons v vs =>
    show ∃ t', ValueBased.learnSeq _ (some v.sample) (vs.map Visit.sample) t = .ok t' ∧ _
    induction vs generalizing v l t with
    | nil => exact ⟨t, rfl, h⟩
    | cons w vs ih =>
      obtain ⟨t1, h1, h2⟩ := LinFA.sarsaStep_agrees gamma h v w
      obtain ⟨t2, h3, h4⟩ := ih (sarsaUpdate gamma 0 l (v.to w)) t1 h2 w
      refine ⟨t2, ?_, h4⟩
      simp only [List.map_cons, ValueBased.learnSeq, h1]
      exact h3

example : Agrees (m := 1) (n := 2) ⟨2, 2, fun s a => if s = 1 ∧ a = 0 then 5 else 0⟩ (fun a s => if s = 1 ∧ a = 0 then 5 else 0) :=
  ⟨rfl, rfl, fun s a => by fin_cases s <;> fin_cases a <;> simp⟩

/-- An update of Q-learning changes only the values of the action taken. At the state it moves the value towards the target `r + γ max q(s')` by the
fraction `α ‖s‖²` of the error; at any other state by the same amount times the similarity of the states. -/
theorem C93_q_update (gamma : ℝ) (l : Lin m n) (t : Tr m n) :
    (∀ a s, a ≠ t.action → Q (qUpdate gamma l t).theta s a = Q l.theta s a) ∧
    (∀ s y, (∀ a, Q l.theta t.nextState a ≤ y) → (∃ a, Q l.theta t.nextState a = y) →
      Q (qUpdate gamma l t).theta s t.action =
        Q l.theta s t.action + l.learningRate * (t.reward + gamma * y - Q l.theta t.state t.action) * (t.state ⬝ᵥ s)) ∧
    (qUpdate gamma l t).learningRate = l.learningRate := by
  refine ⟨fun a s ha => ?_, fun s y h1 h2 => ?_, rfl⟩
  · unfold Q
    congr 1
    funext i
    simp [qUpdate, ha]
  · have hy : maxValue (qValues l.theta t.nextState) = y := by
      apply le_antisymm
      · exact Finset.sup'_le _ _ fun a _ => h1 a
      · obtain ⟨a, ha⟩ := h2
        rw [← ha]; exact LinFA.le_maxValue (qValues l.theta t.nextState) a
    have : (qUpdate gamma l t).theta t.action = l.theta t.action + (l.learningRate * (t.reward + gamma * y - Q l.theta t.state t.action)) • t.state := by
      funext i
      simp [qUpdate, tdQ, hy, Q]
    unfold Q
    rw [this, add_dotProduct, smul_dotProduct]
    simp [Q]

/-- With `λ = 0` Q(λ) is Q-learning, for all features and histories. -/
theorem C93_qlambda_zero (gamma : ℝ) (l : Lin m n) (ts : List (Tr m n)) :
    (ts.foldl (qlUpdate gamma 0) l).theta = (ts.foldl (qUpdate gamma) l).theta := by
  have key : ∀ (ts : List (Tr m n)) (l l' : Lin m n), l.theta = l'.theta → l.learningRate = l'.learningRate →
      (ts.foldl (qlUpdate gamma 0) l).theta = (ts.foldl (qUpdate gamma) l').theta := by
    intro ts
    induction ts with
    | nil => intro l l' h _; exact h
    | cons t ts ih =>
      intro l l' h hr
      apply ih
      · funext a i
        simp only [qlUpdate, qUpdate, updateEtraces, h, hr]
        by_cases ha : a = t.action <;> simp [ha]
      · exact hr
  exact key ts l l rfl rfl

/-- The eligibility traces of Q(λ) and SARSA(λ) are the discounted sum of the features visited since the episode began, and every update moves the weights
along them, in proportion to the temporal difference error. -/
theorem C93_traces (decay gamma lambda : ℝ) (l : Lin m n) (ts : List (Tr m n)) (t : Tr m n) (sarsa : Bool) :
    let update := if sarsa then sarsaUpdate gamma lambda else qlUpdate gamma lambda
    let before := ts.foldl update (l.newEpisode decay)
    let after := update before t
    (∀ a i, after.etraces a i = ∑ k ∈ Finset.range (ts.length + 1),
      (gamma * lambda) ^ (ts.length - k) * ((((ts ++ [t])[k]?).map fun x => features x.action x.state (a, i)).getD 0)) ∧
    ∀ a i, after.theta a i = before.theta a i + after.learningRate *
      (t.reward + gamma * (if sarsa then Q before.theta t.nextState t.next else maxValue (Q before.theta t.nextState)) - Q before.theta t.state t.action) *
        after.etraces a i := by
  intro update before after
  have hstep : ∀ (x : Lin m n) (t : Tr m n) a i, (update x t).etraces a i = gamma * lambda * x.etraces a i + features t.action t.state (a, i) := by
    intro x t a i
    have : (update x t).etraces = updateEtraces gamma lambda 1 x.etraces t := by
      cases sarsa <;> rfl
    rw [this]
    unfold updateEtraces features
    by_cases ha : a = t.action
    · simp only [ha, if_true]; ring
    · simp only [ha, if_false]; ring
  refine ⟨fun a i => ?_, fun a i => ?_⟩
  · have key : ∀ ts : List (Tr m n), (ts.foldl update (l.newEpisode decay)).etraces a i = ∑ k ∈ Finset.range ts.length,
        (gamma * lambda) ^ (ts.length - 1 - k) * ((ts[k]?.map fun x => features x.action x.state (a, i)).getD 0) := by
      intro ts
      induction ts using List.reverseRecOn with
      | nil => rfl
      | append_singleton ts t ih =>
        rw [List.foldl_append, List.foldl_cons, List.foldl_nil, hstep, ih, List.length_append, List.length_singleton, Finset.sum_range_succ, Finset.mul_sum]
        congr 1
        · refine Finset.sum_congr rfl fun k hk => ?_
          have hk := Finset.mem_range.1 hk
          rw [List.getElem?_append_left hk, ← mul_assoc, ← pow_succ', show ts.length - 1 - k + 1 = ts.length + 1 - 1 - k by omega]
        · simp
    have := key (ts ++ [t])
    rw [List.foldl_append, List.foldl_cons, List.foldl_nil, List.length_append, List.length_singleton] at this
    rw [Nat.add_sub_cancel] at this
    exact this
  · cases sarsa
    · rfl
    · rfl

/-- The weights of LSPI, when they are recomputed, solve the equations of least-squares temporal difference learning for all transitions seen: the temporal
difference errors, weighted with the features, sum to zero (or to what the initial matrix and vector contribute). -/
theorem C93_lspi (gamma : ℝ) (k : Nat) (pinv : Matrix (Pair m n) (Pair m n) ℝ → Matrix (Pair m n) (Pair m n) ℝ) (theta : Weights m n)
    (A : Matrix (Pair m n) (Pair m n) ℝ) (b : Pair m n → ℝ) (ts : List (Tr m n)) (t : Tr m n) (hk : ts.length % k = 0)
    (hp : Verif.Pinv.IsPinv (A + lsMatrix gamma (ts ++ [t])) (pinv (A + lsMatrix gamma (ts ++ [t])))) (hu : IsUnit (A + lsMatrix gamma (ts ++ [t]))) :
    let theta' := ((ts ++ [t]).foldl (Lspi.update gamma (some k) none pinv) (Lspi.init theta A b)).theta
    (∀ p, ((ts ++ [t]).map fun t => features t.action t.state p * (t.reward + gamma * Q theta' t.nextState t.next - Q theta' t.state t.action)).sum =
      (A *ᵥ fun p => theta' p.1 p.2) p - b p) := by
  intro theta' p
  have hA := LinFA.lspi_run_A gamma (some k) none pinv (ts ++ [t]) (Lspi.init theta A b)
  have hb := LinFA.lspi_run_b gamma (some k) none pinv (ts ++ [t]) (Lspi.init theta A b)
  have hc := LinFA.lspi_run_count gamma (some k) none pinv ts (Lspi.init theta A b)
  have ht : theta' = unravel (pinv (A + lsMatrix gamma (ts ++ [t])) *ᵥ (b + ((ts ++ [t]).map fun t => t.reward • features t.action t.state).sum)) := by
    show ((ts ++ [t]).foldl (Lspi.update gamma (some k) none pinv) (Lspi.init theta A b)).theta = _
    rw [List.foldl_append, List.foldl_cons, List.foldl_nil] at hA hb ⊢
    rw [LinFA.lspi_theta gamma pinv k _ t (by rw [hc]; simpa [Lspi.init] using hk), hA, hb]
    rfl
  have h1 : (A + lsMatrix gamma (ts ++ [t])) *ᵥ ravel theta' = b + ((ts ++ [t]).map fun t => t.reward • features t.action t.state).sum := by
    rw [ht, LinFA.ravel_unravel, Matrix.mulVec_mulVec, LinFA.pinv_unit hp hu, Matrix.one_mulVec]
  have h2 := congrFun h1 p
  rw [Matrix.add_mulVec, Pi.add_apply, Pi.add_apply, LinFA.lsMatrix_mulVec] at h2
  have h3 : ∀ xs : List (Tr m n), (xs.map fun t => t.reward • features t.action t.state).sum p = (xs.map fun t => t.reward * features t.action t.state p).sum := by
    intro xs
    induction xs with
    | nil => rfl
    | cons x xs ih => simp only [List.map_cons, List.sum_cons, Pi.add_apply, ih, Pi.smul_apply, smul_eq_mul]
  rw [h3] at h2
  have h4 : ∀ xs : List (Tr m n), (xs.map fun t => features t.action t.state p * (t.reward + gamma * Q theta' t.nextState t.next - Q theta' t.state t.action)).sum =
      (xs.map fun t => t.reward * features t.action t.state p).sum -
      (xs.map fun t => features t.action t.state p * (Q theta' t.state t.action - gamma * Q theta' t.nextState t.next)).sum := by
    intro xs
    induction xs with
    | nil => simp
    | cons x xs ih => simp only [List.map_cons, List.sum_cons, ih]; ring
  rw [h4]
  show _ = (A *ᵥ ravel theta') p - b p
  linarith

/-- Between two recomputations the weights of LSPI do not change, whatever is observed: they are recomputed at the first transition and then at every
`lazyInversions`-th. -/
theorem C93_lspi_lazy (gamma : ℝ) (k : Nat) (bonus : Option ℝ) (pinv : Matrix (Pair m n) (Pair m n) ℝ → Matrix (Pair m n) (Pair m n) ℝ)
    (theta : Weights m n) (A : Matrix (Pair m n) (Pair m n) ℝ) (b : Pair m n → ℝ) (ts us : List (Tr m n)) (t : Tr m n) (hk : ts.length % k = 0)
    (hu : us.length < k) :
    ((ts ++ t :: us).foldl (Lspi.update gamma (some k) bonus pinv) (Lspi.init theta A b)).theta =
      ((ts ++ [t]).foldl (Lspi.update gamma (some k) bonus pinv) (Lspi.init theta A b)).theta := by
  induction us using List.reverseRecOn with
  | nil => rfl
  | append_singleton us u ih =>
    rw [List.length_append, List.length_singleton] at hu
    rw [← ih (by omega), show ts ++ t :: (us ++ [u]) = (ts ++ t :: us) ++ [u] by simp, List.foldl_append, List.foldl_cons, List.foldl_nil]
    apply LinFA.lspi_stale
    rw [LinFA.lspi_run_count]
    simp only [Lspi.init, List.length_append, List.length_cons, Nat.zero_add]
    rw [show ts.length + (us.length + 1) = ts.length + (us.length + 1) by rfl, Nat.add_mod, hk, Nat.zero_add, Nat.mod_mod, Nat.mod_eq_of_lt (by omega)]
    omega

/-- Discrepancy: with the default `randomInit` the matrix and the vector of LSPI start from noise that is never removed, and so the weights do not solve the
equations. Here with one state, one action, no discount and the reward 1 the value found is 1/2. -/
theorem C93_negation_lspi : let t : Tr 0 1 := ⟨fun _ => 1, 0, 1, fun _ => 0, 0⟩
    ∀ pinv : Matrix (Pair 0 1) (Pair 0 1) ℝ → Matrix (Pair 0 1) (Pair 0 1) ℝ, (∀ A, IsUnit A → Verif.Pinv.IsPinv A (pinv A)) →
      Q ((Lspi.init (fun _ _ => 0) 1 0).update 0 (some 20) none pinv t).theta t.state t.action = 1 / 2 := by
  intro t pinv hp
  have hM : (1 : Matrix (Pair 0 1) (Pair 0 1) ℝ) + lsMatrix 0 ([] ++ [t]) = (2:ℝ) • 1 := by
    ext ⟨p, p'⟩ ⟨r, r'⟩
    obtain rfl : p = 0 := Subsingleton.elim (α := Fin 1) p 0
    obtain rfl := Subsingleton.elim p' 0
    obtain rfl : r = 0 := Subsingleton.elim (α := Fin 1) r 0
    obtain rfl := Subsingleton.elim r' 0
    simp only [lsMatrix, features, t, List.nil_append, List.map_cons, List.map_nil, List.sum_cons, List.sum_nil, Matrix.add_apply, Matrix.smul_apply,
      Matrix.one_apply_eq, vecMulVec_apply, Pi.sub_apply, Pi.smul_apply, smul_eq_mul, Matrix.zero_apply, if_true]
    norm_num
  have hu : IsUnit ((1 : Matrix (Pair 0 1) (Pair 0 1) ℝ) + lsMatrix 0 ([] ++ [t])) := by
    rw [hM]
    exact (Units.mk0 (2:ℝ) two_ne_zero • (1 : (Matrix (Pair 0 1) (Pair 0 1) ℝ)ˣ)).isUnit
  have h := C93_lspi 0 20 pinv (fun _ _ => 0) 1 0 [] t rfl (hp _ hu) hu (0, 0)
  simp only [List.nil_append, List.map_cons, List.map_nil, List.sum_cons, List.sum_nil, List.foldl_cons, List.foldl_nil, Matrix.one_mulVec, Pi.zero_apply] at h
  have hq : ∀ th : Weights 0 1, Q th t.state t.action = th 0 0 := fun th => by
    simp [Q, t, dotProduct]
  rw [hq] at h ⊢
  have hf : features t.action t.state (0, 0) = 1 := rfl
  have hr : t.reward = 1 := rfl
  rw [hf, hr] at h
  linarith

/-- The weights of LSTDQ(λ) for a fixed policy, after any history of episodes, solve the equations of least-squares temporal difference learning: the temporal
difference errors, weighted with the eligibility of each pair, sum to zero. -/
theorem C93_lstd (decay gamma lambda rate0 : ℝ) (pi : Vec n → Vec (m + 1)) (pinv : Matrix (Pair m n) (Pair m n) ℝ → Matrix (Pair m n) (Pair m n) ℝ)
    (theta : Weights m n) (evs : List (Ev m n)) (t : Tr m n) :
    let xs := eligible gamma lambda (fun _ _ => 0) (evs ++ [.step t])
    let theta' := ((evs ++ [Ev.step t]).foldl (Lstd.apply decay gamma lambda (fun _ => pi) pinv) (Lstd.init decay rate0 theta)).lin.theta
    Verif.Pinv.IsPinv (lstdMatrix gamma pi xs) (pinv (lstdMatrix gamma pi xs)) → IsUnit (lstdMatrix gamma pi xs) →
    ∀ a i, (xs.map fun x => x.2 a i * (x.1.reward + gamma * V pi theta' x.1.nextState - Q theta' x.1.state x.1.action)).sum = 0 := by
  intro xs theta' hp hu a i
  obtain ⟨hA, hb⟩ := LinFA.lstd_invariant gamma pinv decay lambda pi (evs ++ [.step t]) (Lstd.init decay rate0 theta)
  have he : (Lstd.init decay rate0 theta).lin.etraces = fun _ _ => 0 := rfl
  rw [he] at hA hb
  rw [show (Lstd.init decay rate0 theta).A = 0 from rfl, zero_add] at hA
  rw [show (Lstd.init decay rate0 theta).b = 0 from rfl, zero_add] at hb
  have ht : theta' = unravel (pinv (lstdMatrix gamma pi xs) *ᵥ (xs.map fun x => x.1.reward • ravel x.2).sum) := by
    show ((evs ++ [Ev.step t]).foldl (Lstd.apply decay gamma lambda (fun _ => pi) pinv) (Lstd.init decay rate0 theta)).lin.theta = _
    rw [← hA, ← hb]
    rw [List.foldl_append, List.foldl_cons, List.foldl_nil]
    rfl
  have h1 : lstdMatrix gamma pi xs *ᵥ ravel theta' = (xs.map fun x => x.1.reward • ravel x.2).sum := by
    rw [ht, LinFA.ravel_unravel, Matrix.mulVec_mulVec, LinFA.pinv_unit hp hu, Matrix.one_mulVec]
  have h2 := congrFun h1 (a, i)
  have key : ∀ ys : List (Tr m n × Weights m n),
      (ys.map fun x => x.2 a i * (x.1.reward + gamma * V pi theta' x.1.nextState - Q theta' x.1.state x.1.action)).sum =
        (ys.map fun x => x.1.reward • ravel x.2).sum (a, i) - (lstdMatrix gamma pi ys *ᵥ ravel theta') (a, i) := by
    intro ys
    induction ys with
    | nil => simp [lstdMatrix]
    | cons y ys ih =>
      rw [List.map_cons, List.sum_cons, ih]
      have e1 : lstdMatrix gamma pi (y :: ys) = vecMulVec (ravel y.2)
          (features y.1.action y.1.state - gamma • ravel (outerPolicy (pi y.1.nextState) y.1.nextState)) + lstdMatrix gamma pi ys := rfl
      rw [e1, Matrix.add_mulVec, vecMulVec_mulVec, sub_dotProduct, smul_dotProduct, LinFA.dot_features, LinFA.dot_outer]
      simp only [List.map_cons, List.sum_cons, Pi.add_apply, Pi.smul_apply, smul_eq_mul, V, ravel, MulOpposite.smul_eq_mul_unop, MulOpposite.unop_op]
      ring
  rw [key, h2, sub_self]

/-- one action, one state with reward 1 that leads to a state without features: the matrix is the identity, `pinv` the inverse -/
example : let xs := eligible (m := 0) (n := 1) 0.9 0.5 (fun _ _ => 0) ([] ++ [Ev.step ⟨fun _ => 1, 0, 1, fun _ => 0, 0⟩])
    Verif.Pinv.IsPinv (lstdMatrix 0.9 (fun _ _ => 1) xs) ((lstdMatrix 0.9 (fun _ _ => 1) xs)⁻¹) ∧ IsUnit (lstdMatrix 0.9 (fun _ _ => 1) xs) := by
  intro xs
  have h : lstdMatrix 0.9 (fun _ _ => 1) xs = 1 := by
    ext ⟨p, p'⟩ ⟨r, r'⟩
    obtain rfl : p = 0 := Subsingleton.elim (α := Fin 1) p 0
    obtain rfl := Subsingleton.elim p' 0
    obtain rfl : r = 0 := Subsingleton.elim (α := Fin 1) r 0
    obtain rfl := Subsingleton.elim r' 0
    simp [lstdMatrix, xs, eligible, features, ravel, outerPolicy, vecMulVec_apply]
  rw [h]
  refine ⟨?_, isUnit_one⟩
  rw [inv_one]
  exact ⟨by simp, by simp, by simp, by simp⟩

/-- GQ(λ): when the policy learned and the policy followed give the action the same probability, the traces are those of Q(λ); when the learned policy would
never take it, the earlier traces are cut. The correction disappears for `λ = 1`, and the update is then that of expected SARSA along the traces. An outcome
reward, if there is one, enters the error with weight `1 - γ`. -/
theorem C93_gq (gamma lambda secRate : ℝ) (learned behavior : Vec n → Vec (m + 1)) (outcome : Option ℝ) (s : Gq m n) (t : Tr m n) :
    let s' := s.update gamma lambda secRate learned behavior outcome t
    (learned t.state t.action = behavior t.state t.action → behavior t.state t.action ≠ 0 →
      ∀ a i, s'.lin.etraces a i = gamma * lambda * s.lin.etraces a i + features t.action t.state (a, i)) ∧
    (learned t.state t.action = 0 → ∀ a i, s'.lin.etraces a i = features t.action t.state (a, i)) ∧
    (lambda = 1 → ∀ a i, s'.lin.theta a i = s.lin.theta a i + s.lin.learningRate *
      (t.reward + (1 - gamma) * outcome.getD 0 + gamma * V learned s.lin.theta t.nextState - Q s.lin.theta t.state t.action) * s'.lin.etraces a i) := by
  intro s'
  refine ⟨fun h1 h2 a i => ?_, fun h1 a i => ?_, fun h a i => ?_⟩
  · show updateEtraces gamma lambda (learned t.state t.action / behavior t.state t.action) s.lin.etraces t a i = _
    rw [h1, div_self h2]
    unfold updateEtraces features
    by_cases ha : a = t.action
    · simp only [ha, if_true]; ring
    · simp only [ha, if_false]; ring
  · show updateEtraces gamma lambda (learned t.state t.action / behavior t.state t.action) s.lin.etraces t a i = _
    rw [h1, zero_div]
    unfold updateEtraces features
    by_cases ha : a = t.action
    · simp only [ha, if_true]; ring
    · simp only [ha, if_false]; ring
  · have e : s'.lin.theta a i = s.lin.theta a i + s.lin.learningRate * ((match outcome with
          | none => t.reward + gamma * rvDot s.lin.theta (outerPolicy (learned t.nextState) t.nextState) - s.lin.theta t.action ⬝ᵥ t.state
          | some o => t.reward + gamma * rvDot s.lin.theta (outerPolicy (learned t.nextState) t.nextState) - s.lin.theta t.action ⬝ᵥ t.state +
            (1 - gamma) * o) * s'.lin.etraces a i -
        gamma * (1 - lambda) * rvDot s.sec s'.lin.etraces * outerPolicy (learned t.nextState) t.nextState a i) := by
      cases outcome <;> rfl
    rw [e, LinFA.rvDot_outer, h]
    cases outcome <;> simp only [V, Q, Option.getD_none, Option.getD_some] <;> ring

/-- The secondary weights of GQ(λ) are a least-mean-squares estimate of the temporal difference error: at the first step of an episode they move the
estimate at the pair visited towards the error by the fraction `α β ‖s‖²`. -/
theorem C93_gq_secondary (gamma lambda secRate : ℝ) (learned behavior : Vec n → Vec (m + 1)) (outcome : Option ℝ) (s : Gq m n) (t : Tr m n)
    (h0 : ∀ a i, s.lin.etraces a i = 0) :
    let td := t.reward + (1 - gamma) * outcome.getD 0 + gamma * V learned s.lin.theta t.nextState - Q s.lin.theta t.state t.action
    Q (s.update gamma lambda secRate learned behavior outcome t).sec t.state t.action - td =
      (1 - s.lin.learningRate * secRate * (t.state ⬝ᵥ t.state)) * (Q s.sec t.state t.action - td) := by
  intro td
  have he : updateEtraces gamma lambda (learned t.state t.action / behavior t.state t.action) s.lin.etraces t = phi t.action t.state := by
    funext a i
    unfold updateEtraces phi
    simp only [h0]
    split <;> ring
  have hs : (s.update gamma lambda secRate learned behavior outcome t).sec t.action =
      s.sec t.action + (s.lin.learningRate * secRate * (td - Q s.sec t.state t.action)) • t.state := by
    funext i
    cases outcome <;>
      simp only [Gq.update, he, LinFA.rvDot_outer, LinFA.rvDot_phi, Pi.add_apply, Pi.smul_apply, smul_eq_mul, td, V, phi, if_true, Q, Option.getD_none,
        Option.getD_some] <;> ring
  show (s.update gamma lambda secRate learned behavior outcome t).sec t.action ⬝ᵥ t.state - td = _
  rw [hs, add_dotProduct, smul_dotProduct, smul_eq_mul]
  show Q s.sec t.state t.action + _ - td = _
  ring

end Verif.Props
