import Verif.Lemmas.PolicyIteration
/-
C41: the matrices, values and policies of policy iteration.
-/
namespace Verif.Props
open Verif.DataSet (Err)
open Verif.Policy Verif.Policy.Spec
open Matrix

variable {n k : Nat}

/-- **C41 (transitions).** Collapsing stochastic transition matrices under a stochastic policy gives the stochastic matrix of the policy's dynamics. -/
theorem C41_collapsed (Ts : Fin k → Mat n n) (policy : Mat n k) :
    (∀ s s', collapsed Ts policy s s' = Dynamics Ts policy s s') ∧
    ((∀ a, Stochastic (Ts a)) → Stochastic policy → Stochastic (collapsed Ts policy)) :=
  ⟨collapsed_eq Ts policy, collapsed_stochastic Ts policy⟩

/-- **C41 (greedy policies).** With at least one action, both greedy policies are rows of probabilities; an action has a positive probability
exactly when no action has a greater value, and all these have the same probability. -/
theorem C41_greedy (hk : 0 < k) (Ts : Fin k → Mat n n) (R : Vec n) (gamma : ℝ) (V : Vec n) (Qs : Mat n k) :
    (Stochastic (greedyQPolicy Qs) ∧ (∀ s a, 0 < greedyQPolicy Qs s a ↔ Best (Qs s) a) ∧
      ∀ s a b, Best (Qs s) a → Best (Qs s) b → greedyQPolicy Qs s a = greedyQPolicy Qs s b) ∧
    Stochastic (greedyPolicy Ts R gamma V).1 ∧ (∀ s a, 0 < (greedyPolicy Ts R gamma V).1 s a ↔ Best (actionValue Ts R gamma V s) a) ∧
    (greedyPolicy Ts R gamma V).2 = Dynamics Ts (greedyPolicy Ts R gamma V).1 := by
  refine ⟨⟨greedyQ_stochastic hk Qs, greedyQ_support hk Qs, fun s a b ha hb => ?_⟩, greedyQ_stochastic hk _, fun s a => ?_, ?_⟩
  · simp only [greedyQPolicy, (mem_allArgmax (Qs s) a).2 ha, (mem_allArgmax (Qs s) b).2 hb, if_true]
  · have e : (fun a => actionValue Ts R gamma V s a) = lookahead Ts R gamma V s := by
      funext a; exact (lookahead_eq Ts R gamma V s a).symm
    rw [show actionValue Ts R gamma V s = lookahead Ts R gamma V s from e]
    exact greedyQ_support hk _ s a
  · funext s s'
    exact collapsed_eq _ _ s s'

/-- **C41 (the random policy)** is uniform and comes with its dynamics. -/
theorem C41_random (hk : 0 < k) (Ts : Fin k → Mat n n) :
    Stochastic (randomPolicy Ts).1 ∧ (∀ s a b, (randomPolicy Ts).1 s a = (randomPolicy Ts).1 s b) ∧ (randomPolicy Ts).2 = Dynamics Ts (randomPolicy Ts).1 := by
  have hk' : (0 : ℝ) < k := by exact_mod_cast hk
  refine ⟨⟨fun s a => ?_, fun s => ?_⟩, fun _ _ _ => rfl, ?_⟩
  · simp only [randomPolicy]; positivity
  · simp only [randomPolicy, Finset.sum_const, Finset.card_univ, Fintype.card_fin, nsmul_eq_mul]
    field_simp
  · funext s s'
    simp only [randomPolicy, Dynamics]
    rw [← Finset.mul_sum]
    ring

/-- **C41 (state values).** For a stochastic matrix and `0 ≤ γ < 1` the Bellman equation has exactly one solution, and `trueValues` is within
`γ^N · max|R| / (1 - γ)` of it, for `N = ⌊10 / (1 - γ)⌋`; that factor `γ^N` is at most `e⁻⁹`, about 0.000123. A discount of 1 or more is refused. -/
theorem C41_values (T : Mat n n) (R : Vec n) (gamma : ℝ) :
    (1 ≤ gamma → trueValues T R gamma = .error .assertion) ∧
    (Stochastic T → 0 ≤ gamma → gamma < 1 → ∃ V res, IsValue T R gamma V ∧ (∀ W, IsValue T R gamma W → W = V) ∧ trueValues T R gamma = .ok res ∧
      ∀ M, (∀ s, |R s| ≤ M) → ∀ s, |V s - res s| ≤ gamma ^ (⌊10 / (1 - gamma)⌋.toNat) * (M / (1 - gamma)) ∧
        |V s - res s| ≤ Real.exp (-9) * (M / (1 - gamma))) := by
  constructor
  · intro h
    rw [trueValues, if_neg (by linarith)]
  · intro hT h0 h1
    obtain ⟨V, hV⟩ := value_exists T hT R gamma h0 h1
    refine ⟨V, _, hV, fun W hW => value_unique T hT R gamma h0 h1 W V hW hV, trueValues_eq T R gamma h0 h1, fun M hM s => ?_⟩
    have h2 := congrFun (value_remainder T R gamma V hV (horizon gamma)) s
    simp only [Pi.add_apply, Pi.smul_apply, smul_eq_mul] at h2
    have h3 : V s - partialSum T R gamma (horizon gamma) s = gamma ^ horizon gamma * ((T ^ horizon gamma) *ᵥ V) s := by linarith
    have h4 : |((T ^ horizon gamma) *ᵥ V) s| ≤ M / (1 - gamma) :=
      abs_avg_le _ (pow_stochastic T hT _) s V _ (value_bound T hT R M gamma h0 h1 hM V hV)
    have h5 : |V s - partialSum T R gamma (horizon gamma) s| ≤ gamma ^ horizon gamma * (M / (1 - gamma)) := by
      rw [h3, abs_mul, abs_of_nonneg (pow_nonneg h0 _)]
      exact mul_le_mul_of_nonneg_left h4 (pow_nonneg h0 _)
    refine ⟨h5, h5.trans (mul_le_mul_of_nonneg_right (gamma_pow_horizon gamma h0 h1) ((abs_nonneg _).trans h4))⟩

/-- **C41 (action values).** `trueQValues` is within `γ` times the same error of the value of each action followed by the policy. -/
theorem C41_qvalues (Ts : Fin k → Mat n n) (policy : Mat n k) (R : Vec n) (gamma : ℝ) (hT : ∀ a, Stochastic (Ts a)) (hp : Stochastic policy)
    (h0 : 0 ≤ gamma) (h1 : gamma < 1) : ∃ V Q, IsValue (Dynamics Ts policy) R gamma V ∧ trueQValues Ts R gamma policy = .ok Q ∧
      (∀ s, V s = ∑ a, policy s a * actionValue Ts R gamma V s a) ∧
      ∀ M, (∀ s, |R s| ≤ M) → ∀ s a, |actionValue Ts R gamma V s a - Q s a| ≤ gamma * (Real.exp (-9) * (M / (1 - gamma))) := by
  have hc : collapsed Ts policy = Dynamics Ts policy := by funext s s'; exact collapsed_eq Ts policy s s'
  obtain ⟨V, res, hV, _, hr, herr⟩ := (C41_values (collapsed Ts policy) R gamma).2 (collapsed_stochastic Ts policy hT hp) h0 h1
  refine ⟨V, fun s a => Ts a s ⬝ᵥ (gamma • res + R), hc ▸ hV, by rw [trueQValues, hr], fun s => (hV s).trans (dynamics_value Ts policy R gamma V s), fun M hM s a => ?_⟩
  have e : (Ts a s ⬝ᵥ (gamma • res + R)) = actionValue Ts R gamma res s a := lookahead_eq Ts R gamma res s a
  beta_reduce
  rw [e]
  have e2 : actionValue Ts R gamma V s a - actionValue Ts R gamma res s a = gamma * ∑ s', Ts a s s' * (V s' - res s') := by
    rw [actionValue, actionValue, ← Finset.sum_sub_distrib, Finset.mul_sum]
    exact Finset.sum_congr rfl (fun s' _ => by ring)
  rw [e2, abs_mul, abs_of_nonneg h0]
  exact mul_le_mul_of_nonneg_left (abs_avg_le _ (hT a) s _ _ (fun s' => (herr M hM s').2)) h0

/-- **C41 (improvement).** The greedy policy for the value of a policy is worth at least as much in every state. -/
theorem C41_improvement (hk : 0 < k) (Ts : Fin k → Mat n n) (policy : Mat n k) (R : Vec n) (gamma : ℝ) (hT : ∀ a, Stochastic (Ts a)) (hp : Stochastic policy)
    (h0 : 0 ≤ gamma) (h1 : gamma < 1) (V W : Vec n) (hV : IsValue (Dynamics Ts policy) R gamma V)
    (hW : IsValue (greedyPolicy Ts R gamma V).2 R gamma W) (s : Fin n) : V s ≤ W s := by
  have hc : collapsed Ts policy = Dynamics Ts policy := by funext s s'; exact collapsed_eq Ts policy s s'
  have hg := (C41_greedy hk Ts R gamma V (fun _ _ => 0 : Mat n k)).2
  have hgs := collapsed_stochastic Ts _ hT hg.1
  refine value_le _ hgs R gamma h0 h1 V W (fun s => ?_) (fun s => (hW s).ge) s
  have h2 : V s = ∑ a, policy s a * actionValue Ts R gamma V s a := by
    rw [← hc] at hV; exact (hV s).trans (dynamics_value Ts policy R gamma V s)
  rw [dynamics_value, h2]
  apply avg_le policy hp s
  intro b
  refine greedy_attains _ hg.1 s _ (fun a ha => (hg.2.1 s a).1 (lt_of_le_of_ne (hg.1.1 s a) (Ne.symm ha))) b

/-- a policy which differs by `ε` from the greedy policy for its own value loses at most `ε max|R| / (1 - γ)²` against any policy -/
theorem C41_near_optimal (hk : 0 < k) (Ts : Fin k → Mat n n) (policy : Mat n k) (R : Vec n) (gamma M eps : ℝ) (hT : ∀ a, Stochastic (Ts a))
    (hp : Stochastic policy) (h0 : 0 ≤ gamma) (h1 : gamma < 1) (hM : ∀ s, |R s| ≤ M) (V : Vec n) (hV : IsValue (Dynamics Ts policy) R gamma V)
    (hclose : ∑ s, ∑ a, |(greedyPolicy Ts R gamma V).1 s a - policy s a| ≤ eps)
    (policy' : Mat n k) (hp' : Stochastic policy') (V' : Vec n) (hV' : IsValue (Dynamics Ts policy') R gamma V') (s : Fin n) :
    V' s ≤ V s + eps * (M / (1 - gamma)) / (1 - gamma) := by
  have hg0 : (0 : ℝ) < 1 - gamma := by linarith
  have hc : ∀ p : Mat n k, Dynamics Ts p = collapsed Ts p := by intro p; funext s s'; exact (collapsed_eq Ts p s s').symm
  rw [hc] at hV hV'
  have hg := (C41_greedy hk Ts R gamma V (fun _ _ => 0 : Mat n k)).2
  have hVb := value_bound _ (collapsed_stochastic Ts policy hT hp) R M gamma h0 h1 hM V hV
  have hQ : ∀ s a, |actionValue Ts R gamma V s a| ≤ M / (1 - gamma) := by
    intro s a
    apply abs_avg_le _ (hT a)
    intro s'
    have h2 : M + gamma * (M / (1 - gamma)) = M / (1 - gamma) := by field_simp; ring
    calc |R s' + gamma * V s'| ≤ |R s'| + |gamma * V s'| := abs_add_le _ _
      _ ≤ M + gamma * (M / (1 - gamma)) := by
          rw [abs_mul, abs_of_nonneg h0]
          exact add_le_add (hM s') (mul_le_mul_of_nonneg_left (hVb s') h0)
      _ = _ := h2
  have hMnn : 0 ≤ M / (1 - gamma) := (abs_nonneg _).trans (hVb s)
  have hrow : ∀ s b, actionValue Ts R gamma V s b ≤ V s + eps * (M / (1 - gamma)) := by
    intro s b
    have h3 := greedy_attains _ hg.1 s (actionValue Ts R gamma V s) (fun a ha => (hg.2.1 s a).1 (lt_of_le_of_ne (hg.1.1 s a) (Ne.symm ha))) b
    have h4 : V s = ∑ a, policy s a * actionValue Ts R gamma V s a := (hV s).trans (dynamics_value Ts policy R gamma V s)
    have h5 : ∑ a, (greedyPolicy Ts R gamma V).1 s a * actionValue Ts R gamma V s a - V s ≤ eps * (M / (1 - gamma)) := by
      conv_lhs => rw [h4]
      rw [← Finset.sum_sub_distrib]
      calc _ ≤ ∑ a, |(greedyPolicy Ts R gamma V).1 s a - policy s a| * (M / (1 - gamma)) := by
            apply Finset.sum_le_sum
            intro a _
            rw [← sub_mul]
            refine (le_abs_self _).trans ?_
            rw [abs_mul]
            exact mul_le_mul_of_nonneg_left (hQ s a) (abs_nonneg _)
        _ = (∑ a, |(greedyPolicy Ts R gamma V).1 s a - policy s a|) * (M / (1 - gamma)) := by rw [Finset.sum_mul]
        _ ≤ eps * (M / (1 - gamma)) := by
            apply mul_le_mul_of_nonneg_right _ hMnn
            refine le_trans ?_ hclose
            exact Finset.single_le_sum (f := fun s => ∑ a, |(greedyPolicy Ts R gamma V).1 s a - policy s a|)
              (fun s _ => Finset.sum_nonneg (fun a _ => abs_nonneg _)) (Finset.mem_univ s)
    linarith
  set d := eps * (M / (1 - gamma)) with hd
  refine value_le _ (collapsed_stochastic Ts policy' hT hp') R gamma h0 h1 V' (fun s => V s + d / (1 - gamma)) (fun s => (hV' s).le) (fun s => ?_) s
  have e : ∑ s', collapsed Ts policy' s s' * (R s' + gamma * (V s' + d / (1 - gamma))) =
      ∑ a, policy' s a * actionValue Ts R gamma V s a + gamma * (d / (1 - gamma)) := by
    rw [← dynamics_value]
    have : gamma * (d / (1 - gamma)) = ∑ s', collapsed Ts policy' s s' * (gamma * (d / (1 - gamma))) := by
      rw [← Finset.sum_mul, (collapsed_stochastic Ts policy' hT hp').2 s, one_mul]
    rw [this, ← Finset.sum_add_distrib]
    exact Finset.sum_congr rfl (fun s' _ => by ring)
  rw [e]
  have h6 : d + gamma * (d / (1 - gamma)) = d / (1 - gamma) := by field_simp; ring
  have h7 := avg_le policy' hp' s _ _ (fun b => hrow s b)
  linarith

/-- **C41 (policy iteration).** With an evaluator which is exact on stochastic matrices, and from a stochastic policy (or none): the returned policy and
matrix are stochastic, the matrix is worth at least as much as the initial policy, and if one more iteration would not change the policy any more then
no policy is worth more than the returned one, except for `max|R| / (1000 (1 - γ)²)`. -/
theorem C41_iteration (hk : 0 < k) (Ts : Fin k → Mat n n) (R : Vec n) (gamma : ℝ) (hT : ∀ a, Stochastic (Ts a)) (h0 : 0 ≤ gamma) (h1 : gamma < 1)
    (eval : Mat n n → Vec n) (heval : ∀ T, Stochastic T → IsValue T R gamma (eval T)) (init : Option (Mat n k)) (hinit : ∀ p, init = some p → Stochastic p)
    (maxIters : Nat) :
    Stochastic (policyIteration Ts R gamma eval init maxIters).1 ∧ Stochastic (policyIteration Ts R gamma eval init maxIters).2 ∧
    (∀ s, eval (Dynamics Ts (init.getD (randomPolicy Ts).1)) s ≤ eval (policyIteration Ts R gamma eval init maxIters).2 s) ∧
    ((policyIteration Ts R gamma eval init (maxIters + 1)).1 = (policyIteration Ts R gamma eval init maxIters).1 →
      ∀ M, (∀ s, |R s| ≤ M) → ∀ V, IsValue (Dynamics Ts (policyIteration Ts R gamma eval init maxIters).1) R gamma V →
        ∀ policy', Stochastic policy' → ∀ V', IsValue (Dynamics Ts policy') R gamma V' → ∀ s, V' s ≤ V s + 1 / 1000 * (M / (1 - gamma)) / (1 - gamma)) := by
  have hc : ∀ p : Mat n k, collapsed Ts p = Dynamics Ts p := by intro p; funext s s'; exact collapsed_eq Ts p s s'
  have key : ∀ (m : Nat) (p : Mat n k), Stochastic p →
      Stochastic (piLoop Ts R gamma eval m p (Dynamics Ts p)).1 ∧ Stochastic (piLoop Ts R gamma eval m p (Dynamics Ts p)).2 ∧
      (∀ s, eval (Dynamics Ts p) s ≤ eval (piLoop Ts R gamma eval m p (Dynamics Ts p)).2 s) ∧
      ((piLoop Ts R gamma eval (m + 1) p (Dynamics Ts p)).1 = (piLoop Ts R gamma eval m p (Dynamics Ts p)).1 →
        ∀ M, (∀ s, |R s| ≤ M) → ∀ V, IsValue (Dynamics Ts (piLoop Ts R gamma eval m p (Dynamics Ts p)).1) R gamma V →
          ∀ policy', Stochastic policy' → ∀ V', IsValue (Dynamics Ts policy') R gamma V' → ∀ s, V' s ≤ V s + 1 / 1000 * (M / (1 - gamma)) / (1 - gamma)) := by
    intro m
    induction m with
    | zero =>
      intro p hp
      have hs : Stochastic (Dynamics Ts p) := hc p ▸ collapsed_stochastic Ts p hT hp
      refine ⟨hp, hs, fun s => le_refl _, fun hsame M hM V hV policy' hp' V' hV' s => ?_⟩
      have hVe : V = eval (Dynamics Ts p) := value_unique _ hs R gamma h0 h1 _ _ hV (heval _ hs)
      have hclose : ∑ s, ∑ a, |(greedyPolicy Ts R gamma V).1 s a - p s a| < 1 / 1000 := by
        rw [hVe]
        by_contra hne
        simp only [piLoop] at hsame
        rw [if_neg hne] at hsame
        apply hne
        rw [hsame]
        simp
      exact C41_near_optimal hk Ts p R gamma M _ hT hp h0 h1 hM V hV hclose.le policy' hp' V' hV' s
    | succ m ih =>
      intro p hp
      have hs : Stochastic (Dynamics Ts p) := hc p ▸ collapsed_stochastic Ts p hT hp
      have hg := (C41_greedy hk Ts R gamma (eval (Dynamics Ts p)) (fun _ _ => 0 : Mat n k)).2
      have hgs : Stochastic (greedyPolicy Ts R gamma (eval (Dynamics Ts p))).2 := collapsed_stochastic Ts _ hT hg.1
      have himp := C41_improvement hk Ts p R gamma hT hp h0 h1 _ _ (heval _ hs) (heval _ hgs)
      by_cases hd : (∑ s, ∑ a, |(greedyPolicy Ts R gamma (eval (Dynamics Ts p))).1 s a - p s a|) < 1 / 1000
      · have e : ∀ m, piLoop Ts R gamma eval (m + 1) p (Dynamics Ts p) = (p, (greedyPolicy Ts R gamma (eval (Dynamics Ts p))).2) := by
          intro m; exact if_pos hd
        rw [e]
        refine ⟨hp, hgs, himp, fun _ M hM V hV policy' hp' V' hV' s => ?_⟩
        have hVe : V = eval (Dynamics Ts p) := value_unique _ hs R gamma h0 h1 _ _ hV (heval _ hs)
        exact C41_near_optimal hk Ts p R gamma M _ hT hp h0 h1 hM V hV (hVe ▸ hd.le) policy' hp' V' hV' s
      · have e : ∀ m, piLoop Ts R gamma eval (m + 1) p (Dynamics Ts p) = piLoop Ts R gamma eval m (greedyPolicy Ts R gamma (eval (Dynamics Ts p))).1
            (Dynamics Ts (greedyPolicy Ts R gamma (eval (Dynamics Ts p))).1) := by
          intro m; rw [← hg.2.2]; exact if_neg hd
        rw [e, e]
        obtain ⟨i1, i2, i3, i4⟩ := ih _ hg.1
        refine ⟨i1, i2, fun s => (himp s).trans ?_, i4⟩
        rw [hg.2.2]
        exact i3 s
  cases init with
  | none =>
    have h2 := C41_random hk Ts
    simp only [policyIteration, h2.2.2, Option.getD_none]
    exact key maxIters _ h2.1
  | some p =>
    simp only [policyIteration, hc, Option.getD_some]
    exact key maxIters p (hinit p rfl)

/-- two states; action 0 stays, action 1 switches; being in state 1 is rewarded -/
def twoStates : Fin 2 → Mat 2 2 := fun a s s' => if a = 0 then (if s = s' then 1 else 0) else (if s = s' then 0 else 1)

/-- the hypotheses are met by a small process, and policy values exist -/
example : (∀ a, Stochastic (twoStates a)) ∧ Stochastic (randomPolicy twoStates).1 ∧ 
    ∃ V, IsValue (Dynamics twoStates (randomPolicy twoStates).1) (fun s => if s = 1 then 1 else 0) (1 / 2) V := by
  have h1 : ∀ a, Stochastic (twoStates a) := by
    intro a
    constructor
    · intro s s'; fin_cases a <;> fin_cases s <;> fin_cases s' <;> simp [twoStates]
    · intro s; fin_cases a <;> fin_cases s <;> simp [twoStates, Fin.sum_univ_two]
  refine ⟨h1, (C41_random (by norm_num) _).1, ?_⟩
  have := (C41_collapsed twoStates (randomPolicy twoStates).1).2 h1 (C41_random (by norm_num) _).1
  rw [show collapsed twoStates (randomPolicy twoStates).1 = Dynamics twoStates (randomPolicy twoStates).1 from funext fun s => funext fun s' => collapsed_eq _ _ s s'] at this
  exact value_exists _ this _ _ (by norm_num) (by norm_num)

/-- an exact evaluator exists, so that `C41_iteration` applies to every process -/
example (R : Vec n) (gamma : ℝ) (h0 : 0 ≤ gamma) (h1 : gamma < 1) : ∃ eval : Mat n n → Vec n, ∀ T, Stochastic T → IsValue T R gamma (eval T) := by
  classical
  refine ⟨fun T => if h : Stochastic T then (value_exists T h R gamma h0 h1).choose else 0, fun T h => ?_⟩
  beta_reduce
  rw [dif_pos h]
  exact (value_exists T h R gamma h0 h1).choose_spec

end Verif.Props
