import Verif.Props.CartPole
/-
C99 Balancing tasks reward balancing.
-/
namespace Verif.CartPole
open Verif.DataSet (Err)
open Spec Real

theorem force_eq (a : ℝ) : force [a] = .ok (newton a) := by
  simp only [force, Task.sentAction, actorLimits, Task.denormalize, List.length_cons, List.length_nil, if_true, List.zip_cons_cons, List.zip_nil_left,
    List.map_cons, List.map_nil, Task.denormalizeOne, Task.clip, newton]
  congr 3
  ring

section
variable {σ : Type} (e : Env σ)

/-- one action after the other -/
noncomputable def performs (rew : Int → Int → σ → ℝ) (b : Bal σ) : List (List ℝ) → Except Err (Bal σ)
  | [] => .ok b
  | a :: as => match perform e rew b a with
    | .error err => .error err
    | .ok b' => performs rew b' as

theorem performs_single (rew : Int → Int → σ → ℝ) (as : List ℝ) : ∀ b : Bal σ, ∃ b', performs e rew b (as.map ([·])) = .ok b' ∧
    b'.N = b.N ∧ b'.t = b.t + as.length ∧ b'.samples = b.samples + as.length ∧ b'.env = (as.map newton).foldl e.act b.env ∧
    b'.cum = b.cum + ((List.range as.length).map (fun k => rew b.N (b.t + (k + 1 : Nat)) (((as.take (k + 1)).map newton).foldl e.act b.env))).sum := by
  induction as with
  | nil => intro b; exact ⟨b, rfl, rfl, by simp, rfl, rfl, by simp⟩
  | cons a as ih =>
    intro b
    obtain ⟨b', h, h1, h2, h3, h4, h5⟩ := ih { N := b.N, t := b.t + 1, env := e.act b.env (newton a), samples := b.samples + 1,
                                               cum := b.cum + rew b.N (b.t + 1) (e.act b.env (newton a)) }
    refine ⟨b', ?_, h1, ?_, ?_, h4, ?_⟩
    · simp only [List.map_cons, performs, perform, force_eq]; exact h
    · rw [h2]; simp; ring
    · rw [h3]; simp; ring
    · rw [h5]
      simp only [List.length_cons, List.range_succ_eq_map, List.map_cons, List.sum_cons, List.map_map]
      rw [add_assoc]
      congr 2
      congr 1
      refine List.map_congr_left fun k _ => ?_
      simp only [Function.comp, List.take_succ_cons, List.map_cons, List.foldl_cons]
      congr 1
      push_cast; ring

end

theorem maxAbs_one (a : ℝ) : maxAbs (a, []) = |a| := rfl
theorem minAbs_one (a : ℝ) : minAbs (a, []) = |a| := rfl

open Classical in
theorem reward_single (p : Par) (N t : Int) (x : Cart) :
    reward (single p) N t x = if Lost x then -2 * ((N : ℝ) - t) else if Centred x then 0 else -1 := by
  simp only [reward, single, maxAbs_one, minAbs_one, abs_abs]
  by_cases hl : Lost x
  · rw [if_pos hl, if_neg]
    · exact if_pos hl
    rintro ⟨h1, h2⟩
    rcases hl with h | h
    · have : (0.05 : ℝ) < 0.7 := by norm_num
      linarith
    · have : (0.05 : ℝ) < 2.4 := by norm_num
      linarith
  · rw [if_neg hl]
    by_cases hc : Centred x
    · rw [if_pos hc]; exact if_pos hc
    · rw [if_neg hc]; exact (if_neg hc).trans (if_neg hl)

/-- the second pole of DoublePoleEnvironment, leaning slightly to the right, pushes its cart to the left -/
theorem push_left (x : Cart) (h1 : 0 < x.th) (h2 : x.th ≤ 0.2) (h3 : 0 ≤ x.om) (h4 : x.om ≤ 1) :
    0 ≤ angAcc par2 0 x ∧ angAcc par2 0 x ≤ 30 ∧ cartAcc par2 0 x < 0 := by
  have hS : 0 < sin x.th := sin_pos_of_pos_of_lt_pi h1 (by linarith [two_le_pi])
  have hS2 : sin x.th ≤ 0.2 := le_trans (sin_le h1.le) h2
  have hC : 0.98 ≤ cos x.th := by
    have := one_sub_sq_div_two_le_cos (x := x.th)
    nlinarith
  have hC1 : cos x.th ≤ 1 := cos_le_one _
  have ho : x.om ^ 2 ≤ 1 := by nlinarith
  have ho0 : 0 ≤ x.om ^ 2 := sq_nonneg _
  have hC2 : cos x.th ^ 2 ≤ 1 := by nlinarith
  have hC3 : 0 ≤ cos x.th ^ 2 := sq_nonneg _
  have e : angAcc par2 0 x = sin x.th * (9.81 * 1.01 - 0.0005 * x.om ^ 2 * cos x.th) / (4 / 3 * 0.05 * 1.01 - 0.0005 * cos x.th ^ 2) := by
    unfold angAcc par2 par0
    simp only
    congr 1
    · ring
    · ring
  have hD : 0.0668 ≤ (4 / 3 * 0.05 * 1.01 - 0.0005 * cos x.th ^ 2 : ℝ) := by norm_num; linarith
  have hD1 : (4 / 3 * 0.05 * 1.01 - 0.0005 * cos x.th ^ 2 : ℝ) ≤ 0.0674 := by norm_num; linarith
  have hoc : 0 ≤ x.om ^ 2 * cos x.th := mul_nonneg ho0 (by linarith)
  have hoc1 : x.om ^ 2 * cos x.th ≤ 1 := by nlinarith
  set D : ℝ := 4 / 3 * 0.05 * 1.01 - 0.0005 * cos x.th ^ 2 with hDd
  have hDp : 0 < D := by linarith
  have hlow : 100 * sin x.th ≤ angAcc par2 0 x := by
    rw [e, le_div_iff₀ hDp]
    nlinarith
  have hup : angAcc par2 0 x ≤ 30 := by
    rw [e, div_le_iff₀ hDp]
    nlinarith
  refine ⟨by linarith, hup, ?_⟩
  unfold cartAcc
  have hM : (0 : ℝ) < par2.mc + par2.mp := by norm_num [par2, par0]
  have hml : par2.mp * par2.l = 0.0005 := by norm_num [par2, par0]
  rw [hml]
  apply div_neg_of_neg_of_pos _ hM
  have h5 : x.om ^ 2 * sin x.th ≤ sin x.th := by nlinarith
  have h6 : 98 * sin x.th ≤ angAcc par2 0 x * cos x.th := by nlinarith
  linarith

end Verif.CartPole

namespace Verif.Props
open Verif.DataSet (Err)
open Verif.CartPole Verif.CartPole.Spec Real

/-- **C99, forces.** An action is one number; it becomes a force of 50 Newton times the number, cut at 50 Newton in both directions. The
actions 0, 1 and 2 of the discrete tasks are 50 Newton to the left, nothing, and 50 Newton to the right. -/
theorem C99_force {σ : Type} (e : Env σ) (rew : Int → Int → σ → ℝ) (b : Bal σ) :
    (∀ a, ∃ b', perform e rew b [a] = .ok b' ∧ b'.env = e.act b.env (newton a)) ∧
    (∀ action, action.length ≠ 1 → perform e rew b action = .error .assertion) ∧
    (∀ k : Nat, k ≤ 2 → ∃ b', performDiscrete e rew b [(k : ℝ)] = .ok b' ∧ b'.env = e.act b.env (50 * ((k : ℝ) - 1))) ∧
    (∀ a, -1 ≤ a → a ≤ 1 → newton a = 50 * a) ∧ ∀ a, |newton a| ≤ 50 := by
  have hn : ∀ a, -1 ≤ a → a ≤ 1 → newton a = 50 * a := by
    intro a h1 h2
    unfold newton
    rw [max_eq_left (by linarith), min_eq_left (by linarith)]
  refine ⟨fun a => ?_, fun action hl => ?_, fun k hk => ?_, hn, fun a => ?_⟩
  · simp only [perform, force_eq]; exact ⟨_, rfl, rfl⟩
  · have : force action = .error .assertion := by
      simp only [force, Task.sentAction, actorLimits, Task.denormalize]
      rw [if_neg (by simpa using fun h => hl h.symm)]
    simp only [perform, this]
  · simp only [performDiscrete, List.map_cons, List.map_nil, perform, force_eq]
    refine ⟨_, rfl, ?_⟩
    have h0 : (0 : ℝ) ≤ k := Nat.cast_nonneg k
    have h2 : (k : ℝ) ≤ 2 := by exact_mod_cast hk
    rw [hn _ (by linarith) (by linarith)]
  · unfold newton
    rw [abs_le]
    constructor
    · exact le_min (le_max_right _ _) (by norm_num)
    · exact min_le_right _ _

/-- **C99, length.** In every environment and with every reward, an episode is over after the maximal number of actions at the latest: actions
never fail, and after n of them the step counter is n. -/
theorem C99_length {σ : Type} (e : Env σ) (rew : Int → Int → σ → ℝ) (b : Bal σ) (x : σ) (as : List ℝ) :
    ∃ b', performs e rew (resetTask b x) (as.map ([·])) = .ok b' ∧ b'.t = as.length ∧ b'.N = b.N ∧ (b.N ≤ as.length → finished e b') := by
  obtain ⟨b', h, h1, h2, -⟩ := performs_single e rew as (resetTask b x)
  have ht : b'.t = as.length := by rw [h2]; simp [resetTask]
  refine ⟨b', h, ht, h1, fun hN => Or.inr (Or.inr ?_)⟩
  rw [ht, h1]
  exact hN

open Classical in
/-- **C99, totals.** With one pole, after any actions during which the pole was not lost, the total reward of BalanceTask is minus the number of
steps after which the pole was not nearly upright in the middle; losing the pole at step T costs another 2 (N - T). So an episode of N steps
without loss gets at least -N, and every episode lost at step T at most -2 (N - T). -/
theorem C99_total (p : Par) (b : Bal Cart) (x : Cart) (as : List ℝ) (a : ℝ) (hs : ∀ k, 1 ≤ k → k ≤ as.length → ¬ Lost (after p x as k)) :
    ∃ b1 b2, performs (single p) (reward (single p)) (resetTask b x) (as.map ([·])) = .ok b1 ∧
      b1.cum = -(((List.range as.length).filter (fun k => decide (¬ Centred (after p x as (k + 1))))).length : ℝ) ∧
      (-(as.length : ℝ) ≤ b1.cum ∧ b1.cum ≤ 0) ∧
      performs (single p) (reward (single p)) (resetTask b x) ((as ++ [a]).map ([·])) = .ok b2 ∧
      (Lost b2.env → finished (single p) b2 ∧ b2.cum = b1.cum - 2 * ((b.N : ℝ) - (as.length + 1)) ∧ b2.cum ≤ -2 * ((b.N : ℝ) - (as.length + 1))) ∧
      (¬ Lost b2.env → (finished (single p) b2 ↔ b.N ≤ as.length + 1)) := by
  obtain ⟨b1, h, hN, ht, -, he, hc⟩ := performs_single (single p) (reward (single p)) as (resetTask b x)
  obtain ⟨b2, h', hN', ht', -, he', hc'⟩ := performs_single (single p) (reward (single p)) (as ++ [a]) (resetTask b x)
  have hcum : b1.cum = -(((List.range as.length).filter (fun k => decide (¬ Centred (after p x as (k + 1))))).length : ℝ) := by
    rw [hc]
    simp only [resetTask, zero_add]
    have : ∀ l : List Nat, (∀ k ∈ l, k < as.length) → (l.map (fun k => reward (single p) b.N ((k + 1 : Nat) : Int) (((as.take (k + 1)).map newton).foldl (single p).act x))).sum =
        -((l.filter (fun k => decide (¬ Centred (after p x as (k + 1))))).length : ℝ) := by
      intro l
      induction l with
      | nil => intro _; simp
      | cons k l ih =>
        intro hl
        rw [List.map_cons, List.sum_cons, ih (fun j hj => hl j (by simp [hj]))]
        have e1 : ((as.take (k + 1)).map newton).foldl (single p).act x = after p x as (k + 1) := rfl
        rw [e1, reward_single, if_neg (hs (k + 1) (by omega) (by have := hl k (by simp); omega))]
        by_cases hcen : Centred (after p x as (k + 1))
        · rw [if_pos hcen, List.filter_cons_of_neg (by simpa using hcen), zero_add]
        · rw [if_neg hcen, List.filter_cons_of_pos (by simpa using hcen)]
          simp only [List.length_cons]; push_cast; ring
    exact this _ (fun k hk => List.mem_range.1 hk)
  have hb : -(as.length : ℝ) ≤ b1.cum ∧ b1.cum ≤ 0 := by
    rw [hcum]
    have h1 := List.length_filter_le (fun k => decide (¬ Centred (after p x as (k + 1)))) (List.range as.length)
    rw [List.length_range] at h1
    have h2 : (((List.range as.length).filter (fun k => decide (¬ Centred (after p x as (k + 1))))).length : ℝ) ≤ as.length := by exact_mod_cast h1
    exact ⟨by linarith, by simp⟩
  have hsum : b2.cum = b1.cum + reward (single p) b.N ((as.length : Int) + 1) b2.env := by
    rw [hc', hc, he']
    simp only [List.length_append, List.length_cons, List.length_nil, zero_add, List.range_succ, List.map_append, List.sum_append, List.map_cons, List.map_nil,
      List.sum_cons, List.sum_nil, add_zero]
    rw [add_assoc]
    congr 1
    congr 1
    · congr 1
      refine List.map_congr_left fun k hk => ?_
      rw [List.take_append_of_le_length (by have := List.mem_range.1 hk; omega)]
    · rw [List.take_of_length_le (by simp), List.map_append]
      simp [resetTask]
  refine ⟨b1, b2, h, hcum, hb, h', fun hl => ⟨?_, ?_, ?_⟩, fun hl => ?_⟩
  · rcases hl with hl | hl
    · exact Or.inl hl
    · exact Or.inr (Or.inl hl)
  · rw [hsum, reward_single, if_pos hl]; push_cast; ring
  · rw [hsum, reward_single, if_pos hl]; push_cast; linarith [hb.2]
  · have ht2 : b2.t = (as.length : Int) + 1 := by rw [ht']; simp [resetTask]
    constructor
    · rintro (hf | hf | hf)
      · exact absurd (Or.inl hf) hl
      · exact absurd (Or.inr hf) hl
      · rw [ht2, hN'] at hf; exact hf
    · intro hf
      refine Or.inr (Or.inr ?_)
      rw [ht2, hN']; exact hf

open Classical in
/-- **C99, variants.** With one pole the other tasks reward in the same spirit: JustBalanceTask and DiscreteBalanceTask ask only for an upright pole,
EasyBalanceTask punishes by the distance from the middle, the discrete tasks punish a loss by the number of steps left (once), and
DiscreteNoHelpTask does nothing else. -/
theorem C99_variants (p : Par) (N t : Int) (x : Cart) :
    rewardJust (single p) N t x = (if |x.th| < 0.05 then 0 else if Lost x then -2 * ((N : ℝ) - t) else -1) ∧
    rewardEasy (single p) N t x = (if Lost x then -2 * ((N : ℝ) - t) else if Centred x then 0 else -|x.s| / 2) ∧
    rewardDiscrete (single p) N t x = (if |x.th| < 0.05 then 1 else if Lost x then -((N : ℝ) - t) else 0) ∧
    rewardNoHelp (single p) N t x = (if Lost x then -((N : ℝ) - t) else 0) := by
  simp only [rewardJust, rewardEasy, rewardDiscrete, rewardNoHelp, single, maxAbs_one, minAbs_one, abs_abs, neg_mul, one_mul]
  have hL : ∀ a b : ℝ, (if |x.th| > 0.7 ∨ |x.s| > 2.4 then a else b) = if Lost x then a else b := by
    intro a b
    by_cases hl : Lost x
    · rw [if_pos hl]; exact if_pos hl
    · rw [if_neg hl]; exact if_neg hl
  refine ⟨by rw [← hL], ?_, by rw [← hL], hL _ _⟩
  by_cases hl : Lost x
  · rw [if_pos hl, if_neg]
    · exact if_pos hl
    rintro ⟨h1, h2⟩
    rcases hl with h | h
    · have : (0.05 : ℝ) < 0.7 := by norm_num
      linarith
    · have : (0.05 : ℝ) < 2.4 := by norm_num
      linarith
  · rw [if_neg hl]
    by_cases hc : Centred x
    · rw [if_pos hc]; exact if_pos hc
    · rw [if_neg hc]; exact (if_neg hc).trans (if_neg hl)

/-- **C99, mirror images.** Mirrored start and opposite actions give the same total reward and the same end. -/
theorem C99_mirror (p : Par) (b : Bal Cart) (x : Cart) (as : List ℝ) :
    ∃ b1 b2, performs (single p) (reward (single p)) (resetTask b x) (as.map ([·])) = .ok b1 ∧
      performs (single p) (reward (single p)) (resetTask b (mirror x)) ((as.map (-·)).map ([·])) = .ok b2 ∧
      b2.env = mirror b1.env ∧ b2.cum = b1.cum ∧ (finished (single p) b2 ↔ finished (single p) b1) := by
  obtain ⟨b1, h, hN, ht, -, he, hc⟩ := performs_single (single p) (reward (single p)) as (resetTask b x)
  obtain ⟨b2, h', hN', ht', -, he', hc'⟩ := performs_single (single p) (reward (single p)) (as.map (-·)) (resetTask b (mirror x))
  have hnew : ∀ a, newton (-a) = -newton a := by
    intro a
    unfold newton
    rcases le_total (50 * a) (-50) with h1 | h1 <;> rcases le_total (50 * a) 50 with h2 | h2
    · rw [max_eq_right h1, max_eq_left (by linarith), min_eq_right (by linarith), min_eq_left (by linarith)]; ring
    · linarith
    · rw [max_eq_left h1, max_eq_left (by linarith), min_eq_left (by linarith), min_eq_left (by linarith)]; ring
    · rw [max_eq_left h1, max_eq_right (by linarith), min_eq_left (by linarith), min_eq_right (by linarith)]
  have hfold : ∀ l : List ℝ, ((l.map (-·)).map newton).foldl (single p).act (mirror x) = mirror ((l.map newton).foldl (single p).act x) := by
    intro l
    have : (l.map (-·)).map newton = (l.map newton).map (-·) := by
      rw [List.map_map, List.map_map]
      refine List.map_congr_left fun a _ => hnew a
    rw [this]
    exact C98_mirror p x (l.map newton)
  have hrew : ∀ N t (y : Cart), reward (single p) N t (mirror y) = reward (single p) N t y := by
    intro N t y
    classical
    have hl : Lost (mirror y) ↔ Lost y := by simp [Lost, mirror]
    have hcn : Centred (mirror y) ↔ Centred y := by simp [Centred, mirror]
    rw [reward_single, reward_single]
    simp only [hl, hcn]
  have henv : b2.env = mirror b1.env := by
    rw [he', he]
    exact hfold as
  refine ⟨b1, b2, h, h', henv, ?_, ?_⟩
  · rw [hc', hc]
    simp only [List.length_map, resetTask]
    congr 1
    congr 1
    refine List.map_congr_left fun k _ => ?_
    rw [← List.map_take, hfold, hrew]
  · unfold finished
    rw [hN, hN', ht, ht', henv, List.length_map]
    simp only [single, maxAbs_one, mirror, abs_neg, resetTask]

/-- **C99, observations.** The observation of the task with one pole is the state with the angle divided by 3 and the rest by π. -/
theorem C99_observe (p : Par) (x : Cart) : observe (single p) x = .ok [x.th / 3, x.om / π, x.s / π, x.v / π] := by
  have hpi : (0 : ℝ) < π := pi_pos
  have e1 : ∀ y : ℝ, (y + π) / (π + π) * 2 - 1 = y / π := by intro y; rw [show π + π = 2 * π by ring]; field_simp; ring
  have e2 : ∀ y : ℝ, (y + 3) / (3 + 3) * 2 - 1 = y / 3 := by intro y; ring
  simp [observe, Task.observation, sensorLimits, single, Task.normalize, List.range_succ, Task.normalizeAll, Task.normalizeOne, e1, e2]

/-- **C99, radial basis functions.** The observation of DiscreteBalanceTaskRBF has ten entries between 0 and 1, the first 1, and two different
angles or angular velocities give different observations. -/
theorem C99_rbf (th om th' om' : ℝ) : (rbf th om).length = 10 ∧ (rbf th om).headD 0 = 1 ∧ (∀ y ∈ rbf th om, 0 < y ∧ y ≤ 1) ∧
    (rbf th om = rbf th' om' ↔ th = th' ∧ om = om') := by
  have hsq : ∀ c : ℝ × ℝ, ∀ a b : ℝ, (sqrt ((c.1 - a) ^ 2 + (c.2 - b) ^ 2)) ^ 2 = (c.1 - a) ^ 2 + (c.2 - b) ^ 2 :=
    fun c a b => sq_sqrt (by positivity)
  refine ⟨by simp [rbf, centers], rfl, ?_, ?_, ?_⟩
  · intro y hy
    simp only [rbf, List.mem_cons, List.mem_map] at hy
    rcases hy with rfl | ⟨c, _, rfl⟩
    · exact ⟨one_pos, le_rfl⟩
    · refine ⟨exp_pos _, exp_le_one_iff.2 ?_⟩
      have : 0 ≤ (sqrt ((c.1 - th) ^ 2 + (c.2 - om) ^ 2)) ^ 2 := by positivity
      linarith
  · intro h
    simp only [rbf, List.cons.injEq, true_and] at h
    have hm : ∀ c ∈ centers, (c.1 - th) ^ 2 + (c.2 - om) ^ 2 = (c.1 - th') ^ 2 + (c.2 - om') ^ 2 := by
      intro c hc
      have := List.map_inj_left.1 h c hc
      have := exp_injective this
      rw [hsq, hsq] at this
      linarith
    have hpi : (0 : ℝ) < π := pi_pos
    have m1 := hm (0, 0) (by simp [centers])
    have m2 := hm (0, 1) (by simp [centers])
    have m3 := hm (π / 4, 0) (by simp [centers])
    simp only at m1 m2 m3
    have ho : om = om' := by linarith
    have ht : π * (th - th') = 0 := by linarith
    rcases mul_eq_zero.1 ht with h0 | h0
    · exact absurd h0 hpi.ne'
    · exact ⟨by linarith, ho⟩
  · rintro ⟨rfl, rfl⟩; rfl

/-- **C99, negation (two poles, one fallen).** In tasks with two poles a fallen pole costs nothing as long as the other one is upright and the
cart in the middle: the episode ends with reward 0 instead of -2 (N - t), and in DiscreteBalanceTask even with reward 1. (`min(angles)` asks
for one upright pole only.) -/
theorem C99_negation_min (d : Double) (N t : Int) (b : Bal Double) (hb : b.env = d) (h1 : |d.sensors 0| < 0.05) (h2 : 0.7 < |d.sensors 2|) (h3 : |d.sensors 4| < 0.05) :
    finished double b ∧ reward double N t d = 0 ∧ rewardJust double N t d = 0 ∧ rewardEasy double N t d = 0 ∧ rewardDiscrete double N t d = 1 := by
  have hmin : minAbs (double.angles d) < 0.05 := lt_of_le_of_lt (min_le_left _ _) h1
  have hmax : 0.7 < maxAbs (double.angles d) := lt_of_lt_of_le h2 (le_max_right _ _)
  have hc : |(|double.cart d|)| < 0.05 := by rw [abs_abs]; exact h3
  refine ⟨Or.inl (by rw [hb]; exact hmax), ?_, ?_, ?_, ?_⟩
  · rw [reward, if_pos ⟨hmin, hc⟩]
  · rw [rewardJust, if_pos hmin]
  · rw [rewardEasy, if_pos ⟨hmin, hc⟩]
  · rw [rewardDiscrete, if_pos hmin]

example : ∃ d : Double, |d.sensors 0| < 0.05 ∧ 0.7 < |d.sensors 2| ∧ |d.sensors 4| < 0.05 :=
  ⟨⟨reset none, reset none, fun i => if i.1 = 2 then 1 else 0⟩, by norm_num, by norm_num, by norm_num⟩

/-- **C99, negation (one pole without velocities).** With NonMarkovPoleEnvironment the position of the cart plays no role: wherever the cart is,
end and reward are the same; instead the episode ends when the pole moves too fast. (`getCartPosition` returns the second of the four sensors,
the angular velocity.) -/
theorem C99_negation_nonmarkov (p : Par) (N t : Int) (x : Cart) (d : ℝ) (b : Bal Cart) :
    reward (nonMarkovPole p) N t (shift d x) = reward (nonMarkovPole p) N t x ∧
    (finished (nonMarkovPole p) { b with env := shift d x } ↔ finished (nonMarkovPole p) { b with env := x }) ∧
    (2.4 < |x.om| → finished (nonMarkovPole p) { b with env := x }) :=
  ⟨rfl, Iff.rfl, fun h => Or.inr (Or.inl h)⟩

/-- **C99, negation (two poles without velocities).** With NonMarkovDoublePoleEnvironment the episode does not end when the cart leaves the track,
nor when the second pole falls (up to 2.4); it ends when the first pole moves at more than 0.7. -/
theorem C99_negation_nonmarkov_double (b : Bal Double) (h0 : |b.env.sensors 0| ≤ 0.7) (h1 : |b.env.sensors 1| ≤ 0.7) (h2 : |b.env.sensors 2| ≤ 2.4) (ht : b.t < b.N) :
    ¬ finished nonMarkovDouble b ∧ ∀ b' : Bal Double, 0.7 < |b'.env.sensors 1| → finished nonMarkovDouble b' := by
  constructor
  · rintro (h | h | h)
    · exact absurd h (not_lt.2 (max_le h0 h1))
    · exact absurd h (not_lt.2 h2)
    · omega
  · intro b' h
    exact Or.inl (lt_of_lt_of_le h (le_max_right _ _))

/-- **C99, negation (two poles, delayed rewards).** With DoublePoleEnvironment the reward added for an action, and whether the episode is over
after it, do not depend on the action: `performAction` does not update `sensors`, which both use. -/
theorem C99_negation_delayed (b : Bal Double) (a a' : ℝ) : ∃ b1 b2, perform double (reward double) b [a] = .ok b1 ∧
    perform double (reward double) b [a'] = .ok b2 ∧ b1.cum = b2.cum ∧ (finished double b1 ↔ finished double b2) := by
  simp only [perform, force_eq]
  exact ⟨_, _, rfl, rfl, rfl, Iff.rfl⟩

/-- **C99, negation (two poles, observation).** BalanceTask cannot observe DoublePoleEnvironment: `getObservation` always raises, because the
environment does not define `outdim` (it is spelled `ooutdim`), so that there is one pair of limits for six sensors. -/
theorem C99_negation_outdim (d : Double) : observe double d = .error .assertion := by
  simp [observe, Task.observation, sensorLimits, double, Task.normalize]

/-- **C99, negation (two carts).** The two poles of DoublePoleEnvironment do not stand on one cart: with the first pole upright and the second
leaning slightly to the right, one step without force leaves the first cart where it is and moves the second one to the left. (Both start in
the middle, as after a reset; the second cart's position is the one reported.) -/
theorem C99_negation_carts : let d := doubleReset (some (0, 0)) (some (0.1, 0))
    d.p1.s = d.p2.s ∧ d.p1.v = d.p2.v ∧ (doubleAct d 0).p1.s = 0 ∧ (doubleAct d 0).p2.s < 0 := by
  refine ⟨rfl, rfl, ?_, ?_⟩
  · have := C98_rest par0 0 0 (by simp) 1
    simp only [run, List.replicate, List.foldl_cons, List.foldl_nil] at this
    simp only [doubleAct, doubleReset, reset, this]
  · simp only [doubleAct, doubleReset, reset]
    have hdt : par2.dt = 0.02 := rfl
    set x : Cart := { th := 0.1, om := 0, s := 0, v := 0 } with hx
    obtain ⟨a1, b1, c1⟩ := push_left x (by norm_num [hx]) (by norm_num [hx]) le_rfl (by norm_num [hx])
    set y : Cart := axpy x (par2.dt / 2) (derivs par2 0 x) with hy
    have hyth : y.th = 0.1 := by simp [hy, axpy, derivs, hx]
    have hyom : y.om = 0.01 * angAcc par2 0 x := by simp only [hy, axpy, derivs, hdt]; norm_num [hx]
    have hyv : y.v = 0.01 * cartAcc par2 0 x := by simp only [hy, axpy, derivs, hdt]; norm_num [hx]
    obtain ⟨a2, b2, c2⟩ := push_left y (by rw [hyth]; norm_num) (by rw [hyth]; norm_num) (by rw [hyom]; positivity) (by rw [hyom]; linarith)
    set z : Cart := axpy x (par2.dt / 2) (derivs par2 0 y) with hz
    have hzth : z.th = 0.1 + 0.01 * y.om := by simp only [hz, axpy, derivs, hdt]; norm_num [hx]
    have hzom : z.om = 0.01 * angAcc par2 0 y := by simp only [hz, axpy, derivs, hdt]; norm_num [hx]
    have hzv : z.v = 0.01 * cartAcc par2 0 y := by simp only [hz, axpy, derivs, hdt]; norm_num [hx]
    have hyo : 0 ≤ y.om ∧ y.om ≤ 1 := by rw [hyom]; constructor <;> linarith
    obtain ⟨a3, b3, c3⟩ := push_left z (by rw [hzth]; linarith [hyo.1]) (by rw [hzth]; linarith [hyo.2]) (by rw [hzom]; positivity) (by rw [hzom]; linarith)
    have hs : (step par2 0 x).s = 0.02 / 6 * (2 * y.v + 2 * z.v + 0.02 * cartAcc par2 0 z) := by
      have h1 : (step par2 0 x).s = x.s + par2.dt / 6 * (x.v + 2 * y.v + 2 * z.v + (x.v + par2.dt * cartAcc par2 0 z)) := rfl
      rw [h1, hdt]
      simp only [hx]
      ring
    rw [hs, hyv, hzv]
    linarith

/-- **C99, negation (linearized task).** LinearizedBalanceTask rewards deviation: its reward is never negative, and it is 0, the least, exactly
when the pole and the cart are at rest in the middle and no force is used. -/
theorem C99_negation_cost (x : Fin 4 → ℝ) (F : ℝ) : 0 ≤ rewardLin x F ∧ (rewardLin x F = 0 ↔ x = 0 ∧ F = 0) := by
  have h0 := sq_nonneg (x 0)
  have h1 := sq_nonneg (x 1)
  have h2 := sq_nonneg (x 2)
  have h3 := sq_nonneg (x 3)
  have h4 := sq_nonneg F
  unfold rewardLin
  refine ⟨by positivity, fun h => ?_, ?_⟩
  · have z0 : x 0 = 0 := by rw [← sq_eq_zero_iff]; nlinarith
    have z1 : x 1 = 0 := by rw [← sq_eq_zero_iff]; nlinarith
    have z2 : x 2 = 0 := by rw [← sq_eq_zero_iff]; nlinarith
    have z3 : x 3 = 0 := by rw [← sq_eq_zero_iff]; nlinarith
    have z4 : F = 0 := by rw [← sq_eq_zero_iff]; nlinarith
    refine ⟨?_, z4⟩
    funext i
    fin_cases i
    exacts [z0, z1, z2, z3]
  · rintro ⟨rfl, rfl⟩; simp

end Verif.Props
