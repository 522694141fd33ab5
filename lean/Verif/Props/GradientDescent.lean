import Verif.Model.GradientDescent
import Mathlib.Algebra.BigOperators.Ring.Finset
import Mathlib.Algebra.BigOperators.Fin
import Mathlib.Algebra.Order.BigOperators.Group.Finset
import Mathlib.Data.Sign.Basic
import Mathlib.Tactic.Linarith
import Mathlib.Tactic.Ring
import Mathlib.Tactic.NormNum
/-
C45: rprop step sizes; C46: gradient descent with momentum.
-/
namespace Verif.Props
open Verif.Descent

variable {K : Type} [Field K] [LinearOrder K] [IsStrictOrderedRing K] {n : Nat}

/-- **C45.** Whatever gradients are passed, for an initial step size inside `[deltamin, deltamax]` with `0 < deltamin`, every call moves each parameter strictly in
the direction of its gradient by a step between `deltamin` and `deltamax`, leaves it when the gradient is zero, and the step sizes stay in that range. -/
theorem C45_rprop (c : Settings K) (hd : c.deltamin ≤ c.deltanull ∧ c.deltanull ≤ c.deltamax) (h0 : 0 < c.deltamin) (start : Fin n → K) (gs : List (Fin n → K))
    (g : Fin n → K) (i : Fin n) :
    let s := gs.foldl (Rprop.call c) (Rprop.init c start)
    let s' := s.call c g
    (c.deltamin ≤ s.theta i ∧ s.theta i ≤ c.deltamax) ∧ (0 < g i → s.values i + c.deltamin ≤ s'.values i ∧ s'.values i ≤ s.values i + c.deltamax) ∧
    (g i < 0 → s.values i - c.deltamax ≤ s'.values i ∧ s'.values i ≤ s.values i - c.deltamin) ∧ (g i = 0 → s'.values i = s.values i) ∧
    |s'.values i - s.values i| ≤ c.deltamax := by
  have key : ∀ gs : List (Fin n → K), ∀ s : Rprop K n, (c.deltamin ≤ s.theta i ∧ s.theta i ≤ c.deltamax) →
      c.deltamin ≤ (gs.foldl (Rprop.call c) s).theta i ∧ (gs.foldl (Rprop.call c) s).theta i ≤ c.deltamax := by
    intro gs
    induction gs with
    | nil => intro s h; exact h
    | cons a gs ih =>
      intro s h
      rw [List.foldl_cons]
      exact ih _ ⟨le_min (le_max_right _ _) (hd.1.trans hd.2), min_le_right _ _⟩
  intro s s'
  have hb := key gs (Rprop.init c start) (by simpa [Rprop.init] using hd)
  have hv : s'.values i = s.values i + (SignType.sign (g i) : K) * s.theta i := rfl
  change c.deltamin ≤ s.theta i ∧ s.theta i ≤ c.deltamax at hb
  rcases lt_trichotomy (g i) 0 with h | h | h
  · rw [sign_neg h] at hv
    simp only [SignType.coe_neg_one] at hv
    refine ⟨hb, fun h' => absurd h' (by linarith), fun _ => ⟨by linarith, by linarith⟩, fun h' => absurd h' (by linarith), ?_⟩
    rw [hv, abs_le]
    constructor <;> linarith
  · rw [h, sign_zero] at hv
    simp only [SignType.coe_zero, zero_mul, add_zero] at hv
    refine ⟨hb, fun h' => absurd h' (by linarith), fun h' => absurd h' (by linarith), fun _ => hv, ?_⟩
    rw [hv, sub_self, abs_zero]
    linarith
  · rw [sign_pos h] at hv
    simp only [SignType.coe_one, one_mul] at hv
    refine ⟨hb, fun _ => ⟨by linarith, by linarith⟩, fun h' => absurd h' (by linarith), fun h' => absurd h' (by linarith), ?_⟩
    rw [hv, abs_le]
    constructor <;> linarith

/-- **C45 (adaptation).** After a call with gradient `g` the step size has grown by `etaplus` where the gradient kept its sign, shrunk by `etaminus` where it
changed it, both up to the bounds, and is unchanged otherwise; after a change of sign the next call neither grows nor shrinks it. -/
theorem C45_adaptation (c : Settings K) (s : Rprop K n) (g h : Fin n → K) (i : Fin n) (hb : c.deltamin ≤ s.theta i ∧ s.theta i ≤ c.deltamax) :
    (0 < s.lastgradient i * g i → (s.call c g).theta i = min (max (s.theta i * c.etaplus) c.deltamin) c.deltamax) ∧
    (s.lastgradient i * g i < 0 → (s.call c g).theta i = min (max (s.theta i * c.etaminus) c.deltamin) c.deltamax ∧
      ((s.call c g).call c h).theta i = (s.call c g).theta i) ∧
    (s.lastgradient i * g i = 0 → (s.call c g).theta i = s.theta i) := by
  refine ⟨fun hp => ?_, fun hn => ⟨?_, ?_⟩, fun hz => ?_⟩
  · simp only [Rprop.call, gt_iff_lt, hp, if_true]
    rw [if_neg (not_lt.2 hp.le)]
  · simp only [Rprop.call, gt_iff_lt, hn, if_true]
    rw [if_neg (not_lt.2 hn.le)]
  · have h1 : (s.call c g).lastgradient i = 0 := by simp only [Rprop.call, hn, if_true]
    have h2 : c.deltamin ≤ (s.call c g).theta i ∧ (s.call c g).theta i ≤ c.deltamax :=
      ⟨le_min (le_max_right _ _) (hb.1.trans hb.2), min_le_right _ _⟩
    generalize s.call c g = t at h1 h2
    simp only [Rprop.call, h1, zero_mul, gt_iff_lt, lt_irrefl, if_false]
    rw [max_eq_left h2.1, min_eq_left h2.2]
  · simp only [Rprop.call, hz, gt_iff_lt, lt_irrefl, if_false]
    rw [max_eq_left hb.1, min_eq_left hb.2]

/-- the default settings meet the hypotheses -/
example : ((0.01 : ℚ) ≤ 0.1 ∧ (0.1 : ℚ) ≤ 5) ∧ (0 : ℚ) < 0.01 := by norm_num

omit [LinearOrder K] [IsStrictOrderedRing K] in
theorem momentum_state (c : Settings K) (start : Fin n → K) (alpha : K) (gs : List (Fin n → K)) :
    let s := gs.foldl (Momentum.call c) (Momentum.init start alpha)
    s.alpha = alpha * c.alphadecay ^ gs.length ∧
    (∀ i, s.momentumvector i = ∑ k : Fin gs.length, alpha * c.alphadecay ^ (k : Nat) * c.momentum ^ (gs.length - 1 - k) * gs[k] i) ∧
    ∀ i, s.values i = start i + ∑ k : Fin gs.length, alpha * c.alphadecay ^ (k : Nat) * (∑ j ∈ Finset.range (gs.length - k), c.momentum ^ j) * gs[k] i := by
  induction gs using List.reverseRecOn with
  | nil => simp [Momentum.init]
  | append_singleton gs g ih =>
    simp only at ih ⊢
    rw [List.foldl_append, List.foldl_cons, List.foldl_nil]
    obtain ⟨h1, h2, h3⟩ := ih
    have hm : ∀ i, (Momentum.call c (gs.foldl (Momentum.call c) (Momentum.init start alpha)) g).momentumvector i =
        ∑ k : Fin (gs ++ [g]).length, alpha * c.alphadecay ^ (k : Nat) * c.momentum ^ ((gs ++ [g]).length - 1 - k) * (gs ++ [g])[k] i := by
      intro i
      simp only [Momentum.call, h1, h2]
      rw [Finset.sum_mul, Fin.sum_congr' (a := gs.length + 1)
        (fun k : Fin (gs ++ [g]).length => alpha * c.alphadecay ^ (k : Nat) * c.momentum ^ ((gs ++ [g]).length - 1 - k) * (gs ++ [g])[k] i) (by simp) |>.symm,
        Fin.sum_univ_castSucc]
      congr 1
      · apply Finset.sum_congr rfl
        intro k _
        have hk : (k : Nat) < gs.length := k.2
        have e1 : (gs ++ [g]).length - 1 - (k : Nat) = (gs.length - 1 - k) + 1 := by simp; omega
        simp only [Fin.val_cast, Fin.val_castSucc, Fin.getElem_fin]
        rw [e1, List.getElem_append_left hk, pow_succ]
        ring
      · simp [Fin.getElem_fin]
    refine ⟨?_, hm, ?_⟩
    · simp only [Momentum.call, h1, List.length_append, List.length_singleton, pow_succ]; ring
    · intro i
      have e : (Momentum.call c (gs.foldl (Momentum.call c) (Momentum.init start alpha)) g).values i =
          (gs.foldl (Momentum.call c) (Momentum.init start alpha)).values i +
            (Momentum.call c (gs.foldl (Momentum.call c) (Momentum.init start alpha)) g).momentumvector i := rfl
      rw [e, hm, h3, add_assoc]
      congr 1
      rw [Fin.sum_congr' (a := gs.length + 1)
        (fun k : Fin (gs ++ [g]).length => alpha * c.alphadecay ^ (k : Nat) * c.momentum ^ ((gs ++ [g]).length - 1 - k) * (gs ++ [g])[k] i) (by simp) |>.symm,
        Fin.sum_congr' (a := gs.length + 1)
        (fun k : Fin (gs ++ [g]).length => alpha * c.alphadecay ^ (k : Nat) * (∑ j ∈ Finset.range ((gs ++ [g]).length - k), c.momentum ^ j) * (gs ++ [g])[k] i)
          (by simp) |>.symm, Fin.sum_univ_castSucc, Fin.sum_univ_castSucc, ← add_assoc, ← Finset.sum_add_distrib]
      congr 1
      · apply Finset.sum_congr rfl
        intro k _
        have hk : (k : Nat) < gs.length := k.2
        have e1 : (gs ++ [g]).length - 1 - (k : Nat) = gs.length - k := by simp
        have e2 : (gs ++ [g]).length - (k : Nat) = (gs.length - k) + 1 := by simp; omega
        simp only [Fin.val_cast, Fin.val_castSucc, Fin.getElem_fin]
        rw [e1, e2, List.getElem_append_left hk, Finset.sum_range_succ]
        ring
      · simp [Fin.getElem_fin]

omit [LinearOrder K] [IsStrictOrderedRing K] in
/-- **C46.** After calls with the gradients `g₀, …, g_{m-1}` the parameters are the start plus, for each `k`, `g_k` times the learning rate then in force
(`α·decay^k`) times `1 + μ + … + μ^(m-1-k)`. -/
theorem C46_closed_form (c : Settings K) (start : Fin n → K) (alpha : K) (gs : List (Fin n → K)) (i : Fin n) :
    (gs.foldl (Momentum.call c) (Momentum.init start alpha)).values i =
      start i + ∑ k : Fin gs.length, alpha * c.alphadecay ^ (k : Nat) * (∑ j ∈ Finset.range (gs.length - k), c.momentum ^ j) * gs[k] i :=
  (momentum_state c start alpha gs).2.2 i

omit [LinearOrder K] [IsStrictOrderedRing K] in
/-- **C46 (plain descent).** Without momentum and decay: the start plus `α` times the sum of the gradients. -/
theorem C46_plain (c : Settings K) (hm : c.momentum = 0) (hd : c.alphadecay = 1) (start : Fin n → K) (alpha : K) (gs : List (Fin n → K)) (i : Fin n) :
    (gs.foldl (Momentum.call c) (Momentum.init start alpha)).values i = start i + alpha * (gs.map (fun g => g i)).sum := by
  rw [C46_closed_form, hd, hm]
  congr 1
  have e : ∀ k : Fin gs.length, (∑ j ∈ Finset.range (gs.length - k), (0 : K) ^ j) = 1 := by
    intro k
    obtain ⟨m, hm⟩ : ∃ m, gs.length - (k : Nat) = m + 1 := ⟨gs.length - k - 1, by have := k.2; omega⟩
    rw [hm, Finset.sum_range_succ']
    simp
  simp only [one_pow, mul_one, e]
  rw [← Finset.mul_sum]
  congr 1
  rw [← List.sum_ofFn]
  congr 1
  apply List.ext_getElem (by simp)
  intro j h1 h2
  simp

/-- the closed form on two gradients -/
example : ([fun _ => 1, fun _ => 1].foldl (Momentum.call (⟨1, 1 / 2, 5, 1, 1, 2, 1⟩ : Settings ℚ)) (Momentum.init (fun _ : Fin 1 => 0) (1 / 10))).values 0 =
    1 / 10 * (1 + 1 / 2) + 1 / 10 := by decide +kernel

end Verif.Props
