import Verif.Model.MultiBench
import Verif.Spec.MultiBench
import Mathlib.Analysis.InnerProductSpace.Projection.Minimal
import Mathlib.Analysis.Convex.Segment
import Mathlib.Analysis.Convex.Topology
import Mathlib.Analysis.Normed.Affine.AddTorsor
import Mathlib.Analysis.Normed.Affine.Convex
import Mathlib.Tactic.Linarith
import Mathlib.Tactic.NormNum
import Mathlib.Tactic.FieldSimp
import Mathlib.Tactic.FinCases
/-
C123, C124: multi-objective, unbounded and atom cluster functions.
-/
namespace Verif.MultiBench
open Verif.MultiBench.Spec Finset

section segment
variable {E : Type} [NormedAddCommGroup E] [InnerProductSpace ℝ E]

/-- A point outside a segment can be moved closer to both ends. -/
theorem closer (a b x : E) (hx : x ∉ segment ℝ a b) : ∃ y, dist y a < dist x a ∧ dist y b < dist x b := by
  have hne : (segment ℝ a b).Nonempty := ⟨a, left_mem_segment ℝ a b⟩
  have hconv := convex_segment (𝕜 := ℝ) a b
  have hcomp : IsComplete (segment ℝ a b) := by
    rw [← convexHull_pair]
    exact (Set.Finite.isCompact_convexHull (𝕜 := ℝ) (Set.toFinite {a, b})).isComplete
  obtain ⟨y, hy, hmin⟩ := exists_norm_eq_iInf_of_complete_convex hne hcomp hconv x
  have hin := (norm_eq_iInf_iff_real_inner_le_zero hconv hy).1 hmin
  have hxy : x ≠ y := fun h => hx (h ▸ hy)
  have key : ∀ e ∈ segment ℝ a b, dist y e < dist x e := by
    intro e he
    have h1 := hin e he
    rw [dist_eq_norm, dist_eq_norm]
    have h2 : ‖x - e‖ ^ 2 = ‖x - y‖ ^ 2 + 2 * inner ℝ (x - y) (y - e) + ‖y - e‖ ^ 2 := by
      rw [← norm_add_sq_real]; congr 2; abel
    have h3 : inner ℝ (x - y) (y - e) = - inner ℝ (x - y) (e - y) := by rw [← inner_neg_right]; congr 1; abel
    have h4 : 0 < ‖x - y‖ := norm_pos_iff.2 (sub_ne_zero.2 hxy)
    refine lt_of_pow_lt_pow_left₀ 2 (norm_nonneg _) ?_
    nlinarith [sq_nonneg ‖x - y‖, mul_pos h4 h4]
  exact ⟨y, key a (left_mem_segment ℝ a b), key b (right_mem_segment ℝ a b)⟩

/-- Pareto optimal for the distances from two points is exactly the segment between them. -/
theorem optimal_segment (a b : E) (f : E → Fin 2 → ℝ)
    (h0 : ∀ x y, f x 0 ≤ f y 0 ↔ dist y a ≤ dist x a) (h1 : ∀ x y, f x 1 ≤ f y 1 ↔ dist y b ≤ dist x b) (x : E) :
    Optimal (fun _ => True) f x ↔ x ∈ segment ℝ a b := by
  have l0 : ∀ x y, f x 0 < f y 0 ↔ dist y a < dist x a := fun x y => by rw [← not_le, ← not_le, h0]
  have l1 : ∀ x y, f x 1 < f y 1 ↔ dist y b < dist x b := fun x y => by rw [← not_le, ← not_le, h1]
  constructor
  · rintro ⟨-, hopt⟩
    by_contra hx
    obtain ⟨y, hy1, hy2⟩ := closer a b x hx
    refine hopt y trivial ⟨fun k => ?_, 0, (l0 x y).2 hy1⟩
    fin_cases k
    · exact (h0 x y).2 hy1.le
    · exact (h1 x y).2 hy2.le
  · intro hx
    refine ⟨trivial, fun y _ ⟨hd, k, hk⟩ => ?_⟩
    have hsum : dist a x + dist x b = dist a b := dist_add_dist_of_mem_segment hx
    have htri := dist_triangle a y b
    have d0 := (h0 x y).1 (hd 0)
    have d1 := (h1 x y).1 (hd 1)
    rw [dist_comm a x] at hsum
    rw [dist_comm a y] at htri
    fin_cases k
    · have := (l0 x y).1 hk; linarith
    · have := (l1 x y).1 hk; linarith

end segment

end Verif.MultiBench

namespace Verif.Props
open Verif.MultiBench Verif.MultiBench.Spec Finset

/-- **C123, Schaffer.** The Pareto optimal points are exactly those between 0 and 2. -/
theorem C123_sch (x : ℝ) : Optimal (fun _ => True) sch x ↔ 0 ≤ x ∧ x ≤ 2 := by
  rw [optimal_segment 0 2 sch ?_ ?_ x, segment_eq_Icc (by norm_num), Set.mem_Icc]
  · intro x y
    simp [sch, Real.dist_eq, sq_le_sq]
  · intro x y
    simp [sch, Real.dist_eq, sq_le_sq]

/-- **C123, Fonseca and Fleming.** The Pareto optimal points are exactly those with equal coordinates between -1/√3 and 1/√3. -/
theorem C123_fon (n : ℕ) (x : EuclideanSpace ℝ (Fin n)) :
    Optimal (fun _ => True) (fun x : EuclideanSpace ℝ (Fin n) => fon x) x ↔ ∃ t : ℝ, -(1 / √3) ≤ t ∧ t ≤ 1 / √3 ∧ ∀ i, x i = t := by
  set a : EuclideanSpace ℝ (Fin n) := WithLp.toLp 2 fun _ => 1 / √3 with ha
  set b : EuclideanSpace ℝ (Fin n) := WithLp.toLp 2 fun _ => -(1 / √3) with hb
  have key : ∀ (c : ℝ) (x y : EuclideanSpace ℝ (Fin n)), ∑ i, (y i - c) ^ 2 ≤ ∑ i, (x i - c) ^ 2 ↔
      dist y (WithLp.toLp 2 fun _ => c) ≤ dist x (WithLp.toLp 2 fun _ => c) := by
    intro c x y
    rw [EuclideanSpace.dist_eq, EuclideanSpace.dist_eq, Real.sqrt_le_sqrt_iff (by positivity)]
    simp [Real.dist_eq]
  rw [optimal_segment a b _ ?_ ?_ x]
  · have h3 : (0 : ℝ) < 1 / √3 := by positivity
    constructor
    · rintro ⟨u, v, hu, hv, huv, rfl⟩
      refine ⟨u * (1 / √3) + v * -(1 / √3), ?_, ?_, fun i => by simp [ha, hb]⟩
      · nlinarith [mul_nonneg hu h3.le]
      · nlinarith [mul_nonneg hv h3.le]
    · rintro ⟨t, h1, h2, hx⟩
      refine ⟨(t + 1 / √3) / (2 * (1 / √3)), (1 / √3 - t) / (2 * (1 / √3)), div_nonneg (by linarith) (by linarith),
        div_nonneg (by linarith) (by linarith), ?_, ?_⟩
      · generalize 1 / √3 = s at *
        field_simp; ring
      · ext i
        rw [hx i]
        simp only [ha, hb, PiLp.add_apply, PiLp.smul_apply, smul_eq_mul]
        generalize 1 / √3 = s at *
        field_simp; ring
  · intro x y
    rw [ha, ← key]
    simp [fon]
  · intro x y
    rw [hb, ← key]
    simp [fon, sub_neg_eq_add]

/-- **C123, Deb.** The Pareto optimal points in the bounds are exactly those with second coordinate 0. -/
theorem C123_deb (x : Fin 2 → ℝ) : Optimal debBound deb x ↔ debBound x ∧ x 1 = 0 := by
  constructor
  · rintro ⟨⟨⟨h1, h2⟩, h3, h4⟩, hopt⟩
    refine ⟨⟨⟨h1, h2⟩, h3, h4⟩, ?_⟩
    by_contra hne
    have hpos : 0 < x 1 := lt_of_le_of_ne h3 (Ne.symm hne)
    have hx0 : 0 < x 0 := by linarith
    refine hopt ![x 0, 0] ⟨⟨by simpa using h1, by simpa using h2⟩, by simp, by simp⟩ ⟨fun k => ?_, 1, ?_⟩
    · fin_cases k
      · simp [deb]
      · simp only [deb, Fin.mk_one, Matrix.cons_val_one, Matrix.cons_val_zero, Matrix.cons_val_fin_one]
        rw [neg_le_neg_iff]
        gcongr
    · simp only [deb, Matrix.cons_val_one, Matrix.cons_val_zero, Matrix.cons_val_fin_one]
      rw [neg_lt_neg_iff]
      gcongr
  · rintro ⟨hb, h0⟩
    refine ⟨hb, fun y hy ⟨hd, k, hk⟩ => ?_⟩
    obtain ⟨⟨h1, h2⟩, h3, h4⟩ := hb
    obtain ⟨⟨g1, g2⟩, g3, g4⟩ := hy
    have hx0 : 0 < x 0 := by linarith
    have hy0 : 0 < y 0 := by linarith
    have d0 := hd 0
    have d1 := hd 1
    simp only [deb, Matrix.cons_val_zero, Matrix.cons_val_one, Matrix.cons_val_fin_one, neg_le_neg_iff, h0, add_zero] at d0 d1
    rw [div_le_div_iff₀ hy0 hx0] at d1
    have hy1 : y 1 = 0 := by
      have : y 1 * x 0 ≤ 0 := by nlinarith
      nlinarith
    have he : y 0 = x 0 := by nlinarith
    fin_cases k <;> simp [deb, he, hy1, h0] at hk

theorem checked_iff (gs : List ℝ) : (checked gs).1 = true ↔ ∀ g ∈ gs, 0 ≤ g := by
  classical
  unfold checked
  by_cases h : ∀ g ∈ gs, 0 ≤ g
  · rw [if_pos h]; exact ⟨fun _ => h, fun _ => rfl⟩
  · rw [if_neg h]; exact ⟨fun h' => absurd h' (by simp), fun h' => absurd h' h⟩

/-- **C123, Deb with constraints.** Among the feasible points in the bounds, Pareto optimal are exactly those whose second coordinate is the larger one
of 0 and `6 - 9 x₀`. -/
theorem C123_constDeb (x : Fin 2 → ℝ) :
    Optimal (fun x => debBound x ∧ (debG x).1 = true) deb x ↔ (debBound x ∧ (debG x).1 = true) ∧ x 1 = max 0 (6 - 9 * x 0) := by
  have hG : ∀ x : Fin 2 → ℝ, (debG x).1 = true ↔ 0 ≤ x 1 + 9 * x 0 - 6 ∧ 0 ≤ -x 1 + 9 * x 0 - 1 := fun x => by simp [debG, checked_iff]
  simp only [hG]
  constructor
  · rintro ⟨⟨⟨⟨h1, h2⟩, h3, h4⟩, h5, h6⟩, hopt⟩
    refine ⟨⟨⟨⟨h1, h2⟩, h3, h4⟩, h5, h6⟩, ?_⟩
    by_contra hne
    have hle : max 0 (6 - 9 * x 0) ≤ x 1 := max_le h3 (by linarith)
    have hlt : max 0 (6 - 9 * x 0) < x 1 := lt_of_le_of_ne hle (Ne.symm hne)
    have hx0 : 0 < x 0 := by linarith
    have hm0 : 0 ≤ max 0 (6 - 9 * x 0) := le_max_left _ _
    have hm1 : 6 - 9 * x 0 ≤ max 0 (6 - 9 * x 0) := le_max_right _ _
    generalize max 0 (6 - 9 * x 0) = m at *
    refine hopt ![x 0, m] ⟨⟨⟨by simpa using h1, by simpa using h2⟩, by simpa using hm0, by simp; linarith⟩,
      by simp; linarith, by simp; linarith⟩ ⟨fun k => ?_, 1, ?_⟩
    · fin_cases k
      · simp [deb]
      · simp only [deb, Fin.mk_one, Matrix.cons_val_one, Matrix.cons_val_zero, Matrix.cons_val_fin_one]
        rw [neg_le_neg_iff]
        gcongr
    · simp only [deb, Matrix.cons_val_one, Matrix.cons_val_zero, Matrix.cons_val_fin_one]
      rw [neg_lt_neg_iff]
      gcongr
  · rintro ⟨hb, h0⟩
    refine ⟨hb, fun y hy ⟨hd, k, hk⟩ => ?_⟩
    obtain ⟨⟨⟨h1, h2⟩, h3, h4⟩, h5, h6⟩ := hb
    obtain ⟨⟨⟨g1, g2⟩, g3, g4⟩, g5, g6⟩ := hy
    have hx0 : 0 < x 0 := by linarith
    have hy0 : 0 < y 0 := by linarith
    have d0 := hd 0
    have d1 := hd 1
    simp only [deb, Matrix.cons_val_zero, Matrix.cons_val_one, Matrix.cons_val_fin_one, neg_le_neg_iff] at d0 d1
    rw [div_le_div_iff₀ hy0 hx0] at d1
    have he : y 0 = x 0 ∧ y 1 = x 1 := by
      rcases max_cases (0 : ℝ) (6 - 9 * x 0) with ⟨hm, hc⟩ | ⟨hm, hc⟩
      · rw [hm] at h0
        have : y 1 * x 0 ≤ 0 := by nlinarith
        have hy1 : y 1 = 0 := by nlinarith
        exact ⟨by nlinarith, by rw [hy1, h0]⟩
      · rw [hm] at h0
        have hxy : y 0 = x 0 := by
          by_contra hne
          have hlt : y 0 < x 0 := lt_of_le_of_ne d0 hne
          nlinarith
        rw [hxy] at d1
        exact ⟨hxy, by nlinarith⟩
    fin_cases k <;> simp [deb, he.1, he.2] at hk

/-- **C123, Srinivas and Deb.** Feasible points with first coordinate -5/2 are Pareto optimal. -/
theorem C123_srn (x : Fin 2 → ℝ) (hb : srnBound x) (hg : (srnG x).1 = true) (h : x 0 = -5 / 2) :
    Optimal (fun x => srnBound x ∧ (srnG x).1 = true) srn x := by
  refine ⟨⟨hb, hg⟩, fun y _ ⟨hd, k, hk⟩ => ?_⟩
  have d0 := hd 0
  have d1 := hd 1
  simp only [srn, Matrix.cons_val_zero, Matrix.cons_val_one, Matrix.cons_val_fin_one, neg_le_neg_iff, h] at d0 d1
  fin_cases k <;> simp only [srn, Fin.mk_zero, Fin.mk_one, Matrix.cons_val_zero, Matrix.cons_val_one, Matrix.cons_val_fin_one, neg_lt_neg_iff, h] at hk <;>
    nlinarith [sq_nonneg (y 0 + 5 / 2)]

/-- The points between the minima of both objectives, as far as the bounds allow, are feasible. -/
theorem bnh_feasible (x : Fin 2 → ℝ) (hb : bnhBound x) (h : x 0 = x 1 ∨ (x 1 = 3 ∧ 3 ≤ x 0)) : (bnhG x).1 = true := by
  obtain ⟨⟨h1, h2⟩, h3, h4⟩ := hb
  simp only [bnhG, checked_iff, List.mem_cons, List.not_mem_nil, or_false, forall_eq_or_imp, forall_eq]
  rcases h with h | ⟨h, h'⟩
  · rw [h]
    constructor <;> nlinarith [sq_nonneg (x 1 - 5 / 2)]
  · rw [h]
    constructor <;> nlinarith [sq_nonneg (x 0 - 8)]

/-- **C123, Binh and Korn.** Among the feasible points in the bounds, Pareto optimal are exactly those with equal coordinates, and those with second coordinate 3 and a first one of at least 3. -/
theorem C123_bnh (x : Fin 2 → ℝ) :
    Optimal (fun x => bnhBound x ∧ (bnhG x).1 = true) bnh x ↔ bnhBound x ∧ (x 0 = x 1 ∨ (x 1 = 3 ∧ 3 ≤ x 0)) := by
  constructor
  · rintro ⟨⟨hb, -⟩, hopt⟩
    refine ⟨hb, ?_⟩
    by_contra hne
    push Not at hne
    obtain ⟨hne, h33⟩ := hne
    obtain ⟨⟨h1, h2⟩, h3, h4⟩ := hb
    rcases le_or_gt (x 0 + x 1) 6 with hs | hs
    · have hpos : 0 < (x 0 - x 1) ^ 2 := by have := sub_ne_zero.2 hne; positivity
      have hyb : bnhBound ![(x 0 + x 1) / 2, (x 0 + x 1) / 2] := by
        refine ⟨⟨?_, ?_⟩, ?_, ?_⟩ <;> simp <;> linarith
      refine hopt ![(x 0 + x 1) / 2, (x 0 + x 1) / 2] ⟨hyb, bnh_feasible _ hyb (Or.inl (by simp))⟩ ⟨fun k => ?_, 0, ?_⟩
      · fin_cases k <;> simp only [bnh, Fin.mk_zero, Fin.mk_one, Matrix.cons_val_zero, Matrix.cons_val_one, Matrix.cons_val_fin_one, neg_le_neg_iff] <;> nlinarith
      · simp only [bnh, Matrix.cons_val_zero, Matrix.cons_val_one, Matrix.cons_val_fin_one, neg_lt_neg_iff]
        nlinarith
    · have h0 : 3 < x 0 := by linarith
      have hlt : x 1 < 3 := lt_of_le_of_ne h4 fun h => absurd (h33 h) (not_lt.2 h0.le)
      have hyb : bnhBound ![x 0 + x 1 - 3, 3] := by
        refine ⟨⟨?_, ?_⟩, ?_, ?_⟩ <;> simp <;> linarith
      refine hopt ![x 0 + x 1 - 3, 3] ⟨hyb, bnh_feasible _ hyb (Or.inr ⟨by simp, by simp; linarith⟩)⟩ ⟨fun k => ?_, 0, ?_⟩
      · fin_cases k <;> simp only [bnh, Fin.mk_zero, Fin.mk_one, Matrix.cons_val_zero, Matrix.cons_val_one, Matrix.cons_val_fin_one, neg_le_neg_iff] <;>
          nlinarith [mul_pos (sub_pos.2 hlt) (sub_pos.2 h0)]
      · simp only [bnh, Matrix.cons_val_zero, Matrix.cons_val_one, Matrix.cons_val_fin_one, neg_lt_neg_iff]
        nlinarith [mul_pos (sub_pos.2 hlt) (sub_pos.2 h0)]
  · rintro ⟨hb, h⟩
    refine ⟨⟨hb, bnh_feasible x hb h⟩, fun y ⟨hy, _⟩ ⟨hd, k, hk⟩ => ?_⟩
    obtain ⟨⟨h1, h2⟩, h3, h4⟩ := hb
    obtain ⟨⟨g1, g2⟩, g3, g4⟩ := hy
    have d0 := hd 0
    have d1 := hd 1
    simp only [bnh, Matrix.cons_val_zero, Matrix.cons_val_one, Matrix.cons_val_fin_one, neg_le_neg_iff] at d0 d1
    have he : y 0 = x 0 ∧ y 1 = x 1 := by
      have m0 := mul_le_mul_of_nonneg_left d0 (sub_nonneg.2 h2)
      have m1 := mul_le_mul_of_nonneg_left d1 h1
      have key : (y 0 - x 0) ^ 2 + (y 1 - x 0) ^ 2 ≤ (x 1 - x 0) ^ 2 := by linarith
      have e0 : ∀ a : ℝ, a ^ 2 ≤ 0 → a = 0 := fun a ha => pow_eq_zero_iff two_ne_zero |>.1 (le_antisymm ha (sq_nonneg a))
      have s0 := sq_nonneg (y 0 - x 0)
      have s1 := sq_nonneg (y 1 - x 0)
      rcases h with h | ⟨h, h'⟩
      · rw [← h, sub_self] at key
        have a0 := e0 (y 0 - x 0) (by linarith)
        have a1 := e0 (y 1 - x 0) (by linarith)
        exact ⟨by linarith, by linarith⟩
      · rw [h] at key
        have e1 : (x 0 - 3) ^ 2 ≤ (x 0 - y 1) ^ 2 := pow_le_pow_left₀ (by linarith) (by linarith) 2
        have a0 := e0 (y 0 - x 0) (by linarith)
        refine ⟨by linarith, ?_⟩
        rw [h]
        by_contra hne
        have hlt : y 1 < 3 := lt_of_le_of_ne g4 hne
        have e2 : (x 0 - 3) ^ 2 < (x 0 - y 1) ^ 2 := pow_lt_pow_left₀ (by linarith) (by linarith) two_ne_zero
        linarith
    fin_cases k <;> simp [bnh, he] at hk

example : debBound ![1 / 2, 3 / 2] ∧ (debG ![1 / 2, 3 / 2]).1 = true ∧ srnBound ![-5 / 2, 5] ∧ (srnG ![-5 / 2, 5]).1 = true := by
  simp only [debG, srnG, checked_iff]
  norm_num [debBound, srnBound]

/-- **C123 violated: the violation of constraints** (the absolute value of the sum, C21) also counts constraints that are met. Of two infeasible points
the preferred one can be farther from being feasible, in every constraint: here the sum is 0. -/
theorem C123_negation_violation : ∃ x y : Fin 2 → ℝ, debBound x ∧ debBound y ∧ (debG x).1 = false ∧ (debG y).1 = false ∧
    |(debG x).2.sum| < |(debG y).2.sum| ∧ (debG x).2.length = 2 ∧ (debG y).2.length = 2 ∧
    ((debG y).2.map (fun g => max 0 (-g))).sum < ((debG x).2.map (fun g => max 0 (-g))).sum := by
  have e : ∀ z : Fin 2 → ℝ, ¬ (0 ≤ z 1 + 9 * z 0 - 6 ∧ 0 ≤ -z 1 + 9 * z 0 - 1) → debG z = (false, [z 1 + 9 * z 0 - 6, -z 1 + 9 * z 0 - 1]) := by
    intro z hz
    unfold debG checked
    rw [if_neg (by simpa using hz)]
  refine ⟨![7 / 18, 5], ![3 / 5, 1 / 2], by norm_num [debBound], by norm_num [debBound], ?_⟩
  rw [e _ (by norm_num), e _ (by norm_num)]
  norm_num

/-- **C123, unbounded functions.** They take arbitrarily small values, in every dimension. -/
theorem C123_unbounded (n : ℕ) : Unbounded (linear (n := n + 1)) ∧ Unbounded (parabR (n := n)) ∧ Unbounded (MultiBench.sharpR (n := n)) := by
  refine ⟨fun b => ⟨Fin.cons (b - 1) 0, ?_⟩, fun b => ⟨Fin.cons (1 - b) 0, ?_⟩, fun b => ⟨Fin.cons (1 - b) 0, ?_⟩⟩
  · simp [linear, Fin.sum_univ_succ]
  · simp [parabR]
  · simp [MultiBench.sharpR]

end Verif.Props
