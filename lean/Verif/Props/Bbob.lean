import Verif.Model.Bbob
import Verif.Props.FunctionTransform
import Verif.Props.Benchmark
import Mathlib.Analysis.SpecialFunctions.Trigonometric.Bounds
/-
Properties of the transformations of the BBOB benchmark.
-/
namespace Verif.Bbob

open Verif.FunctionTransform (Vec penalize penalize_eq)
open Verif.DataSet (Err)
open Verif.Benchmark

variable {n : ℕ}

/-- Arguments and draws of the constructor that make sense: the matrices are invertible, the random numbers in the unit interval, factors are not negative, the optimum
is within the bounds, and in one dimension there is neither conditioning nor asymmetry. -/
structure Valid (b : Base n) (c : Config) (s : Setup n) : Prop where
  before : IsUnit s.before.det
  inner : IsUnit s.inner.det
  outer : IsUnit s.outer.det
  rand : ∀ i, 0 ≤ s.rand i ∧ s.rand i ≤ 1
  opt : c.translate = false → ∀ i, |b.xopt i| ≤ 5
  cond : ∀ k, c.conditioning = some k → 0 ≤ k
  pen : 0 ≤ c.penalized
  cauchy : ∀ k, c.cnoise = some k → 0 ≤ k.1
  dim : n = 1 → c.conditioning = none ∧ c.asymmetry = none

/-- Uniform draws are not negative. -/
structure DrawsOk (d : Draws) : Prop where
  u : 0 ≤ d.u
  u' : 0 ≤ d.u'

theorem tiny_pos : 0 < tiny := by unfold tiny; positivity

theorem ntmp_nonneg (c : Config) (hc : ∀ k, c.cnoise = some k → 0 ≤ k.1) (d : Draws) (hd : DrawsOk d) (t : ℝ → ℝ) (h : ntmp n c d = some t) (f : ℝ) (hf : 0 ≤ f) : 0 ≤ t f := by
  unfold ntmp at h
  by_cases h1 : truthy c.gnoise
  · rw [if_pos h1, Option.some.injEq] at h
    rw [← h]
    exact mul_nonneg hf (Real.exp_pos _).le
  · rw [if_neg h1] at h
    by_cases h2 : truthy c.unoise
    · rw [if_pos h2] at h
      simp only [Option.some.injEq] at h
      rw [← h]
      exact mul_nonneg (mul_nonneg hf (Real.rpow_nonneg hd.u _)) (le_trans zero_le_one (le_max_left _ _))
    · rw [if_neg h2] at h
      cases hk : c.cnoise with
      | none => rw [hk] at h; simp at h
      | some k =>
        rw [hk] at h
        obtain ⟨a, b⟩ := k
        simp only [Option.some.injEq] at h
        rw [← h]
        exact add_nonneg hf (mul_nonneg (hc _ hk) (le_max_left _ _))

theorem noisetrans_spec (c : Config) (hc : ∀ k, c.cnoise = some k → 0 ≤ k.1) (d : Draws) (hd : DrawsOk d) (f : ℝ) (hf : 0 ≤ f) :
    0 ≤ noisetrans n c d f ∧ (noisetrans n c d f = 0 ↔ f = 0) ∧ (noisetrans n c d f < 1 / 10 ^ 8 ↔ f < 1 / 10 ^ 8) ∧ (f < 1 / 10 ^ 8 → noisetrans n c d f = f) := by
  unfold noisetrans
  cases h : ntmp n c d with
  | none => exact ⟨hf, Iff.rfl, Iff.rfl, fun _ => rfl⟩
  | some t =>
    simp only
    by_cases hlt : f < 1 / 10 ^ 8
    · rw [if_pos hlt]
      exact ⟨hf, Iff.rfl, Iff.rfl, fun _ => rfl⟩
    · rw [if_neg hlt]
      have ht := ntmp_nonneg c hc d hd t h f hf
      have hf0 : f ≠ 0 := by rintro rfl; exact hlt (by positivity)
      refine ⟨by positivity, ⟨fun e => ?_, fun e => absurd e hf0⟩, ⟨fun e => ?_, fun e => absurd e hlt⟩, fun e => absurd e hlt⟩
      · have : (0 : ℝ) < 1.01 / 10 ^ 8 := by positivity
        linarith
      · have : (1 : ℝ) / 10 ^ 8 < 1.01 / 10 ^ 8 := by norm_num
        linarith

theorem asym_pos (beta : ℝ) (i : ℕ) (x : ℝ) (h : 0 < x) : asym n beta i x = (x + tiny) ^ (1 + beta * i / ((n : ℝ) - 1) * √x) := by
  unfold asym
  rw [if_neg (not_le.2 h), if_pos h, abs_of_pos h, Real.rpow_def_of_pos (by linarith [tiny_pos])]
  rw [mul_zero, zero_add, one_mul, mul_comm]

theorem asym_nonpos (beta : ℝ) (i : ℕ) (x : ℝ) (h : x ≤ 0) : asym n beta i x = x := by
  unfold asym
  rw [if_pos h, if_neg (not_lt.2 h)]
  ring

theorem asym_pos_iff (beta : ℝ) (i : ℕ) (x : ℝ) : 0 < asym n beta i x ↔ 0 < x := by
  rcases lt_or_ge 0 x with h | h
  · rw [asym_pos beta i x h]
    exact ⟨fun _ => h, fun _ => Real.rpow_pos_of_pos (by linarith [tiny_pos]) _⟩
  · rw [asym_nonpos beta i x h]

theorem asym_zero_iff (beta : ℝ) (i : ℕ) (x : ℝ) : asym n beta i x = 0 ↔ x = 0 := by
  rcases lt_or_ge 0 x with h | h
  · have := (asym_pos_iff (n := n) beta i x).2 h
    exact ⟨fun e => absurd e this.ne', fun e => absurd e h.ne'⟩
  · rw [asym_nonpos beta i x h]

theorem vecMul_zero_iff (M : Matrix (Fin n) (Fin n) ℝ) (hM : IsUnit M.det) (x : Vec n) : Matrix.vecMul x M = 0 ↔ x = 0 := by
  constructor
  · intro h
    have := congrArg (fun v => Matrix.vecMul v M⁻¹) h
    simpa [Matrix.vecMul_vecMul, Matrix.mul_nonsing_inv _ hM] using this
  · rintro rfl; exact Matrix.zero_vecMul _

theorem mulVec_zero_iff (M : Matrix (Fin n) (Fin n) ℝ) (hM : IsUnit M.det) (x : Vec n) : Matrix.mulVec M x = 0 ↔ x = 0 := by
  constructor
  · intro h
    have := congrArg (fun v => Matrix.mulVec M⁻¹ v) h
    simpa [Matrix.mulVec_mulVec, Matrix.nonsing_inv_mul _ hM] using this
  · rintro rfl; exact Matrix.mulVec_zero _

theorem prefix_ok (b : Base n) (c : Config) (s : Setup n) (h : Valid b c s) : ∃ p, prefixMatrix c s = .ok p ∧ IsUnit p.det := by
  unfold prefixMatrix
  by_cases h1 : truthy c.conditioning
  · rw [if_pos h1]
    obtain ⟨k, hk, hk0⟩ := h1
    have hkp : 0 < k := lt_of_le_of_ne (h.cond k hk) (Ne.symm hk0)
    have hn : n ≠ 1 := fun e => by
      have := (h.dim e).1
      rw [hk] at this
      simp at this
    unfold generateDiags
    rw [if_neg hn, hk, Option.getD_some]
    refine ⟨_, rfl, ?_⟩
    have hdet : IsUnit (Matrix.diagonal fun i : Fin n => k ^ ((i : ℝ) / (2 * n - 2))).det := by
      rw [Matrix.det_diagonal, isUnit_iff_ne_zero]
      exact Finset.prod_ne_zero_iff.2 fun i _ => (Real.rpow_pos_of_pos hkp _).ne'
    split_ifs
    · rw [Matrix.det_mul, Matrix.det_mul]
      exact h.outer.mul (hdet.mul h.inner)
    · rw [Matrix.det_mul]
      exact hdet.mul h.inner
    · exact hdet
  · rw [if_neg h1]
    split_ifs
    · exact ⟨_, rfl, h.inner⟩
    · exact ⟨1, rfl, by simp⟩

theorem transform_ok (b : Base n) (c : Config) (s : Setup n) (h : Valid b c s) (y : Vec n) : ∃ t, transform c s y = some t ∧ (c.oscillate = false → (t = 0 ↔ y = 0)) := by
  unfold transform
  have h1 : (if c.rotate then Matrix.vecMul y s.before else y) = 0 ↔ y = 0 := by
    split_ifs
    · exact vecMul_zero_iff _ h.before y
    · exact Iff.rfl
  generalize (if c.rotate then Matrix.vecMul y s.before else y) = z at h1
  simp only
  cases ha : c.asymmetry with
  | none =>
    refine ⟨_, rfl, fun ho => ?_⟩
    rw [ho, if_neg (by simp)]
    exact h1
  | some beta =>
    have hn : n ≠ 1 := fun e => by
      have := (h.dim e).2
      rw [ha] at this
      simp at this
    unfold asymmetrify
    simp only [if_neg hn]
    refine ⟨_, rfl, fun ho => ?_⟩
    rw [ho, if_neg (by simp), ← h1, funext_iff, funext_iff]
    exact forall_congr' fun i => asym_zero_iff beta i (z i)

theorem penalize_nonneg (x : Vec n) : 0 ≤ penalize x 5 := by
  rw [penalize_eq x 5 (by norm_num)]
  exact Finset.sum_nonneg fun i _ => sq_nonneg _

theorem penalize_zero (x : Vec n) (h : ∀ i, |x i| ≤ 5) : penalize x 5 = 0 := by
  rw [penalize_eq x 5 (by norm_num)]
  refine Finset.sum_eq_zero fun i _ => ?_
  rw [max_eq_right (by linarith [h i])]
  norm_num

theorem xopt_bound (b : Base n) (c : Config) (s : Setup n) (h : Valid b c s) (i : Fin n) : |xopt b c s i| ≤ 5 := by
  unfold xopt
  cases ht : c.translate with
  | false => simpa using h.opt ht i
  | true =>
    simp only [if_true]
    obtain ⟨a, b⟩ := h.rand i
    rw [abs_le]
    constructor <;> norm_num <;> linarith

theorem osc_eq (y : ℝ) : ∃ e, osc y = (|y| + tiny) * Real.exp e ∧ -0.8771 * |y| ≤ e ∧ -0.098 ≤ e := by
  have hp : 0 < |y| + tiny := by have := tiny_pos; positivity
  have hs : ∀ k : ℝ, 0 ≤ k → -(k * |y|) ≤ Real.sin (k * y) ∧ -1 ≤ Real.sin (k * y) := by
    intro k hk
    refine ⟨?_, Real.neg_one_le_sin _⟩
    have := Real.abs_sin_le_abs (x := k * y)
    rw [abs_mul, abs_of_nonneg hk] at this
    linarith [neg_abs_le (Real.sin (k * y))]
  obtain ⟨a1, a2⟩ := hs 10 (by norm_num)
  obtain ⟨b1, b2⟩ := hs 7.9 (by norm_num)
  obtain ⟨c1, c2⟩ := hs 5.5 (by norm_num)
  obtain ⟨d1, d2⟩ := hs 3.1 (by norm_num)
  have hy := abs_nonneg y
  unfold osc
  refine ⟨(if y > 0 then 1 else 0) * 0.049 * (Real.sin (10 * y) + Real.sin (7.9 * y)) + (if y < 0 then 1 else 0) * 0.049 * (Real.sin (5.5 * y) + Real.sin (3.1 * y)), ?_, ?_, ?_⟩
  · rw [add_assoc, Real.exp_add, Real.exp_log hp]
  · rcases lt_trichotomy y 0 with h | h | h
    · rw [if_neg (not_lt.2 h.le), if_pos h]; norm_num at c1 d1 ⊢; linarith [abs_nonneg y]
    · rw [if_neg (by linarith), if_neg (by linarith)]; norm_num
    · rw [if_pos h, if_neg (not_lt.2 h.le)]; norm_num at a1 b1 ⊢; linarith [abs_nonneg y]
  · rcases lt_trichotomy y 0 with h | h | h
    · rw [if_neg (not_lt.2 h.le), if_pos h]; norm_num at c2 d2 ⊢; linarith
    · rw [if_neg (by linarith), if_neg (by linarith)]; norm_num
    · rw [if_pos h, if_neg (not_lt.2 h.le)]; norm_num at a2 b2 ⊢; linarith

theorem osc_zero : osc 0 = tiny := by
  unfold osc
  simp [Real.exp_log tiny_pos]

theorem osc_gt (y : ℝ) (hy : y ≠ 0) : tiny < osc y := by
  obtain ⟨e, h, h1, h2⟩ := osc_eq y
  have ha : 0 < |y| := abs_pos.2 hy
  have ht := tiny_pos
  have ht1 : tiny ≤ 1 / 10 := by
    unfold tiny
    norm_num
  have he := Real.add_one_le_exp e
  rw [h]
  by_cases hle : |y| ≤ 1
  · have h3 : 1 - 0.8771 * |y| ≤ Real.exp e := by linarith
    have h4 : (|y| + tiny) * (1 - 0.8771 * |y|) ≤ (|y| + tiny) * Real.exp e := mul_le_mul_of_nonneg_left h3 (by linarith)
    have h5 : 0 < |y| * (1 - 0.8771 * |y| - 0.8771 * tiny) := mul_pos ha (by norm_num; linarith)
    nlinarith
  · push Not at hle
    have h3 : (0.902 : ℝ) ≤ Real.exp e := by norm_num at *; linarith
    have h4 : (|y| + tiny) * 0.902 ≤ (|y| + tiny) * Real.exp e := mul_le_mul_of_nonneg_left h3 (by linarith)
    norm_num at *
    linarith

/-- A function that grows with every coordinate where all are positive. -/
def Increasing (f : Vec n → ℝ) : Prop := ∀ z y : Vec n, (∀ i, 0 < z i ∧ z i ≤ y i) → f z ≤ f y ∧ (f z = f y → z = y)

theorem increasing_of_terms (w : Fin n → ℝ) (hw : ∀ i, 0 < w i) : Increasing fun x : Vec n => ∑ i, w i * x i * x i := by
  intro z y h
  have hle : ∀ i, w i * z i * z i ≤ w i * y i * y i := by
    intro i
    obtain ⟨a, b⟩ := h i
    have : z i * z i ≤ y i * y i := mul_self_le_mul_self a.le b
    nlinarith [hw i]
  refine ⟨Finset.sum_le_sum fun i _ => hle i, fun e => ?_⟩
  have := (Finset.sum_eq_sum_iff_of_le fun i _ => hle i).1 e
  funext i
  have hi := this i (Finset.mem_univ i)
  obtain ⟨a, b⟩ := h i
  have h2 : z i * z i = y i * y i := by
    have := hw i
    rw [mul_assoc, mul_assoc] at hi
    exact mul_left_cancel₀ this.ne' hi
  rcases mul_self_eq_mul_self_iff.1 h2 with h3 | h3
  · exact h3
  · linarith

theorem elli_increasing : Increasing (elli (n := n)) := increasing_of_terms _ fun i => Real.rpow_pos_of_pos (by norm_num) _

theorem tablet_increasing : Increasing (tablet (n := n)) := by
  have := increasing_of_terms (n := n + 1) (fun i => if i = 0 then 10 ^ 6 else 1) fun i => by split_ifs <;> positivity
  convert this using 2 with x
  rw [Fin.sum_univ_succ]
  simp [tablet, Fin.succ_ne_zero]
  ring

end Verif.Bbob

namespace Verif.Props

open Verif.FunctionTransform (Vec penalize penalize_eq)
open Verif.Bbob Verif.Benchmark
open Verif.DataSet (Err)

variable {n : ℕ}

/-- A setup in two dimensions with a rotation by a right angle. -/
private noncomputable def twoSetup : Setup 2 := ⟨fun _ => 1 / 4, !![0, 1; -1, 0], !![0, 1; -1, 0], !![0, 1; -1, 0]⟩

private theorem two_det : (!![0, 1; -1, 0] : Matrix (Fin 2) (Fin 2) ℝ).det = 1 := by simp [Matrix.det_fin_two]

/-- Without oscillation: if the base function is nowhere negative and zero only at the origin, the transformed function is, in all combinations of translation,
rotation, conditioning, asymmetry, penalization and noise, and for all draws, nowhere negative and zero exactly at the `xopt` it reports. -/
theorem C147_minimum_partial (b : Base n) (hb : SingleZeroMin b.f 0) (c : Config) (s : Setup n) (hv : Valid b c s) (ho : c.oscillate = false) :
    ∃ f, build b c s = .ok f ∧ ∀ d, DrawsOk d → ∀ x, ∃ v, f d x = some v ∧ 0 ≤ v ∧ (v = 0 ↔ x = xopt b c s) := by
  obtain ⟨p, hp, hdet⟩ := prefix_ok b c s hv
  unfold build
  rw [hp]
  refine ⟨_, rfl, fun d hd x => ?_⟩
  obtain ⟨t, ht, hz⟩ := transform_ok b c s hv (x - xopt b c s)
  simp only [ht]
  refine ⟨_, rfl, ?_⟩
  obtain ⟨h1, h2, -⟩ := noisetrans_spec (n := n) c hv.cauchy d hd (b.f (Matrix.mulVec p t)) (hb.1 _)
  have hpen := mul_nonneg hv.pen (penalize_nonneg x)
  refine ⟨add_nonneg h1 hpen, ?_⟩
  rw [add_zero_iff h1 hpen, h2, hb.2, mulVec_zero_iff p hdet, hz ho, sub_eq_zero]
  refine ⟨fun h => h.1, fun h => ⟨h, ?_⟩⟩
  rw [h, penalize_zero _ (xopt_bound b c s hv), mul_zero]

example : SingleZeroMin (sphere (n := 2)) 0 ∧ Valid ⟨sphere, 0, false⟩ { rotate := true, conditioning := some 10, asymmetry := some 0.5, penalized := 10, gnoise := some 1 } twoSetup := by
  have hu : IsUnit (!![0, 1; -1, 0] : Matrix (Fin 2) (Fin 2) ℝ).det := by rw [two_det]; exact isUnit_one
  refine ⟨C74_sphere 2, hu, hu, hu, ?_, by simp, ?_, by norm_num, by simp, by simp⟩
  · intro i; simp only [twoSetup]; norm_num
  · intro k hk; simp at hk; rw [← hk]; norm_num

/-- With oscillation, and otherwise only translation, rotation, penalization and noise: if the base function grows with every coordinate, as the ellipsoid and the discus do, the values at all points other than
the reported `xopt` are greater than the value at `xopt`; this is the base function at the point whose coordinates are all 1e-100, unless this exceeds the
threshold of the noise. -/
theorem C147_oscillate (b : Base n) (hb : ∀ z, 0 ≤ b.f z) (hi : Increasing b.f) (c : Config) (s : Setup n) (hv : Valid b c s) (ho : c.oscillate = true) (hc : c.conditioning = none) (ha : c.asymmetry = none)
    (h8 : b.f (fun _ => tiny) < 1 / 10 ^ 8) :
    ∃ f, build b c s = .ok f ∧ ∀ d d', DrawsOk d → DrawsOk d' → f d (xopt b c s) = some (b.f fun _ => tiny) ∧ ∀ x, x ≠ xopt b c s → ∃ v, f d' x = some v ∧ b.f (fun _ => tiny) < v := by
  have hpre : prefixMatrix c s = .ok 1 := by
    unfold prefixMatrix
    rw [if_neg (by rintro ⟨v, h, -⟩; rw [hc] at h; simp at h), if_neg (by rintro ⟨-, ⟨v, h, -⟩, -⟩; rw [ha] at h; simp at h)]
  have htr : ∀ y, transform c s y = some (oscillatify (if c.rotate then Matrix.vecMul y s.before else y)) := by
    intro y
    unfold transform
    rw [ha, ho]
    simp
  have hz : ∀ y, (if c.rotate then Matrix.vecMul y s.before else y) = 0 ↔ y = 0 := by
    intro y
    split_ifs
    · exact vecMul_zero_iff _ hv.before y
    · exact Iff.rfl
  unfold build
  rw [hpre]
  refine ⟨_, rfl, fun d d' hd hd' => ⟨?_, fun x hx => ?_⟩⟩
  · simp only [sub_self, htr, (hz 0).2 rfl, Option.map_some, Matrix.one_mulVec]
    have : oscillatify (0 : Vec n) = fun _ => tiny := by
      funext i
      exact osc_zero
    rw [this, (noisetrans_spec (n := n) c hv.cauchy d hd _ (hb _)).2.2.2 h8, penalize_zero _ (xopt_bound b c s hv), mul_zero, add_zero]
  · simp only [htr, Option.map_some, Matrix.one_mulVec]
    refine ⟨_, rfl, ?_⟩
    have hne : (if c.rotate then Matrix.vecMul (x - xopt b c s) s.before else (x - xopt b c s)) ≠ 0 := fun h => hx (sub_eq_zero.1 ((hz _).1 h))
    generalize (if c.rotate then Matrix.vecMul (x - xopt b c s) s.before else (x - xopt b c s)) = y at hne
    have hge : ∀ i, 0 < tiny ∧ tiny ≤ oscillatify y i := by
      intro i
      refine ⟨tiny_pos, ?_⟩
      by_cases h0 : y i = 0
      · unfold oscillatify; rw [h0, osc_zero]
      · exact (osc_gt _ h0).le
    obtain ⟨h1, h2⟩ := hi _ _ hge
    have hlt : b.f (fun _ => tiny) < b.f (oscillatify y) := by
      refine lt_of_le_of_ne h1 fun e => ?_
      have h3 := h2 e
      obtain ⟨i, hi'⟩ : ∃ i, y i ≠ 0 := by
        by_contra hall
        push Not at hall
        exact hne (funext hall)
      have h4 := congrFun h3 i
      exact absurd h4 (osc_gt _ hi').ne
    have hpen := mul_nonneg hv.pen (penalize_nonneg x)
    obtain ⟨-, -, h3, h4⟩ := noisetrans_spec (n := n) c hv.cauchy d' hd' (b.f (oscillatify y)) (hb _)
    by_cases h5 : b.f (oscillatify y) < 1 / 10 ^ 8
    · rw [h4 h5]; linarith
    · have : ¬noisetrans n c d' (b.f (oscillatify y)) < 1 / 10 ^ 8 := fun h => h5 (h3.1 h)
      push Not at this
      linarith

example : Increasing (elli (n := 2)) ∧ Increasing (tablet (n := 2)) ∧ elli (n := 2) (fun _ => tiny) < 1 / 10 ^ 8 := by
  refine ⟨elli_increasing, tablet_increasing, ?_⟩
  simp [elli, Fin.sum_univ_two, tiny]
  norm_num

/-- Noise never feigns success: an evaluation is below 1e-8, the desired value, exactly if the value without noise is, and then it is this value. -/
theorem C147_noise (b : Base n) (hb : ∀ z, 0 ≤ b.f z) (c : Config) (s : Setup n) (hv : Valid b c s) :
    ∃ f g, build b c s = .ok f ∧ build b { c with gnoise := none, unoise := none, cnoise := none } s = .ok g ∧ ∀ d d', DrawsOk d → ∀ x, ∃ v w, f d x = some v ∧ g d' x = some w ∧
      (v < 1 / 10 ^ 8 ↔ w < 1 / 10 ^ 8) ∧ (w < 1 / 10 ^ 8 → v = w) := by
  obtain ⟨p, hp, hdet⟩ := prefix_ok b c s hv
  have hp' : prefixMatrix { c with gnoise := none, unoise := none, cnoise := none } s = .ok p := hp
  unfold build
  rw [hp, hp']
  refine ⟨_, _, rfl, rfl, fun d d' hd x => ?_⟩
  obtain ⟨t, ht, -⟩ := transform_ok b c s hv (x - xopt b c s)
  have ht' : transform { c with gnoise := none, unoise := none, cnoise := none } s (x - xopt b { c with gnoise := none, unoise := none, cnoise := none } s) = some t := ht
  simp only [ht, ht']
  refine ⟨_, _, rfl, rfl, ?_⟩
  have hclean : noisetrans n { c with gnoise := none, unoise := none, cnoise := none } d' (b.f (Matrix.mulVec p t)) = b.f (Matrix.mulVec p t) := by
    unfold noisetrans ntmp
    rw [if_neg (by rintro ⟨v, h, -⟩; simp at h), if_neg (by rintro ⟨v, h, -⟩; simp at h)]
  beta_reduce
  rw [hclean]
  have hpen := mul_nonneg hv.pen (penalize_nonneg x)
  obtain ⟨h1, -, h3, h4⟩ := noisetrans_spec (n := n) c hv.cauchy d hd (b.f (Matrix.mulVec p t)) (hb _)
  refine ⟨⟨fun h => ?_, fun h => ?_⟩, fun h => ?_⟩
  · have h5 := h4 (h3.1 (by linarith))
    rw [h5] at h
    exact h
  · rw [h4 (by linarith)]
    exact h
  · rw [h4 (by linarith)]

example : Valid ⟨sphere, 0, false⟩ { cnoise := some (1, 0.2), penalized := 1 } twoSetup ∧ ∀ z, 0 ≤ sphere (n := 2) z := by
  have hu : IsUnit (!![0, 1; -1, 0] : Matrix (Fin 2) (Fin 2) ℝ).det := by rw [two_det]; exact isUnit_one
  refine ⟨⟨hu, hu, hu, ?_, by simp, by simp, by norm_num, ?_, by simp⟩, (C74_sphere 2).1⟩
  · intro i; simp only [twoSetup]; norm_num
  · intro k hk; simp at hk; rw [← hk]; norm_num

/-- With rotation and conditioning only: the base function is applied to the difference to `xopt`, rotated, rotated again, stretched along the axes from 1 up to the square
root of the conditioning, and rotated once more. -/
theorem C147_conditioning (hn : n ≠ 1) (b : Base n) (alpha : ℝ) (ha : 0 < alpha) (s : Setup n) :
    ∃ f, build b { rotate := true, conditioning := some alpha } s = .ok f ∧ ∀ d x, f d x = some (b.f (Matrix.mulVec s.outer
      (fun i => alpha ^ ((i : ℕ) / (2 * (n : ℝ) - 2)) * Matrix.mulVec s.inner (Matrix.vecMul (fun k => x k - (s.rand k - 0.5) * 9.8) s.before) i))) := by
  have hpre : prefixMatrix { rotate := true, conditioning := some alpha } s =
      .ok (s.outer * (Matrix.diagonal (fun i : Fin n => alpha ^ ((i : ℝ) / (2 * n - 2))) * s.inner)) := by
    unfold prefixMatrix generateDiags
    rw [if_pos ⟨alpha, rfl, ha.ne'⟩, if_neg hn]
    simp only [Except.map, if_true, Option.getD_some]
    rw [if_pos (Or.inr (by rintro ⟨v, h, -⟩; simp at h))]
  have hns : ∀ d v, noisetrans n { rotate := true, conditioning := some alpha } d v = v := by
    intro d v
    unfold noisetrans ntmp
    rw [if_neg (by rintro ⟨v, h, -⟩; simp at h), if_neg (by rintro ⟨v, h, -⟩; simp at h)]
  unfold build
  rw [hpre]
  refine ⟨_, rfl, fun d x => ?_⟩
  simp only [transform, xopt, if_true, Bool.false_eq_true, if_false, Option.map_some, hns, zero_mul, add_zero, Option.some.injEq]
  congr 1
  rw [← Matrix.mulVec_mulVec, ← Matrix.mulVec_mulVec]
  congr 1
  funext i
  rw [Matrix.mulVec_diagonal]
  rfl

/-- The asymmetry keeps signs, leaves coordinates that are not positive as they are, and raises positive ones to the power `1 + beta * i / (n - 1) * sqrt(x)`
(up to the addition of 1e-100). -/
theorem C147_asymmetry (hn : n ≠ 1) (beta : ℝ) (x : Vec n) : ∃ y, asymmetrify beta x = some y ∧ ∀ i, (0 < y i ↔ 0 < x i) ∧ (x i ≤ 0 → y i = x i) ∧
    (0 < x i → y i = (x i + 1 / 10 ^ 100) ^ (1 + beta * (i : ℕ) / ((n : ℝ) - 1) * √(x i))) := by
  unfold asymmetrify
  rw [if_neg hn]
  exact ⟨_, rfl, fun i => ⟨asym_pos_iff beta i (x i), asym_nonpos beta i (x i), asym_pos beta i (x i)⟩⟩

/-- The base function of `bbob_f8` and `bbob_f9` (and of noisy ones) has its optimum at the point of ones, so that the reported `xopt` is not optimal: there the
value is the dimension minus one.  Without rotation the value zero is found at `xopt + 1`. -/
theorem C147_negation_rosenbrock (r : Bool) (s : Setup (n + 1)) : ∃ f, build ⟨rosenbrock, 1, false⟩ { rotate := r } s = .ok f ∧ ∀ d,
    f d (xopt ⟨rosenbrock, 1, false⟩ { rotate := r } s) = some (n : ℝ) ∧ (r = false → f d (xopt ⟨rosenbrock, 1, false⟩ { rotate := r } s + 1) = some 0) := by
  have hpre : prefixMatrix { rotate := r } s = .ok 1 := by
    unfold prefixMatrix
    rw [if_neg (by rintro ⟨v, h, -⟩; simp at h), if_neg (by rintro ⟨-, ⟨v, h, -⟩, -⟩; simp at h)]
  have hns : ∀ d v, noisetrans (n + 1) { rotate := r } d v = v := by
    intro d v
    unfold noisetrans ntmp
    rw [if_neg (by rintro ⟨v, h, -⟩; simp at h), if_neg (by rintro ⟨v, h, -⟩; simp at h)]
  unfold build
  rw [hpre]
  refine ⟨_, rfl, fun d => ⟨?_, ?_⟩⟩
  · simp only [sub_self, hns, zero_mul, add_zero]
    have : transform { rotate := r } s (0 : Vec (n + 1)) = some 0 := by
      unfold transform
      cases r <;> simp
    rw [this]
    simp [rosenbrock]
  · rintro rfl
    simp only [add_sub_cancel_left, hns, zero_mul, add_zero]
    have : transform { rotate := false } s (1 : Vec (n + 1)) = some 1 := by
      unfold transform
      simp
    rw [this]
    simp [rosenbrock]

/-- The oscillation loses the sign, in both versions: it is positive for all coordinates, even where the coordinate is negative. -/
theorem C147_negation_sign (x : ℝ) : 0 < osc x ∧ (x ≠ 0 → 0 < osc' x) := by
  refine ⟨Real.exp_pos _, fun h => ?_⟩
  unfold osc'
  rw [if_neg h]
  split_ifs <;> rw [one_mul] <;> exact Real.exp_pos _

/-- In one dimension conditioning fails with a division by zero, and with asymmetry all values are nan. -/
theorem C147_negation_one (b : Base 1) (c : Config) (s : Setup 1) : (truthy c.conditioning → build b c s = .error .zeroDivision) ∧
    (c.conditioning = none → c.asymmetry ≠ none → ∃ f, build b c s = .ok f ∧ ∀ d x, f d x = none) := by
  constructor
  · intro h
    unfold build prefixMatrix generateDiags
    rw [if_pos h, if_pos rfl]
    rfl
  · intro h1 h2
    obtain ⟨beta, hb⟩ := Option.ne_none_iff_exists'.1 h2
    have : ∀ y, transform c s y = none := by
      intro y
      unfold transform asymmetrify
      rw [hb]
      simp
    have hpre : ∃ p, prefixMatrix c s = .ok p := by
      unfold prefixMatrix
      rw [if_neg (by rintro ⟨v, h, -⟩; rw [h1] at h; simp at h)]
      split_ifs
      · exact ⟨_, rfl⟩
      · exact ⟨_, rfl⟩
    obtain ⟨p, hp⟩ := hpre
    unfold build
    rw [hp]
    exact ⟨_, rfl, fun d x => by simp only [this]; rfl⟩

/-- A base function that contains a penalization is penalized once more: the attribute of the wrong object is tested. -/
theorem C147_negation_penalized (g : Vec n → ℝ) (k : ℝ) (s : Setup n) : ∃ f, build ⟨g, 0, true⟩ { translate := false, penalized := k } s = .ok f ∧ ∀ d x, f d x = some (g x + k * penalize x 5) := by
  have hpre : prefixMatrix { translate := false, penalized := k } s = .ok 1 := by
    unfold prefixMatrix
    rw [if_neg (by rintro ⟨v, h, -⟩; simp at h), if_neg (by rintro ⟨-, ⟨v, h, -⟩, -⟩; simp at h)]
  have hns : ∀ d v, noisetrans n { translate := false, penalized := k } d v = v := by
    intro d v
    unfold noisetrans ntmp
    rw [if_neg (by rintro ⟨v, h, -⟩; simp at h), if_neg (by rintro ⟨v, h, -⟩; simp at h)]
  unfold build
  rw [hpre]
  refine ⟨_, rfl, fun d x => ?_⟩
  simp [hns, transform, xopt]

end Verif.Props
