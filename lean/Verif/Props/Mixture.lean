import Verif.Model.Mixture
import Mathlib.Tactic.Linarith
import Mathlib.Analysis.Complex.ExponentialBounds
import Mathlib.Tactic.Ring
import Mathlib.Tactic.FieldSimp
import Mathlib.Tactic.Positivity
import Mathlib.Tactic.NormNum
import Mathlib.MeasureTheory.Measure.Lebesgue.Basic
import Mathlib.Algebra.BigOperators.Fin
import Mathlib.Algebra.Order.BigOperators.Group.Finset
/-
Properties of the mixtures of Gaussians used for reward learning.
-/
namespace Verif.Mixture

open Verif.DataSet (Err)

variable {n : ℕ}

/-- What a user does with a mixture: draw a sample (with a random number and a standard normal number), or learn
that a point has a reward. -/
inductive Op where
  | draw (rnd z : ℝ)
  | learn (dm : Bool) (x y : ℝ)

/-- One operation. -/
noncomputable def Op.run (c : Rates) (m : Mix n) : Op → Option (Mix n)
  | .draw rnd z => (drawSample m rnd z).map (·.2)
  | .learn dm x y => some (Verif.Mixture.learn dm c m x y)

/-- A history. -/
noncomputable def runAll (c : Rates) : Mix n → List Op → Option (Mix n)
  | m, [] => some m
  | m, o :: os => (o.run c m).bind fun m' => runAll c m' os

/-- Random numbers lie in `[0, 1)`. -/
def Op.ok : Op → Prop
  | .draw rnd _ => 0 ≤ rnd ∧ rnd < 1
  | .learn _ _ _ => True

/-- The weight of a Gaussian in the mixture. -/
noncomputable def weight (m : Mix n) (g : Fin n) : ℝ := sigmo (m.alpha g)

theorem sigmo_pos (a : ℝ) : 0 < sigmo a := by unfold sigmo; positivity

theorem sigmo_lt (a : ℝ) : sigmo a < 1 := by
  unfold sigmo
  rw [div_lt_one (by positivity)]
  have := Real.exp_pos (-1 * a)
  linarith

theorem sigmo_inv (a : ℝ) (h0 : 0 < a) (h1 : a < 1) : sigmo (invSigmo a) = a := by
  have : 0 < 1 / a - 1 := by
    rw [sub_pos, lt_div_iff₀ h0]; linarith
  unfold sigmo invSigmo
  rw [neg_mul_neg, one_mul, Real.exp_log this]
  field_simp
  ring

theorem sigmo_mono {a b : ℝ} (h : a ≤ b) : sigmo a ≤ sigmo b := by
  unfold sigmo
  apply one_div_le_one_div_of_le (by positivity)
  have := Real.exp_le_exp.2 (show -1 * b ≤ -1 * a by linarith)
  linarith

theorem sigmo_add (a d : ℝ) (h : 0 ≤ d) : sigmo (a + d) ≤ Real.exp d * sigmo a := by
  unfold sigmo
  rw [mul_one_div, div_le_div_iff₀ (by positivity) (by positivity), mul_add (Real.exp d), ← Real.exp_add]
  have e : d + -1 * (a + d) = -1 * a := by ring
  have := Real.one_le_exp h
  rw [e]
  linarith

theorem stND_pos (i : ℕ) : 0 < stND i := by unfold stND; positivity

theorem getStND_pos (x mue sig : ℝ) (h : 0 < sig) : 0 < getStND x mue sig := by
  unfold getStND
  split_ifs
  · norm_num
  · exact div_pos (stND_pos _) h

/-- The state of a usable mixture. -/
structure Good (m : Mix n) : Prop where
  sigma : ∀ g, 0 < m.sigma g
  best : m.baseline < m.best
  sum : 1 ≤ ∑ g, weight m g

theorem dens_pos [NeZero n] (m : Mix n) (h : ∀ g, 0 < m.sigma g) (x : ℝ) : 0 < getGaus m x :=
  Finset.sum_pos (fun g _ => mul_pos (sigmo_pos _) (getStND_pos x _ _ (h g))) ⟨0, Finset.mem_univ _⟩

theorem norm_pos [NeZero n] (m : Mix n) (h : ∀ g, 0 < m.sigma g) (x : ℝ) (g : Fin n) : 0 < norm m x g :=
  div_pos (getStND_pos x _ _ (h g)) (dens_pos m h x)

theorem weight_norm [NeZero n] (m : Mix n) (h : ∀ g, 0 < m.sigma g) (x : ℝ) (g : Fin n) : weight m g * norm m x g ≤ 1 := by
  have hp := dens_pos m h x
  unfold norm
  rw [← mul_div_assoc, div_le_one hp]
  exact Finset.single_le_sum (f := fun k => sigmo (m.alpha k) * getStND x (m.mue k) (m.sigma k)) (fun k _ => (mul_pos (sigmo_pos _) (getStND_pos x _ _ (h k))).le) (Finset.mem_univ g)

theorem weight_norm_sum [NeZero n] (m : Mix n) (h : ∀ g, 0 < m.sigma g) (x : ℝ) : ∑ g, weight m g * norm m x g = 1 := by
  have hp := dens_pos m h x
  unfold norm
  simp only [← mul_div_assoc]
  rw [← Finset.sum_div, div_eq_one_iff_eq hp.ne']
  rfl

theorem score_lt (dm : Bool) (m : Mix n) (h : m.baseline < m.best) (y : ℝ) : (score dm m y).1 < (score dm m y).2 ∧ y ≤ (score dm m y).2 := by
  unfold score
  cases dm <;> simp <;> split_ifs <;> constructor <;> linarith

theorem fakt_range (dm : Bool) (m : Mix n) (h : m.baseline < m.best) (y : ℝ) : -1 ≤ fakt dm m y ∧ fakt dm m y ≤ 1 := by
  obtain ⟨h1, h2⟩ := score_lt dm m h y
  unfold fakt
  simp only
  split_ifs with hf
  · constructor <;> norm_num
  · refine ⟨not_lt.1 hf, ?_⟩
    rw [div_le_one (by linarith)]
    linarith

theorem ratio [NeZero n] (hn : 2 ≤ n) (f : Fin n → ℝ) (g : Fin n) : 0 < sigmo (f g) / ∑ k, sigmo (f k) ∧ sigmo (f g) / ∑ k, sigmo (f k) < 1 := by
  have hp : 0 < ∑ k, sigmo (f k) := Finset.sum_pos (fun k _ => sigmo_pos _) ⟨g, Finset.mem_univ _⟩
  refine ⟨div_pos (sigmo_pos _) hp, ?_⟩
  rw [div_lt_one hp]
  have : ∃ k, k ≠ g := by
    by_cases hg : g = ⟨0, by omega⟩
    · exact ⟨⟨1, by omega⟩, by rw [hg]; simp⟩
    · exact ⟨⟨0, by omega⟩, fun e => hg e.symm⟩
  obtain ⟨k, hk⟩ := this
  exact Finset.single_lt_sum hk (Finset.mem_univ g) (Finset.mem_univ k) (sigmo_pos _) (fun j _ _ => (sigmo_pos _).le)

/-- The weights after learning. -/
theorem weight_learn (hn : 2 ≤ n) (dm : Bool) (c : Rates) (m : Mix n) (x y : ℝ) (g : Fin n) :
    weight (learn dm c m x y) g = sigmo (rawAlpha dm c m x y g) / ∑ k, sigmo (rawAlpha dm c m x y k) := by
  have : NeZero n := ⟨by omega⟩
  obtain ⟨h0, h1⟩ := ratio hn (rawAlpha dm c m x y) g
  exact sigmo_inv _ h0 h1

theorem weights_learn (hn : 2 ≤ n) (dm : Bool) (c : Rates) (m : Mix n) (x y : ℝ) : ∑ g, weight (learn dm c m x y) g = 1 := by
  have : NeZero n := ⟨by omega⟩
  simp only [weight_learn hn]
  rw [← Finset.sum_div]
  exact div_self (Finset.sum_pos (fun k _ => sigmo_pos _) ⟨0, Finset.mem_univ _⟩).ne'

/-- How strongly a Gaussian is attracted by a good sample. -/
theorem pull [NeZero n] (hn : 2 ≤ n) (dm : Bool) (c : Rates) (hA : 0 ≤ c.alphaA) (m : Mix n) (hm : Good m) (x y : ℝ) (hf : 0 < fakt dm m y) (g : Fin n) :
    0 < weight (learn dm c m x y) g * norm m x g ∧ weight (learn dm c m x y) g * norm m x g ≤ Real.exp (c.alphaA / n) := by
  have hN := norm_pos m hm.sigma x
  have hf1 := (fakt_range dm m hm.best y).2
  have hn0 : (0 : ℝ) < n := by exact_mod_cast (show 0 < n by omega)
  have hd : ∀ k, 0 ≤ c.alphaA * (1 / n) * sigmo (m.alpha k) * (1 - sigmo (m.alpha k)) * fakt dm m y * norm m x k := fun k => by
    have := sigmo_lt (m.alpha k)
    have := sigmo_pos (m.alpha k)
    have := hN k
    have h1 : 0 ≤ 1 - sigmo (m.alpha k) := by linarith
    positivity
  have hZ : 1 ≤ ∑ k, sigmo (rawAlpha dm c m x y k) :=
    hm.sum.trans (Finset.sum_le_sum fun k _ => sigmo_mono (by unfold rawAlpha; linarith [hd k]))
  have hW : weight (learn dm c m x y) g ≤ sigmo (rawAlpha dm c m x y g) := by
    rw [weight_learn hn]
    exact div_le_self (sigmo_pos _).le hZ
  have hd' : c.alphaA * (1 / n) * sigmo (m.alpha g) * (1 - sigmo (m.alpha g)) * fakt dm m y * norm m x g ≤ c.alphaA / n := by
    have e : c.alphaA * (1 / n) * sigmo (m.alpha g) * (1 - sigmo (m.alpha g)) * fakt dm m y * norm m x g = c.alphaA / n * ((sigmo (m.alpha g) * norm m x g) * ((1 - sigmo (m.alpha g)) * fakt dm m y)) := by ring
    rw [e]
    refine mul_le_of_le_one_right (by positivity) ?_
    have h1 := weight_norm m hm.sigma x g
    have h2 := sigmo_lt (m.alpha g)
    have h3 := sigmo_pos (m.alpha g)
    refine mul_le_one₀ h1 (mul_nonneg (by linarith) hf.le) ?_
    exact mul_le_one₀ (by linarith) hf.le hf1
  refine ⟨mul_pos (sigmo_pos _) (hN g), ?_⟩
  calc weight (learn dm c m x y) g * norm m x g ≤ (Real.exp (c.alphaA / n) * sigmo (m.alpha g)) * norm m x g := by
        refine mul_le_mul_of_nonneg_right (hW.trans ?_) (hN g).le
        unfold rawAlpha
        refine (sigmo_add _ _ (hd g)).trans ?_
        exact mul_le_mul_of_nonneg_right (Real.exp_le_exp.2 hd') (sigmo_pos _).le
    _ = Real.exp (c.alphaA / n) * (weight m g * norm m x g) := by unfold weight; ring
    _ ≤ Real.exp (c.alphaA / n) := mul_le_of_le_one_right (Real.exp_pos _).le (weight_norm m hm.sigma x g)

theorem good_learn (hn : 2 ≤ n) (dm : Bool) (c : Rates) (hA : 0 ≤ c.alphaA) (hS : 0 ≤ c.alphaS) (hS1 : c.alphaS * Real.exp (c.alphaA / n) < 1) (m : Mix n) (hm : Good m) (x y : ℝ) : Good (learn dm c m x y) := by
  have : NeZero n := ⟨by omega⟩
  refine ⟨fun g => ?_, (score_lt dm m hm.best y).1, (weights_learn hn dm c m x y).ge⟩
  have hs := hm.sigma g
  by_cases hf : fakt dm m y > 0
  · obtain ⟨p0, p1⟩ := pull hn dm c hA m hm x y hf g
    have hf1 := (fakt_range dm m hm.best y).2
    have e : (learn dm c m x y).sigma g = m.sigma g + c.alphaS * fakt dm m y * ((x - (learn dm c m x y).mue g) ^ 2 - m.sigma g ^ 2) / m.sigma g * weight (learn dm c m x y) g * norm m x g := by
      simp only [learn, weight, if_pos hf]
    rw [e]
    generalize (learn dm c m x y).mue g = mu at *
    generalize weight (learn dm c m x y) g = w at *
    generalize norm m x g = N at *
    generalize fakt dm m y = f at *
    have e2 : m.sigma g + c.alphaS * f * ((x - mu) ^ 2 - m.sigma g ^ 2) / m.sigma g * w * N = c.alphaS * f * (w * N) * (x - mu) ^ 2 / m.sigma g + m.sigma g * (1 - c.alphaS * f * (w * N)) := by
      field_simp
      ring
    rw [e2]
    have h1 : c.alphaS * f * (w * N) < 1 := by
      refine lt_of_le_of_lt ?_ hS1
      exact mul_le_mul (mul_le_of_le_one_right hS hf1) p1 p0.le hS
    have h2 : 0 ≤ c.alphaS * f * (w * N) * (x - mu) ^ 2 / m.sigma g := by
      have := p0.le
      have hf' : 0 ≤ f := le_of_lt hf
      positivity
    have h3 : 0 < m.sigma g * (1 - c.alphaS * f * (w * N)) := mul_pos hs (by linarith)
    linarith
  · simp only [learn, if_neg hf]
    exact hs

/-- What `scan` finds. -/
theorem scan_some (m : Mix n) (rnd : ℝ) : ∀ (l : List (Fin n)) (s : ℝ), s ≤ rnd → rnd < s + (l.map (weight m)).sum →
    ∃ g l1 l2, scan m rnd l s = some g ∧ l = l1 ++ g :: l2 ∧ s + (l1.map (weight m)).sum ≤ rnd ∧ rnd < s + (l1.map (weight m)).sum + weight m g
  | [], s, h0, h => by simp at h; linarith
  | g :: gs, s, h0, h => by
    unfold scan
    split_ifs with hc
    · exact ⟨g, [], gs, rfl, rfl, by simpa using h0, by simpa [weight] using hc⟩
    · obtain ⟨k, l1, l2, h1, h2, h3, h4⟩ := scan_some m rnd gs (s + weight m g) (not_lt.1 hc) (by simpa [add_assoc] using h)
      refine ⟨k, g :: l1, l2, h1, by rw [h2]; rfl, ?_, ?_⟩ <;> simp only [List.map_cons, List.sum_cons] <;> linarith

/-- The weights of the Gaussians before the given one. -/
noncomputable def before (m : Mix n) (g : Fin n) : ℝ := ∑ k ∈ Finset.Iio g, weight m k

theorem prefix_sum (m : Mix n) (g : Fin n) (l1 l2 : List (Fin n)) (h : List.finRange n = l1 ++ g :: l2) : (l1.map (weight m)).sum = before m g := by
  have hs := List.pairwise_lt_finRange n
  rw [h, List.pairwise_append, List.pairwise_cons] at hs
  obtain ⟨s1, ⟨s2, -⟩, s3⟩ := hs
  have hnd : l1.Nodup := s1.imp fun h => ne_of_lt h
  unfold before
  rw [← List.sum_toFinset _ hnd]
  apply Finset.sum_congr _ fun _ _ => rfl
  ext k
  rw [List.mem_toFinset, Finset.mem_Iio]
  constructor
  · intro hk
    exact s3 k hk g (by simp)
  · intro hk
    have : k ∈ l1 ++ g :: l2 := h ▸ List.mem_finRange k
    rcases List.mem_append.1 this with hm | hm
    · exact hm
    · rcases List.mem_cons.1 hm with e | hm
      · exact absurd hk (by rw [e]; exact lt_irrefl _)
      · exact absurd (s2 k hm) (not_lt.2 hk.le)

theorem before_mono (m : Mix n) {g k : Fin n} (h : g < k) : before m g + weight m g ≤ before m k := by
  unfold before
  have e : Finset.Iic g = insert g (Finset.Iio g) := (Finset.Iio_insert g).symm
  have : before m g + weight m g = ∑ j ∈ Finset.Iic g, weight m j := by
    rw [e, Finset.sum_insert (by simp)]
    unfold before
    ring
  unfold before at this
  rw [this]
  exact Finset.sum_le_sum_of_subset_of_nonneg (fun j hj => by simp only [Finset.mem_Iic] at hj; simp only [Finset.mem_Iio]; exact lt_of_le_of_lt hj h) fun j _ _ => (sigmo_pos _).le

theorem scan_iff (m : Mix n) (hm : 1 ≤ ∑ g, weight m g) (rnd : ℝ) (h0 : 0 ≤ rnd) (h1 : rnd < 1) (g : Fin n) :
    scan m rnd (List.finRange n) 0 = some g ↔ before m g ≤ rnd ∧ rnd < before m g + weight m g := by
  have hs : rnd < 0 + ((List.finRange n).map (weight m)).sum := by
    rw [zero_add, ← List.ofFn_eq_map, List.sum_ofFn]
    exact lt_of_lt_of_le h1 hm
  obtain ⟨k, l1, l2, e, hl, a, b⟩ := scan_some m rnd _ 0 h0 hs
  rw [prefix_sum m k l1 l2 hl, zero_add] at a b
  rw [e, Option.some.injEq]
  constructor
  · rintro rfl
    exact ⟨a, b⟩
  · rintro ⟨c, d⟩
    rcases lt_trichotomy k g with h | h | h
    · have := before_mono m h; linarith
    · exact h
    · have := before_mono m h; linarith

theorem scan_ok (m : Mix n) (hm : 1 ≤ ∑ g, weight m g) (rnd : ℝ) (h0 : 0 ≤ rnd) (h1 : rnd < 1) : ∃ g, scan m rnd (List.finRange n) 0 = some g := by
  have hs : rnd < 0 + ((List.finRange n).map (weight m)).sum := by
    rw [zero_add, ← List.ofFn_eq_map, List.sum_ofFn]
    exact lt_of_lt_of_le h1 hm
  obtain ⟨k, _, _, e, _⟩ := scan_some m rnd _ 0 h0 hs
  exact ⟨k, e⟩

theorem good_draw (m m' : Mix n) (hm : Good m) (rnd z x : ℝ) (h : drawSample m rnd z = some (x, m')) : Good m' ∧ m'.alpha = m.alpha := by
  unfold drawSample at h
  split at h
  · exact absurd h (by simp)
  · rename_i g hg
    simp only [Option.some.injEq, Prod.mk.injEq] at h
    obtain ⟨-, rfl⟩ := h
    refine ⟨⟨fun k => ?_, hm.best, hm.sum⟩, rfl⟩
    simp only
    split_ifs
    · by_cases e : k = g
      · subst e; rw [Function.update_self]; norm_num
      · rw [Function.update_of_ne e]; exact hm.sigma k
    · exact hm.sigma k

theorem good_construct (pure : Bool) (m : Mix n) (h : construct pure n = .ok m) : 2 ≤ n ∧ Good m ∧ (∀ g, weight m g = if pure then sigmo (1 / n) else 1 / n) := by
  unfold construct at h
  by_cases hn : n ≤ 1
  · rw [if_pos hn] at h; exact absurd h (by simp)
  rw [if_neg hn] at h
  have hn2 : 2 ≤ n := by omega
  have hr : (2 : ℝ) ≤ n := by exact_mod_cast hn2
  injection h with h
  have hw : ∀ g, weight m g = if pure then sigmo (1 / n) else 1 / n := by
    intro g
    subst h
    cases pure
    · simp only [weight, Bool.false_eq_true, if_false]
      exact sigmo_inv _ (by positivity) (by rw [div_lt_one (by linarith)]; linarith)
    · simp [weight]
  refine ⟨hn2, ⟨fun g => ?_, ?_, ?_⟩, hw⟩
  · subst h
    have : (0 : ℝ) < n - 1 := by linarith
    simp only
    positivity
  · subst h
    norm_num
  · rw [Finset.sum_congr rfl fun g _ => hw g, Finset.sum_const, Finset.card_univ, Fintype.card_fin, nsmul_eq_mul]
    cases pure
    · simp only [Bool.false_eq_true, if_false]
      rw [mul_one_div_cancel (by linarith)]
    · simp only [if_true]
      have h1 : (1 : ℝ) / 2 ≤ sigmo (1 / n) := by
        have : sigmo 0 = 1 / 2 := by unfold sigmo; norm_num
        rw [← this]
        exact sigmo_mono (by positivity)
      nlinarith

theorem good_run (hn : 2 ≤ n) (c : Rates) (hA : 0 ≤ c.alphaA) (hS : 0 ≤ c.alphaS) (hS1 : c.alphaS * Real.exp (c.alphaA / n) < 1) :
    ∀ (ops : List Op) (m : Mix n), Good m → (∀ o ∈ ops, o.ok) → ∃ m', runAll c m ops = some m' ∧ Good m' ∧ (∑ g, weight m g = 1 → ∑ g, weight m' g = 1) ∧ ((∃ dm x y, Op.learn dm x y ∈ ops) → ∑ g, weight m' g = 1)
  | [], m, hm, _ => ⟨m, rfl, hm, id, fun ⟨_, _, _, h⟩ => by simp at h⟩
  | .draw rnd z :: os, m, hm, ho => by
    obtain ⟨h0, h1⟩ : 0 ≤ rnd ∧ rnd < 1 := ho (.draw rnd z) (by simp)
    obtain ⟨g, hg⟩ := scan_ok m hm.sum rnd h0 h1
    obtain ⟨p, hp⟩ : ∃ p, drawSample m rnd z = some p := by unfold drawSample; rw [hg]; exact ⟨_, rfl⟩
    obtain ⟨hgood, ha⟩ := good_draw m p.2 hm rnd z p.1 hp
    obtain ⟨m', h1, h2, h3, h4⟩ := good_run hn c hA hS hS1 os p.2 hgood fun o h => ho o (List.mem_cons_of_mem _ h)
    refine ⟨m', by simp [runAll, Op.run, hp, h1], h2, fun h => h3 (by simpa [weight, ha] using h), ?_⟩
    rintro ⟨dm, x, y, h⟩
    exact h4 ⟨dm, x, y, by simpa using h⟩
  | .learn dm x y :: os, m, hm, ho => by
    obtain ⟨m', h1, h2, h3, h4⟩ := good_run hn c hA hS hS1 os _ (good_learn hn dm c hA hS hS1 m hm x y) fun o h => ho o (List.mem_cons_of_mem _ h)
    have hw := h3 (weights_learn hn dm c m x y)
    exact ⟨m', by simp [runAll, Op.run, h1], h2, fun _ => hw, fun _ => hw⟩

end Verif.Mixture

namespace Verif.Props

open Verif.Mixture
open Verif.DataSet (Err)

variable {n : ℕ}

/-- The table of the normal density is only read where it has an entry, and every entry is the value of the
(approximately normalised) normal density at a point at most 8/1000 to the left of the requested one. -/
theorem C142_table (x : ℝ) (h : ¬4 ≤ |x|) : 0 ≤ tableIndex x ∧ tableIndex x < 1000 ∧
    ∃ x', x' ≤ x ∧ x < x' + 8 / 1000 ∧ stND (tableIndex x).toNat = 1 / 2.51 * Real.exp (-x' ^ 2 / 2) := by
  obtain ⟨h1, h2⟩ := abs_lt.1 (not_le.1 h)
  have h3 : 0 ≤ (x + 4) / 8 * 1000 := by linarith
  have e : tableIndex x = ⌊(x + 4) / 8 * 1000⌋ := if_pos h3
  have h0 : 0 ≤ tableIndex x := by rw [e]; exact Int.floor_nonneg.2 h3
  refine ⟨h0, by rw [e, Int.floor_lt]; push_cast; linarith, -4 + (tableIndex x : ℝ) * 8 / 1000, ?_, ?_, ?_⟩
  · have := Int.floor_le ((x + 4) / 8 * 1000)
    rw [e]; linarith
  · have := Int.lt_floor_add_one ((x + 4) / 8 * 1000)
    rw [e]; linarith
  · unfold stND
    have : ((tableIndex x).toNat : ℝ) = ((tableIndex x : ℤ) : ℝ) := by
      have := Int.toNat_of_nonneg h0
      exact_mod_cast congrArg (Int.cast : ℤ → ℝ) this
    rw [this]
    congr 2
    ring

example : ¬4 ≤ |(1.5 : ℝ)| := by norm_num [abs_of_pos]

/-- The density of a Gaussian is a constant from four deviations on, and closer to its center the (approximately normalised) normal density at a
point at most 8/1000 deviations to the left. -/
theorem C142_density (x mue sig : ℝ) : (4 ≤ |(x - mue) / sig| → getStND x mue sig = 0.000000001) ∧
    (|(x - mue) / sig| < 4 → ∃ x', x' ≤ (x - mue) / sig ∧ (x - mue) / sig < x' + 8 / 1000 ∧
      getStND x mue sig = 1 / 2.51 * Real.exp (-x' ^ 2 / 2) / sig) := by
  constructor
  · intro h
    exact if_pos h
  · intro h
    obtain ⟨-, -, x', h1, h2, h3⟩ := C142_table _ (not_le.2 h)
    refine ⟨x', h1, h2, ?_⟩
    rw [← h3]
    exact if_neg (not_le.2 h)

/-- With positive step sizes that are not too large (the defaults are 0.02), whatever is drawn and learned in
whatever order, no operation fails, the weights are positive and sum to one, all standard deviations stay positive and
the best reward stays above the baseline. -/
theorem C142_invariant (c : Rates) (hA : 0 ≤ c.alphaA) (hS : 0 ≤ c.alphaS) (hS1 : c.alphaS * Real.exp (c.alphaA / n) < 1) (m : Mix n) (hm : construct false n = .ok m) (ops : List Op) (ho : ∀ o ∈ ops, o.ok) :
    ∃ m', runAll c m ops = some m' ∧ (∀ g, 0 < weight m' g) ∧ ∑ g, weight m' g = 1 ∧ (∀ g, 0 < m'.sigma g) ∧ m'.baseline < m'.best := by
  obtain ⟨hn, hg, hw⟩ := good_construct false m hm
  obtain ⟨m', h1, h2, h3, -⟩ := good_run hn c hA hS hS1 ops m hg ho
  refine ⟨m', h1, fun g => sigmo_pos _, h3 ?_, h2.sigma, h2.best⟩
  rw [Finset.sum_congr rfl fun g _ => hw g]
  have : (n : ℝ) ≠ 0 := by
    have : n ≠ 0 := by omega
    exact_mod_cast this
  simp [this]

example : (0.02 : ℝ) * Real.exp (0.02 / (10 : ℕ)) < 1 := by
  have h : Real.exp (0.02 / (10 : ℕ)) ≤ Real.exp 1 := Real.exp_le_exp.2 (by norm_num)
  have := Real.exp_one_lt_d9
  linarith
example : ∃ m, construct false 10 = .ok m := ⟨_, by unfold construct; rw [if_neg (by norm_num)]⟩
example : ∀ o ∈ [Op.draw 0.3 (-1), .learn true 2 0.4, .learn false 1 3, .draw 0 0], o.ok := by simp [Op.ok]; norm_num

/-- In any state with positive weights whose sum is one, each Gaussian is drawn with a probability equal to its weight, and
the sample is `mue + sigma * z` for the standard normal number `z`, with a standard deviation of at least `10⁻⁶`;
nothing but that standard deviation is changed. -/
theorem C142_draw (m : Mix n) (hm : ∑ g, weight m g = 1) (g : Fin n) :
    MeasureTheory.volume {rnd : ℝ | (0 ≤ rnd ∧ rnd < 1) ∧ ∀ z, ∃ m', drawSample m rnd z = some (m.mue g + max (m.sigma g) 0.000001 * z, m') ∧ m' = { m with sigma := Function.update m.sigma g (max (m.sigma g) 0.000001) } ∧ before m g ≤ rnd ∧ rnd < before m g + weight m g} = ENNReal.ofReal (weight m g) ∧
    ∀ rnd, 0 ≤ rnd → rnd < 1 → ∃! k, before m k ≤ rnd ∧ rnd < before m k + weight m k := by
  have hle : before m g + weight m g ≤ 1 := by
    rw [← hm]
    unfold before
    have : Finset.Iic g = insert g (Finset.Iio g) := (Finset.Iio_insert g).symm
    have e : (∑ k ∈ Finset.Iio g, weight m k) + weight m g = ∑ k ∈ Finset.Iic g, weight m k := by
      rw [this, Finset.sum_insert (by simp)]; ring
    rw [e]
    exact Finset.sum_le_sum_of_subset_of_nonneg (Finset.subset_univ _) fun j _ _ => (sigmo_pos _).le
  have h0 : 0 ≤ before m g := Finset.sum_nonneg fun j _ => (sigmo_pos _).le
  constructor
  · have e : {rnd : ℝ | (0 ≤ rnd ∧ rnd < 1) ∧ ∀ z, ∃ m', drawSample m rnd z = some (m.mue g + max (m.sigma g) 0.000001 * z, m') ∧ m' = { m with sigma := Function.update m.sigma g (max (m.sigma g) 0.000001) } ∧ before m g ≤ rnd ∧ rnd < before m g + weight m g} = Set.Ico (before m g) (before m g + weight m g) := by
      ext rnd
      simp only [Set.mem_ofPred_eq, Set.mem_Ico]
      constructor
      · rintro ⟨-, h⟩
        obtain ⟨_, _, _, h⟩ := h 0
        exact h
      · intro h
        have hr : 0 ≤ rnd ∧ rnd < 1 := ⟨h0.trans h.1, h.2.trans_le hle⟩
        refine ⟨hr, fun z => ⟨_, ?_, rfl, h⟩⟩
        unfold drawSample
        rw [(scan_iff m hm.ge rnd hr.1 hr.2 g).2 h]
        simp only
        by_cases hs : m.sigma g < 0.000001
        · rw [if_pos hs, max_eq_right hs.le, Function.update_self]
        · rw [if_neg hs, max_eq_left (not_lt.1 hs), Function.update_eq_self]
    rw [e, Real.volume_Ico]
    congr 1
    ring
  · intro rnd a b
    obtain ⟨k, hk⟩ := scan_ok m hm.ge rnd a b
    refine ⟨k, (scan_iff m hm.ge rnd a b k).1 hk, fun j hj => ?_⟩
    have := (scan_iff m hm.ge rnd a b j).2 hj
    rw [hk] at this
    exact (Option.some.inj this).symm

example (m : Mix 10) (h : construct false 10 = .ok m) : ∑ g, weight m g = 1 := by
  obtain ⟨-, -, hw⟩ := good_construct false m h
  rw [Finset.sum_congr rfl fun g _ => hw g]
  simp

/-- In every state reached by operations, a reward is weighted by a factor between -1 and 1, which is positive exactly
for rewards above the new baseline.  With a positive factor every mean moves towards the sample and not beyond it; with a
negative factor it moves away. -/
theorem C142_means (pure : Bool) (c : Rates) (hA : 0 ≤ c.alphaA) (hS : 0 ≤ c.alphaS) (hS1 : c.alphaS * Real.exp (c.alphaA / n) < 1) (hM : 0 < c.alphaM) (hM1 : c.alphaM * Real.exp (c.alphaA / n) < 1)
    (m0 m : Mix n) (hm : construct pure n = .ok m0) (ops : List Op) (ho : ∀ o ∈ ops, o.ok) (hr : runAll c m0 ops = some m) (dm : Bool) (x y : ℝ) (g : Fin n) :
    let m' := learn dm c m x y
    (0 < fakt dm m y ↔ m'.baseline < y) ∧ -1 ≤ fakt dm m y ∧ fakt dm m y ≤ 1 ∧
      (0 < fakt dm m y → ∃ t, 0 < t ∧ t < 1 ∧ m'.mue g = (1 - t) * m.mue g + t * x) ∧
      (fakt dm m y < 0 → ∃ t, 0 < t ∧ m'.mue g = (1 + t) * m.mue g - t * x) := by
  obtain ⟨hn, hg, -⟩ := good_construct pure m0 hm
  have : NeZero n := ⟨by omega⟩
  obtain ⟨m1, h1, h2, -⟩ := good_run hn c hA hS hS1 ops m0 hg ho
  rw [hr, Option.some.injEq] at h1
  subst h1
  obtain ⟨f0, f1⟩ := fakt_range dm m h2.best y
  have hmue : (learn dm c m x y).mue g = m.mue g + c.alphaM * fakt dm m y * (x - m.mue g) * weight (learn dm c m x y) g * norm m x g := rfl
  have hwpos : 0 < weight (learn dm c m x y) g := sigmo_pos _
  have hN := norm_pos m h2.sigma x g
  refine ⟨?_, f0, f1, fun hf => ?_, fun hf => ?_⟩
  · show _ ↔ (score dm m y).1 < y
    obtain ⟨s1, s2⟩ := score_lt dm m h2.best y
    unfold fakt
    simp only
    constructor
    · intro h
      split_ifs at h
      · linarith
      · have := (div_pos_iff_of_pos_right (show 0 < (score dm m y).2 - (score dm m y).1 by linarith)).1 h
        linarith
    · intro h
      have : 0 < (y - (score dm m y).1) / ((score dm m y).2 - (score dm m y).1) := div_pos (by linarith) (by linarith)
      rw [if_neg (by linarith)]
      exact this
  · obtain ⟨p0, p1⟩ := pull hn dm c hA m h2 x y hf g
    refine ⟨c.alphaM * fakt dm m y * (weight (learn dm c m x y) g * norm m x g), by positivity, ?_, by rw [hmue]; ring⟩
    refine lt_of_le_of_lt ?_ hM1
    exact mul_le_mul (mul_le_of_le_one_right hM.le f1) p1 p0.le hM.le
  · refine ⟨c.alphaM * -fakt dm m y * (weight (learn dm c m x y) g * norm m x g), ?_, by rw [hmue]; ring⟩
    have : 0 < -fakt dm m y := by linarith
    positivity

example : (0 : ℝ) < 0.02 ∧ ∃ m : Mix 10, runAll (n := 10) ⟨0.02, 0.02, 0.02⟩ m [] = some m := ⟨by norm_num, ⟨fun _ => 0, fun _ => 0, fun _ => 1, 0, 1⟩, rfl⟩

/-- In mogpuremax.py the constructor does not transform the initial `alpha`, so that before the first learning step the weights
sum to more than one, and, whatever the number of Gaussians, a sample is always drawn from one of the first two. -/
theorem C142_negation_initial (m : Mix n) (h : construct true n = .ok m) :
    1 < ∑ g, weight m g ∧ ∀ rnd, 0 ≤ rnd → rnd < 1 → ∃ g : Fin n, g.val < 2 ∧ ∀ z, ∃ m', drawSample m rnd z = some (m.mue g + max (m.sigma g) 0.000001 * z, m') := by
  obtain ⟨hn, hg, hw⟩ := good_construct true m h
  have hr : (2 : ℝ) ≤ n := by exact_mod_cast hn
  have h1 : (1 : ℝ) / 2 < sigmo (1 / n) := by
    unfold sigmo
    apply one_div_lt_one_div_of_lt (by positivity)
    have : Real.exp (-1 * (1 / n)) < 1 := by
      refine Real.exp_lt_one_iff.2 ?_
      have : (0 : ℝ) < 1 / n := by positivity
      linarith
    linarith
  simp only [if_true] at hw
  constructor
  · rw [Finset.sum_congr rfl fun g _ => hw g, Finset.sum_const, Finset.card_univ, Fintype.card_fin, nsmul_eq_mul]
    nlinarith
  · intro rnd h0 hlt
    obtain ⟨g, hs⟩ := scan_ok m hg.sum rnd h0 hlt
    have hb := (scan_iff m hg.sum rnd h0 hlt g).1 hs
    refine ⟨g, ?_, fun z => ?_⟩
    swap
    · unfold drawSample
      rw [hs]
      simp only
      by_cases hs : m.sigma g < 0.000001
      · rw [if_pos hs, max_eq_right hs.le, Function.update_self]; exact ⟨_, rfl⟩
      · rw [if_neg hs, max_eq_left (not_lt.1 hs)]; exact ⟨_, rfl⟩
    by_contra hge
    have e : before m g = g.val * sigmo (1 / n) := by
      unfold before
      rw [Finset.sum_congr rfl fun k _ => hw k, Finset.sum_const, Fin.card_Iio, nsmul_eq_mul]
    have : (2 : ℝ) ≤ g.val := by exact_mod_cast (show 2 ≤ g.val by omega)
    nlinarith [hb.1]

example : ∃ m, construct true 10 = .ok m := ⟨_, by unfold construct; rw [if_neg (by norm_num)]⟩

/-- From the first learning step on the weights are normalised in mogpuremax.py too, and nothing ever fails. -/
theorem C142_pure_partial (c : Rates) (hA : 0 ≤ c.alphaA) (hS : 0 ≤ c.alphaS) (hS1 : c.alphaS * Real.exp (c.alphaA / n) < 1) (m : Mix n) (hm : construct true n = .ok m) (ops : List Op) (ho : ∀ o ∈ ops, o.ok) :
    ∃ m', runAll c m ops = some m' ∧ (∀ g, 0 < m'.sigma g) ∧ m'.baseline < m'.best ∧ ((∃ dm x y, Op.learn dm x y ∈ ops) → ∑ g, weight m' g = 1) := by
  obtain ⟨hn, hg, -⟩ := good_construct true m hm
  obtain ⟨m', h1, h2, -, h4⟩ := good_run hn c hA hS hS1 ops m hg ho
  exact ⟨m', h1, h2.sigma, h2.best, h4⟩

example : ∃ dm x y, Op.learn dm x y ∈ [Op.draw 0.3 (-1), .learn true 2 0.4] := ⟨true, 2, 0.4, by simp⟩

/-- A "mixture" of a single Gaussian cannot be constructed: the number of Gaussians minus one is a divisor. -/
theorem C142_negation_single (pure : Bool) : construct pure 1 = .error .zeroDivision ∧ construct pure 0 = .error .zeroDivision := by
  constructor <;> simp [construct]

end Verif.Props
