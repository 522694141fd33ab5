import Verif.Model.FEM
import Verif.Props.Ranking
import Mathlib.LinearAlgebra.Matrix.PosDef
import Mathlib.Analysis.Convex.Hull
import Mathlib.Algebra.Order.Star.Real
import Mathlib.Analysis.Real.Sqrt
/-
C136: fitness expectation-maximization.
-/
namespace Verif.FEM
open Matrix Verif.Props

variable {n : Nat}

/-- settings that make sense: a forget factor below 1, and utilities between 0 and 1 that reach 1 (as for the default, C63) -/
structure Sane (c : Config) : Prop where
  forget : 0 ≤ c.forgetFactor ∧ c.forgetFactor < 1
  mult : c.muMultiplier = 1
  window : 0 < c.windowSize
  shaping : ∀ R : List ℝ, R.length = c.windowSize → Unit01 (c.shaping R)

theorem density_one (pdf : ℝ) : density pdf = 1 := by
  unfold density
  simp only [one_mul]
  split_ifs with h1 h2
  · exact div_self (by positivity)
  · exact div_self (by positivity)
  · have : 0 < pdf := lt_of_lt_of_le (by positivity) (not_lt.1 h2)
    exact div_self this.ne'

theorem maxOf_unit (l : List ℝ) (h : Unit01 l) : Ranking.maxOf l = 1 := by
  have hne : l ≠ [] := List.ne_nil_of_mem h.2
  obtain ⟨h1, h2⟩ := Ranking.maxOf_spec l hne
  exact le_antisymm (h.1 _ h1).2 (h2 1 h.2)

theorem updateSize_range (c : Config) (hc : Sane c) (f : List ℝ) (hf : f.length = c.windowSize) (k : Nat) (pdf : ℝ) :
    0 ≤ updateSize c f k (density pdf) ∧ updateSize c f k (density pdf) ≤ c.forgetFactor := by
  have hu := hc.shaping f hf
  unfold updateSize
  rw [density_one, maxOf_unit _ hu]
  simp only [div_one, List.map_id', mul_one]
  have h01 : 0 ≤ (c.shaping f).getD k 0 ∧ (c.shaping f).getD k 0 ≤ 1 := by
    unfold List.getD
    cases h : (c.shaping f)[k]? with
    | none => simp
    | some v => exact hu.1 v (List.mem_of_getElem? h)
  exact ⟨mul_nonneg h01.1 hc.forget.1, by nlinarith [h01.2, hc.forget.1]⟩

/-- what stays true -/
structure Inv (c : Config) (A : Set (Fin n → ℝ)) (s : St n) : Prop where
  len : s.fitnesses.length = c.windowSize
  shift : s.meanShift = 0
  center : s.mu ∈ A
  pos : s.sigma.PosDef

theorem inv_step (c : Config) (hc : Sane c) (A : Set (Fin n → ℝ)) (hA : Convex ℝ A) (s : St n) (hs : Inv c A s) (d : (Fin n → ℝ) × ℝ × ℝ) (hd : d.1 ∈ A) : Inv c A (learnStep c s d) := by
  have h0 : Verif.FEM.shift c s = s := by
    unfold Verif.FEM.shift
    split_ifs
    · have := hs.shift
      cases s
      simp_all
    · rfl
  unfold learnStep
  rw [h0]
  simp only
  have hlen : (s.fitnesses.set (s.count % c.windowSize) d.2.1).length = c.windowSize := by rw [List.length_set]; exact hs.len
  obtain ⟨u0, u1⟩ := updateSize_range c hc _ hlen (s.count % c.windowSize) d.2.2
  generalize updateSize c (s.fitnesses.set (s.count % c.windowSize) d.2.1) (s.count % c.windowSize) (density d.2.2) = u at u0 u1 ⊢
  have hu : u < 1 := lt_of_le_of_lt u1 hc.forget.2
  have hmu : ∀ t : St n, t.mu ∈ A → (1 - c.muMultiplier * u) • t.mu + (c.muMultiplier * u) • d.1 ∈ A := by
    intro t ht
    rw [hc.mult, one_mul]
    exact hA ht hd (by linarith) u0 (by ring)
  have hsig : ∀ t : St n, t.sigma.PosDef → ((1 - u) • t.sigma + (u * 1.2) • vecMulVec (t.mu - d.1) (t.mu - d.1)).PosDef := by
    intro t ht
    refine (ht.smul (by linarith : (0 : ℝ) < 1 - u)).add_posSemidef ?_
    have := (Matrix.posSemidef_vecMulVec_self_star (t.mu - d.1)).smul (by positivity : (0 : ℝ) ≤ u * 1.2)
    simpa using this
  split_ifs with h1 h2 h3
  · exact ⟨hlen, hs.shift, hs.center, hs.pos⟩
  · refine ⟨hlen, ?_, hmu _ hs.center, hsig _ hs.pos⟩
    simp [updateMus, updateSigmas, hs.shift]
  · refine ⟨hlen, ?_, hmu _ hs.center, ?_⟩
    · simp [updateMus, updateSigmas, hs.shift]
    · exact hsig (updateMus c u d.1 { s with fitnesses := _, count := _ }) hs.pos
  · exact ⟨hlen, hs.shift, hs.center, hs.pos⟩

theorem inv_learn (c : Config) (hc : Sane c) (A : Set (Fin n → ℝ)) (hA : Convex ℝ A) (ds : List ((Fin n → ℝ) × ℝ × ℝ)) : ∀ s : St n, Inv c A s → (∀ d ∈ ds, d.1 ∈ A) → Inv c A (learn c s ds) := by
  induction ds with
  | nil => intro s h _; exact h
  | cons d ds ih => intro s h hd; exact ih _ (inv_step c hc A hA s h d (hd d List.mem_cons_self)) fun x hx => hd x (List.mem_cons_of_mem _ hx)

theorem inv_start (c : Config) (A : Set (Fin n → ℝ)) (lo hi : Fin n → ℝ) (cov : Matrix (Fin n) (Fin n) ℝ) (hcov : cov.PosDef) (x0 r : Fin n → ℝ) (h : (start c lo hi cov x0 r).mu ∈ A) :
    Inv c A (start c lo hi cov x0 r) := by
  refine ⟨by simp [start], rfl, h, ?_⟩
  simpa [start] using hcov

end Verif.FEM

namespace Verif.Props
open Matrix Verif.FEM

variable {n : Nat}

/-- **C136, distribution.** Whatever the samples, fitnesses and densities are, after any number of steps the covariance matrix is positive definite and the center is in the convex hull of the first center and the samples. -/
theorem C136_distribution (c : Config) (hc : Sane c) (lo hi : Fin n → ℝ) (cov : Matrix (Fin n) (Fin n) ℝ) (hcov : cov.PosDef) (x0 r : Fin n → ℝ) (ds : List ((Fin n → ℝ) × ℝ × ℝ)) :
    (learn c (start c lo hi cov x0 r) ds).sigma.PosDef ∧
    (learn c (start c lo hi cov x0 r) ds).mu ∈ convexHull ℝ ({(start c lo hi cov x0 r).mu} ∪ {x | ∃ d ∈ ds, d.1 = x}) := by
  have h := inv_learn c hc _ (convex_convexHull ℝ ({(start c lo hi cov x0 r).mu} ∪ {x | ∃ d ∈ ds, d.1 = x})) ds _
    (inv_start c _ lo hi cov hcov x0 r (subset_convexHull ℝ _ (Or.inl rfl))) (fun d hd => subset_convexHull ℝ _ (Or.inr ⟨d, hd, rfl⟩))
  exact ⟨h.pos, h.center⟩

/-- **C136, the update.** After a window of samples has been filled, each sample moves the center towards itself by a fraction `u` between 0 and the forget factor, namely the forget factor times the sample's
utility in the window. The covariance is replaced by the mean with weights `1 - u` and `u` of itself and 1.2 times the outer product of the distance to the new center. -/
theorem C136_update (c : Config) (hc : Sane c) (hm : c.mutative = false) (ha : c.anticipated = false) (s : St n) (hl : s.fitnesses.length = c.windowSize) (hw : c.windowSize ≤ s.count + 1)
    (sample : Fin n → ℝ) (fit pdf : ℝ) :
    ∃ u, u = c.forgetFactor * (c.shaping (s.fitnesses.set (s.count % c.windowSize) fit)).getD (s.count % c.windowSize) 0 ∧ 0 ≤ u ∧ u ≤ c.forgetFactor ∧
      (learnStep c s (sample, fit, pdf)).mu = s.mu + u • (sample - s.mu) ∧
      (learnStep c s (sample, fit, pdf)).sigma = (1 - u) • s.sigma + (1.2 * u) • vecMulVec ((s.mu + u • (sample - s.mu)) - sample) ((s.mu + u • (sample - s.mu)) - sample) := by
  have hlen : (s.fitnesses.set (s.count % c.windowSize) fit).length = c.windowSize := by rw [List.length_set]; exact hl
  have hu := hc.shaping _ hlen
  have e : updateSize c (s.fitnesses.set (s.count % c.windowSize) fit) (s.count % c.windowSize) (density pdf) =
      c.forgetFactor * (c.shaping (s.fitnesses.set (s.count % c.windowSize) fit)).getD (s.count % c.windowSize) 0 := by
    unfold updateSize
    rw [density_one, maxOf_unit _ hu]
    simp only [div_one, List.map_id', mul_one]
    ring
  obtain ⟨u0, u1⟩ := updateSize_range c hc _ hlen (s.count % c.windowSize) pdf
  refine ⟨_, rfl, e ▸ u0, e ▸ u1, ?_⟩
  rw [← e]
  have h0 : Verif.FEM.shift c s = s := by unfold Verif.FEM.shift; simp [ha]
  unfold learnStep
  rw [h0]
  simp only
  generalize updateSize c (s.fitnesses.set (s.count % c.windowSize) fit) (s.count % c.windowSize) (density pdf) = u at u0 u1 ⊢
  rw [if_neg (by omega)]
  have emu : ∀ x : Fin n → ℝ, (1 - c.muMultiplier * u) • x + (c.muMultiplier * u) • sample = x + u • (sample - x) := by
    intro x
    rw [hc.mult]
    ext i
    simp
    ring
  by_cases hp : 0 < u
  · rw [if_pos hp, hm]
    simp only [Bool.false_eq_true, if_false, updateSigmas, updateMus, emu]
    exact ⟨trivial, by rw [mul_comm u]⟩
  · have : u = 0 := le_antisymm (not_lt.1 hp) u0
    rw [if_neg hp, this]
    simp

/-- **C136, start.** The first center is in the given range. -/
theorem C136_start (c : Config) (lo hi : Fin n → ℝ) (h : ∀ i, lo i ≤ hi i) (cov : Matrix (Fin n) (Fin n) ℝ) (x0 r : Fin n → ℝ) (hr : ∀ i, 0 ≤ r i ∧ r i ≤ 1) (i : Fin n) :
    lo i ≤ (start c lo hi cov x0 r).mu i ∧ (start c lo hi cov x0 r).mu i ≤ hi i := by
  have := h i
  obtain ⟨h1, h2⟩ := hr i
  constructor
  · show lo i ≤ r i * (hi i - lo i) + lo i
    nlinarith
  · show r i * (hi i - lo i) + lo i ≤ hi i
    nlinarith

/-- **C136 violated: the initial point** is not where the search starts: the whole distribution, now and after any steps, is the same for all initial points. -/
theorem C136_negation_start (c : Config) (lo hi : Fin n → ℝ) (cov : Matrix (Fin n) (Fin n) ℝ) (x0 x0' r : Fin n → ℝ) (ds : List ((Fin n → ℝ) × ℝ × ℝ)) :
    learn c (start c lo hi cov x0 r) ds = learn c (start c lo hi cov x0' r) ds := rfl

/-- **C136 violated: the anticipated mean shift.** The option `useAnticipatedMeanShift` has no effect at all: in every step the shift that is added is zero, because it is computed from the center and the center itself. -/
theorem C136_negation_shift (c : Config) (hc : Sane c) (lo hi : Fin n → ℝ) (cov : Matrix (Fin n) (Fin n) ℝ) (hcov : cov.PosDef) (x0 r : Fin n → ℝ) (ds : List ((Fin n → ℝ) × ℝ × ℝ)) :
    (learn c (start c lo hi cov x0 r) ds).meanShift = 0 ∧
    (learn { c with anticipated := true } (start c lo hi cov x0 r) ds).mu = (learn { c with anticipated := false } (start c lo hi cov x0 r) ds).mu ∧
    (learn { c with anticipated := true } (start c lo hi cov x0 r) ds).sigma = (learn { c with anticipated := false } (start c lo hi cov x0 r) ds).sigma := by
  have h := inv_learn c hc Set.univ convex_univ ds _ (inv_start c _ lo hi cov hcov x0 r trivial) (fun _ _ => trivial)
  refine ⟨h.shift, ?_⟩
  have key : ∀ (ds : List ((Fin n → ℝ) × ℝ × ℝ)) (s : St n), s.meanShift = 0 → learn { c with anticipated := true } s ds = learn { c with anticipated := false } s ds := by
    intro ds
    induction ds with
    | nil => intros; rfl
    | cons d ds ih =>
      intro s hs
      have h1 : learnStep { c with anticipated := true } s d = learnStep { c with anticipated := false } s d ∧ (learnStep { c with anticipated := false } s d).meanShift = 0 := by
        have e1 : Verif.FEM.shift { c with anticipated := true } s = s := by
          unfold Verif.FEM.shift
          split_ifs
          · cases s
            simp_all
          · rfl
        have e2 : Verif.FEM.shift { c with anticipated := false } s = s := by unfold Verif.FEM.shift; simp
        have e3 : ∀ u x (t : St n), t.meanShift = 0 → updateMus { c with anticipated := true } u x t = updateMus { c with anticipated := false } u x t := by
          intro u x t ht
          unfold updateMus
          simp [ht]
        unfold learnStep
        rw [e1, e2]
        simp only
        have e4 : ∀ f k p, updateSize { c with anticipated := true } f k p = updateSize { c with anticipated := false } f k p := fun _ _ _ => rfl
        rw [e4]
        constructor
        · generalize updateSize { c with anticipated := false } _ _ _ = u
          have m1 := e3 u d.1 (updateSigmas u d.1 { s with fitnesses := s.fitnesses.set (s.count % c.windowSize) d.2.1, count := s.count + 1 }) hs
          have m2 := e3 u d.1 { s with fitnesses := s.fitnesses.set (s.count % c.windowSize) d.2.1, count := s.count + 1 } hs
          split_ifs
          · rfl
          · exact m1
          · exact congrArg (updateSigmas u d.1) m2
          · rfl
        · split_ifs <;> simp [updateMus, updateSigmas, hs]
      rw [learn, learn, h1.1]
      exact ih _ h1.2
  have := key ds (start c lo hi cov x0 r) rfl
  rw [this]
  exact ⟨rfl, rfl⟩

/-- **C136, units.** In one dimension, with a covariance: if center and deviation are measured in other units, so are the sample and the updated center and deviation. -/
theorem C136_units (q u mu sigma g : ℝ) (hq : 0 < q) :
    sample1 false Real.sqrt (q * mu) (q ^ 2 * sigma) g = q * sample1 false Real.sqrt mu sigma g ∧
    ∀ x, update1 false u (q * mu) (q ^ 2 * sigma) (q * x) = (q * (update1 false u mu sigma x).1, q ^ 2 * (update1 false u mu sigma x).2) := by
  constructor
  · simp only [sample1, Bool.false_eq_true, if_false]
    rw [Real.sqrt_mul (by positivity), Real.sqrt_sq hq.le]
    ring
  · intro x
    simp only [update1, Bool.false_eq_true, if_false, Prod.mk.injEq]
    constructor <;> ring

/-- **C136 violated: units with `diagonalOnly`.** Here sigma is used as a standard deviation when samples are drawn, but updated with squared distances as if it were a variance: with other units (in which the same sample is
drawn) the update gives another distribution. -/
theorem C136_negation_diagonal (q u mu sigma g : ℝ) (hq : q ≠ 0) (hq1 : q ≠ 1) (hu0 : u ≠ 0) (hu1 : u ≠ 1) (hs : sigma ≠ 0) (hg : g ≠ 0) :
    sample1 true Real.sqrt (q * mu) (q * sigma) g = q * sample1 true Real.sqrt mu sigma g ∧
    (update1 true u (q * mu) (q * sigma) (q * sample1 true Real.sqrt mu sigma g)).2 ≠ q * (update1 true u mu sigma (sample1 true Real.sqrt mu sigma g)).2 := by
  simp only [sample1, update1, if_true]
  refine ⟨by ring, ?_⟩
  intro h
  have : u * (1 - u) ^ 2 * sigma ^ 2 * g ^ 2 * (q * (q - 1)) = 0 := by linear_combination h
  have h1 : (1 - u) ≠ 0 := sub_ne_zero.2 (Ne.symm hu1)
  have h2 : q - 1 ≠ 0 := sub_ne_zero.2 hq1
  have := mul_ne_zero (mul_ne_zero (mul_ne_zero (mul_ne_zero hu0 (pow_ne_zero 2 h1)) (pow_ne_zero 2 hs)) (pow_ne_zero 2 hg)) (mul_ne_zero hq h2)
  contradiction

/-- the default settings -/
noncomputable def femDefault : Config := { forgetFactor := 0.1, muMultiplier := 1, windowSize := 50, shaping := Ranking.topLinear 0.5, mutative := false, anticipated := false }

/-- the default settings make sense, and the default covariance is positive definite -/
example : Sane femDefault ∧ (1 : Matrix (Fin 2) (Fin 2) ℝ).PosDef :=
  ⟨⟨by simp only [femDefault]; norm_num, rfl, by simp [femDefault], fun R hR => (C63_topLinear 0.5 R (by rw [hR]; simp only [femDefault]; norm_num)).2⟩, Matrix.PosDef.one⟩

end Verif.Props
