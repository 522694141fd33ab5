import Verif.Model.FEMOptions
import Verif.Spec.FEMOptions
import Verif.Props.FEM
import Mathlib.Analysis.Convex.Combination
import Mathlib.Data.List.GetD
/-
C180: the options of fitness expectation-maximization.
-/
namespace Verif.FEM
open Matrix Verif.Props Verif.Spec

variable {n : Nat}

/-- settings that make sense, with the default ranking function -/
structure SaneSearch (c : Config) : Prop where
  forget : 0 < c.forgetFactor ∧ c.forgetFactor < 1
  mult : c.muMultiplier = 1
  window : 2 ≤ c.windowSize

theorem argmax_lt (l : List ℝ) (hl : l ≠ []) : Ranking.argmax l < l.length := by
  have aux : ∀ (l : List ℝ) (a b : Nat) (x : ℝ), b < a → (l.foldl (fun (s : Nat × Nat × ℝ) v => if s.2.2 < v then (s.1 + 1, s.1, v) else (s.1 + 1, s.2)) (a, b, x)).2.1 < a + l.length := by
    intro l
    induction l with
    | nil => intro a b x h; simpa using h
    | cons y l ih =>
      intro a b x h
      rw [List.foldl_cons, List.length_cons]
      dsimp only
      split_ifs with h'
      · exact lt_of_lt_of_eq (ih (a + 1) a y (by omega)) (by omega)
      · exact lt_of_lt_of_eq (ih (a + 1) b x (by omega)) (by omega)
  cases l with
  | nil => exact absurd rfl hl
  | cons x l =>
    rw [Ranking.argmax, List.length_cons]
    exact lt_of_lt_of_eq (aux l 1 0 x (by omega)) (by omega)

theorem argmax_first (x : ℝ) (l : List ℝ) (h : ∀ y ∈ l, y ≤ x) : Ranking.argmax (x :: l) = 0 := by
  have aux : ∀ (l : List ℝ) (a : Nat), (∀ y ∈ l, y ≤ x) → (l.foldl (fun (s : Nat × Nat × ℝ) v => if s.2.2 < v then (s.1 + 1, s.1, v) else (s.1 + 1, s.2)) (a, 0, x)).2.1 = 0 := by
    intro l
    induction l with
    | nil => intro a _; rfl
    | cons y l ih =>
      intro a h
      rw [List.foldl_cons]
      dsimp only
      rw [if_neg (not_lt.2 (h y List.mem_cons_self))]
      exact ih _ fun z hz => h z (List.mem_cons_of_mem _ hz)
  exact aux l 1 h

theorem possible_ne (w : Nat) (hw : 2 ≤ w) : possibleParameters w ≠ [] := by
  intro h
  have := congrArg List.length h
  simp [possibleParameters] at this
  omega

/-- the adapted fraction is one that makes sense -/
theorem adapted_large (w : Nat) (hw : 2 ≤ w) (pdfs f : List ℝ) : 1 < (w : ℝ) * adapted w pdfs f := by
  have hne := possible_ne w hw
  have hlt := argmax_lt ((possibleParameters w).map fun p => matchValue pdfs (Ranking.topLinear p f)) (by simpa using hne)
  rw [List.length_map] at hlt
  have hm : adapted w pdfs f ∈ possibleParameters w := by
    unfold adapted
    rw [List.getD_eq_getElem _ _ hlt]
    exact List.getElem_mem _
  obtain ⟨i, _, hi⟩ := List.mem_map.1 hm
  have h0 : (0 : ℝ) < w := by exact_mod_cast (by omega : 0 < w)
  rw [← hi, mul_div_cancel₀ _ h0.ne']
  have : (0 : ℝ) ≤ i := Nat.cast_nonneg i
  linarith

/-- what stays true, whatever the options are; `m` is 0 between the production of a sample and the update, and 1 otherwise -/
structure SInv (m : Nat) (c : Config) (A : Set (Fin n → ℝ)) (e0 : (Fin n → ℝ) × ℝ) (s : Search n) : Prop where
  len : s.dist.fitnesses.length = c.windowSize
  wlen : s.window.length = c.windowSize
  shift : s.dist.meanShift = 0
  center : s.dist.mu ∈ A
  pos : s.dist.sigma.PosDef
  best : BestOf (e0 :: s.all) s.best
  inA : ∀ e ∈ e0 :: s.all, e.1 ∈ A
  count : s.all.length = s.dist.count
  sizes : ∀ z ∈ s.sizes, 0 ≤ z
  slen : s.sizes.length = s.dist.count + m - c.windowSize
  fits : ∀ i, i < c.windowSize → i < s.dist.count → ∃ e ∈ s.all, s.dist.fitnesses[i]? = some e.2

theorem shift_zero (c : Config) (s : St n) (h : s.meanShift = 0) : Verif.FEM.shift c s = s := by
  unfold Verif.FEM.shift
  split_ifs
  · cases s
    simp_all
  · rfl

theorem shifted_zero (c : Config) (o : Options) (s : St n) (h : s.meanShift = 0) : shifted c o s = s := by
  unfold shifted
  rw [shift_zero c s h, ite_self]

theorem better_best {X : Fin n → ℝ} (l : List ((Fin n → ℝ) × ℝ)) (e0 b : (Fin n → ℝ) × ℝ) (h : BestOf (e0 :: l) b) (v : ℝ) : BestOf (e0 :: (X, v) :: l) (better b (X, v)) := by
  unfold better
  split_ifs with h'
  · refine ⟨by simp, fun e he => ?_⟩
    rcases List.mem_cons.1 he with rfl | he
    · exact (h.2 _ List.mem_cons_self).trans h'
    · rcases List.mem_cons.1 he with rfl | he
      · exact le_rfl
      · exact (h.2 e (List.mem_cons_of_mem _ he)).trans h'
  · refine ⟨?_, fun e he => ?_⟩
    · rcases List.mem_cons.1 h.1 with h1 | h1
      · rw [h1]; exact List.mem_cons_self
      · exact List.mem_cons_of_mem _ (List.mem_cons_of_mem _ h1)
    · rcases List.mem_cons.1 he with rfl | he
      · exact h.2 _ List.mem_cons_self
      · rcases List.mem_cons.1 he with rfl | he
        · exact (not_le.1 h').le
        · exact h.2 e (List.mem_cons_of_mem _ he)

theorem chosen_mem (c : Config) (o : Options) (A : Set (Fin n → ℝ)) (e0 : (Fin n → ℝ) × ℝ) (s : Search n) (hs : SInv 1 c A e0 s) (d : Fin n → ℝ) (hd : d ∈ A) : chosen c o s d ∈ A := by
  unfold chosen
  split_ifs
  · exact hs.inA _ hs.best.1
  · exact hd

theorem produce_inv (c : Config) (o : Options) (A : Set (Fin n → ℝ)) (e0 : (Fin n → ℝ) × ℝ) (s : Search n) (hs : SInv 1 c A e0 s) (d : Fin n → ℝ) (hd : d ∈ A) (eval : (Fin n → ℝ) → ℝ) :
    SInv 0 c A e0 (produce c o s d eval) := by
  unfold produce
  rw [shifted_zero c o _ hs.shift]
  dsimp only
  refine ⟨by rw [List.length_set, hs.len], by rw [List.length_set, hs.wlen], hs.shift, hs.center, hs.pos, better_best _ _ _ hs.best _, ?_, by rw [List.length_cons, hs.count], hs.sizes, hs.slen, ?_⟩
  · intro e he
    rcases List.mem_cons.1 he with rfl | he
    · exact hs.inA _ List.mem_cons_self
    · rcases List.mem_cons.1 he with rfl | he
      · exact chosen_mem c o A e0 s hs d hd
      · exact hs.inA _ (List.mem_cons_of_mem _ he)
  · intro i hi hic
    by_cases hk : s.dist.count % c.windowSize = i
    · refine ⟨_, List.mem_cons_self, ?_⟩
      rw [List.getElem?_set, if_pos hk, if_pos (by rw [hs.len, hk]; exact hi)]
    · have : i < s.dist.count := by
        rcases lt_or_eq_of_le (Nat.lt_succ_iff.1 hic) with h | h
        · exact h
        · exact absurd (by rw [← h]; exact Nat.mod_eq_of_lt hi) hk
      obtain ⟨e, he, h⟩ := hs.fits i hi this
      refine ⟨e, List.mem_cons_of_mem _ he, ?_⟩
      rw [List.getElem?_set, if_neg hk, h]

/-- a mean with nonnegative weights, of which one is positive, is in a convex set -/
theorem mean_mem (A : Set (Fin n → ℝ)) (hA : Convex ℝ A) (w : Nat) (a : Nat → ℝ) (x : Nat → Fin n → ℝ) (ha : ∀ i < w, 0 ≤ a i) (hp : ∃ i < w, 0 < a i) (hx : ∀ i < w, x i ∈ A) :
    (((List.range w).map a).sum)⁻¹ • ((List.range w).map fun i => a i • x i).sum ∈ A := by
  have e1 : ((List.range w).map a).sum = ∑ i ∈ Finset.range w, a i := by
    rw [Finset.sum_eq_multiset_sum]; rfl
  have e2 : ((List.range w).map fun i => a i • x i).sum = ∑ i ∈ Finset.range w, a i • x i := by
    rw [Finset.sum_eq_multiset_sum]; rfl
  rw [e1, e2]
  refine hA.centerMass_mem (t := Finset.range w) (w := a) (z := x) (fun i hi => ha i (Finset.mem_range.1 hi)) ?_ fun i hi => hx i (Finset.mem_range.1 hi)
  obtain ⟨i, hi, h⟩ := hp
  exact Finset.sum_pos' (fun i hi => ha i (Finset.mem_range.1 hi)) ⟨i, Finset.mem_range.2 hi, h⟩

theorem sane_top (c : Config) (hc : SaneSearch c) (t : ℝ) (ht : 1 < (c.windowSize : ℝ) * t) : Sane { c with shaping := Ranking.topLinear t } :=
  ⟨⟨hc.forget.1.le, hc.forget.2⟩, hc.mult, by have := hc.window; show 0 < c.windowSize; omega, fun R hR => (C63_topLinear t R (by rw [hR]; exact ht)).2⟩

theorem move_inv (c : Config) (hc : SaneSearch c) (o : Options) (A : Set (Fin n → ℝ)) (hA : Convex ℝ A) (e0 : (Fin n → ℝ) × ℝ) (u : ℝ) (hu0 : 0 < u) (hu1 : u < 1) (x : Fin n → ℝ) (hx : x ∈ A)
    (s : Search n) (hs : SInv 1 c A e0 s) (hw : c.windowSize ≤ s.dist.count) (hl : s.sizes.head? = some u) : SInv 1 c A e0 (moveCenter c o u x s) := by
  have hm : (updateMus c u x s.dist).mu ∈ A := by
    unfold updateMus
    dsimp only
    rw [hc.mult, one_mul]
    exact hA hs.center hx (by linarith) hu0.le (by ring)
  have hmad : s.dist.count > 2 * c.windowSize → madnessMean c.windowSize s ∈ A := by
    intro hgt
    have hwin := hc.window
    unfold madnessMean
    refine mean_mem A hA c.windowSize (fun i => s.sizes.getD i 0) (fun i => (s.all.getD i (0, 0)).1) ?_ ⟨0, by omega, ?_⟩ ?_
    · intro i hi
      have h2 : i < s.sizes.length := by rw [hs.slen]; omega
      show 0 ≤ s.sizes.getD i 0
      rw [List.getD_eq_getElem _ _ h2]
      exact hs.sizes _ (List.getElem_mem _)
    · show 0 < s.sizes.getD 0 0
      cases h : s.sizes with
      | nil => rw [h] at hl; simp at hl
      | cons y l => rw [h] at hl; simp at hl; simpa [hl] using hu0
    · intro i hi
      have h2 : i < s.all.length := by rw [hs.count]; omega
      show (s.all.getD i (0, 0)).1 ∈ A
      rw [List.getD_eq_getElem _ _ h2]
      exact hs.inA _ (List.mem_cons_of_mem _ (List.getElem_mem _))
  have hshift : (updateMus c u x s.dist).meanShift = 0 := by simp [updateMus, hs.shift]
  unfold moveCenter
  dsimp only
  split_ifs with h1 h2 h2
  · exact ⟨hs.len, hs.wlen, hshift, hs.inA _ hs.best.1, hs.pos, hs.best, hs.inA, hs.count, hs.sizes, hs.slen, hs.fits⟩
  · exact ⟨hs.len, hs.wlen, hshift, hs.inA _ hs.best.1, hs.pos, hs.best, hs.inA, hs.count, hs.sizes, hs.slen, hs.fits⟩
  · exact ⟨hs.len, hs.wlen, hshift, hmad h2.2, hs.pos, hs.best, hs.inA, hs.count, hs.sizes, hs.slen, hs.fits⟩
  · exact ⟨hs.len, hs.wlen, hshift, hm, hs.pos, hs.best, hs.inA, hs.count, hs.sizes, hs.slen, hs.fits⟩

theorem sigma_inv (c : Config) (A : Set (Fin n → ℝ)) (e0 : (Fin n → ℝ) × ℝ) (u : ℝ) (hu0 : 0 < u) (hu1 : u < 1) (x : Fin n → ℝ) (s : Search n) (hs : SInv 1 c A e0 s) : SInv 1 c A e0 (moveSigma u x s) := by
  refine ⟨hs.len, hs.wlen, hs.shift, hs.center, ?_, hs.best, hs.inA, hs.count, hs.sizes, hs.slen, hs.fits⟩
  show ((1 - u) • s.dist.sigma + (u * 1.2) • vecMulVec (s.dist.mu - x) (s.dist.mu - x)).PosDef
  refine (hs.pos.smul (by linarith : (0 : ℝ) < 1 - u)).add_posSemidef ?_
  have := (Matrix.posSemidef_vecMulVec_self_star (s.dist.mu - x)).smul (by positivity : (0 : ℝ) ≤ u * 1.2)
  simpa using this

theorem updated_inv (c : Config) (hc : SaneSearch c) (o : Options) (A : Set (Fin n → ℝ)) (hA : Convex ℝ A) (e0 : (Fin n → ℝ) × ℝ) (t : ℝ) (ht : 1 < (c.windowSize : ℝ) * t) (k : Nat) (pdf : ℝ)
    (x : Fin n → ℝ) (hx : x ∈ A) (s : Search n) (hs : SInv 0 c A e0 s) (hw : c.windowSize ≤ s.dist.count) : SInv 1 c A e0 (updated c o t k pdf x s) := by
  obtain ⟨u0, u1⟩ := updateSize_range _ (sane_top c hc t ht) s.dist.fitnesses hs.len k pdf
  unfold updated
  dsimp only
  generalize updateSize { c with shaping := Ranking.topLinear t } s.dist.fitnesses k (density pdf) = u at u0 u1 ⊢
  have hu1 : u < 1 := lt_of_le_of_lt u1 hc.forget.2
  have hs' : SInv 1 c A e0 { s with sizes := u :: s.sizes } := by
    refine ⟨hs.len, hs.wlen, hs.shift, hs.center, hs.pos, hs.best, hs.inA, hs.count, ?_, ?_, hs.fits⟩
    · intro z hz
      rcases List.mem_cons.1 hz with rfl | hz
      · exact u0
      · exact hs.sizes z hz
    · show s.sizes.length + 1 = s.dist.count + 1 - c.windowSize
      rw [hs.slen]
      omega
  split_ifs with h1 h2
  · exact move_inv c hc o A hA e0 u h1 hu1 x hx _ (sigma_inv c A e0 u h1 hu1 x _ hs') hw rfl
  · exact sigma_inv c A e0 u h1 hu1 x _ (move_inv c hc o A hA e0 u h1 hu1 x hx _ hs' hw rfl)
  · exact hs'

theorem oneFifth_inv (c : Config) (o : Options) (A : Set (Fin n → ℝ)) (e0 : (Fin n → ℝ) × ℝ) (s : Search n) (hs : SInv 1 c A e0 s) : SInv 1 c A e0 (oneFifth c o s) := by
  unfold oneFifth
  dsimp only
  split_ifs
  · exact ⟨hs.len, hs.wlen, hs.shift, hs.center, hs.pos.smul (by norm_num), hs.best, hs.inA, hs.count, hs.sizes, hs.slen, hs.fits⟩
  · exact ⟨hs.len, hs.wlen, hs.shift, hs.center, hs.pos.smul (by norm_num), hs.best, hs.inA, hs.count, hs.sizes, hs.slen, hs.fits⟩
  · exact hs

theorem searchStep_inv (c : Config) (hc : SaneSearch c) (o : Options) (A : Set (Fin n → ℝ)) (hA : Convex ℝ A) (e0 : (Fin n → ℝ) × ℝ) (t : ℝ) (ht : 1 < (c.windowSize : ℝ) * t) (s : Search n)
    (hs : SInv 1 c A e0 s) (g : Given n) (hg : g.drawn ∈ A) : 1 < (c.windowSize : ℝ) * (searchStep c o t s g).1 ∧ SInv 1 c A e0 (searchStep c o t s g).2 := by
  have hp := produce_inv c o A e0 s hs g.drawn hg g.eval
  unfold searchStep
  dsimp only
  split_ifs with h1 h2
  · refine ⟨ht, hp.len, hp.wlen, hp.shift, hp.center, hp.pos, hp.best, hp.inA, hp.count, hp.sizes, ?_, hp.fits⟩
    show (produce c o s g.drawn g.eval).sizes.length = (produce c o s g.drawn g.eval).dist.count + 1 - c.windowSize
    rw [hp.slen]
    omega
  · exact ⟨adapted_large _ hc.window _ _, oneFifth_inv c o A e0 _ (updated_inv c hc o A hA e0 t ht _ _ _ (chosen_mem c o A e0 s hs _ hg) _ hp (not_lt.1 h1))⟩
  · exact ⟨ht, oneFifth_inv c o A e0 _ (updated_inv c hc o A hA e0 t ht _ _ _ (chosen_mem c o A e0 s hs _ hg) _ hp (not_lt.1 h1))⟩

theorem search_inv (c : Config) (hc : SaneSearch c) (o : Options) (A : Set (Fin n → ℝ)) (hA : Convex ℝ A) (e0 : (Fin n → ℝ) × ℝ) (gs : List (Given n)) : ∀ (s : ℝ × Search n), 1 < (c.windowSize : ℝ) * s.1 →
    SInv 1 c A e0 s.2 → (∀ g ∈ gs, g.drawn ∈ A) → 1 < (c.windowSize : ℝ) * (search c o s gs).1 ∧ SInv 1 c A e0 (search c o s gs).2 := by
  induction gs with
  | nil => intro s h1 h2 _; exact ⟨h1, h2⟩
  | cons g gs ih =>
    intro s h1 h2 h3
    have := searchStep_inv c hc o A hA e0 s.1 h1 s.2 h2 g (h3 g List.mem_cons_self)
    exact ih _ this.1 this.2 fun x hx => h3 x (List.mem_cons_of_mem _ hx)

theorem startSearch_inv (c : Config) (hc : SaneSearch c) (A : Set (Fin n → ℝ)) (lo hi : Fin n → ℝ) (cov : Matrix (Fin n) (Fin n) ℝ) (hcov : cov.PosDef) (x0 r : Fin n → ℝ) (fit0 : ℝ)
    (h : (start c lo hi cov x0 r).mu ∈ A) (hx : x0 ∈ A) : SInv 1 c A (x0, fit0) (startSearch c lo hi cov x0 r fit0) := by
  refine ⟨by simp [startSearch, start], by simp [startSearch], rfl, h, by simpa [startSearch, start] using hcov, ⟨List.mem_cons_self, ?_⟩, ?_, rfl, ?_, ?_, ?_⟩
  · intro e he
    simp [startSearch] at he
    rw [he]
    rfl
  · intro e he
    simp [startSearch] at he
    rw [he]
    exact hx
  · intro z hz
    simp [startSearch] at hz
  · have := hc.window
    simp [startSearch, start]
    omega
  · intro i _ hi
    simp [startSearch, start] at hi

theorem move_all (c : Config) (o : Options) (u : ℝ) (x : Fin n → ℝ) (s : Search n) :
    (moveCenter c o u x s).all = s.all ∧ (moveCenter c o u x s).best = s.best ∧ (moveCenter c o u x s).dist.fitnesses = s.dist.fitnesses ∧ (moveCenter c o u x s).dist.count = s.dist.count ∧
    (moveCenter c o u x s).window = s.window ∧ (moveCenter c o u x s).sizes = s.sizes := by
  unfold moveCenter
  dsimp only
  split_ifs <;> exact ⟨rfl, rfl, rfl, rfl, rfl, rfl⟩

theorem updated_all (c : Config) (o : Options) (t : ℝ) (k : Nat) (pdf : ℝ) (x : Fin n → ℝ) (s : Search n) :
    (updated c o t k pdf x s).all = s.all ∧ (updated c o t k pdf x s).best = s.best ∧ (updated c o t k pdf x s).dist.fitnesses = s.dist.fitnesses ∧ (updated c o t k pdf x s).dist.count = s.dist.count ∧
    (updated c o t k pdf x s).window = s.window := by
  unfold updated
  dsimp only
  split_ifs
  · obtain ⟨h1, h2, h3, h4, h5, _⟩ := move_all c o _ x (moveSigma (updateSize { c with shaping := Ranking.topLinear t } s.dist.fitnesses k (density pdf)) x
      { s with sizes := updateSize { c with shaping := Ranking.topLinear t } s.dist.fitnesses k (density pdf) :: s.sizes })
    exact ⟨h1, h2, h3, h4, h5⟩
  · obtain ⟨h1, h2, h3, h4, h5, _⟩ := move_all c o (updateSize { c with shaping := Ranking.topLinear t } s.dist.fitnesses k (density pdf)) x
      { s with sizes := updateSize { c with shaping := Ranking.topLinear t } s.dist.fitnesses k (density pdf) :: s.sizes }
    exact ⟨h1, h2, h3, h4, h5⟩
  · exact ⟨rfl, rfl, rfl, rfl, rfl⟩

theorem oneFifth_all (c : Config) (o : Options) (s : Search n) :
    (oneFifth c o s).all = s.all ∧ (oneFifth c o s).best = s.best ∧ (oneFifth c o s).dist.mu = s.dist.mu ∧ (oneFifth c o s).dist.count = s.dist.count ∧ (oneFifth c o s).sizes = s.sizes := by
  unfold oneFifth
  dsimp only
  split_ifs <;> exact ⟨rfl, rfl, rfl, rfl, rfl⟩

theorem produce_count (c : Config) (o : Options) (s : Search n) (d : Fin n → ℝ) (eval : (Fin n → ℝ) → ℝ) : (produce c o s d eval).dist.count = s.dist.count + 1 := by
  unfold produce shifted Verif.FEM.shift
  dsimp only
  split_ifs <;> rfl

theorem step_all (c : Config) (o : Options) (t : ℝ) (s : Search n) (g : Given n) :
    (searchStep c o t s g).2.all = (chosen c o s g.drawn, g.eval (chosen c o s g.drawn)) :: s.all ∧ (searchStep c o t s g).2.best = better s.best (chosen c o s g.drawn, g.eval (chosen c o s g.drawn)) ∧
    (searchStep c o t s g).2.dist.count = s.dist.count + 1 := by
  unfold searchStep
  dsimp only
  split_ifs
  · exact ⟨rfl, rfl, produce_count ..⟩
  all_goals
    obtain ⟨h1, h2, _, h4, _⟩ := oneFifth_all c o (updated c o t (s.dist.count % c.windowSize) g.pdf (chosen c o s g.drawn) (produce c o s g.drawn g.eval))
    obtain ⟨k1, k2, _, k4, _⟩ := updated_all c o t (s.dist.count % c.windowSize) g.pdf (chosen c o s g.drawn) (produce c o s g.drawn g.eval)
    exact ⟨h1.trans k1, h2.trans k2, h4.trans (k4.trans (produce_count ..))⟩

/-- the best of a full window has utility 1 -/
theorem topLinear_best (t : ℝ) (f : List ℝ) (ht : 1 < (f.length : ℝ) * t) (k : Nat) (v : ℝ) (hk : f[k]? = some v) (h : ∀ i w, i ≠ k → f[i]? = some w → w < v) : (Ranking.topLinear t f).getD k 0 = 1 := by
  obtain ⟨⟨hlen, hkeep⟩, hunit, hone⟩ := C63_topLinear t f ht
  have hkl : k < (Ranking.topLinear t f).length := by
    rw [hlen]
    exact (List.getElem?_eq_some_iff.1 hk).1
  rw [List.getD_eq_getElem _ _ hkl]
  obtain ⟨j, hj, hj1⟩ := List.mem_iff_getElem.1 hone
  by_cases hjk : j = k
  · subst hjk; exact hj1
  · have hjf : j < f.length := by rw [← hlen]; exact hj
    have hlt := h j _ hjk (List.getElem?_eq_getElem hjf)
    have := hkeep j k _ v 1 _ (List.getElem?_eq_getElem hjf) hk hlt (by rw [List.getElem?_eq_getElem hj, hj1]) (List.getElem?_eq_getElem hkl)
    exact le_antisymm (hunit _ (List.getElem_mem _)).2 this

theorem updateSize_eq (c : Config) (t : ℝ) (f : List ℝ) (ht : 1 < (f.length : ℝ) * t) (k : Nat) (pdf : ℝ) :
    updateSize { c with shaping := Ranking.topLinear t } f k (density pdf) = (Ranking.topLinear t f).getD k 0 * c.forgetFactor := by
  unfold updateSize
  rw [density_one, maxOf_unit _ (C63_topLinear t f ht).2]
  simp only [div_one, List.map_id', mul_one]

/-- with elitism, an update puts the center at the best point -/
theorem updated_elite (c : Config) (o : Options) (ho : o.elitism = true) (t : ℝ) (k : Nat) (pdf : ℝ) (x : Fin n → ℝ) (s : Search n)
    (hu : 0 < updateSize { c with shaping := Ranking.topLinear t } s.dist.fitnesses k (density pdf)) : (updated c o t k pdf x s).dist.mu = s.best.1 := by
  unfold updated
  dsimp only
  rw [if_pos hu]
  unfold moveSigma moveCenter updateSigmas
  simp only [ho, if_true]
  split_ifs <;> rfl

theorem updated_still (c : Config) (o : Options) (t : ℝ) (k : Nat) (pdf : ℝ) (x : Fin n → ℝ) (s : Search n)
    (hu : ¬ 0 < updateSize { c with shaping := Ranking.topLinear t } s.dist.fitnesses k (density pdf)) : (updated c o t k pdf x s).dist = s.dist := by
  unfold updated
  dsimp only
  rw [if_neg hu]

theorem step_mu (c : Config) (o : Options) (t : ℝ) (s : Search n) (g : Given n) (hw : c.windowSize ≤ s.dist.count + 1) :
    (searchStep c o t s g).2.dist.mu = (updated c o t (s.dist.count % c.windowSize) g.pdf (chosen c o s g.drawn) (produce c o s g.drawn g.eval)).dist.mu := by
  unfold searchStep
  dsimp only
  rw [if_neg (by rw [produce_count]; omega)]
  exact (oneFifth_all ..).2.2.1

theorem produce_fitnesses (c : Config) (o : Options) (A : Set (Fin n → ℝ)) (e0 : (Fin n → ℝ) × ℝ) (s : Search n) (hs : SInv 1 c A e0 s) (d : Fin n → ℝ) (eval : (Fin n → ℝ) → ℝ) :
    (produce c o s d eval).dist.fitnesses = s.dist.fitnesses.set (s.dist.count % c.windowSize) (eval (chosen c o s d)) ∧ (produce c o s d eval).dist.mu = s.dist.mu := by
  unfold produce
  rw [shifted_zero c o _ hs.shift]
  exact ⟨rfl, rfl⟩

/-- with elitism, the center keeps being a best point -/
theorem elite_step (c : Config) (hc : SaneSearch c) (o : Options) (ho : o.elitism = true) (A : Set (Fin n → ℝ)) (e0 : (Fin n → ℝ) × ℝ) (t : ℝ) (ht : 1 < (c.windowSize : ℝ) * t) (s : Search n)
    (hs : SInv 1 c A e0 s) (g : Given n) (hw : c.windowSize ≤ s.dist.count) (h : ∃ v, BestOf (e0 :: s.all) (s.dist.mu, v)) :
    ∃ v, BestOf (e0 :: (searchStep c o t s g).2.all) ((searchStep c o t s g).2.dist.mu, v) := by
  obtain ⟨ha, hb, hcnt⟩ := step_all c o t s g
  obtain ⟨hf, hmu⟩ := produce_fitnesses c o A e0 s hs g.drawn g.eval
  have hbest := better_best (X := chosen c o s g.drawn) s.all e0 s.best hs.best (g.eval (chosen c o s g.drawn))
  rw [step_mu c o t s g (by omega), ha]
  have hk : s.dist.count % c.windowSize < c.windowSize := Nat.mod_lt _ (by have := hc.window; omega)
  by_cases hu : 0 < updateSize { c with shaping := Ranking.topLinear t } (produce c o s g.drawn g.eval).dist.fitnesses (s.dist.count % c.windowSize) (density g.pdf)
  · rw [updated_elite c o ho t _ g.pdf _ _ hu]
    exact ⟨_, hbest⟩
  · rw [updated_still c o t _ g.pdf _ _ hu, hmu]
    have hle : g.eval (chosen c o s g.drawn) ≤ s.best.2 := by
      by_contra hlt
      rw [not_le] at hlt
      refine hu ?_
      have hl : (produce c o s g.drawn g.eval).dist.fitnesses.length = c.windowSize := by rw [hf, List.length_set, hs.len]
      rw [updateSize_eq c t _ (by rw [hl]; exact ht), hf, topLinear_best t _ (by rw [List.length_set, hs.len]; exact ht) _ (g.eval (chosen c o s g.drawn)), one_mul]
      · exact hc.forget.1
      · rw [List.getElem?_set, if_pos rfl, if_pos (by rw [hs.len]; exact hk)]
      · intro i w hi hiw
        rw [List.getElem?_set, if_neg (Ne.symm hi)] at hiw
        have hil : i < c.windowSize := by rw [← hs.len]; exact (List.getElem?_eq_some_iff.1 hiw).1
        obtain ⟨e, he, h'⟩ := hs.fits i hil (by omega)
        rw [h'] at hiw
        cases hiw
        exact lt_of_le_of_lt (hs.best.2 e (List.mem_cons_of_mem _ he)) hlt
    obtain ⟨v, hv, hmax⟩ := h
    have hbv : s.best.2 ≤ v := hmax _ hs.best.1
    refine ⟨v, ?_, ?_⟩
    · rcases List.mem_cons.1 hv with h1 | h1
      · rw [h1]; exact List.mem_cons_self
      · exact List.mem_cons_of_mem _ (List.mem_cons_of_mem _ h1)
    · intro e he
      rcases List.mem_cons.1 he with rfl | he
      · exact hmax _ List.mem_cons_self
      · rcases List.mem_cons.1 he with rfl | he
        · exact hle.trans hbv
        · exact hmax e (List.mem_cons_of_mem _ he)

/-- the element of a sorted list at a position -/
theorem position_sorted (l : List ℝ) (k : Nat) (hk : k < l.length) : Position l k ((l.insertionSort (· ≤ ·)).getD k 0) := by
  have hp := List.perm_insertionSort (· ≤ ·) l
  have hs : (l.insertionSort (· ≤ ·)).Pairwise (· ≤ ·) := List.pairwise_insertionSort _ _
  generalize l.insertionSort (· ≤ ·) = m at hp hs
  have hkm : k < m.length := by rw [hp.length_eq]; exact hk
  rw [List.getD_eq_getElem _ _ hkm]
  refine ⟨hp.mem_iff.1 (List.getElem_mem _), ?_, ?_⟩
  · have e := List.countP_append (p := fun x => decide (x < m[k])) (l₁ := m.take k) (l₂ := m.drop k)
    rw [List.take_append_drop] at e
    rw [← hp.countP_eq, e]
    have h0 : (m.drop k).countP (fun x => decide (x < m[k])) = 0 := by
      rw [List.countP_eq_zero]
      intro x hx
      obtain ⟨i, hi, rfl⟩ := List.mem_iff_getElem.1 hx
      simp only [decide_eq_true_eq, not_lt, List.getElem_drop]
      rcases Nat.eq_zero_or_pos i with h | h
      · subst h; exact le_rfl
      · exact List.pairwise_iff_getElem.1 hs k (k + i) _ _ (by omega)
    rw [h0]
    refine (Nat.add_le_add_right List.countP_le_length _).trans ?_
    rw [List.length_take]
    omega
  · rw [← hp.countP_eq]
    have h1 : (m.take (k + 1)).countP (fun x => decide (x ≤ m[k])) = (m.take (k + 1)).length := by
      rw [List.countP_eq_length]
      intro x hx
      obtain ⟨i, hi, rfl⟩ := List.mem_iff_getElem.1 hx
      have hik : i < k + 1 := by rw [List.length_take] at hi; omega
      simp only [List.getElem_take, decide_eq_true_eq]
      rcases lt_or_eq_of_le (Nat.lt_succ_iff.1 hik) with h | h
      · exact List.pairwise_iff_getElem.1 hs i k _ _ h
      · subst h; exact le_rfl
    have h2 : (m.take (k + 1)).countP (fun x => decide (x ≤ m[k])) ≤ m.countP (fun x => decide (x ≤ m[k])) := (List.take_sublist _ _).countP_le
    rw [h1, List.length_take] at h2
    omega

theorem madness_step (c : Config) (hc : SaneSearch c) (o : Options) (ho : o.madness = true) (he : o.elitism = false) (t : ℝ) (ht : 1 < (c.windowSize : ℝ) * t) (A : Set (Fin n → ℝ))
    (e0 : (Fin n → ℝ) × ℝ) (s : Search n) (hs : SInv 1 c A e0 s) (g : Given n) (hg : g.drawn ∈ A) (hcnt : s.dist.count + 1 > 2 * c.windowSize)
    (hu : 0 < ((searchStep c o t s g).2.sizes).getD 0 0) :
    (∑ i ∈ Finset.range c.windowSize, (searchStep c o t s g).2.sizes.getD i 0) • (searchStep c o t s g).2.dist.mu =
      ∑ i ∈ Finset.range c.windowSize, (searchStep c o t s g).2.sizes.getD i 0 • ((searchStep c o t s g).2.all.getD i (0, 0)).1 := by
  have hw := hc.window
  have hp := produce_inv c o A e0 s hs g.drawn hg g.eval
  obtain ⟨P, hP⟩ : ∃ P, P = produce c o s g.drawn g.eval := ⟨_, rfl⟩
  obtain ⟨k, hk⟩ : ∃ k, k = s.dist.count % c.windowSize := ⟨_, rfl⟩
  obtain ⟨u, hu'⟩ : ∃ u, u = updateSize { c with shaping := Ranking.topLinear t } P.dist.fitnesses k (density g.pdf) := ⟨_, rfl⟩
  rw [← hP] at hp
  have hPc : P.dist.count = s.dist.count + 1 := by rw [hP, produce_count]
  obtain ⟨Q, hQ⟩ : ∃ Q, Q = updated c o t k g.pdf (chosen c o s g.drawn) P := ⟨_, rfl⟩
  have hsz : (searchStep c o t s g).2.sizes = Q.sizes := by
    unfold searchStep
    dsimp only
    rw [if_neg (by rw [produce_count]; omega), (oneFifth_all ..).2.2.2.2, hQ, hP, hk]
  have hall : (searchStep c o t s g).2.all = P.all := by
    rw [(step_all c o t s g).1, hP]
    rfl
  have hQs : Q.sizes = u :: P.sizes := by
    rw [hQ, hu']
    unfold updated moveSigma
    dsimp only
    split_ifs <;> first | rfl | exact (move_all ..).2.2.2.2.2
  rw [hsz, hQs] at hu ⊢
  have hu0 : 0 < u := by simpa using hu
  have hmu : (searchStep c o t s g).2.dist.mu = madnessMean c.windowSize { P with sizes := u :: P.sizes } := by
    rw [step_mu c o t s g (by omega), ← hP, ← hk]
    unfold updated
    dsimp only
    rw [← hu', if_pos hu0]
    unfold moveSigma moveCenter
    simp only [he, Bool.false_eq_true, if_false, ho, true_and, updateSigmas]
    split_ifs with h1 h2 h2
    · rfl
    · rw [hPc] at h2; omega
    · rfl
    · rw [hPc] at h2; omega
  rw [hmu, hall]
  have e1 : ∑ i ∈ Finset.range c.windowSize, (u :: P.sizes).getD i 0 = ((List.range c.windowSize).map fun i => (u :: P.sizes).getD i 0).sum := by
    rw [Finset.sum_eq_multiset_sum]; rfl
  have e2 : ∑ i ∈ Finset.range c.windowSize, (u :: P.sizes).getD i 0 • (P.all.getD i (0, 0)).1 = ((List.range c.windowSize).map fun i => (u :: P.sizes).getD i 0 • (P.all.getD i (0, 0)).1).sum := by
    rw [Finset.sum_eq_multiset_sum]; rfl
  have hpos : 0 < ∑ i ∈ Finset.range c.windowSize, (u :: P.sizes).getD i 0 := by
    refine Finset.sum_pos' (fun i hi => ?_) ⟨0, Finset.mem_range.2 (by omega), by simpa using hu0⟩
    rcases lt_or_ge i (u :: P.sizes).length with h | h
    · rw [List.getD_eq_getElem _ _ h]
      rcases List.mem_cons.1 (List.getElem_mem h) with h' | h'
      · rw [h']; exact hu0.le
      · exact hp.sizes _ h'
    · rw [List.getD_eq_default _ _ h]
  unfold madnessMean
  dsimp only
  rw [← e1, ← e2, smul_smul, mul_inv_cancel₀ hpos.ne', one_smul]

/-- utilities with the smallest fraction: 1 for the best of the window, 0 for the others -/
theorem topLinear_smallest (f : List ℝ) (hf : 2 ≤ f.length) (i r : Nat) (h : (Ranking.rankedFitness f)[i]? = some r) :
    (Ranking.topLinear (2 / (f.length : ℝ)) f)[i]? = some (if r + 1 = f.length then 1 else 0) := by
  have hw : (0 : ℝ) < f.length := by exact_mod_cast (by omega : 0 < f.length)
  have hcut : (f.length : ℝ) * (1 - 2 / (f.length : ℝ)) = ((f.length - 2 : Nat) : ℝ) := by
    rw [Nat.cast_sub hf]
    field_simp
    push_cast
    ring
  have hval : ∀ q : Nat, q < f.length → (if (q : ℝ) ≥ ((f.length - 2 : Nat) : ℝ) then (q : ℝ) - ((f.length - 2 : Nat) : ℝ) else 0) = if q + 1 = f.length then 1 else 0 := by
    intro q hq
    by_cases h1 : q + 1 = f.length
    · rw [if_pos h1, if_pos (by exact_mod_cast (by omega : f.length - 2 ≤ q))]
      have : f.length - 2 + 1 = q := by omega
      rw [← this]
      push_cast
      ring
    · rw [if_neg h1]
      by_cases h2 : q = f.length - 2
      · rw [if_pos (by rw [h2]), h2, sub_self]
      · rw [if_neg (by simp only [ge_iff_le, Nat.cast_le]; omega)]
  have hmap : ((Ranking.rankedFitness f).map fun q : Nat => if (q : ℝ) ≥ ((f.length - 2 : Nat) : ℝ) then (q : ℝ) - ((f.length - 2 : Nat) : ℝ) else 0) =
      (Ranking.rankedFitness f).map fun q : Nat => if q + 1 = f.length then (1 : ℝ) else 0 :=
    List.map_congr_left fun q hq => hval q (ranked_lt f q hq)
  unfold Ranking.topLinear
  dsimp only
  rw [hcut, hmap]
  have hmax : Ranking.maxOf ((Ranking.rankedFitness f).map fun q : Nat => if q + 1 = f.length then (1 : ℝ) else 0) = 1 := by
    have h1 : (1 : ℝ) ∈ (Ranking.rankedFitness f).map fun q : Nat => if q + 1 = f.length then (1 : ℝ) else 0 :=
      List.mem_map.2 ⟨f.length - 1, last_rank f hf, if_pos (by omega)⟩
    obtain ⟨h2, h3⟩ := Ranking.maxOf_spec _ (List.ne_nil_of_mem h1)
    refine le_antisymm ?_ (h3 1 h1)
    obtain ⟨q, _, hq⟩ := List.mem_map.1 h2
    rw [← hq]
    split_ifs <;> norm_num
  rw [hmax, List.getElem?_map, List.getElem?_map, h]
  simp

theorem sum_nonpos_list : ∀ l : List ℝ, (∀ x ∈ l, x ≤ 0) → l.sum ≤ 0
  | [], _ => by simp
  | x :: l, h => by
    rw [List.sum_cons]
    linarith [h x List.mem_cons_self, sum_nonpos_list l fun y hy => h y (List.mem_cons_of_mem _ hy)]

theorem matchValue_nonpos (pdfs l : List ℝ) (hp : ∀ x ∈ pdfs, 0 ≤ x) (hl : ∀ x ∈ l, x ≤ 1) : matchValue pdfs l ≤ 0 := by
  unfold matchValue
  dsimp only
  refine div_nonpos_of_nonpos_of_nonneg ?_ ?_
  · refine sum_nonpos_list _ fun x hx => ?_
    obtain ⟨q, hq, rfl⟩ := List.mem_map.1 hx
    obtain ⟨hq1, hq2⟩ := List.mem_filter.1 hq
    have := List.of_mem_zip hq1
    exact mul_nonpos_of_nonneg_of_nonpos (hp _ this.1) (Real.log_nonpos (by simpa using (of_decide_eq_true hq2).le) (hl _ this.2))
  · refine List.sum_nonneg fun x hx => ?_
    obtain ⟨q, hq, rfl⟩ := List.mem_map.1 hx
    obtain ⟨hq1, hq2⟩ := List.mem_filter.1 hq
    exact mul_nonneg (hp _ (List.of_mem_zip hq1).1) (of_decide_eq_true hq2).le

theorem matchValue_zero (pdfs l : List ℝ) (hl : ∀ x ∈ l, x = 0 ∨ x = 1) : matchValue pdfs l = 0 := by
  unfold matchValue
  dsimp only
  rw [List.sum_eq_zero, zero_div]
  intro x hx
  obtain ⟨q, hq, rfl⟩ := List.mem_map.1 hx
  obtain ⟨hq1, hq2⟩ := List.mem_filter.1 hq
  have h0 : 0 < q.2 := of_decide_eq_true hq2
  rcases hl _ (List.of_mem_zip hq1).2 with h | h
  · rw [h] at h0; exact absurd h0 (lt_irrefl _)
  · rw [h, Real.log_one, mul_zero]

end Verif.FEM

namespace Verif.Props
open Matrix Verif.FEM Verif.Spec

variable {n : Nat}

/-- **C180, distribution.** For every choice of the options, after any number of steps with any samples and evaluations, the covariance matrix is positive definite, the center is in the convex hull of the first center,
the initial point and the drawn samples, and the best point is the best of all evaluations. -/
theorem C180_distribution (c : Config) (hc : SaneSearch c) (o : Options) (t : ℝ) (ht : 1 < (c.windowSize : ℝ) * t) (lo hi : Fin n → ℝ) (cov : Matrix (Fin n) (Fin n) ℝ) (hcov : cov.PosDef)
    (x0 r : Fin n → ℝ) (fit0 : ℝ) (gs : List (Given n)) :
    (search c o (t, startSearch c lo hi cov x0 r fit0) gs).2.dist.sigma.PosDef ∧
    (search c o (t, startSearch c lo hi cov x0 r fit0) gs).2.dist.mu ∈ convexHull ℝ ({(start c lo hi cov x0 r).mu, x0} ∪ {x | ∃ g ∈ gs, g.drawn = x}) ∧
    BestOf ((x0, fit0) :: (search c o (t, startSearch c lo hi cov x0 r fit0) gs).2.all) (search c o (t, startSearch c lo hi cov x0 r fit0) gs).2.best ∧
    (search c o (t, startSearch c lo hi cov x0 r fit0) gs).2.all.length = gs.length := by
  have h := (search_inv c hc o _ (convex_convexHull ℝ ({(start c lo hi cov x0 r).mu, x0} ∪ {x | ∃ g ∈ gs, g.drawn = x})) (x0, fit0) gs (t, startSearch c lo hi cov x0 r fit0) ht
    (startSearch_inv c hc _ lo hi cov hcov x0 r fit0 (subset_convexHull ℝ _ (Or.inl (Or.inl rfl))) (subset_convexHull ℝ _ (Or.inl (Or.inr rfl))))
    (fun g hg => subset_convexHull ℝ _ (Or.inr ⟨g, hg, rfl⟩))).2
  refine ⟨h.pos, h.center, h.best, ?_⟩
  have aux : ∀ (gs : List (Given n)) (s : ℝ × Search n), (search c o s gs).2.all.length = s.2.all.length + gs.length := by
    intro gs
    induction gs with
    | nil => intro s; rfl
    | cons g gs ih =>
      intro s
      rw [search, ih, (step_all c o s.1 s.2 g).1, List.length_cons, List.length_cons]
      omega
  rw [aux]
  simp [startSearch]

/-- **C180, no options.** With all options off the search is that of C136. -/
theorem C180_plain (c : Config) (t : ℝ) (s : Search n) (gs : List (Given n)) :
    (search c ⟨false, false, false, false, false⟩ (t, s) gs).2.dist = learn { c with shaping := Ranking.topLinear t } s.dist (gs.map fun g => (g.drawn, g.eval g.drawn, g.pdf)) := by
  have step : ∀ (s : Search n) (g : Given n), (searchStep c ⟨false, false, false, false, false⟩ t s g).1 = t ∧
      (searchStep c ⟨false, false, false, false, false⟩ t s g).2.dist = learnStep { c with shaping := Ranking.topLinear t } s.dist (g.drawn, g.eval g.drawn, g.pdf) := by
    intro s g
    have h0 : Verif.FEM.shift { c with shaping := Ranking.topLinear t } s.dist = Verif.FEM.shift c s.dist := rfl
    have hcnt : (Verif.FEM.shift c s.dist).count = s.dist.count := by unfold Verif.FEM.shift; split_ifs <;> rfl
    unfold searchStep learnStep updated oneFifth produce chosen shifted moveCenter moveSigma
    simp only [h0, Bool.false_eq_true, false_and, if_false, hcnt]
    split_ifs <;> exact ⟨rfl, rfl⟩
  induction gs generalizing s with
  | nil => rfl
  | cons g gs ih =>
    obtain ⟨h1, h2⟩ := step s g
    rw [search, List.map_cons, learn, ← h2]
    have := ih (searchStep c ⟨false, false, false, false, false⟩ t s g).2
    rw [← this]
    congr 3
    exact Prod.ext h1 rfl

/-- **C180, elitism.** Once the window is full, a sample with a positive utility puts the center at the best point evaluated so far. If the center is a point with the best fitness evaluated so far, it is so after
any further steps. -/
theorem C180_elitism (c : Config) (hc : SaneSearch c) (o : Options) (ho : o.elitism = true) (t : ℝ) (ht : 1 < (c.windowSize : ℝ) * t) (lo hi : Fin n → ℝ) (cov : Matrix (Fin n) (Fin n) ℝ)
    (hcov : cov.PosDef) (x0 r : Fin n → ℝ) (fit0 : ℝ) (gs : List (Given n)) (hgs : c.windowSize ≤ gs.length) (s : ℝ × Search n) (hs : s = search c o (t, startSearch c lo hi cov x0 r fit0) gs) :
    (∀ g : Given n, 0 < (Ranking.topLinear s.1 (searchStep c o s.1 s.2 g).2.dist.fitnesses).getD (gs.length % c.windowSize) 0 →
      (searchStep c o s.1 s.2 g).2.dist.mu = (searchStep c o s.1 s.2 g).2.best.1) ∧
    ((∃ v, BestOf ((x0, fit0) :: s.2.all) (s.2.dist.mu, v)) → ∀ gs' : List (Given n), ∃ v, BestOf ((x0, fit0) :: (search c o s gs').2.all) ((search c o s gs').2.dist.mu, v)) := by
  have hinv : 1 < (c.windowSize : ℝ) * s.1 ∧ SInv 1 c Set.univ (x0, fit0) s.2 := by
    rw [hs]
    exact search_inv c hc o Set.univ convex_univ (x0, fit0) gs _ ht (startSearch_inv c hc _ lo hi cov hcov x0 r fit0 trivial trivial) fun _ _ => trivial
  have hlen := (C180_distribution c hc o t ht lo hi cov hcov x0 r fit0 gs).2.2.2
  rw [← hs] at hlen
  have hcnt : s.2.dist.count = gs.length := by rw [← hinv.2.count]; exact hlen
  refine ⟨fun g hg => ?_, ?_⟩
  · have hf : (searchStep c o s.1 s.2 g).2.dist.fitnesses = (produce c o s.2 g.drawn g.eval).dist.fitnesses := by
      unfold searchStep oneFifth
      dsimp only
      split_ifs <;> first | rfl | exact (updated_all ..).2.2.1
    have hl := (produce_inv c o Set.univ (x0, fit0) s.2 hinv.2 g.drawn trivial g.eval).len
    rw [hf, ← hcnt] at hg
    rw [step_mu c o s.1 s.2 g (by omega), (step_all c o s.1 s.2 g).2.1]
    refine updated_elite c o ho s.1 _ g.pdf _ _ ?_
    rw [updateSize_eq c s.1 _ (by rw [hl]; exact hinv.1)]
    exact mul_pos hg hc.forget.1
  · intro h gs'
    have hw : c.windowSize ≤ s.2.dist.count := by omega
    clear hs hcnt hlen
    induction gs' generalizing s with
    | nil => exact h
    | cons g gs' ih =>
      rw [search]
      have h1 := searchStep_inv c hc o Set.univ convex_univ (x0, fit0) s.1 hinv.1 s.2 hinv.2 g trivial
      exact ih _ h1 (elite_step c hc o ho Set.univ (x0, fit0) s.1 hinv.1 s.2 hinv.2 g hw h) (by rw [(step_all c o s.1 s.2 g).2.2]; omega)

/-- **C180, elitism of samples.** After the first window, the first sample of every window is the best point, and all others are those drawn. -/
theorem C180_sampleElitism (c : Config) (o : Options) (ho : o.sampleElitism = true) (t : ℝ) (s : Search n) (g : Given n) :
    (searchStep c o t s g).2.all =
      (if s.dist.count > c.windowSize ∧ s.dist.count % c.windowSize = 0 then (s.best.1, g.eval s.best.1) else (g.drawn, g.eval g.drawn)) :: s.all := by
  rw [(step_all c o t s g).1]
  unfold chosen
  simp only [ho, true_and]
  split_ifs <;> rfl

/-- **C180, the one-fifth rule.** With the rule, each tenth step after the first two windows multiplies the covariance matrix it would otherwise give by 1.2 or by 0.5, as the fitness that is at 80 percent of the
last window is at least or below that of the window before. Other steps are not changed. -/
theorem C180_oneFifth (c : Config) (hc : SaneSearch c) (o : Options) (ho : o.oneFifthRule = true) (t : ℝ) (s : Search n) (hs : s.all.length = s.dist.count) (g : Given n) :
    let p := searchStep c { o with oneFifthRule := false } t s g
    let q := searchStep c o t s g
    q.1 = p.1 ∧ q.2.dist.mu = p.2.dist.mu ∧ q.2.all = p.2.all ∧
    (¬ ((s.dist.count + 1) % 10 = 0 ∧ s.dist.count + 1 > 2 * c.windowSize) → q = p) ∧
    ((s.dist.count + 1) % 10 = 0 ∧ s.dist.count + 1 > 2 * c.windowSize → ∃ last second, Position ((p.2.all.take c.windowSize).map Prod.snd) (c.windowSize * 8 / 10) last ∧
      Position (((p.2.all.drop c.windowSize).take c.windowSize).map Prod.snd) (c.windowSize * 8 / 10) second ∧
      q.2.dist.sigma = (if second ≤ last then 1.2 else 0.5 : ℝ) • p.2.dist.sigma) := by
  intro p q
  have hw := hc.window
  by_cases hlt : (produce c o s g.drawn g.eval).dist.count < c.windowSize
  · have hq : q = (t, produce c o s g.drawn g.eval) := by
      show searchStep c o t s g = _
      unfold searchStep
      dsimp only
      rw [if_pos hlt]
    have hp : p = (t, produce c o s g.drawn g.eval) := by
      show searchStep c { o with oneFifthRule := false } t s g = _
      unfold searchStep
      dsimp only
      rw [if_pos (by exact hlt)]
      rfl
    have hqp : q = p := hq.trans hp.symm
    rw [hqp]
    refine ⟨rfl, rfl, rfl, fun _ => rfl, fun h => ?_⟩
    rw [produce_count] at hlt
    omega
  · obtain ⟨m, hm⟩ : ∃ m, m = updated c o t (s.dist.count % c.windowSize) g.pdf (chosen c o s g.drawn) (produce c o s g.drawn g.eval) := ⟨_, rfl⟩
    have hq : q = (if o.adaptiveShaping then adapted c.windowSize (m.window.map (g.density m.dist.mu m.dist.sigma)) m.dist.fitnesses else t, oneFifth c o m) := by
      show searchStep c o t s g = _
      unfold searchStep
      dsimp only
      rw [if_neg hlt, ← hm]
    have hp : p = (if o.adaptiveShaping then adapted c.windowSize (m.window.map (g.density m.dist.mu m.dist.sigma)) m.dist.fitnesses else t, m) := by
      have hm' : m = updated c { o with oneFifthRule := false } t (s.dist.count % c.windowSize) g.pdf (chosen c { o with oneFifthRule := false } s g.drawn)
          (produce c { o with oneFifthRule := false } s g.drawn g.eval) := hm
      show searchStep c { o with oneFifthRule := false } t s g = _
      unfold searchStep
      dsimp only
      rw [if_neg (by exact hlt), ← hm']
      unfold oneFifth
      simp
    have hcnt : m.dist.count = s.dist.count + 1 := by rw [hm, (updated_all ..).2.2.2.1, produce_count]
    have hall : m.all.length = s.dist.count + 1 := by rw [hm, (updated_all ..).1]; show s.all.length + 1 = _; rw [hs]
    rw [hq, hp]
    refine ⟨rfl, (oneFifth_all c o m).2.2.1, (oneFifth_all c o m).1, fun h => ?_, fun h => ?_⟩
    · have : oneFifth c o m = m := by
        unfold oneFifth
        rw [if_neg (by rw [hcnt, ho]; simpa using h)]
      rw [this]
    · refine ⟨_, _, position_sorted _ _ ?_, position_sorted _ _ ?_, ?_⟩
      · rw [List.length_map, List.length_take, hall]; omega
      · rw [List.length_map, List.length_take, List.length_drop, hall]; omega
      · show (oneFifth c o m).dist.sigma = _
        unfold oneFifth
        rw [if_pos (by rw [hcnt, ho]; exact ⟨rfl, h⟩)]

/-- **C180, the madness update.** With it (and without elitism), after the first two windows each sample with a positive utility makes the center the mean of the samples of the last window, with the sizes of their updates as
weights. -/
theorem C180_madness (c : Config) (hc : SaneSearch c) (o : Options) (ho : o.madness = true) (he : o.elitism = false) (t : ℝ) (ht : 1 < (c.windowSize : ℝ) * t) (lo hi : Fin n → ℝ)
    (cov : Matrix (Fin n) (Fin n) ℝ) (hcov : cov.PosDef) (x0 r : Fin n → ℝ) (fit0 : ℝ) (gs : List (Given n)) (hgs : gs.length + 1 > 2 * c.windowSize) (s : ℝ × Search n)
    (hs : s = search c o (t, startSearch c lo hi cov x0 r fit0) gs) (g : Given n) (q : Search n) (hq : q = (searchStep c o s.1 s.2 g).2) (hu : 0 < q.sizes.getD 0 0) :
    (∑ i ∈ Finset.range c.windowSize, q.sizes.getD i 0) • q.dist.mu = ∑ i ∈ Finset.range c.windowSize, q.sizes.getD i 0 • (q.all.getD i (0, 0)).1 := by
  have hinv : 1 < (c.windowSize : ℝ) * s.1 ∧ SInv 1 c Set.univ (x0, fit0) s.2 := by
    rw [hs]
    exact search_inv c hc o Set.univ convex_univ (x0, fit0) gs _ ht (startSearch_inv c hc _ lo hi cov hcov x0 r fit0 trivial trivial) fun _ _ => trivial
  have hlen := (C180_distribution c hc o t ht lo hi cov hcov x0 r fit0 gs).2.2.2
  rw [← hs] at hlen
  rw [hq] at hu ⊢
  exact madness_step c hc o ho he s.1 hinv.1 Set.univ (x0, fit0) s.2 hinv.2 g trivial (by rw [← hinv.2.count, hlen]; exact hgs) hu

/-- **C180 violated: adaptive shaping** does not adapt. Whatever the densities of the samples and their fitnesses are, the smallest fraction is chosen, with which only the best sample of the window has a utility. -/
theorem C180_negation_adaptive (w : Nat) (hw : 2 ≤ w) (pdfs f : List ℝ) (hp : ∀ x ∈ pdfs, 0 ≤ x) (hf : f.length = w) :
    adapted w pdfs f = 2 / w ∧ ∀ i r : Nat, (Ranking.rankedFitness f)[i]? = some r → (Ranking.topLinear (adapted w pdfs f) f)[i]? = some (if r + 1 = w then 1 else 0) := by
  have hposs : possibleParameters w = (2 / w : ℝ) :: ((List.range (w - 2)).map fun i : Nat => ((i + 1 : Nat) + 2 : ℝ) / w) := by
    unfold possibleParameters
    obtain ⟨v, rfl⟩ : ∃ v, w = v + 2 := ⟨w - 2, by omega⟩
    rw [show v + 2 - 1 = v + 1 from rfl, show v + 2 - 2 = v from rfl, List.range_succ_eq_map, List.map_cons, List.map_map]
    congr 1
    simp
  have h0 : ∀ x ∈ Ranking.topLinear (2 / (w : ℝ)) f, x = 0 ∨ x = 1 := by
    intro x hx
    obtain ⟨i, hi, hix⟩ := List.mem_iff_getElem.1 hx
    have hlen : (Ranking.topLinear (2 / (w : ℝ)) f).length = f.length := by
      unfold Ranking.topLinear
      rw [List.length_map, List.length_map, ranked_length]
    have hir : i < (Ranking.rankedFitness f).length := by rw [ranked_length, ← hlen]; exact hi
    have := topLinear_smallest f (by omega) i _ (List.getElem?_eq_getElem hir)
    rw [hf, List.getElem?_eq_getElem hi, hix] at this
    have := Option.some.inj this
    rw [this]
    split_ifs
    · exact Or.inr rfl
    · exact Or.inl rfl
  have hw0 : (0 : ℝ) < w := by exact_mod_cast (by omega : 0 < w)
  have e : adapted w pdfs f = 2 / w := by
    unfold adapted
    rw [hposs, List.map_cons, argmax_first]
    · rfl
    · intro y hy
      rw [matchValue_zero _ _ h0]
      obtain ⟨p, hp', rfl⟩ := List.mem_map.1 hy
      obtain ⟨i, _, rfl⟩ := List.mem_map.1 hp'
      refine matchValue_nonpos _ _ hp fun x hx => ((C63_topLinear _ f ?_).2.1 x hx).2
      rw [hf, mul_div_cancel₀ _ hw0.ne']
      have : (0 : ℝ) ≤ ((i + 1 : Nat) : ℝ) := Nat.cast_nonneg _
      linarith
  refine ⟨e, fun i r h => ?_⟩
  rw [e]
  have := topLinear_smallest f (by omega) i r h
  rw [hf] at this
  exact this

/-- **C180 violated: optimizers are independent.** The parameter of the ranking function is shared by all optimizers: a step of one with adaptive shaping changes what another one does, which has no options at all. The
second best sample of a window, which without that step moves the center, has no effect after it. -/
theorem C180_negation_shared {m : Nat} (c c' : Config) (w : Nat) (hw : 5 ≤ w) (hcw : c.windowSize = w) (hcw' : c'.windowSize = w) (hc : SaneSearch c) (hns : c.anticipated = false) (o' : Options)
    (ho' : o'.adaptiveShaping = true) (s : Search n) (g : Given n) (hl : s.dist.fitnesses.length = w) (hcnt : w ≤ s.dist.count + 1)
    (hrank : (Ranking.rankedFitness (s.dist.fitnesses.set (s.dist.count % w) (g.eval g.drawn)))[s.dist.count % w]? = some (w - 2)) (hne : g.drawn ≠ s.dist.mu)
    (s' : Search m) (g' : Given m) (hl' : s'.dist.fitnesses.length = w) (hcnt' : w ≤ s'.dist.count + 1) (hd : ∀ mu sigma x, 0 ≤ g'.density mu sigma x) :
    let off : Options := ⟨false, false, false, false, false⟩
    (searchStep c off 0.5 s g).2.dist.mu ≠ s.dist.mu ∧ (searchStep c off (searchStep c' o' 0.5 s' g').1 s g).2.dist.mu = s.dist.mu := by
  intro off
  have hP : (produce c off s g.drawn g.eval).dist.fitnesses = s.dist.fitnesses.set (s.dist.count % w) (g.eval g.drawn) ∧ (produce c off s g.drawn g.eval).dist.mu = s.dist.mu := by
    unfold produce shifted Verif.FEM.shift chosen
    simp [off, hns, hcw]
  have hwR : (5 : ℝ) ≤ w := by exact_mod_cast hw
  have hset : (s.dist.fitnesses.set (s.dist.count % w) (g.eval g.drawn)).length = w := by rw [List.length_set, hl]
  have hch : chosen c off s g.drawn = g.drawn := by simp [chosen, off]
  constructor
  · rw [step_mu c off 0.5 s g (by omega), hcw, hch]
    have hpos : 0 < updateSize { c with shaping := Ranking.topLinear 0.5 } (produce c off s g.drawn g.eval).dist.fitnesses (s.dist.count % w) (density g.pdf) := by
      rw [hP.1, updateSize_eq c 0.5 _ (by rw [hset]; linarith)]
      refine mul_pos ?_ hc.forget.1
      have hM : 0 < Ranking.maxOf ((Ranking.rankedFitness (s.dist.fitnesses.set (s.dist.count % w) (g.eval g.drawn))).map fun r : Nat => if (r : ℝ) ≥ (w : ℝ) * (1 - 0.5) then (r : ℝ) - (w : ℝ) * (1 - 0.5) else 0) := by
        refine (scaled_unit _ ?_ ⟨((w - 2 : Nat) : ℝ) - (w : ℝ) * (1 - 0.5), List.mem_map.2 ⟨w - 2, List.mem_of_getElem? hrank, ?_⟩, ?_⟩).1
        · intro x hx
          obtain ⟨r, _, rfl⟩ := List.mem_map.1 hx
          split_ifs with h
          · linarith
          · exact le_rfl
        · rw [if_pos]
          rw [Nat.cast_sub (by omega)]
          push_cast
          linarith
        · rw [Nat.cast_sub (by omega)]
          push_cast
          linarith
      unfold Ranking.topLinear
      dsimp only
      rw [hset]
      rw [List.getD_eq_getElem?_getD, List.getElem?_map, List.getElem?_map, hrank]
      simp only [Option.map_some, Option.getD_some]
      refine div_pos ?_ hM
      rw [if_pos]
      · rw [Nat.cast_sub (by omega)]
        push_cast
        linarith
      · rw [Nat.cast_sub (by omega)]
        push_cast
        linarith
    unfold updated
    dsimp only
    rw [if_pos hpos]
    generalize updateSize { c with shaping := Ranking.topLinear 0.5 } (produce c off s g.drawn g.eval).dist.fitnesses (s.dist.count % w) (density g.pdf) = u at hpos
    have e : ∀ q : Search n, q.dist.mu = s.dist.mu → (updateMus c u g.drawn q.dist).mu ≠ s.dist.mu := by
      intro q hq h
      refine hne (funext fun i => ?_)
      have hi := congrFun h i
      simp only [updateMus, hq, hc.mult, one_mul, Pi.add_apply, Pi.smul_apply, smul_eq_mul] at hi
      have h3 : u * (g.drawn i - s.dist.mu i) = 0 := by linarith
      rcases mul_eq_zero.1 h3 with h4 | h4
      · exact absurd h4 hpos.ne'
      · linarith
    unfold moveSigma moveCenter
    simp only [off, Bool.false_eq_true, false_and, if_false]
    split_ifs
    · exact e (moveSigma u g.drawn { produce c off s g.drawn g.eval with sizes := u :: (produce c off s g.drawn g.eval).sizes }) hP.2
    · exact e { produce c off s g.drawn g.eval with sizes := u :: (produce c off s g.drawn g.eval).sizes } hP.2
  · have ht : (searchStep c' o' 0.5 s' g').1 = 2 / w := by
      unfold searchStep
      dsimp only
      rw [if_neg (by rw [produce_count]; omega), if_pos ho', hcw']
      refine (C180_negation_adaptive w (by omega) _ _ ?_ ?_).1
      · intro x hx
        obtain ⟨y, _, rfl⟩ := List.mem_map.1 hx
        exact hd _ _ _
      · rw [(updated_all ..).2.2.1]
        unfold produce shifted Verif.FEM.shift
        dsimp only
        split_ifs <;> rw [List.length_set] <;> exact hl'
    rw [ht, step_mu c off _ s g (by omega), updated_still, hP.2]
    rw [show s.dist.count % c.windowSize = s.dist.count % w by rw [hcw], hP.1, updateSize_eq c _ _ (by rw [hset, mul_div_cancel₀ _ (by linarith : (w : ℝ) ≠ 0)]; norm_num)]
    have := topLinear_smallest (s.dist.fitnesses.set (s.dist.count % w) (g.eval g.drawn)) (by omega) _ _ hrank
    rw [hset] at this
    rw [List.getD_eq_getElem?_getD, this, if_neg (by omega)]
    simp

/-- **C180 violated: the one-fifth rule.** If nothing improves, for all fitnesses are the same, the distribution is widened. -/
theorem C180_negation_oneFifth (c : Config) (hc : SaneSearch c) (o : Options) (ho : o.oneFifthRule = true) (t : ℝ) (s : Search n) (hs : s.all.length = s.dist.count) (g : Given n) (v : ℝ)
    (hv : ∀ e ∈ (searchStep c o t s g).2.all, e.2 = v) (h10 : (s.dist.count + 1) % 10 = 0) (hcnt : s.dist.count + 1 > 2 * c.windowSize) :
    (searchStep c o t s g).2.dist.sigma = (1.2 : ℝ) • (searchStep c { o with oneFifthRule := false } t s g).2.dist.sigma := by
  obtain ⟨_, _, ha, _, h⟩ := C180_oneFifth c hc o ho t s hs g
  obtain ⟨last, second, ⟨h1, _⟩, ⟨h2, _⟩, h3⟩ := h ⟨h10, hcnt⟩
  obtain ⟨e1, he1, rfl⟩ := List.mem_map.1 h1
  obtain ⟨e2, he2, rfl⟩ := List.mem_map.1 h2
  have a1 : e1.2 = v := hv e1 (by rw [ha]; exact List.mem_of_mem_take he1)
  have a2 : e2.2 = v := hv e2 (by rw [ha]; exact List.mem_of_mem_drop (List.mem_of_mem_take he2))
  rw [h3, a1, a2, if_pos le_rfl]

/-- settings, with a window of five samples -/
noncomputable def femDemo : Config := { forgetFactor := 0.1, muMultiplier := 1, windowSize := 5, shaping := id, mutative := false, anticipated := false }

theorem femDemo_sane : SaneSearch femDemo := ⟨by norm_num [femDemo], rfl, by norm_num [femDemo]⟩

/-- a state with four samples -/
noncomputable def femState : Search 1 :=
  { dist := { mu := 0, sigma := 1, fitnesses := [0, 1, 2, 4, 0], count := 4, meanShift := 0 }, best := (0, 4), window := [0, 0, 0, 0, 0], all := [(0, 4), (0, 2), (0, 1), (0, 0)], sizes := [] }

/-- a fifth one, which is the second best -/
noncomputable def femGiven : Given 1 := { drawn := 1, eval := fun _ => 3, pdf := 1, density := fun _ _ _ => 1 }

example : (searchStep femDemo ⟨false, false, false, false, false⟩ (searchStep femDemo ⟨true, true, true, true, true⟩ 0.5 femState femGiven).1 femState femGiven).2.dist.mu = 0 := by
  refine (C180_negation_shared femDemo femDemo 5 le_rfl rfl rfl femDemo_sane rfl ⟨true, true, true, true, true⟩ rfl femState femGiven rfl (by norm_num [femState]) ?_ ?_
    femState femGiven rfl (by norm_num [femState]) (fun _ _ _ => by norm_num [femGiven])).2
  · refine (C24_rank _ 4 3 ?_).trans ?_
    · simp [femState, femGiven]
    · simp [femState, femGiven, List.countP_cons, List.zipIdx_cons]
      norm_num
  · intro h
    have := congrFun h 0
    norm_num [femState, femGiven] at this

/-- The hypotheses of the theorems on all options are met by the start with the default fraction. -/
example (gs : List (Given 1)) : (search femDemo ⟨true, true, true, true, true⟩ (0.5, startSearch femDemo (fun _ => -1) (fun _ => 1) 1 (fun _ => 0) (fun _ => 0.5) 7) gs).2.dist.sigma.PosDef :=
  (C180_distribution femDemo femDemo_sane _ 0.5 (by norm_num [femDemo]) _ _ 1 Matrix.PosDef.one _ _ _ gs).1

end Verif.Props
