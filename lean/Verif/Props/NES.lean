import Verif.Lemmas.NES
/-!
C88: natural evolution strategies (pybrain/optimization/distributionbased/xnes.py, snes.py).
-/

namespace Verif.NES
open Matrix Verif.Mixing

variable {n : Nat}

/-! ### XNES: auxiliary facts -/

/-- the matrices and the logarithm of the determinant belong together -/
def Xnes.Consistent (s : Xnes n) : Prop := s.A * s.invA = 1 ∧ 0 < s.A.det ∧ s.logDetA = Real.log s.A.det

theorem update_consistent (c : Cfg) (s : Xnes n) (h : s.Consistent) : (s.update c).Consistent := by
  obtain ⟨h1, h2, h3⟩ := h
  simp only [Xnes.Consistent, Xnes.update]
  generalize hu : utilities c (s.store.currentEvaluations c.opposed s.pointers) = u
  generalize hz : (s.store.population s.pointers).map s.base2sample = zs
  have hdet := det_exp_of_symm _ (deltaA_symm c u zs)
  rw [deltaA_trace] at hdet
  refine ⟨?_, ?_, ?_⟩
  · rw [Matrix.mul_assoc, ← Matrix.mul_assoc (NormedSpace.exp _), exp_mul_exp_neg, Matrix.one_mul, h1]
  · rw [Matrix.det_mul, hdet]
    exact mul_pos h2 (Real.exp_pos _)
  · rw [Matrix.det_mul, hdet, Real.log_mul h2.ne' (Real.exp_pos _).ne', Real.log_exp, h3]

theorem produceSamples_same (c : Cfg) (g : Vec n → ℝ) (rnd : Rand n) (s s' : Xnes n) (h : s.produceSamples c g rnd = .ok s') :
    s'.A = s.A ∧ s'.invA = s.invA ∧ s'.logDetA = s.logDetA ∧ s'.numLearningSteps = s.numLearningSteps ∧
      (s.store.evaluated.length = s.store.evaluations.length → s'.store.evaluated.length = s'.store.evaluations.length) := by
  rw [Xnes.produceSamples] at h
  split at h
  · simp only [Except.ok.injEq] at h
    subst h
    refine ⟨rfl, rfl, rfl, rfl, fun hl => ?_⟩
    simp only [store_foldl, List.length_append, List.length_map]
    rw [hl]
  · split at h
    · exact absurd h (by simp)
    · simp only [Except.ok.injEq] at h
      subst h
      refine ⟨rfl, rfl, rfl, rfl, fun hl => ?_⟩
      simp only [store_foldl, List.length_append, List.length_map]
      rw [hl]

theorem step_consistent (c : Cfg) (g : Vec n → ℝ) (rnd : Rand n) (s s' : Xnes n) (h : s.step c g rnd = .ok s') (hc : s.Consistent) :
    s'.Consistent := by
  rw [Xnes.step] at h
  split at h
  · exact absurd h (by simp)
  · next s1 h1 =>
    simp only [Except.ok.injEq] at h
    subst h
    obtain ⟨e1, e2, e3, _⟩ := produceSamples_same c g rnd s s1 h1
    exact update_consistent c s1 (by rw [Xnes.Consistent, e1, e2, e3]; exact hc)

theorem step_lengths (c : Cfg) (g : Vec n → ℝ) (rnd : Rand n) (s s' : Xnes n) (h : s.step c g rnd = .ok s')
    (hc : s.store.evaluated.length = s.store.evaluations.length) : s'.store.evaluated.length = s'.store.evaluations.length := by
  rw [Xnes.step] at h
  split at h
  · exact absurd h (by simp)
  · next s1 h1 =>
    simp only [Except.ok.injEq] at h
    subst h
    exact (produceSamples_same c g rnd s s1 h1).2.2.2.2 hc

/-- the state before the update of a step without importance mixing -/
theorem produceSamples_plain (c : Cfg) (hm : c.importanceMixing = false) (g : Vec n → ℝ) (rnd : Rand n) (s : Xnes n) :
    ∃ s', s.produceSamples c g rnd = .ok s' ∧ s'.center = s.center ∧ s'.A = s.A ∧ s'.invA = s.invA ∧
      s'.store = ⟨s.store.evaluated ++ s.batch c rnd.z, s.store.evaluations ++ (s.batch c rnd.z).map (fun x => if c.opposed then -(g x) else g x)⟩ ∧
      s'.pointers = (List.range c.batchSize).map (fun k => s.store.evaluated.length + k) := by
  rw [Xnes.produceSamples, if_pos (Or.inr hm)]
  refine ⟨_, rfl, rfl, rfl, rfl, ?_, ?_⟩
  · simp only [store_foldl, Xnes.batch, Xnes.sample2base, List.map_map, Function.comp_def]
  · simp only [store_foldl, List.length_append, List.length_map, List.length_range, Nat.add_sub_cancel]

theorem batch_length (c : Cfg) (s : Xnes n) (z : Nat → Vec n) : (s.batch c z).length = c.batchSize := by simp [Xnes.batch]

theorem base2sample_batch (c : Cfg) (s : Xnes n) (h : s.A * s.invA = 1) (z : Nat → Vec n) :
    (s.batch c z).map s.base2sample = (List.range c.batchSize).map z := by
  have h' : s.invA * s.A = 1 := mul_eq_one_comm.1 h
  rw [Xnes.batch, List.map_map]
  refine List.map_congr_left (fun k _ => ?_)
  simp only [Function.comp, Xnes.base2sample, add_sub_cancel_right, Matrix.mulVec_mulVec, h', Matrix.one_mulVec]

/-- A step without importance mixing, in terms of the draws. -/
theorem step_plain (c : Cfg) (g : Vec n → ℝ) (rnd : Rand n) (s : Xnes n)
    (hm : s.numLearningSteps = 0 ∨ c.importanceMixing = false) (hinv : s.A * s.invA = 1)
    (hlen : s.store.evaluated.length = s.store.evaluations.length) :
    let u := utilities c ((s.batch c rnd.z).map g)
    let zs := (List.range c.batchSize).map rnd.z
    let dA := (deltaA c u zs).1
    let ptrs := (List.range c.batchSize).map (fun k => s.store.evaluated.length + k)
    s.step c g rnd = .ok
      { center := s.center + c.centerLR • (s.A *ᵥ wsum u zs), A := s.A * NormedSpace.exp dA, invA := NormedSpace.exp (-dA) * s.invA,
        logDetA := s.logDetA + 0.5 * c.scaleLR * (deltaA c u zs).2, lastLogDetA := s.logDetA, lastInvA := s.invA,
        store := ⟨s.store.evaluated ++ s.batch c rnd.z, s.store.evaluations ++ (s.batch c rnd.z).map (fun x => if c.opposed then -(g x) else g x)⟩,
        pointers := ptrs, allPointers := s.allPointers ++ [ptrs], genSteps := s.genSteps ++ [s.genSteps.getLastD 0 + c.batchSize],
        dists := if c.storeAllDistributions then
            s.dists.map (fun d => d ++ [(s.center + c.centerLR • (s.A *ᵥ wsum u zs), s.A * NormedSpace.exp dA)]) else s.dists,
        numLearningSteps := s.numLearningSteps + 1 } := by
  intro u zs dA ptrs
  obtain ⟨hpop, hev⟩ := read_back c.opposed g s.store hlen (s.batch c rnd.z)
  simp only [batch_length, List.length_append, Nat.add_sub_cancel] at hpop hev
  have hb := base2sample_batch c s hinv rnd.z
  have hst : (List.range c.batchSize).foldl (fun st k => st.add c.opposed g (s.sample2base (rnd.z k))) s.store =
      ⟨s.store.evaluated ++ s.batch c rnd.z, s.store.evaluations ++ (s.batch c rnd.z).map (fun x => if c.opposed then -(g x) else g x)⟩ := by
    simp only [store_foldl, Xnes.batch, Xnes.sample2base, List.map_map, Function.comp_def]
  have hprod : s.produceSamples c g rnd = .ok { s with
      store := ⟨s.store.evaluated ++ s.batch c rnd.z, s.store.evaluations ++ (s.batch c rnd.z).map (fun x => if c.opposed then -(g x) else g x)⟩,
      pointers := ptrs, genSteps := s.genSteps ++ [s.genSteps.getLastD 0 + c.batchSize], allPointers := s.allPointers ++ [ptrs] } := by
    rw [Xnes.produceSamples, if_pos hm, hst]
    simp only [List.length_append, batch_length, Nat.add_sub_cancel]
    rfl
  have hbs : ∀ s' : Xnes n, s'.center = s.center → s'.invA = s.invA → s'.base2sample = s.base2sample := by
    intro s' h1 h2
    funext x
    rw [Xnes.base2sample, Xnes.base2sample, h1, h2]
  rw [Xnes.step, hprod]
  have hpop' : Store.population _ ptrs = s.batch c rnd.z := hpop
  have hev' : Store.currentEvaluations c.opposed _ ptrs = (s.batch c rnd.z).map g := hev
  have hb' : ∀ s' : Xnes n, s'.center = s.center → s'.invA = s.invA → (s.batch c rnd.z).map s'.base2sample = zs := by
    intro s' h1 h2
    rw [hbs s' h1 h2, hb]
  simp only [Xnes.update, hev', hpop', hb']
  rfl

theorem run_total (c : Cfg) (hm : c.importanceMixing = false) (g : Vec n → ℝ) : ∀ (rs : List (Rand n)) (s : Xnes n),
    ∃ s', s.run c g rs = .ok s'
  | [], s => ⟨s, rfl⟩
  | r :: rs, s => by
    obtain ⟨s1, h1, _⟩ := produceSamples_plain c hm g r s
    simp only [Xnes.run, Xnes.step, h1]
    exact run_total c hm g rs _

theorem run_induction (c : Cfg) (g : Vec n → ℝ) (P : Xnes n → Prop) (hstep : ∀ r s s', P s → s.step c g r = .ok s' → P s') :
    ∀ (rs : List (Rand n)) (s s' : Xnes n), P s → s.run c g rs = .ok s' → P s'
  | [], s, s', h, hr => by
    simp only [Xnes.run, Except.ok.injEq] at hr
    subst hr
    exact h
  | r :: rs, s, s', h, hr => by
    rw [Xnes.run] at hr
    split at hr
    · exact absurd hr (by simp)
    · next s1 h1 => exact run_induction c g P hstep rs s1 s' (hstep r s s1 h h1) hr

theorem init_consistent (c : Cfg) (x0 : Vec n) : (Xnes.init c x0).Consistent := by
  simp [Xnes.Consistent, Xnes.init]

/-- The last stored distribution is the present one. -/
def Xnes.Stored (s : Xnes n) : Prop := ∃ d, s.dists = some (d ++ [(s.center, s.A)])

theorem produceSamples_dists (c : Cfg) (g : Vec n → ℝ) (rnd : Rand n) (s s' : Xnes n) (h : s.produceSamples c g rnd = .ok s') :
    s'.center = s.center ∧ s'.dists = s.dists := by
  rw [Xnes.produceSamples] at h
  split at h
  · simp only [Except.ok.injEq] at h
    subst h
    exact ⟨rfl, rfl⟩
  · split at h
    · exact absurd h (by simp)
    · simp only [Except.ok.injEq] at h
      subst h
      exact ⟨rfl, rfl⟩

theorem step_stored (c : Cfg) (hd : c.storeAllDistributions = true) (g : Vec n → ℝ) (rnd : Rand n) (s s' : Xnes n) (h : s.step c g rnd = .ok s')
    (hc : s.Stored) : s'.Stored ∧ s'.lastCenter = .ok s.center ∧ s'.lastInvA = s.invA ∧ s'.lastLogDetA = s.logDetA := by
  rw [Xnes.step] at h
  split at h
  · exact absurd h (by simp)
  · next s1 h1 =>
    simp only [Except.ok.injEq] at h
    subst h
    obtain ⟨e1, e2, e3, _⟩ := produceSamples_same c g rnd s s1 h1
    obtain ⟨e4, e5⟩ := produceSamples_dists c g rnd s s1 h1
    obtain ⟨d, hd'⟩ := hc
    have hds : (s1.update c).dists = some ((d ++ [(s.center, s.A)]) ++ [((s1.update c).center, (s1.update c).A)]) := by
      unfold Xnes.update
      dsimp only
      rw [if_pos hd, e5, hd']
      rfl
    refine ⟨⟨_, hds⟩, ?_, e2, e3⟩
    rw [Xnes.lastCenter]
    dsimp only
    rw [hds]
    dsimp only
    rw [List.length_append, List.length_append, List.length_singleton, List.length_singleton, Nat.add_sub_cancel (n := d.length) (m := 2),
      List.getElem?_append_left (by simp), List.getElem?_concat_length]

end Verif.NES

namespace Verif.Props
open Verif.NES Verif.Mixing Verif.Ranking Matrix

variable {n : Nat}

/-- **C88, XNES keeps a proper Gaussian.** In every state reached by learning, with or without importance mixing, `_invA` is the inverse of the
transformation `_A`, its determinant is positive, and `_logDetA` is the logarithm of that determinant. -/
theorem C88_xnes_gaussian (c : Cfg) (g : Vec n → ℝ) (x0 : Vec n) (rs : List (Rand n)) (s : Xnes n)
    (h : (Xnes.init c x0).run c g rs = .ok s) :
    s.A * s.invA = 1 ∧ s.invA * s.A = 1 ∧ 0 < s.A.det ∧ s.logDetA = Real.log s.A.det := by
  obtain ⟨h1, h2, h3⟩ := run_induction c g Xnes.Consistent (fun r s s' hc hs => step_consistent c g r s s' hs hc) rs _ s (init_consistent c x0) h
  exact ⟨h1, mul_eq_one_comm.1 h1, h2, h3⟩

/-- **C88, sample coordinates.** In every reached state, going from sample coordinates to those of the problem and back changes nothing. -/
theorem C88_xnes_coordinates (c : Cfg) (g : Vec n → ℝ) (x0 : Vec n) (rs : List (Rand n)) (s : Xnes n)
    (h : (Xnes.init c x0).run c g rs = .ok s) (v : Vec n) : s.base2sample (s.sample2base v) = v ∧ s.sample2base (s.base2sample v) = v := by
  obtain ⟨h1, h2, _⟩ := C88_xnes_gaussian c g x0 rs s h
  simp only [Xnes.base2sample, Xnes.sample2base, add_sub_cancel_right, Matrix.mulVec_mulVec, h1, h2, Matrix.one_mulVec, sub_add_cancel, and_self]

/-- **C88, the densities of importance mixing.** After a step (with the distributions stored), for a point `x` in sample coordinates `z`: `_newpdf` is,
up to a common factor, the density of the present Gaussian at `x`, and `_oldpdf` that of the previous one at the same `x`. -/
theorem C88_xnes_densities (c : Cfg) (hd : c.storeAllDistributions = true) (g : Vec n → ℝ) (x0 : Vec n) (rs : List (Rand n)) (r : Rand n) (s s' : Xnes n)
    (h : (Xnes.init c x0).run c g rs = .ok s) (h' : s.step c g r = .ok s') (z : Vec n) :
    let x := s'.A *ᵥ z + s'.center
    s'.newpdf z = .ok (Real.exp (-(1 / 2) * ((s'.A⁻¹ *ᵥ (x - s'.center)) ⬝ᵥ (s'.A⁻¹ *ᵥ (x - s'.center)))) / s'.A.det) ∧
    s'.oldpdf z = .ok (Real.exp (-(1 / 2) * ((s.A⁻¹ *ᵥ (x - s.center)) ⬝ᵥ (s.A⁻¹ *ᵥ (x - s.center)))) / s.A.det) := by
  intro x
  have hc := run_induction c g Xnes.Consistent (fun r s s' hc hs => step_consistent c g r s s' hs hc) rs _ s (init_consistent c x0) h
  have hc' := step_consistent c g r s s' h' hc
  have hs := run_induction c g Xnes.Stored (fun r s s' hc hs => (step_stored c hd g r s s' hs hc).1) rs _ s (by
    refine ⟨[], ?_⟩; simp [Xnes.init, hd]) h
  obtain ⟨-, e1, e2, e3⟩ := step_stored c hd g r s s' h' hs
  have key : ∀ (A B : Matrix (Fin n) (Fin n) ℝ) (v : Vec n) (l : ℝ), A * B = 1 → 0 < A.det → l = Real.log A.det →
      Real.exp (-0.5 * ((B *ᵥ v) ⬝ᵥ (B *ᵥ v)) - l) = Real.exp (-(1 / 2) * ((A⁻¹ *ᵥ v) ⬝ᵥ (A⁻¹ *ᵥ v))) / A.det := by
    intro A B v l h1 h2 h3
    rw [Matrix.inv_eq_right_inv h1, h3, Real.exp_sub, Real.exp_log h2]
    norm_num
  constructor
  · rw [← key s'.A s'.invA (x - s'.center) s'.logDetA hc'.1 hc'.2.1 hc'.2.2]
    simp only [x, add_sub_cancel_right, Matrix.mulVec_mulVec, mul_eq_one_comm.1 hc'.1, Matrix.one_mulVec, Xnes.newpdf]
  · rw [← key s.A s.invA (x - s.center) s.logDetA hc.1 hc.2.1 hc.2.2]
    simp only [Xnes.oldpdf, e1, e2, e3, Xnes.sample2base, x]

/-- **C88, what a step of XNES does.** Without importance mixing learning never fails. Each step evaluates the points `A z + center` for
`batchSize` draws `z`, and moves the distribution along the utility-weighted sums of the draws and of `z zᵀ - 1`: its trace part scaled by
`scaleLearningRate`, the rest by `covLearningRate`. -/
theorem C88_xnes_step (c : Cfg) (hm : c.importanceMixing = false) (g : Vec n → ℝ) (x0 : Vec n) (rs : List (Rand n)) (r : Rand n) :
    ∃ s s', (Xnes.init c x0).run c g rs = .ok s ∧ (Xnes.init c x0).run c g (rs ++ [r]) = .ok s' ∧
      let zs := (List.range c.batchSize).map r.z
      let pts := zs.map (fun z => s.A *ᵥ z + s.center)
      let u := utilities c (pts.map g)
      let G : Matrix (Fin n) (Fin n) ℝ := wsum u (zs.map (fun z => vecMulVec z z - 1))
      let iso := (G.trace / n) • (1 : Matrix (Fin n) (Fin n) ℝ)
      s'.store.evaluated = s.store.evaluated ++ pts ∧
      s'.center = s.center + c.centerLR • (s.A *ᵥ wsum u zs) ∧
      s'.A = s.A * NormedSpace.exp ((1 / 2 : ℝ) • (c.scaleLR • iso + c.covLR • (G - iso))) := by
  obtain ⟨s, hs⟩ := run_total c hm g rs (Xnes.init c x0)
  have hc := (C88_xnes_gaussian c g x0 rs s hs).1
  have hlen := run_induction c g (fun s => s.store.evaluated.length = s.store.evaluations.length)
    (fun r s s' hc hs => step_lengths c g r s s' hs hc) rs _ s rfl hs
  have hstep := step_plain c g r s (Or.inr hm) hc hlen
  have hrun : ∀ (rs : List (Rand n)) (s0 s s' : Xnes n), s0.run c g rs = .ok s → s.step c g r = .ok s' → s0.run c g (rs ++ [r]) = .ok s' := by
    intro rs
    induction rs with
    | nil =>
      intro s0 s s' h1 h2
      simp only [Xnes.run, Except.ok.injEq] at h1
      subst h1
      simp only [List.nil_append, Xnes.run, h2]
    | cons a rs ih =>
      intro s0 s s' h1 h2
      simp only [List.cons_append, Xnes.run] at h1 ⊢
      split at h1
      · exact absurd h1 (by simp)
      · exact ih _ s s' h1 h2
  refine ⟨s, _, hs, hrun rs _ s _ hs hstep, ?_, ?_, ?_⟩
  · simp only [Xnes.batch, List.map_map, Function.comp_def]
  · simp only [Xnes.batch, List.map_map, Function.comp_def]
  · simp only [Xnes.batch, List.map_map, Function.comp_def, deltaA]
    congr 2
    norm_num
    simp only [smul_smul, mul_div_assoc]

/-- **C88, number of evaluations.** Without importance mixing every step makes exactly `batchSize` evaluations, and the step after them works
with these (`_pointers`). -/
theorem C88_xnes_evaluations (c : Cfg) (hm : c.importanceMixing = false) (g : Vec n → ℝ) (x0 : Vec n) (rs : List (Rand n)) (s : Xnes n)
    (h : (Xnes.init c x0).run c g rs = .ok s) :
    s.store.evaluated.length = c.batchSize * rs.length ∧ s.store.evaluations = s.store.evaluated.map (fun x => if c.opposed then -(g x) else g x) := by
  have key : ∀ (rs : List (Rand n)) (s0 s : Xnes n), s0.run c g rs = .ok s →
      s0.store.evaluations = s0.store.evaluated.map (fun x => if c.opposed then -(g x) else g x) →
      s.store.evaluated.length = s0.store.evaluated.length + c.batchSize * rs.length ∧
      s.store.evaluations = s.store.evaluated.map (fun x => if c.opposed then -(g x) else g x) := by
    intro rs
    induction rs with
    | nil =>
      intro s0 s h h0
      simp only [Xnes.run, Except.ok.injEq] at h
      subst h
      exact ⟨by simp, h0⟩
    | cons r rs ih =>
      intro s0 s h h0
      obtain ⟨s1, h1, _, _, _, hst, _⟩ := produceSamples_plain c hm g r s0
      simp only [Xnes.run, Xnes.step, h1] at h
      obtain ⟨a, b⟩ := ih _ s h (by
        simp only [Xnes.update]
        rw [hst]
        simp only [List.map_append, h0])
      refine ⟨?_, b⟩
      rw [a]
      simp only [Xnes.update]
      rw [hst]
      simp only [List.length_append, batch_length, List.length_cons]
      ring
  have := key rs _ s h rfl
  simpa [Xnes.init] using this

end Verif.Props

namespace Verif.NES
open Matrix Verif.Mixing

variable {n : Nat}

/-! ### Change of coordinates -/

theorem wsum_zmap (Q : Matrix (Fin n) (Fin n) ℝ) (u : List ℝ) (zs : List (Vec n)) :
    wsum u (zs.map (fun z => Q *ᵥ z)) = Q *ᵥ wsum u zs := wsum_map (Matrix.mulVecLin Q) u zs

theorem deltaA_rotate (c : Cfg) (Q : Matrix (Fin n) (Fin n) ℝ) (hQ : Q * Qᵀ = 1) (u : List ℝ) (zs : List (Vec n)) :
    (deltaA c u (zs.map (fun z => Q *ᵥ z))).1 = Q * (deltaA c u zs).1 * Qᵀ ∧ (deltaA c u (zs.map (fun z => Q *ᵥ z))).2 = (deltaA c u zs).2 := by
  have hQ' : Qᵀ * Q = 1 := mul_eq_one_comm.1 hQ
  let L : Matrix (Fin n) (Fin n) ℝ →ₗ[ℝ] Matrix (Fin n) (Fin n) ℝ :=
    { toFun := fun M => Q * M * Qᵀ
      map_add' := fun a b => by rw [Matrix.mul_add, Matrix.add_mul]
      map_smul' := fun a b => by simp }
  have hG : (wsum u ((zs.map (fun z => Q *ᵥ z)).map (fun z => vecMulVec z z - 1)) : Matrix (Fin n) (Fin n) ℝ) =
      Q * wsum u (zs.map (fun z => vecMulVec z z - 1)) * Qᵀ := by
    rw [← show L _ = Q * wsum u (zs.map (fun z => vecMulVec z z - 1)) * Qᵀ from rfl, ← wsum_map L, List.map_map, List.map_map]
    congr 1
    refine List.map_congr_left (fun z _ => ?_)
    change vecMulVec (Q *ᵥ z) (Q *ᵥ z) - 1 = Q * (vecMulVec z z - 1) * Qᵀ
    rw [Matrix.mul_sub, Matrix.sub_mul, Matrix.mul_one, hQ, Matrix.mul_vecMulVec, Matrix.vecMulVec_mul, Matrix.vecMul_transpose]
  have htr : (Q * wsum u (zs.map (fun z => vecMulVec z z - 1)) * Qᵀ).trace =
      (wsum u (zs.map (fun z => vecMulVec z z - 1)) : Matrix (Fin n) (Fin n) ℝ).trace := by
    rw [Matrix.trace_mul_comm, ← Matrix.mul_assoc, hQ', Matrix.one_mul]
  simp only [deltaA, hG, htr, and_true]
  rw [Matrix.mul_smul, Matrix.smul_mul, Matrix.mul_add, Matrix.add_mul, Matrix.mul_smul, Matrix.smul_mul, Matrix.mul_one, hQ,
    Matrix.mul_smul, Matrix.smul_mul, Matrix.mul_sub, Matrix.sub_mul, Matrix.mul_smul, Matrix.smul_mul, Matrix.mul_one, hQ]

theorem exp_rotate (Q : Matrix (Fin n) (Fin n) ℝ) (hQ : Q * Qᵀ = 1) (M : Matrix (Fin n) (Fin n) ℝ) :
    NormedSpace.exp (Q * M * Qᵀ) = Q * NormedSpace.exp M * Qᵀ := by
  have hinv : Q⁻¹ = Qᵀ := Matrix.inv_eq_right_inv hQ
  have hunit : IsUnit Q := (Matrix.isUnit_iff_isUnit_det Q).2 (by
    have := congrArg Matrix.det hQ
    rw [Matrix.det_mul, Matrix.det_one] at this
    exact IsUnit.of_mul_eq_one _ this)
  rw [← hinv]
  exact Matrix.exp_conj Q M hunit

/-- the random numbers in rotated coordinates -/
def Rand.rotate (Q : Matrix (Fin n) (Fin n) ℝ) (r : Rand n) : Rand n := { r with z := fun k => Q *ᵥ r.z k }

theorem step_transport (c : Cfg) (hm : c.importanceMixing = false) (B Q : Matrix (Fin n) (Fin n) ℝ) (t : Vec n) (hB : B * B⁻¹ = 1) (hQ : Q * Qᵀ = 1)
    (g g' : Vec n → ℝ) (hg : ∀ x, g' (B *ᵥ x + t) = g x) (r : Rand n) (s : Xnes n) (hinv : s.A * s.invA = 1)
    (hlen : s.store.evaluated.length = s.store.evaluations.length) (s' : Xnes n) (h : s.step c g r = .ok s') :
    (s.transport B t Q).step c g' (r.rotate Q) = .ok (s'.transport B t Q) := by
  have hQ' : Qᵀ * Q = 1 := mul_eq_one_comm.1 hQ
  have hB' : B⁻¹ * B = 1 := mul_eq_one_comm.1 hB
  have e1 := step_plain c g r s (Or.inr hm) hinv hlen
  rw [h, Except.ok.injEq] at e1
  have hinvT : (s.transport B t Q).A * (s.transport B t Q).invA = 1 := by
    simp only [Xnes.transport]
    calc B * s.A * Qᵀ * (Q * s.invA * B⁻¹) = B * s.A * (Qᵀ * Q) * s.invA * B⁻¹ := by simp only [Matrix.mul_assoc]
      _ = B * (s.A * s.invA) * B⁻¹ := by rw [hQ', Matrix.mul_one, Matrix.mul_assoc B]
      _ = 1 := by rw [hinv, Matrix.mul_one, hB]
  have e2 := step_plain c g' (r.rotate Q) (s.transport B t Q) (Or.inr hm) hinvT (by simp [Xnes.transport, hlen])
  rw [e2, e1]
  have hbatch : (s.transport B t Q).batch c (r.rotate Q).z = (s.batch c r.z).map (fun x => B *ᵥ x + t) := by
    simp only [Xnes.batch, List.map_map]
    refine List.map_congr_left (fun k _ => ?_)
    simp only [Function.comp, Xnes.transport, Rand.rotate, Matrix.mulVec_mulVec, Matrix.mulVec_add]
    rw [Matrix.mul_assoc (B * s.A), hQ', Matrix.mul_one, add_assoc]
  have hfit : ((s.batch c r.z).map (fun x => B *ᵥ x + t)).map g' = (s.batch c r.z).map g := by
    rw [List.map_map]
    exact List.map_congr_left (fun x _ => hg x)
  have hzs : (List.range c.batchSize).map (r.rotate Q).z = ((List.range c.batchSize).map r.z).map (fun z => Q *ᵥ z) := by
    simp only [Rand.rotate, List.map_map]
    rfl
  have hst : ((s.batch c r.z).map (fun x => B *ᵥ x + t)).map (fun x => if c.opposed then -(g' x) else g' x) =
      (s.batch c r.z).map (fun x => if c.opposed then -(g x) else g x) := by
    rw [List.map_map]
    exact List.map_congr_left (fun x _ => by simp only [Function.comp, hg])
  simp only [hbatch, hfit, hzs, hst]
  generalize hu : utilities c ((s.batch c r.z).map g) = u
  generalize hz : (List.range c.batchSize).map r.z = zs
  obtain ⟨d1, d2⟩ := deltaA_rotate c Q hQ u zs
  rw [d1, d2, exp_rotate Q hQ, wsum_zmap]
  have hneg : NormedSpace.exp (-(Q * (deltaA c u zs).1 * Qᵀ)) = Q * NormedSpace.exp (-(deltaA c u zs).1) * Qᵀ := by
    rw [← exp_rotate Q hQ, Matrix.mul_neg, Matrix.neg_mul]
  rw [hneg]
  have hA : (s.transport B t Q).A * (Q * NormedSpace.exp (deltaA c u zs).1 * Qᵀ) = B * (s.A * NormedSpace.exp (deltaA c u zs).1) * Qᵀ := by
    simp only [Xnes.transport]
    calc B * s.A * Qᵀ * (Q * NormedSpace.exp (deltaA c u zs).1 * Qᵀ) = B * s.A * (Qᵀ * Q) * NormedSpace.exp (deltaA c u zs).1 * Qᵀ := by
          simp only [Matrix.mul_assoc]
      _ = B * (s.A * NormedSpace.exp (deltaA c u zs).1) * Qᵀ := by rw [hQ', Matrix.mul_one, Matrix.mul_assoc B]
  have hI : Q * NormedSpace.exp (-(deltaA c u zs).1) * Qᵀ * (s.transport B t Q).invA = Q * (NormedSpace.exp (-(deltaA c u zs).1) * s.invA) * B⁻¹ := by
    simp only [Xnes.transport]
    calc Q * NormedSpace.exp (-(deltaA c u zs).1) * Qᵀ * (Q * s.invA * B⁻¹) =
        Q * NormedSpace.exp (-(deltaA c u zs).1) * (Qᵀ * Q) * s.invA * B⁻¹ := by simp only [Matrix.mul_assoc]
      _ = _ := by rw [hQ', Matrix.mul_one, Matrix.mul_assoc Q]
  have hC : (s.transport B t Q).center + c.centerLR • ((s.transport B t Q).A *ᵥ (Q *ᵥ wsum u zs)) =
      B *ᵥ (s.center + c.centerLR • (s.A *ᵥ wsum u zs)) + t := by
    simp only [Xnes.transport, Matrix.mulVec_mulVec, Matrix.mulVec_add, Matrix.mulVec_smul]
    rw [Matrix.mul_assoc (B * s.A), hQ', Matrix.mul_one]
    abel
  rw [hA, hI, hC]
  simp only [Xnes.transport, List.map_append, List.length_map, Except.ok.injEq, Xnes.mk.injEq, true_and, and_true]
  refine ⟨by ring, ?_⟩
  split
  · cases s.dists <;> simp
  · rfl

/-! ### Change of the fitness -/

theorem step_rescale (c : Cfg) (hm : c.importanceMixing = false) (hr : RankBased c.shaping) (φ : ℝ → ℝ) (hφ : StrictMono φ)
    (g : Vec n → ℝ) (r : Rand n) (s : Xnes n) (hinv : s.A * s.invA = 1)
    (hlen : s.store.evaluated.length = s.store.evaluations.length) (s' : Xnes n) (h : s.step c g r = .ok s') :
    ({ s with store := s.store.rescale c.opposed φ } : Xnes n).step c (fun x => φ (g x)) r = .ok { s' with store := s'.store.rescale c.opposed φ } := by
  have e1 := step_plain c g r s (Or.inr hm) hinv hlen
  rw [h, Except.ok.injEq] at e1
  have e2 := step_plain c (fun x => φ (g x)) r { s with store := s.store.rescale c.opposed φ } (Or.inr hm) hinv (by simp [Store.rescale, hlen])
  have hbatch : Xnes.batch c r.z ({ s with store := s.store.rescale c.opposed φ } : Xnes n) = s.batch c r.z := rfl
  have hu : utilities c ((s.batch c r.z).map (fun x => φ (g x))) = utilities c ((s.batch c r.z).map g) := by
    have := hr φ hφ ((s.batch c r.z).map g)
    rw [List.map_map] at this
    rw [utilities, utilities, ← this]
    rfl
  have hev : (s.store.rescale c.opposed φ).evaluated = s.store.evaluated := rfl
  rw [e2, e1]
  simp only [hbatch, hu, hev]
  simp only [Store.rescale, List.map_append, List.map_map, Except.ok.injEq, Xnes.mk.injEq, true_and, and_true, Store.mk.injEq]
  congr 1
  refine List.map_congr_left (fun x _ => ?_)
  simp only [Function.comp]
  cases c.opposed <;> simp

/-- the ranks do not change -/
theorem rankedFitness_map (φ : ℝ → ℝ) (hφ : StrictMono φ) (R : List ℝ) : Ranking.rankedFitness (R.map φ) = Ranking.rankedFitness R := by
  have hloop : ∀ (l : List (ℝ × Nat)) (i : Nat) (res : List Nat),
      Ranking.rankLoop (l.map (fun p => (φ p.1, p.2))) i res = Ranking.rankLoop l i res := by
    intro l
    induction l with
    | nil => intro i res; rfl
    | cons p l ih => intro i res; simp only [List.map_cons, Ranking.rankLoop, ih]
  have hz : (R.map φ).zipIdx = R.zipIdx.map (fun p => (φ p.1, p.2)) := by
    rw [List.zipIdx_map]
    rfl
  rw [Ranking.rankedFitness, Ranking.rankedFitness, hz, ← List.map_mergeSort (r := Ranking.tupleLe) (s := Ranking.tupleLe), hloop, List.length_map]
  intro a _ b _
  simp [Ranking.tupleLe, hφ.lt_iff_lt, hφ.injective.eq_iff]

end Verif.NES

namespace Verif.Props
open Verif.NES Verif.Mixing Verif.Ranking Matrix

variable {n : Nat}

/-- **C88, the default shaping.** `HansenRanking` looks only at the order of the fitnesses and gives better ones larger utilities. -/
theorem C88_hansen : RankBased hansen ∧ Shaping hansen := by
  refine ⟨fun φ hφ R => ?_, ?_⟩
  · rw [hansen, hansen, rankedFitness_map φ hφ, List.length_map]
  · exact ⟨fun R => (C63_hansen R).1.1, fun R => (C63_hansen R).2.1, fun R => (C63_hansen R).2.2, fun R => (C63_hansen R).1.2⟩

/-- **C88, XNES does not depend on the coordinate system.** If the problem is moved by `x ↦ B x + t` with an invertible `B`, and the draws are
rotated by an orthogonal `Q`, then a run from the moved state is the moved run: all its points, centers and matrices are the images of
those of the original run. -/
theorem C88_xnes_coordinate_free (c : Cfg) (hm : c.importanceMixing = false) (B Q : Matrix (Fin n) (Fin n) ℝ) (t : Vec n) (hB : IsUnit B)
    (hQ : Q ∈ Matrix.orthogonalGroup (Fin n) ℝ) (g : Vec n → ℝ) :
    ∀ (rs : List (Rand n)) (s s' : Xnes n), s.A * s.invA = 1 → s.store.evaluated.length = s.store.evaluations.length → s.run c g rs = .ok s' →
      (s.transport B t Q).run c (fun y => g (B⁻¹ *ᵥ (y - t))) (rs.map (Rand.rotate Q)) = .ok (s'.transport B t Q)
  | [], s, s', _, _, h => by
    simp only [Xnes.run, Except.ok.injEq] at h
    subst h
    rfl
  | r :: rs, s, s', hinv, hlen, h => by
    have hBB : B * B⁻¹ = 1 := Matrix.mul_nonsing_inv _ ((Matrix.isUnit_iff_isUnit_det B).1 hB)
    have hBB' : B⁻¹ * B = 1 := mul_eq_one_comm.1 hBB
    have hQQ : Q * Qᵀ = 1 := (Matrix.mem_orthogonalGroup_iff (Fin n) ℝ).1 hQ
    have hg : ∀ x, (fun y => g (B⁻¹ *ᵥ (y - t))) (B *ᵥ x + t) = g x := by
      intro x
      simp only [add_sub_cancel_right, Matrix.mulVec_mulVec, hBB', Matrix.one_mulVec]
    rw [Xnes.run] at h
    split at h
    · exact absurd h (by simp)
    · next s1 h1 =>
      have ht := step_transport c hm B Q t hBB hQQ g (fun y => g (B⁻¹ *ᵥ (y - t))) hg r s hinv hlen s1 h1
      simp only [List.map_cons, Xnes.run, ht]
      have hinv1 : s1.A * s1.invA = 1 := by
        have e1 := step_plain c g r s (Or.inr hm) hinv hlen
        rw [h1, Except.ok.injEq] at e1
        rw [e1]
        simp only
        rw [Matrix.mul_assoc, ← Matrix.mul_assoc (NormedSpace.exp _), exp_mul_exp_neg, Matrix.one_mul, hinv]
      exact C88_xnes_coordinate_free c hm B Q t hB hQ g rs s1 s' hinv1 (step_lengths c g r s s1 h1 hlen) h

/-- **C88, rotations and translations.** Started at `Q x₀ + t` on the rotated and moved problem, with rotated draws (which are as likely), XNES
does the same in the rotated and moved coordinates. -/
theorem C88_xnes_rotation (c : Cfg) (hm : c.importanceMixing = false) (Q : Matrix (Fin n) (Fin n) ℝ) (t : Vec n)
    (hQ : Q ∈ Matrix.orthogonalGroup (Fin n) ℝ) (g : Vec n → ℝ) (x0 : Vec n) (rs : List (Rand n)) (s : Xnes n)
    (h : (Xnes.init c x0).run c g rs = .ok s) :
    ∃ s', (Xnes.init c (Q *ᵥ x0 + t)).run c (fun y => g (Q⁻¹ *ᵥ (y - t))) (rs.map (Rand.rotate Q)) = .ok s' ∧
      s'.center = Q *ᵥ s.center + t ∧ s'.A = Q * s.A * Qᵀ ∧ s'.store.evaluated = s.store.evaluated.map (fun x => Q *ᵥ x + t) ∧
      s'.store.evaluations = s.store.evaluations := by
  have hQQ : Q * Qᵀ = 1 := (Matrix.mem_orthogonalGroup_iff (Fin n) ℝ).1 hQ
  have hdet2 := congrArg Matrix.det hQQ
  rw [Matrix.det_mul, Matrix.det_transpose, Matrix.det_one] at hdet2
  have hinvQ : Q⁻¹ = Qᵀ := Matrix.inv_eq_right_inv hQQ
  have habs : |Q.det| = 1 := by
    rcases mul_self_eq_one_iff.1 hdet2 with h | h <;> rw [h] <;> simp
  have hunit : IsUnit Q := (Matrix.isUnit_iff_isUnit_det Q).2 (IsUnit.of_mul_eq_one _ hdet2)
  have hinit : (Xnes.init c x0).transport Q t Q = Xnes.init c (Q *ᵥ x0 + t) := by
    simp only [Xnes.transport, Xnes.init, Matrix.mul_one, hQQ, hinvQ, habs, Real.log_one, add_zero, List.map_nil, Xnes.mk.injEq, true_and, and_true]
    split <;> simp [hQQ]
  have := C88_xnes_coordinate_free c hm Q Q t hunit hQ g rs (Xnes.init c x0) s (by simp [Xnes.init]) rfl h
  rw [hinit] at this
  exact ⟨_, this, rfl, rfl, rfl, rfl⟩

/-- **C88, XNES looks only at the order of the fitnesses.** Replacing the fitness by a strictly increasing function of it changes no center, matrix
or evaluated point of a run: only the stored fitnesses. -/
theorem C88_xnes_order (c : Cfg) (hm : c.importanceMixing = false) (hr : RankBased c.shaping) (φ : ℝ → ℝ) (hφ : StrictMono φ) (g : Vec n → ℝ)
    (x0 : Vec n) (rs : List (Rand n)) (s : Xnes n) (h : (Xnes.init c x0).run c g rs = .ok s) :
    (Xnes.init c x0).run c (fun x => φ (g x)) rs = .ok { s with store := s.store.rescale c.opposed φ } := by
  have key : ∀ (rs : List (Rand n)) (s s' : Xnes n), s.A * s.invA = 1 → s.store.evaluated.length = s.store.evaluations.length →
      s.run c g rs = .ok s' → ({ s with store := s.store.rescale c.opposed φ } : Xnes n).run c (fun x => φ (g x)) rs =
        .ok { s' with store := s'.store.rescale c.opposed φ } := by
    intro rs
    induction rs with
    | nil =>
      intro s s' _ _ h
      simp only [Xnes.run, Except.ok.injEq] at h
      subst h
      rfl
    | cons r rs ih =>
      intro s s' hinv hlen h
      rw [Xnes.run] at h
      split at h
      · exact absurd h (by simp)
      · next s1 h1 =>
        have ht := step_rescale c hm hr φ hφ g r s hinv hlen s1 h1
        simp only [Xnes.run, ht]
        have hinv1 : s1.A * s1.invA = 1 := by
          have e1 := step_plain c g r s (Or.inr hm) hinv hlen
          rw [h1, Except.ok.injEq] at e1
          rw [e1]
          simp only
          rw [Matrix.mul_assoc, ← Matrix.mul_assoc (NormedSpace.exp _), exp_mul_exp_neg, Matrix.one_mul, hinv]
        exact ih s1 s' hinv1 (step_lengths c g r s s1 h1 hlen) h
  exact key rs _ s (by simp [Xnes.init]) rfl h

/-! ### Uphill -/

theorem dot_wsum (w : Vec n) (u : List ℝ) (xs : List (Vec n)) : w ⬝ᵥ wsum u xs = wsum u (xs.map (fun x => w ⬝ᵥ x)) := by
  let L : Vec n →ₗ[ℝ] ℝ := { toFun := fun x => w ⬝ᵥ x, map_add' := fun a b => by rw [dotProduct_add], map_smul' := fun a b => by simp }
  exact (wsum_map L u xs).symm

/-- Better fitnesses have larger utilities, so that the utilities minus their mean correlate with the fitness (Chebyshev). -/
theorem utilities_correlate (c : Cfg) (hs : Shaping c.shaping) (hb : c.uniformBaseline = true) (fits : List ℝ)
    (hlen : fits.length = c.batchSize) (h0 : 0 < c.batchSize) : 0 ≤ wsum (utilities c fits) fits := by
  have hne : fits ≠ [] := by intro e; rw [e] at hlen; simp at hlen; omega
  have hpos := shaping_sum_pos c hs fits hne
  have hsl := hs.length fits
  set v := c.shaping fits with hv
  have e : wsum (utilities c fits) fits = (∑ i : Fin fits.length, v[i.1]'(by rw [hsl]; exact i.2) * fits[i]) / v.sum -
      (∑ i : Fin fits.length, fits[i]) / fits.length := by
    have hB : (c.batchSize : ℝ) = fits.length := by rw [hlen]
    have aux : ∀ (v fits : List ℝ) (S m : ℝ), v.length = fits.length →
        wsum ((v.map (fun x => x / S)).map (fun x => x - m)) fits = (List.zipWith (· * ·) v fits).sum / S - m * fits.sum := by
      intro v
      induction v with
      | nil =>
        intro fits S m h
        have : fits = [] := List.length_eq_zero_iff.1 (by simpa using h.symm)
        subst this
        simp [wsum]
      | cons a v ih =>
        intro fits S m h
        cases fits with
        | nil => simp at h
        | cons b fits =>
          have := ih fits S m (by simpa using h)
          simp only [wsum, List.map_cons, List.zipWith_cons_cons, List.sum_cons, smul_eq_mul] at this ⊢
          rw [this]
          ring
    rw [utilities, if_pos hb, ← hv, aux v fits _ _ hsl, hB]
    congr 1
    · congr 1
      rw [← List.sum_ofFn]
      congr 1
      apply List.ext_getElem
      · simp [hsl]
      · intro i h1 h2
        simp
    · have : ∑ i : Fin fits.length, fits[i] = fits.sum := by
        rw [← List.sum_ofFn]
        congr 1
        apply List.ext_getElem <;> simp
      rw [this]
      ring
  rw [e]
  have hmono : Monovary (fun i : Fin fits.length => v[i.1]'(by rw [hsl]; exact i.2)) (fun i : Fin fits.length => fits[i]) := by
    intro i j hij
    exact hs.order fits i.1 j.1 fits[i] fits[j] _ _ (by simp) (by simp) hij
      (by rw [List.getElem?_eq_getElem]) (by rw [List.getElem?_eq_getElem])
  have hch := hmono.sum_mul_sum_le_card_mul_sum
  have hsum : ∑ i : Fin fits.length, v[i.1]'(by rw [hsl]; exact i.2) = v.sum := by
    rw [← List.sum_ofFn]
    congr 1
    apply List.ext_getElem
    · simp [hsl]
    · intro i h1 h2
      simp
  rw [hsum, Fintype.card_fin] at hch
  have hn : (0 : ℝ) < fits.length := by rw [hlen]; exact_mod_cast h0
  rw [sub_nonneg, div_le_div_iff₀ hn hpos]
  linarith

/-- The utility-weighted sum of the draws points uphill on a linear objective. -/
theorem uphill_core (c : Cfg) (hs : Shaping c.shaping) (hb : c.uniformBaseline = true) (h0 : 0 < c.batchSize) (w : Vec n) (k : ℝ)
    (zs : List (Vec n)) (hz : zs.length = c.batchSize) : 0 ≤ w ⬝ᵥ wsum (utilities c (zs.map (fun z => w ⬝ᵥ z + k))) zs := by
  have hcor := utilities_correlate c hs hb (zs.map (fun z => w ⬝ᵥ z + k)) (by simpa using hz) h0
  have hsum := utilities_sum c hs (zs.map (fun z => w ⬝ᵥ z + k)) (by simpa using hz) h0
  have hlen := utilities_length c hs (zs.map (fun z => w ⬝ᵥ z + k))
  rw [if_pos hb] at hsum
  rw [List.length_map] at hlen
  rw [dot_wsum]
  generalize utilities c (zs.map (fun z => w ⬝ᵥ z + k)) = u at *
  have hmap : zs.map (fun z => w ⬝ᵥ z + k) = (zs.map (fun z => w ⬝ᵥ z)).map (fun x => x + k) := by
    rw [List.map_map]; rfl
  rw [hmap, wsum_add_const k _ _ (by simpa using hlen), hsum, zero_smul, add_zero] at hcor
  exact hcor

/-- **C88, XNES goes uphill.** With the uniform baseline (the default) no step of XNES on a linear objective lowers its value at the center,
whatever the draws. -/
theorem C88_xnes_uphill (c : Cfg) (hm : c.importanceMixing = false) (hs : Shaping c.shaping) (hb : c.uniformBaseline = true) (h0 : 0 < c.batchSize)
    (hlr : 0 ≤ c.centerLR) (w : Vec n) (b : ℝ) (x0 : Vec n) (rs : List (Rand n)) (r : Rand n) :
    ∃ s s', (Xnes.init c x0).run c (fun x => w ⬝ᵥ x + b) rs = .ok s ∧ (Xnes.init c x0).run c (fun x => w ⬝ᵥ x + b) (rs ++ [r]) = .ok s' ∧
      w ⬝ᵥ s.center + b ≤ w ⬝ᵥ s'.center + b := by
  obtain ⟨s, s', h1, h2, h3⟩ := C88_xnes_step c hm (fun x => w ⬝ᵥ x + b) x0 rs r
  refine ⟨s, s', h1, h2, ?_⟩
  obtain ⟨_, hc, _⟩ := h3
  simp only [List.map_map] at hc
  rw [hc, dotProduct_add, dotProduct_smul, Matrix.dotProduct_mulVec]
  have hmap : (List.range c.batchSize).map ((fun x => w ⬝ᵥ x + b) ∘ (fun z => s.A *ᵥ z + s.center) ∘ r.z) =
      ((List.range c.batchSize).map r.z).map (fun z => (w ᵥ* s.A) ⬝ᵥ z + (w ⬝ᵥ s.center + b)) := by
    rw [List.map_map]
    refine List.map_congr_left (fun k _ => ?_)
    simp only [Function.comp, dotProduct_add, Matrix.dotProduct_mulVec, add_assoc]
  rw [hmap]
  have := uphill_core c hs hb h0 (w ᵥ* s.A) (w ⬝ᵥ s.center + b) ((List.range c.batchSize).map r.z) (by simp)
  have := smul_nonneg hlr this
  linarith

end Verif.Props

namespace Verif.NES
open Matrix Verif.Mixing

variable {n : Nat}

/-! ### SNES -/

theorem snes_batch_length (c : Cfg) (s : Snes n) (z : Nat → Vec n) : (s.batch c z).length = c.batchSize := by simp [Snes.batch]

theorem snes_step_eq (c : Cfg) (g : Vec n → ℝ) (z : Nat → Vec n) (s : Snes n) (hσ : ∀ i, s.sigmas i ≠ 0)
    (hlen : s.store.evaluated.length = s.store.evaluations.length) :
    let u := utilities c ((s.batch c z).map g)
    let zs := (List.range c.batchSize).map z
    let st : Store n := if c.clearStorage then ⟨[], []⟩ else s.store
    s.step c g z =
      { center := s.center + c.centerLR • (s.sigmas * wsum u zs),
        sigmas := s.sigmas * (fun i => Real.exp (((0.5 * c.covLR) • (wsum u (zs.map (fun z => z ^ 2 - 1)) : Vec n)) i)),
        store := ⟨st.evaluated ++ s.batch c z, st.evaluations ++ (s.batch c z).map (fun x => if c.opposed then -(g x) else g x)⟩,
        pointers := (List.range c.batchSize).map (fun k => st.evaluated.length + k) } := by
  intro u zs st
  have hlen' : st.evaluated.length = st.evaluations.length := by
    simp only [st]; split <;> simp [hlen]
  obtain ⟨hpop, hev⟩ := read_back c.opposed g st hlen' (s.batch c z)
  simp only [snes_batch_length, List.length_append, Nat.add_sub_cancel] at hpop hev
  have hst : (List.range c.batchSize).foldl (fun st k => st.add c.opposed g (s.sample2base (z k))) st =
      ⟨st.evaluated ++ s.batch c z, st.evaluations ++ (s.batch c z).map (fun x => if c.opposed then -(g x) else g x)⟩ := by
    simp only [store_foldl, Snes.batch, Snes.sample2base, List.map_map, Function.comp_def]
  have hprod : s.produceSamples c g z = { s with
      store := ⟨st.evaluated ++ s.batch c z, st.evaluations ++ (s.batch c z).map (fun x => if c.opposed then -(g x) else g x)⟩,
      pointers := (List.range c.batchSize).map (fun k => st.evaluated.length + k) } := by
    have hst' := hst
    simp only [st] at hst'
    rw [Snes.produceSamples]
    simp only [hst', List.length_append, snes_batch_length, Nat.add_sub_cancel, st]
  have hb' : ∀ s' : Snes n, s'.center = s.center → s'.sigmas = s.sigmas → (s.batch c z).map s'.base2sample = zs := by
    intro s' h1 h2
    rw [Snes.batch, List.map_map]
    refine List.map_congr_left (fun k _ => ?_)
    funext i
    simp only [Function.comp, Snes.base2sample, h1, h2, add_sub_cancel_right, Pi.div_apply, Pi.mul_apply]
    rw [mul_div_cancel_left₀ _ (hσ i)]
  rw [Snes.step, hprod]
  simp only [hpop, hev, hb']
  rfl

theorem snes_inv (c : Cfg) (g : Vec n → ℝ) : ∀ (zs : List (Nat → Vec n)) (s : Snes n), (∀ i, 0 < s.sigmas i) →
    s.store.evaluated.length = s.store.evaluations.length →
    (∀ i, 0 < (s.run c g zs).sigmas i) ∧ (s.run c g zs).store.evaluated.length = (s.run c g zs).store.evaluations.length
  | [], s, h, hl => ⟨h, hl⟩
  | z :: zs, s, h, hl => by
    rw [Snes.run]
    have e := snes_step_eq c g z s (fun i => (h i).ne') hl
    refine snes_inv c g zs _ (fun i => ?_) ?_
    · rw [e]
      exact mul_pos (h i) (Real.exp_pos _)
    · rw [e]
      simp only [List.length_append, List.length_map]
      split <;> simp [hl]

theorem snes_run_append (c : Cfg) (g : Vec n → ℝ) (z : Nat → Vec n) : ∀ (zs : List (Nat → Vec n)) (s : Snes n),
    s.run c g (zs ++ [z]) = (s.run c g zs).step c g z
  | [], s => rfl
  | y :: zs, s => by
    simp only [List.cons_append, Snes.run]
    exact snes_run_append c g z zs _

end Verif.NES

namespace Verif.Props
open Verif.NES Verif.Mixing Verif.Ranking Matrix

variable {n : Nat}

/-- **C88, SNES keeps a proper Gaussian.** For a positive initial variance all standard deviations stay positive, and sample and problem
coordinates stay inverse to each other. -/
theorem C88_snes_gaussian (c : Cfg) (g : Vec n → ℝ) (x0 : Vec n) (v : ℝ) (hv : 0 < v) (zs : List (Nat → Vec n)) :
    let s := (Snes.init x0 v).run c g zs
    (∀ i, 0 < s.sigmas i) ∧ ∀ y, s.base2sample (s.sample2base y) = y ∧ s.sample2base (s.base2sample y) = y := by
  intro s
  have h := (snes_inv c g zs (Snes.init x0 v) (fun i => by simpa [Snes.init] using hv) rfl).1
  refine ⟨h, fun y => ⟨?_, ?_⟩⟩ <;> funext i <;> have hi := (h i).ne'
  · simp only [Snes.base2sample, Snes.sample2base, add_sub_cancel_right, Pi.div_apply, Pi.mul_apply]
    exact mul_div_cancel_left₀ _ hi
  · simp only [Snes.base2sample, Snes.sample2base, Pi.add_apply, Pi.div_apply, Pi.mul_apply, Pi.sub_apply]
    rw [mul_div_cancel₀ _ hi, sub_add_cancel]

/-- **C88, what a step of SNES does.** It evaluates the points `sigmas * z + center` for `batchSize` draws `z`, and moves center and standard
deviations, coordinate by coordinate, along the utility-weighted sums of `z` and `z² - 1`. With `clearStorage` only the last batch is kept. -/
theorem C88_snes_step (c : Cfg) (g : Vec n → ℝ) (x0 : Vec n) (v : ℝ) (hv : 0 < v) (zs : List (Nat → Vec n)) (z : Nat → Vec n) :
    let s := (Snes.init x0 v).run c g zs
    let s' := (Snes.init x0 v).run c g (zs ++ [z])
    let draws := (List.range c.batchSize).map z
    let pts := draws.map (fun z => s.sigmas * z + s.center)
    let u := utilities c (pts.map g)
    s'.store.evaluated = (if c.clearStorage then [] else s.store.evaluated) ++ pts ∧
    ∀ i, s'.center i = s.center i + c.centerLR * s.sigmas i * wsum u (draws.map (fun z => z i)) ∧
      s'.sigmas i = s.sigmas i * Real.exp (c.covLR / 2 * wsum u (draws.map (fun z => z i ^ 2 - 1))) := by
  intro s s' draws pts u
  obtain ⟨hσ, hl⟩ := snes_inv c g zs (Snes.init x0 v) (fun i => by simpa [Snes.init] using hv) rfl
  have e : s' = s.step c g z := snes_run_append c g z zs _
  have e2 := snes_step_eq c g z s (fun i => (hσ i).ne') hl
  have hp : s.batch c z = pts := by simp only [Snes.batch, pts, draws, List.map_map, Function.comp_def]
  rw [e, e2, hp]
  have hcoord : ∀ (i : Fin n) (xs : List (Vec n)), (wsum u xs : Vec n) i = wsum u (xs.map (fun x => x i)) := by
    intro i xs
    exact (wsum_map (LinearMap.proj i : Vec n →ₗ[ℝ] ℝ) u xs).symm
  refine ⟨?_, fun i => ⟨?_, ?_⟩⟩
  · simp only
    split <;> rfl
  · simp only [Pi.add_apply, Pi.smul_apply, Pi.mul_apply, smul_eq_mul]
    rw [mul_assoc, hcoord i draws]
  · simp only [Pi.mul_apply, Pi.smul_apply, smul_eq_mul]
    congr 2
    rw [show (wsum (utilities c (List.map g pts)) (List.map (fun z => z ^ 2 - 1) (List.map z (List.range c.batchSize))) : Vec n) i =
      wsum u ((List.map (fun z => z ^ 2 - 1) (List.map z (List.range c.batchSize))).map (fun x => x i)) from hcoord i _, List.map_map]
    rw [show (0.5 * c.covLR) = c.covLR / 2 by norm_num; ring]
    rfl

/-- **C88, SNES does not depend on scale and origin of the coordinates.** If every coordinate of the problem is stretched by a positive factor and
shifted, a run from the moved state is the moved run. -/
theorem C88_snes_coordinate_free (c : Cfg) (d t : Vec n) (hd : ∀ i, 0 < d i) (g : Vec n → ℝ) :
    ∀ (zs : List (Nat → Vec n)) (s : Snes n), (∀ i, 0 < s.sigmas i) → s.store.evaluated.length = s.store.evaluations.length →
      (s.transport d t).run c (fun y => g ((y - t) / d)) zs = (s.run c g zs).transport d t
  | [], s, _, _ => rfl
  | z :: zs, s, hσ, hl => by
    have e1 := snes_step_eq c g z s (fun i => (hσ i).ne') hl
    have e2 := snes_step_eq c (fun y => g ((y - t) / d)) z (s.transport d t) (fun i => (mul_pos (hd i) (hσ i)).ne') (by simp [Snes.transport, hl])
    have hbatch : (s.transport d t).batch c z = (s.batch c z).map (fun x => d * x + t) := by
      simp only [Snes.batch, List.map_map]
      refine List.map_congr_left (fun k _ => ?_)
      funext i
      simp only [Function.comp, Snes.transport, Pi.add_apply, Pi.mul_apply]
      ring
    have hg : ∀ x : Vec n, g ((d * x + t - t) / d) = g x := by
      intro x
      congr 1
      funext i
      simp only [add_sub_cancel_right, Pi.div_apply, Pi.mul_apply]
      exact mul_div_cancel_left₀ _ (hd i).ne'
    have hfit : ((s.batch c z).map (fun x => d * x + t)).map (fun y => g ((y - t) / d)) = (s.batch c z).map g := by
      rw [List.map_map]
      exact List.map_congr_left (fun x _ => hg x)
    have hst : ((s.batch c z).map (fun x => d * x + t)).map (fun x => if c.opposed then -(g ((x - t) / d)) else g ((x - t) / d)) =
        (s.batch c z).map (fun x => if c.opposed then -(g x) else g x) := by
      rw [List.map_map]
      exact List.map_congr_left (fun x _ => by simp only [Function.comp, hg])
    have hstep : (s.transport d t).step c (fun y => g ((y - t) / d)) z = (s.step c g z).transport d t := by
      rw [e1, e2]
      simp only [hbatch, hfit, hst]
      simp only [Snes.transport, Snes.mk.injEq, Store.mk.injEq]
      refine ⟨?_, ?_, ⟨?_, ?_⟩, ?_⟩
      · funext i
        simp only [Pi.add_apply, Pi.mul_apply, Pi.smul_apply, smul_eq_mul]
        ring
      · rw [mul_assoc]
      · split <;> simp
      · split <;> simp
      · split <;> simp
    have hs1 := snes_inv c g [z] s hσ hl
    rw [Snes.run, Snes.run, hstep]
    exact C88_snes_coordinate_free c d t hd g zs (s.step c g z) hs1.1 hs1.2

/-- **C88, scaling the whole problem.** Started at `a x₀ + t` with `a` times the initial variance, SNES does the same on the scaled and moved problem. -/
theorem C88_snes_scale (c : Cfg) (a : ℝ) (ha : 0 < a) (t : Vec n) (g : Vec n → ℝ) (x0 : Vec n) (v : ℝ) (hv : 0 < v) (zs : List (Nat → Vec n)) :
    let s := (Snes.init x0 v).run c g zs
    let s' := (Snes.init (a • x0 + t) (a * v)).run c (fun y => g (a⁻¹ • (y - t))) zs
    s'.center = a • s.center + t ∧ s'.sigmas = a • s.sigmas ∧ s'.store.evaluated = s.store.evaluated.map (fun x => a • x + t) ∧
      s'.store.evaluations = s.store.evaluations := by
  intro s s'
  have := C88_snes_coordinate_free c (fun _ => a) t (fun _ => ha) g zs (Snes.init x0 v) (fun i => by simpa [Snes.init] using hv) rfl
  have hinit : (Snes.init x0 v).transport (fun _ => a) t = Snes.init (a • x0 + t) (a * v) := by
    simp only [Snes.transport, Snes.init, List.map_nil, Snes.mk.injEq, and_true]
    refine ⟨?_, ?_⟩ <;> funext i <;> simp
  have hg : (fun y : Vec n => g ((y - t) / fun _ => a)) = fun y => g (a⁻¹ • (y - t)) := by
    funext y
    congr 1
    funext i
    simp [div_eq_inv_mul]
  rw [hinit, hg] at this
  have e : s' = s.transport (fun _ => a) t := this
  rw [e]
  exact ⟨rfl, rfl, rfl, rfl⟩

/-- **C88, SNES looks only at the order of the fitnesses.** -/
theorem C88_snes_order (c : Cfg) (hr : RankBased c.shaping) (φ : ℝ → ℝ) (hφ : StrictMono φ) (g : Vec n → ℝ) (x0 : Vec n) (v : ℝ) (hv : 0 < v)
    (zs : List (Nat → Vec n)) :
    (Snes.init x0 v).run c (fun x => φ (g x)) zs =
      let s := (Snes.init x0 v).run c g zs
      { s with store := s.store.rescale c.opposed φ } := by
  have key : ∀ (zs : List (Nat → Vec n)) (s : Snes n), (∀ i, 0 < s.sigmas i) → s.store.evaluated.length = s.store.evaluations.length →
      ({ s with store := s.store.rescale c.opposed φ } : Snes n).run c (fun x => φ (g x)) zs =
        { s.run c g zs with store := (s.run c g zs).store.rescale c.opposed φ } := by
    intro zs
    induction zs with
    | nil => intro s _ _; rfl
    | cons z zs ih =>
      intro s hσ hl
      have e1 := snes_step_eq c g z s (fun i => (hσ i).ne') hl
      have e2 := snes_step_eq c (fun x => φ (g x)) z { s with store := s.store.rescale c.opposed φ } (fun i => (hσ i).ne') (by simp [Store.rescale, hl])
      have hu : utilities c ((s.batch c z).map (fun x => φ (g x))) = utilities c ((s.batch c z).map g) := by
        have := hr φ hφ ((s.batch c z).map g)
        rw [List.map_map] at this
        rw [utilities, utilities, ← this]
        rfl
      have hbatch : Snes.batch c z ({ s with store := s.store.rescale c.opposed φ } : Snes n) = s.batch c z := rfl
      have hstep : ({ s with store := s.store.rescale c.opposed φ } : Snes n).step c (fun x => φ (g x)) z =
          { s.step c g z with store := (s.step c g z).store.rescale c.opposed φ } := by
        rw [e1, e2]
        simp only [hbatch, hu]
        simp only [Store.rescale, List.map_append, List.map_map, Snes.mk.injEq, Store.mk.injEq, true_and]
        refine ⟨⟨?_, ?_⟩, ?_⟩
        · split <;> rfl
        · congr 1
          · split <;> simp
          · refine List.map_congr_left (fun x _ => ?_)
            simp only [Function.comp]
            cases c.opposed <;> simp
        · split <;> rfl
      have hs1 := snes_inv c g [z] s hσ hl
      rw [Snes.run, Snes.run, hstep]
      exact ih (s.step c g z) hs1.1 hs1.2
  exact key zs (Snes.init x0 v) (fun i => by simpa [Snes.init] using hv) rfl

/-- **C88, SNES goes uphill.** With the uniform baseline no step of SNES on a linear objective lowers its value at the center. -/
theorem C88_snes_uphill (c : Cfg) (hs : Shaping c.shaping) (hb : c.uniformBaseline = true) (h0 : 0 < c.batchSize)
    (hlr : 0 ≤ c.centerLR) (w : Vec n) (b : ℝ) (x0 : Vec n) (v : ℝ) (hv : 0 < v) (zs : List (Nat → Vec n)) (z : Nat → Vec n) :
    w ⬝ᵥ ((Snes.init x0 v).run c (fun x => w ⬝ᵥ x + b) zs).center + b ≤
      w ⬝ᵥ ((Snes.init x0 v).run c (fun x => w ⬝ᵥ x + b) (zs ++ [z])).center + b := by
  obtain ⟨hσ, hl⟩ := snes_inv c (fun x => w ⬝ᵥ x + b) zs (Snes.init x0 v) (fun i => by simpa [Snes.init] using hv) rfl
  rw [snes_run_append]
  set s := (Snes.init x0 v).run c (fun x => w ⬝ᵥ x + b) zs
  rw [snes_step_eq c _ z s (fun i => (hσ i).ne') hl]
  simp only
  have hdot : ∀ y : Vec n, w ⬝ᵥ (s.sigmas * y) = (w * s.sigmas) ⬝ᵥ y := by
    intro y
    simp only [dotProduct, Pi.mul_apply, mul_assoc]
  rw [dotProduct_add, dotProduct_smul, hdot]
  have hmap : (s.batch c z).map (fun x => w ⬝ᵥ x + b) =
      ((List.range c.batchSize).map z).map (fun z => (w * s.sigmas) ⬝ᵥ z + (w ⬝ᵥ s.center + b)) := by
    rw [Snes.batch, List.map_map, List.map_map]
    refine List.map_congr_left (fun k _ => ?_)
    simp only [Function.comp, dotProduct_add, hdot, add_assoc]
  rw [hmap]
  have := uphill_core c hs hb h0 (w * s.sigmas) (w ⬝ᵥ s.center + b) ((List.range c.batchSize).map z) (by simp)
  have := smul_nonneg hlr this
  linarith

/-! ### Importance mixing in XNES -/

/-- **C88, importance mixing: violated.** With `importanceMixing` switched on and the other settings left alone, `learn` raises an
AttributeError in its second step: the old density reads `_allDistributions`, which only exists with `storeAllDistributions`. -/
theorem C88_negation_mixing (c : Cfg) (hm : c.importanceMixing = true) (hd : c.storeAllDistributions = false) (h0 : 0 < c.batchSize)
    (g : Vec n → ℝ) (x0 : Vec n) (r1 r2 : Rand n) (rs : List (Rand n)) :
    (Xnes.init c x0).run c g (r1 :: r2 :: rs) = .error .attribute := by
  have e := step_plain c g r1 (Xnes.init c x0) (Or.inl rfl) (by simp [Xnes.init]) rfl
  rw [Xnes.run, e]
  simp only [hd, Bool.false_eq_true, if_false]
  rw [Xnes.run, Xnes.step]
  generalize hs : (⟨_, _, _, _, _, _, _, _, _, _, _, _⟩ : Xnes n) = s
  have hdist : s.dists = none := by rw [← hs]; simp [Xnes.init, hd]
  have hnum : s.numLearningSteps = 1 := by rw [← hs]; rfl
  have hev : s.store.currentEvaluations c.opposed s.pointers = ((Xnes.init c x0).batch c r1.z).map g := by
    have := (read_back c.opposed g (Xnes.init c x0).store rfl ((Xnes.init c x0).batch c r1.z)).2
    simp only [batch_length, List.length_append, Nat.add_sub_cancel] at this
    rw [← hs]
    exact this
  have hmix : Mixing.importanceMixing (s.oldPoints c) s.oldpdf s.newpdf c.forcedRefresh r2.r r2.draws = .error .attribute := by
    have hlen : (s.oldPoints c).length = c.batchSize := by
      rw [Xnes.oldPoints, hev]; simp [batch_length]
    cases hp : s.oldPoints c with
    | nil => rw [hp] at hlen; simp at hlen; omega
    | cons x xs =>
      simp only [Mixing.importanceMixing, reuseLoop, Xnes.newpdf, Xnes.oldpdf, Xnes.lastCenter, hdist]
  rw [Xnes.produceSamples, if_neg (by rw [hnum, hm]; simp), hmix]

/-- **C88, importance mixing with stored distributions: violated.** The points that are tested for reuse are not those of the last batch:
their fitnesses take the place of their coordinates. Here the center is 2, the last batch is the single point 3 with fitness 7; in sample coordinates it
is 1, and the point tested is 5. -/
theorem C88_negation_mixing_points : ∃ (c : Cfg) (g : Vec 1 → ℝ) (r : Rand 1) (s : Xnes 1), c.importanceMixing = true ∧
    c.storeAllDistributions = true ∧ c.shaping = hansen ∧ (Xnes.init c (fun _ => 2)).run c g [r] = .ok s ∧
    (s.store.population s.pointers).map s.base2sample = [fun _ => 1] ∧ s.oldPoints c = [fun _ => 5] := by
  let c : Cfg := { centerLR := 1, covLR := 1, scaleLR := 1, uniformBaseline := true, batchSize := 1, shaping := hansen, opposed := false,
                   importanceMixing := true, forcedRefresh := 0.01, storeAllDistributions := true, clearStorage := false }
  let g : Vec 1 → ℝ := fun _ => 7
  let r : Rand 1 := { z := fun _ _ => 1, r := fun _ => 0, draws := [] }
  have e := step_plain c g r (Xnes.init c (fun _ => 2)) (Or.inl rfl) (by simp [Xnes.init]) rfl
  have hu : utilities c (((Xnes.init c (fun _ => 2)).batch c r.z).map g) = [0] := by
    have hl := utilities_length c C88_hansen.2 (((Xnes.init c (fun _ => 2)).batch c r.z).map g)
    have hsum := utilities_sum c C88_hansen.2 (((Xnes.init c (fun _ => 2)).batch c r.z).map g) (by simp [batch_length]) Nat.one_pos
    rw [List.length_map, batch_length] at hl
    obtain ⟨a, ha⟩ := List.length_eq_one_iff.1 hl
    rw [ha] at hsum ⊢
    simp only [c, if_true, List.sum_cons, List.sum_nil, add_zero] at hsum
    rw [hsum]
  simp only [hu] at e
  have hz : (List.range c.batchSize).map r.z = [fun _ => 1] := rfl
  have hd : (deltaA c [0] [(fun _ => 1 : Vec 1)]).1 = 0 := by
    simp [deltaA, wsum]
  have hw : (wsum [0] [(fun _ => 1 : Vec 1)] : Vec 1) = 0 := by simp [wsum]
  have hb : (Xnes.init c (fun _ => 2)).batch c r.z = [fun _ => 3] := by
    simp only [Xnes.batch, Xnes.init, Matrix.one_mulVec, c, r, List.range_one, List.map_cons, List.map_nil, List.cons.injEq, and_true]
    funext i
    simp only [Pi.add_apply]
    norm_num
  rw [hz, hd, hw, hb] at e
  simp only [NormedSpace.exp_zero, neg_zero, Matrix.mulVec_zero, smul_zero, add_zero, Matrix.mul_one, Matrix.one_mul] at e
  refine ⟨c, g, r, _, rfl, rfl, rfl, by rw [Xnes.run, e]; rfl, ?_, ?_⟩
  · simp only [Store.population, Xnes.init, c]
    simp
    funext i
    simp only [Xnes.base2sample, Matrix.one_mulVec]
    show (3 : ℝ) - 2 = 1
    norm_num
  · simp only [Xnes.oldPoints, Store.currentEvaluations, Xnes.init, Xnes.base2sample, c, g]
    simp
    funext i
    simp only [Pi.sub_apply]
    norm_num

/-- **C88, SNES stops when the distribution has collapsed**, and not before: when every coordinate's standard deviation is below the cutoff, so
that all draws `z` stay within `cutoff * |z|` of the center. -/
theorem C88_snes_stops (c : Cfg) (g : Vec n → ℝ) (x0 : Vec n) (v : ℝ) (hv : 0 < v) (zs : List (Nat → Vec n)) (cutoff : ℝ) :
    let s := (Snes.init x0 v).run c g zs
    (s.stops cutoff → ∀ (z : Vec n) i, |s.sample2base z i - s.center i| ≤ cutoff * |z i|) ∧
    (¬ s.stops cutoff → ∃ i, cutoff ≤ s.sigmas i) ∧ (∀ i, cutoff ≤ s.sigmas i → ¬ s.stops cutoff) := by
  intro s
  have hpos := (C88_snes_gaussian c g x0 v hv zs).1
  refine ⟨fun h z i => ?_, fun h => ?_, fun i hi h => ?_⟩
  · have : s.sample2base z i - s.center i = s.sigmas i * z i := by simp [Snes.sample2base]
    rw [this, abs_mul]
    exact mul_le_mul_of_nonneg_right (h i).le (abs_nonneg _)
  · unfold Snes.stops at h
    push Not at h
    obtain ⟨i, hi⟩ := h
    exact ⟨i, by rwa [abs_of_pos (hpos i)] at hi⟩
  · have := h i
    rw [abs_of_pos (hpos i)] at this
    linarith

/-- The hypotheses are met by the default settings, here for a batch of ten. -/
example : ∃ c : Cfg, c.importanceMixing = false ∧ c.uniformBaseline = true ∧ 0 < c.batchSize ∧ 0 ≤ c.centerLR ∧ RankBased c.shaping ∧
    Shaping c.shaping :=
  ⟨{ centerLR := 1, covLR := 1 / 2, scaleLR := 1 / 2, uniformBaseline := true, batchSize := 10, shaping := hansen, opposed := false,
     importanceMixing := false, forcedRefresh := 0.01, storeAllDistributions := false, clearStorage := false }, rfl, rfl, by norm_num, by norm_num,
     C88_hansen.1, C88_hansen.2⟩

end Verif.Props
