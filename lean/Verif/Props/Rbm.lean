import Verif.Model.Rbm
import Verif.Spec.Rbm
import Verif.Lemmas.Mesh
import Verif.Lemmas.Layers
import Mathlib.MeasureTheory.Measure.Lebesgue.Basic
/-
C114 Restricted Boltzmann machines; C115 contrastive divergence; C116 Bernoulli layers; C117 deep belief networks.
-/
namespace Verif.Rbm
open Verif.Net Verif.Net.Spec Verif.Mesh
open Verif.Rbm.Spec
open Finset (range)

theorem good (nv nh : Nat) : (plan nv nh).Good (fun n => if n = .hidden then 1 else 0) where
  nodup := by simp [plan]
  insNodup := by simp [plan]
  outsNodup := by simp [plan]
  ins := by simp [plan]
  outs := by simp [plan]
  src := by simp [plan]
  dst := by simp [plan, fullConnection]
  rank := by simp [plan, fullConnection]
  inSlice := by simp [plan, fullConnection, linearLayer, biasUnit]
  outSlice := by simp [plan, fullConnection, sigmoidLayer]

structure Agree (nv nh : Nat) (s : Trainer) (m u : Weights) : Prop where
  vdim : s.rbm.visibleDim = nv
  hdim : s.rbm.hiddenDim = nh
  inv : s.invRbm.visibleDim = nh
  params : ∀ i < nv, ∀ j < nh, s.invRbm.params (i * nh + j) = m.W i j
  W : ∀ i < nv, ∀ j < nh, s.rbm.params (i * nh + j) = m.W i j
  b : ∀ j < nh, s.rbm.biasParams j = m.b j
  c : ∀ i < nv, s.invRbm.biasParams i = m.c i
  uW : ∀ i < nv, ∀ j < nh, s.old.w (i * nh + j) = u.W i j
  ub : ∀ j < nh, s.old.hb j = u.b j
  uc : ∀ i < nv, s.old.vb i = u.c i

theorem Agree.up {nv nh : Nat} {s : Trainer} {m u : Weights} (h : Agree nv nh s m u) (v v' : Vec ℝ) (hv : ∀ i < nv, v i = v' i) (j : Nat) (hj : j < nh) :
    s.rbm.activate v j = m.up (wiring nv nh) nv v' j := by
  unfold Machine.activate Weights.up
  rw [h.vdim, h.b j hj]
  congr 2
  refine Finset.sum_congr rfl fun i hi => ?_
  have hi := Finset.mem_range.1 hi
  have hlt : j * nv + i < nv * nh := by
    calc j * nv + i < j * nv + nv := by omega
      _ = nv * (j + 1) := by ring
      _ ≤ nv * nh := Nat.mul_le_mul_left _ hj
  show _ = m.W ((j * nv + i) / nh) ((j * nv + i) % nh) * v' i
  rw [hv i hi, ← h.W ((j * nv + i) / nh) (Nat.div_lt_of_lt_mul (by rwa [Nat.mul_comm nh])) ((j * nv + i) % nh) (Nat.mod_lt _ (by omega)), Nat.div_add_mod']

theorem Agree.down {nv nh : Nat} {s : Trainer} {m u : Weights} (h : Agree nv nh s m u) (v v' : Vec ℝ) (hv : ∀ j < nh, v j = v' j) (i : Nat) (hi : i < nv) :
    s.invRbm.activate v i = m.down nh v' i := by
  unfold Machine.activate Weights.down
  rw [h.inv, h.c i hi]
  congr 2
  refine Finset.sum_congr rfl fun j hj => ?_
  have hj := Finset.mem_range.1 hj
  rw [hv j hj, h.params i hi j hj]

theorem Agree.row {nv nh : Nat} {s : Trainer} {m u : Weights} (h : Agree nv nh s m u) (S : Vec ℝ → Vec ℝ) (hS : Local nh S) (v : Vec ℝ) :
    let d := calcUpdateByRow S s.rbm s.invRbm v
    let e := divergence (wiring nv nh) nv nh m S v
    (∀ i < nv, ∀ j < nh, d.w (i * nh + j) = e.W i j) ∧ (∀ j < nh, d.hb j = e.b j) ∧ ∀ i < nv, d.vb i = e.c i := by
  intro d e
  have h1 : ∀ j < nh, s.rbm.activate v j = m.up (wiring nv nh) nv v j := fun j hj => h.up v v (fun _ _ => rfl) j hj
  have h2 : ∀ i < nv, s.invRbm.activate (S (s.rbm.activate v)) i = m.down nh (S (m.up (wiring nv nh) nv v)) i := fun i hi =>
    h.down _ _ (hS _ _ h1) i hi
  have h3 : ∀ j < nh, s.rbm.activate (s.invRbm.activate (S (s.rbm.activate v))) j = m.up (wiring nv nh) nv (m.down nh (S (m.up (wiring nv nh) nv v))) j :=
    fun j hj => h.up _ _ h2 j hj
  refine ⟨fun i hi j hj => ?_, fun j hj => ?_, fun i hi => ?_⟩
  · have q1 : (i * nh + j) / nh = i := by
      rw [Nat.mul_comm, Nat.mul_add_div (by omega), Nat.div_eq_of_lt hj, Nat.add_zero]
    have q2 : (i * nh + j) % nh = j := by rw [Nat.mul_comm, Nat.mul_add_mod, Nat.mod_eq_of_lt hj]
    show v ((i * nh + j) / s.rbm.hiddenDim) * s.rbm.activate v ((i * nh + j) % s.rbm.hiddenDim) -
      s.invRbm.activate (S (s.rbm.activate v)) ((i * nh + j) / s.rbm.hiddenDim) * s.rbm.activate (s.invRbm.activate (S (s.rbm.activate v))) ((i * nh + j) % s.rbm.hiddenDim) = _
    rw [h.hdim, q1, q2, h1 j hj, h2 i hi, h3 j hj]
    rfl
  · show s.rbm.activate v j - s.rbm.activate (s.invRbm.activate (S (s.rbm.activate v))) j = _
    rw [h1 j hj, h3 j hj]; rfl
  · show v i - s.invRbm.activate (S (s.rbm.activate v)) i = _
    rw [h2 i hi]; rfl

theorem sumRows_eq (S : Nat → Vec ℝ → Vec ℝ) (r q : Machine) : ∀ (rows : List (Vec ℝ)) (n : Nat) (d : Update),
    sumRows S r q n rows d =
      { w := fun k => d.w k + ∑ l ∈ range rows.length, (calcUpdateByRow (S (n + l)) r q (rows.getD l fun _ => 0)).w k
        hb := fun k => d.hb k + ∑ l ∈ range rows.length, (calcUpdateByRow (S (n + l)) r q (rows.getD l fun _ => 0)).hb k
        vb := fun k => d.vb k + ∑ l ∈ range rows.length, (calcUpdateByRow (S (n + l)) r q (rows.getD l fun _ => 0)).vb k }
  | [], n, d => by simp [sumRows]
  | row :: rows, n, d => by
    rw [sumRows, sumRows_eq S r q rows (n + 1)]
    have e : ∀ l, n + 1 + l = n + (l + 1) := fun l => by omega
    simp only [List.length_cons, Finset.sum_range_succ', List.getD_cons_succ, List.getD_cons_zero, e, Nat.add_zero]
    congr 1 <;> funext k <;> ring

theorem Agree.step {nv nh : Nat} {s : Trainer} {m0 : Weights} (cfg : Cfg) (S : Nat → Nat → Vec ℝ → Vec ℝ) (hS : ∀ t n, Local nh (S t n)) (fresh : Vec ℝ) (rows : List (Vec ℝ)) (t : Nat)
    (h : Agree nv nh s (ascent (wiring nv nh) nv nh ⟨cfg.rWeights, cfg.rHidBias, cfg.rVisBias, cfg.weightCost⟩ (fun t => if t < cfg.mmSwitchIter then cfg.iniMm else cfg.finMm) S rows m0 t).1
      (ascent (wiring nv nh) nv nh ⟨cfg.rWeights, cfg.rHidBias, cfg.rVisBias, cfg.weightCost⟩ (fun t => if t < cfg.mmSwitchIter then cfg.iniMm else cfg.finMm) S rows m0 t).2) :
    Agree nv nh (iteration cfg (S t) fresh rows t s)
      (ascent (wiring nv nh) nv nh ⟨cfg.rWeights, cfg.rHidBias, cfg.rVisBias, cfg.weightCost⟩ (fun t => if t < cfg.mmSwitchIter then cfg.iniMm else cfg.finMm) S rows m0 (t + 1)).1
      (ascent (wiring nv nh) nv nh ⟨cfg.rWeights, cfg.rHidBias, cfg.rVisBias, cfg.weightCost⟩ (fun t => if t < cfg.mmSwitchIter then cfg.iniMm else cfg.finMm) S rows m0 (t + 1)).2 := by
  rw [ascent]
  generalize ascent (wiring nv nh) nv nh ⟨cfg.rWeights, cfg.rHidBias, cfg.rVisBias, cfg.weightCost⟩ (fun t => if t < cfg.mmSwitchIter then cfg.iniMm else cfg.finMm) S rows m0 t = p at h ⊢
  obtain ⟨m, u⟩ := p
  simp only at h ⊢
  have hd : (∀ i < nv, ∀ j < nh, (calcUpdateByRows (S t) s.rbm s.invRbm rows).w (i * nh + j) = (meanDivergence (wiring nv nh) nv nh m (S t) rows).W i j) ∧
      (∀ j < nh, (calcUpdateByRows (S t) s.rbm s.invRbm rows).hb j = (meanDivergence (wiring nv nh) nv nh m (S t) rows).b j) ∧
      ∀ i < nv, (calcUpdateByRows (S t) s.rbm s.invRbm rows).vb i = (meanDivergence (wiring nv nh) nv nh m (S t) rows).c i := by
    unfold calcUpdateByRows meanDivergence
    rw [sumRows_eq]
    simp only [zero_add]
    refine ⟨fun i hi j hj => ?_, fun j hj => ?_, fun i hi => ?_⟩
    · congr 1
      exact Finset.sum_congr rfl fun l _ => (h.row (S t l) (hS t l) _).1 i hi j hj
    · congr 1
      exact Finset.sum_congr rfl fun l _ => (h.row (S t l) (hS t l) _).2.1 j hj
    · congr 1
      exact Finset.sum_congr rfl fun l _ => (h.row (S t l) (hS t l) _).2.2 i hi
  have eW : ∀ i < nv, ∀ j < nh, (iteration cfg (S t) fresh rows t s).old.w (i * nh + j) =
      (if t < cfg.mmSwitchIter then cfg.iniMm else cfg.finMm) * u.W i j + cfg.rWeights * ((meanDivergence (wiring nv nh) nv nh m (S t) rows).W i j - cfg.weightCost * m.W i j) := by
    intro i hi j hj
    show s.old.w (i * nh + j) * _ + cfg.rWeights * ((calcUpdateByRows (S t) s.rbm s.invRbm rows).w (i * nh + j) - cfg.weightCost * s.rbm.params (i * nh + j)) = _
    rw [hd.1 i hi j hj, h.uW i hi j hj, h.W i hi j hj]; ring
  have eb : ∀ j < nh, (iteration cfg (S t) fresh rows t s).old.hb j =
      (if t < cfg.mmSwitchIter then cfg.iniMm else cfg.finMm) * u.b j + cfg.rHidBias * (meanDivergence (wiring nv nh) nv nh m (S t) rows).b j := by
    intro j hj
    show s.old.hb j * _ + cfg.rHidBias * (calcUpdateByRows (S t) s.rbm s.invRbm rows).hb j = _
    rw [hd.2.1 j hj, h.ub j hj]; ring
  have ec : ∀ i < nv, (iteration cfg (S t) fresh rows t s).old.vb i =
      (if t < cfg.mmSwitchIter then cfg.iniMm else cfg.finMm) * u.c i + cfg.rVisBias * (meanDivergence (wiring nv nh) nv nh m (S t) rows).c i := by
    intro i hi
    show s.old.vb i * _ + cfg.rVisBias * (calcUpdateByRows (S t) s.rbm s.invRbm rows).vb i = _
    rw [hd.2.2 i hi, h.uc i hi]; ring
  exact { vdim := h.vdim, hdim := h.hdim, inv := h.hdim
          params := fun i hi j hj => by
            show s.rbm.params (i * nh + j) + (iteration cfg (S t) fresh rows t s).old.w (i * nh + j) = _
            rw [eW i hi j hj, h.W i hi j hj]
          W := fun i hi j hj => by
            show s.rbm.params (i * nh + j) + (iteration cfg (S t) fresh rows t s).old.w (i * nh + j) = _
            rw [eW i hi j hj, h.W i hi j hj]
          b := fun j hj => by
            show s.rbm.biasParams j + (iteration cfg (S t) fresh rows t s).old.hb j = _
            rw [eb j hj, h.b j hj]
          c := fun i hi => by
            show s.invRbm.biasParams i + (iteration cfg (S t) fresh rows t s).old.vb i = _
            rw [ec i hi, h.c i hi]
          uW := eW, ub := eb, uc := ec }

theorem wiring_proper (nv nh : Nat) (h : nv = 1 ∨ nh = 1) (i j : Nat) (hi : i < nv) (hj : j < nh) : wiring nv nh i j = proper i j := by
  unfold wiring proper
  rcases h with rfl | rfl
  · have : i = 0 := by omega
    subst this
    rw [Nat.mul_one, Nat.add_zero, Nat.div_eq_of_lt hj, Nat.mod_eq_of_lt hj]
  · have : j = 0 := by omega
    subst this
    rw [Nat.zero_mul, Nat.zero_add, Nat.div_one, Nat.mod_one]

/-- weights that agree on the units of the machine -/
def Same (nv nh : Nat) (a b : Weights) : Prop := (∀ i < nv, ∀ j < nh, a.W i j = b.W i j) ∧ (∀ j < nh, a.b j = b.b j) ∧ ∀ i < nv, a.c i = b.c i

theorem same_up {nv nh : Nat} {a b : Weights} (h : Same nv nh a b) (π ρ : Wiring) (hπ : ∀ i < nv, ∀ j < nh, π i j = ρ i j) (hr : ∀ i < nv, ∀ j < nh, (ρ i j).1 < nv ∧ (ρ i j).2 < nh)
    (v w : Vec ℝ) (hv : ∀ i < nv, v i = w i) (j : Nat) (hj : j < nh) : a.up π nv v j = b.up ρ nv w j := by
  unfold Weights.up
  rw [h.2.1 j hj]
  congr 2
  refine Finset.sum_congr rfl fun i hi => ?_
  have hi := Finset.mem_range.1 hi
  rw [hπ i hi j hj, hv i hi, h.1 _ (hr i hi j hj).1 _ (hr i hi j hj).2]

theorem same_down {nv nh : Nat} {a b : Weights} (h : Same nv nh a b) (v w : Vec ℝ) (hv : ∀ j < nh, v j = w j) (i : Nat) (hi : i < nv) : a.down nh v i = b.down nh w i := by
  unfold Weights.down
  rw [h.2.2 i hi]
  congr 2
  refine Finset.sum_congr rfl fun j hj => ?_
  have hj := Finset.mem_range.1 hj
  rw [hv j hj, h.1 i hi j hj]

theorem same_divergence {nv nh : Nat} {a b : Weights} (h : Same nv nh a b) (π ρ : Wiring) (hπ : ∀ i < nv, ∀ j < nh, π i j = ρ i j) (hr : ∀ i < nv, ∀ j < nh, (ρ i j).1 < nv ∧ (ρ i j).2 < nh)
    (S : Vec ℝ → Vec ℝ) (hS : Local nh S) (v : Vec ℝ) : Same nv nh (divergence π nv nh a S v) (divergence ρ nv nh b S v) := by
  have h1 : ∀ j < nh, a.up π nv v j = b.up ρ nv v j := fun j hj => same_up h π ρ hπ hr v v (fun _ _ => rfl) j hj
  have h2 : ∀ i < nv, a.down nh (S (a.up π nv v)) i = b.down nh (S (b.up ρ nv v)) i := fun i hi => same_down h _ _ (hS _ _ h1) i hi
  have h3 : ∀ j < nh, a.up π nv (a.down nh (S (a.up π nv v))) j = b.up ρ nv (b.down nh (S (b.up ρ nv v))) j := fun j hj => same_up h π ρ hπ hr _ _ h2 j hj
  refine ⟨fun i hi j hj => ?_, fun j hj => ?_, fun i hi => ?_⟩
  · show v i * a.up π nv v j - a.down nh (S (a.up π nv v)) i * a.up π nv (a.down nh (S (a.up π nv v))) j = _
    rw [h1 j hj, h2 i hi, h3 j hj]; rfl
  · show a.up π nv v j - a.up π nv (a.down nh (S (a.up π nv v))) j = _
    rw [h1 j hj, h3 j hj]; rfl
  · show v i - a.down nh (S (a.up π nv v)) i = _
    rw [h2 i hi]; rfl

theorem same_ascent {nv nh : Nat} (π ρ : Wiring) (hπ : ∀ i < nv, ∀ j < nh, π i j = ρ i j) (hr : ∀ i < nv, ∀ j < nh, (ρ i j).1 < nv ∧ (ρ i j).2 < nh) (η : Rates) (mom : Nat → ℝ)
    (S : Nat → Nat → Vec ℝ → Vec ℝ) (hS : ∀ t n, Local nh (S t n)) (rows : List (Vec ℝ)) (a b : Weights) (hab : Same nv nh a b) : ∀ t,
    Same nv nh (ascent π nv nh η mom S rows a t).1 (ascent ρ nv nh η mom S rows b t).1 ∧ Same nv nh (ascent π nv nh η mom S rows a t).2 (ascent ρ nv nh η mom S rows b t).2
  | 0 => ⟨hab, ⟨fun _ _ _ _ => rfl, fun _ _ => rfl, fun _ _ => rfl⟩⟩
  | t + 1 => by
    obtain ⟨h1, h2⟩ := same_ascent π ρ hπ hr η mom S hS rows a b hab t
    have hd : Same nv nh (meanDivergence π nv nh (ascent π nv nh η mom S rows a t).1 (S t) rows) (meanDivergence ρ nv nh (ascent ρ nv nh η mom S rows b t).1 (S t) rows) := by
      have := fun l => same_divergence h1 π ρ hπ hr (S t l) (hS t l) (rows.getD l fun _ => 0)
      refine ⟨fun i hi j hj => ?_, fun j hj => ?_, fun i hi => ?_⟩
      · exact congrArg (· / (rows.length : ℝ)) (Finset.sum_congr rfl fun l _ => (this l).1 i hi j hj)
      · exact congrArg (· / (rows.length : ℝ)) (Finset.sum_congr rfl fun l _ => (this l).2.1 j hj)
      · exact congrArg (· / (rows.length : ℝ)) (Finset.sum_congr rfl fun l _ => (this l).2.2 i hi)
    simp only [ascent]
    refine ⟨⟨fun i hi j hj => ?_, fun j hj => ?_, fun i hi => ?_⟩, ⟨fun i hi j hj => ?_, fun j hj => ?_, fun i hi => ?_⟩⟩
    · simp only [h1.1 i hi j hj, h2.1 i hi j hj, hd.1 i hi j hj]
    · simp only [h1.2.1 j hj, h2.2.1 j hj, hd.2.1 j hj]
    · simp only [h1.2.2 i hi, h2.2.2 i hi, hd.2.2 i hi]
    · simp only [h1.1 i hi j hj, h2.1 i hi j hj, hd.1 i hi j hj]
    · simp only [h2.2.1 j hj, hd.2.1 j hj]
    · simp only [h2.2.2 i hi, hd.2.2 i hi]

theorem iterations_agree {nv nh : Nat} (cfg : Cfg) (S : Nat → Nat → Vec ℝ → Vec ℝ) (hS : ∀ t n, Local nh (S t n)) (fresh : Nat → Vec ℝ) (rows : List (Vec ℝ)) (s : Trainer) (m u : Weights)
    (h : Agree nv nh s m u) : ∀ t, Agree nv nh (iterations cfg S fresh rows t s)
      (ascent (wiring nv nh) nv nh ⟨cfg.rWeights, cfg.rHidBias, cfg.rVisBias, cfg.weightCost⟩ (fun t => if t < cfg.mmSwitchIter then cfg.iniMm else cfg.finMm) S rows m t).1
      (ascent (wiring nv nh) nv nh ⟨cfg.rWeights, cfg.rHidBias, cfg.rVisBias, cfg.weightCost⟩ (fun t => if t < cfg.mmSwitchIter then cfg.iniMm else cfg.finMm) S rows m t).2
  | 0 => { h with uW := fun _ _ _ _ => rfl, ub := fun _ _ => rfl, uc := fun _ _ => rfl }
  | t + 1 => Agree.step cfg S hS (fresh t) rows t (iterations_agree cfg S hS fresh rows s m u h t)

theorem batches_agree {nv nh : Nat} (cfg : Cfg) (S : Nat → Nat → Nat → Vec ℝ → Vec ℝ) (hS : ∀ b t n, Local nh (S b t n)) (fresh : Nat → Nat → Vec ℝ) :
    ∀ (batches : List (List (Vec ℝ))) (n : Nat) (s : Trainer) (m u : Weights), Agree nv nh s m u →
      ∃ u', Agree nv nh (trainOnBatches cfg S fresh n batches s) (trained (wiring nv nh) nv nh cfg S n batches m) u'
  | [], _, _, _, u, h => ⟨u, h⟩
  | rows :: batches, n, s, m, u, h => batches_agree cfg S hS fresh batches (n + 1) _ _ _ (iterations_agree cfg (S n) (hS n) (fresh n) rows s m u h cfg.maxIter)

theorem same_trained {nv nh : Nat} (π ρ : Wiring) (hπ : ∀ i < nv, ∀ j < nh, π i j = ρ i j) (hr : ∀ i < nv, ∀ j < nh, (ρ i j).1 < nv ∧ (ρ i j).2 < nh) (cfg : Cfg)
    (S : Nat → Nat → Nat → Vec ℝ → Vec ℝ) (hS : ∀ b t n, Local nh (S b t n)) :
    ∀ (batches : List (List (Vec ℝ))) (n : Nat) (a b : Weights), Same nv nh a b → Same nv nh (trained π nv nh cfg S n batches a) (trained ρ nv nh cfg S n batches b)
  | [], _, _, _, h => h
  | rows :: batches, n, a, b, h => by
    exact same_trained π ρ hπ hr cfg S hS batches (n + 1) _ _ (same_ascent π ρ hπ hr _ _ (S n) (hS n) rows a b h cfg.maxIter).1

end Verif.Rbm

namespace Verif.Props
open Verif.Net Verif.Net.Spec Verif.Mesh Verif.Rbm
open Verif.Rbm.Spec
open MeasureTheory (volume)
open Finset (range)

/-- **C114, activation.** The network of a machine can be sorted, whatever the names of its modules, and its activation gives for every hidden unit the sigmoid of the weighted sum of the visible units plus the bias. -/
theorem C114_activate (r : Machine) (name : Rbm.Node → String) :
    ∃ N, (plan r.visibleDim r.hiddenDim).sort name = .ok N ∧ WF N ∧ ∀ (b : Bufs Rbm.Node Rbm.Par ℝ) (x : Vec ℝ), ∀ j < r.hiddenDim,
      (activate N r.θ b x).2 j = r.activate x j ∧ r.activate x j = sigmoid ((∑ i ∈ range r.visibleDim, weight r i j * x i) + r.biasParams j) := by
  obtain ⟨N, hN, wf, hrun⟩ := plan_run _ _ (good r.visibleDim r.hiddenDim) name
  refine ⟨N, hN, wf, fun b x j hj => ⟨?_, rfl⟩⟩
  obtain ⟨inb, outb, h1, h2, h3⟩ := hrun r.θ b x
  have ev : ∀ i < r.visibleDim, outb .visible i = x i := by
    intro i hi
    rw [h2 .visible (by simp [plan])]
    show tr r.visibleDim (inb .visible) i = x i
    simp only [tr, hi, if_true]
    rw [h1 .visible (by simp [plan]) i]
    simp [plan, share, tr, fullConnection, linearLayer, hi]
  have eb : outb .bias 0 = 1 := by
    rw [h2 .bias (by simp [plan])]
    rfl
  have eh : inb .hidden j = (∑ i ∈ range r.visibleDim, r.params (j * r.visibleDim + i) * x i) + r.biasParams j := by
    rw [h1 .hidden (by simp [plan]) j]
    have e0 : share (fun m => ((plan r.visibleDim r.hiddenDim).mod m).indim) (plan r.visibleDim r.hiddenDim).inmods x Rbm.Node.hidden j = 0 := by simp [plan, share]
    rw [e0, zero_add]
    show (if Rbm.Node.hidden = Rbm.Node.hidden then signal r.θ (outb .visible) (fullConnection Rbm.Node.hidden Rbm.Par.con 0 r.visibleDim 0 r.hiddenDim) j else 0) +
      ((if Rbm.Node.hidden = Rbm.Node.hidden then signal r.θ (outb .bias) (fullConnection Rbm.Node.hidden Rbm.Par.biascon 0 1 0 r.hiddenDim) j else 0) + 0) = _
    rw [if_pos rfl, if_pos rfl, signal_full, signal_full, if_pos ⟨Nat.zero_le _, hj⟩, if_pos ⟨Nat.zero_le _, hj⟩, add_zero]
    congr 1
    · refine Finset.sum_congr rfl fun i hi => ?_
      rw [Nat.sub_zero, Nat.sub_zero, Nat.zero_add, ev i (Finset.mem_range.1 hi)]
      rfl
    · simp only [Nat.sub_zero, Finset.sum_range_one, Nat.mul_one, Nat.add_zero, eb, mul_one]
      rfl
  rw [h3]
  have eo : concat (fun m => ((plan r.visibleDim r.hiddenDim).mod m).outdim) (plan r.visibleDim r.hiddenDim).outmods outb j = outb .hidden j := by
    show (if j < r.hiddenDim then outb Rbm.Node.hidden j else _) = _
    rw [if_pos hj]
  rw [eo, h2 .hidden (by simp [plan])]
  show tr r.hiddenDim (fun j => sigmoid (inb .hidden j)) j = _
  simp only [tr, hj, if_true, eh]
  rfl

example : ∃ r : Machine, 0 < r.visibleDim ∧ 0 < r.hiddenDim := ⟨⟨3, 2, fun _ => 1, fun _ => 0⟩, by decide, by decide⟩

/-- **C114, inversion (partial).** If a machine has one visible or one hidden unit, its inverse has the same weights in the opposite direction. Missing: all other machines (`C114_negation_invert`). -/
theorem C114_invert_partial (r : Machine) (w b : Vec ℝ) (h : r.visibleDim = 1 ∨ r.hiddenDim = 1) :
    (r.invert w b).visibleDim = r.hiddenDim ∧ (r.invert w b).hiddenDim = r.visibleDim ∧
      ∀ i < r.visibleDim, ∀ j < r.hiddenDim, weight (r.invert w b) j i = weight r i j := by
  refine ⟨rfl, rfl, fun i hi j hj => ?_⟩
  show r.params (i * r.hiddenDim + j) = r.params (j * r.visibleDim + i)
  rcases h with h | h
  · obtain rfl : i = 0 := by omega
    simp [h]
  · obtain rfl : j = 0 := by omega
    simp [h]

/-- **C114, negation (inversion).** For all other numbers of units the inverse is not the machine in the opposite direction: weights are copied without being transposed. For every machine with at least two visible and two hidden units, the inverse uses, from hidden unit 1
to visible unit 0, the weight from visible unit 1 to hidden unit 0; so there are machines where visible unit 0 has no influence on any hidden unit, but is reconstructed from hidden unit 1. -/
theorem C114_negation_invert (nv nh : Nat) (hv : 2 ≤ nv) (_hh : 2 ≤ nh) :
    (∀ (p c w b : Vec ℝ), weight ((⟨nv, nh, p, c⟩ : Machine).invert w b) 1 0 = weight ⟨nv, nh, p, c⟩ 1 0) ∧
    ∃ p : Vec ℝ, ∀ c w b : Vec ℝ, (∀ j < nh, weight ⟨nv, nh, p, c⟩ 0 j = 0) ∧ weight ((⟨nv, nh, p, c⟩ : Machine).invert w b) 1 0 = 1 := by
  refine ⟨fun p c w b => ?_, fun k => if k = 1 then 1 else 0, fun c w b => ⟨fun j _ => ?_, ?_⟩⟩
  · show p (0 * nh + 1) = p (0 * nv + 1)
    rw [Nat.zero_mul, Nat.zero_mul]
  · show (if j * nv + 0 = 1 then (1 : ℝ) else 0) = 0
    rw [if_neg]
    intro h
    have := Nat.eq_one_of_mul_eq_one_left (show j * nv = 1 by omega)
    omega
  · show (if 0 * nh + 1 = 1 then (1 : ℝ) else 0) = 1
    simp

/-- **C114, inversion twice** gives back dimensions and weights; the biases are new. -/
theorem C114_twice (r : Machine) (w b w' b' : Vec ℝ) :
    ((r.invert w b).invert w' b').visibleDim = r.visibleDim ∧ ((r.invert w b).invert w' b').hiddenDim = r.hiddenDim ∧ (∀ i j, weight ((r.invert w b).invert w' b') i j = weight r i j) ∧
      ((r.invert w b).invert w' b').biasParams = b' := ⟨rfl, rfl, fun _ _ => rfl, rfl⟩

/-- **C115, training.** Training on any sequence of batches is contrastive divergence with momentum (which starts anew with each batch) and weight decay; `W i j` is the entry for visible unit `i` and hidden unit `j` of the array of weights, `b` are the biases of the machine and `c` those of the
inverted machine; but towards the hidden units the array is read in another order, given by `wiring`. -/
theorem C115_training (r : Machine) (c0 : Vec ℝ) (cfg : Cfg) (S : Nat → Nat → Nat → Vec ℝ → Vec ℝ) (hS : ∀ b t n, Local r.hiddenDim (S b t n)) (fresh : Nat → Nat → Vec ℝ) (batches : List (List (Vec ℝ))) :
    let s := trainOnBatches cfg S fresh 0 batches (newTrainer r c0)
    let m := trained (wiring r.visibleDim r.hiddenDim) r.visibleDim r.hiddenDim cfg S 0 batches (weightsOf r.hiddenDim r.params r.biasParams c0)
    s.rbm.visibleDim = r.visibleDim ∧ s.rbm.hiddenDim = r.hiddenDim ∧ (∀ i < r.visibleDim, ∀ j < r.hiddenDim, s.rbm.params (i * r.hiddenDim + j) = m.W i j ∧ s.invRbm.params (i * r.hiddenDim + j) = m.W i j) ∧
      (∀ j < r.hiddenDim, s.rbm.biasParams j = m.b j) ∧ ∀ i < r.visibleDim, s.invRbm.biasParams i = m.c i := by
  intro s m
  have h0 : Agree r.visibleDim r.hiddenDim (newTrainer r c0) (weightsOf r.hiddenDim r.params r.biasParams c0) ⟨fun _ _ => 0, fun _ => 0, fun _ => 0⟩ :=
    { vdim := rfl, hdim := rfl, inv := rfl, params := fun _ _ _ _ => rfl, W := fun _ _ _ _ => rfl, b := fun _ _ => rfl, c := fun _ _ => rfl
      uW := fun _ _ _ _ => rfl, ub := fun _ _ => rfl, uc := fun _ _ => rfl }
  obtain ⟨u, h⟩ := batches_agree cfg S hS fresh batches 0 _ _ _ h0
  exact ⟨h.vdim, h.hdim, fun i hi j hj => ⟨h.W i hi j hj, h.params i hi j hj⟩, h.b, h.c⟩

/-- The sampler of the Bernoulli trainer looks at the hidden units only. -/
example (nh : Nat) (rand : Nat → Nat → Nat → Vec ℝ) : ∀ b t n, Local nh (bernoulliSampler (rand b t n)) :=
  fun _ _ _ p q h j hj => by unfold bernoulliSampler; rw [h j hj]

/-- **C115, contrastive divergence (partial).** For machines with one visible or one hidden unit, this is contrastive divergence with the same weights in both directions: `W i j` is the weight between visible unit `i` and hidden unit `j`. Missing: all other machines
(`C115_negation_wiring`). -/
theorem C115_training_partial (r : Machine) (h1 : r.visibleDim = 1 ∨ r.hiddenDim = 1) (c0 : Vec ℝ) (cfg : Cfg) (S : Nat → Nat → Nat → Vec ℝ → Vec ℝ) (hS : ∀ b t n, Local r.hiddenDim (S b t n))
    (fresh : Nat → Nat → Vec ℝ) (batches : List (List (Vec ℝ))) :
    let s := trainOnBatches cfg S fresh 0 batches (newTrainer r c0)
    let m := trained proper r.visibleDim r.hiddenDim cfg S 0 batches { W := weight r, b := r.biasParams, c := c0 }
    (∀ i < r.visibleDim, ∀ j < r.hiddenDim, weight s.rbm i j = m.W i j) ∧ (∀ j < r.hiddenDim, s.rbm.biasParams j = m.b j) ∧ ∀ i < r.visibleDim, s.invRbm.biasParams i = m.c i := by
  intro s m
  obtain ⟨g1, g2, g3, g4, g5⟩ := C115_training r c0 cfg S hS fresh batches
  have idx : ∀ i < r.visibleDim, ∀ j < r.hiddenDim, j * r.visibleDim + i = i * r.hiddenDim + j := by
    intro i hi j hj
    rcases h1 with h | h
    · obtain rfl : i = 0 := by omega
      simp [h]
    · obtain rfl : j = 0 := by omega
      simp [h]
  have hsame := same_trained (wiring r.visibleDim r.hiddenDim) proper (fun i hi j hj => wiring_proper _ _ h1 i j hi hj) (fun i hi j hj => ⟨hi, hj⟩) cfg S hS batches 0
    (weightsOf r.hiddenDim r.params r.biasParams c0) { W := weight r, b := r.biasParams, c := c0 }
    ⟨fun i hi j hj => by show r.params _ = r.params _; rw [idx i hi j hj], fun _ _ => rfl, fun _ _ => rfl⟩
  refine ⟨fun i hi j hj => ?_, fun j hj => (g4 j hj).trans (hsame.2.1 j hj), fun i hi => (g5 i hi).trans (hsame.2.2 i hi)⟩
  rw [← hsame.1 i hi j hj, ← (g3 i hi j hj).1]
  show s.rbm.params (j * s.rbm.visibleDim + i) = _
  rw [g1, idx i hi j hj]

example : (⟨6, 1, fun _ => 0, fun _ => 0⟩ : Machine).visibleDim = 1 ∨ (⟨6, 1, fun _ => 0, fun _ => 0⟩ : Machine).hiddenDim = 1 := .inr rfl

/-- **C115, negation (wiring).** For machines with at least two visible and two hidden units, updates are applied to the wrong weights: after one iteration on one row without weight decay, the weight from visible unit 1 to hidden unit 0 has changed by the difference of the correlations of visible unit 0 and
hidden unit 1 (times the rate), whatever visible unit 1 and hidden unit 0 were. -/
theorem C115_negation_wiring (r : Machine) (hv : 2 ≤ r.visibleDim) (hh : 2 ≤ r.hiddenDim) (c0 : Vec ℝ) (cfg : Cfg) (hc : cfg.weightCost = 0) (hi : cfg.maxIter = 1) (S : Nat → Nat → Nat → Vec ℝ → Vec ℝ)
    (fresh : Nat → Nat → Vec ℝ) (row : Vec ℝ) :
    let recon := (r.invert (fun _ => 0) c0).activate (S 0 0 0 (r.activate row))
    weight (trainOnBatches cfg S fresh 0 [[row]] (newTrainer r c0)).rbm 1 0 =
      weight r 1 0 + cfg.rWeights * (row 0 * r.activate row 1 - recon 0 * r.activate recon 1) := by
  intro recon
  have e : trainOnBatches cfg S fresh 0 [[row]] (newTrainer r c0) = iterations cfg (S 0) (fresh 0) [row] cfg.maxIter (newTrainer r c0) := rfl
  rw [e, hi]
  show r.params (0 * r.visibleDim + 1) + (0 * _ + cfg.rWeights * ((0 + (row ((0 * r.visibleDim + 1) / r.hiddenDim) * r.activate row ((0 * r.visibleDim + 1) % r.hiddenDim) -
    recon ((0 * r.visibleDim + 1) / r.hiddenDim) * r.activate recon ((0 * r.visibleDim + 1) % r.hiddenDim))) / (([row].length : Nat) : ℝ) - cfg.weightCost * r.params (0 * r.visibleDim + 1))) = _
  rw [hc, Nat.zero_mul, Nat.zero_add, Nat.div_eq_of_lt (by omega), Nat.mod_eq_of_lt (by omega)]
  show _ = r.params (0 * r.visibleDim + 1) + _
  rw [Nat.zero_mul, Nat.zero_add]
  simp

example : ∃ (r : Machine) (cfg : Cfg), 2 ≤ r.visibleDim ∧ 2 ≤ r.hiddenDim ∧ cfg.weightCost = 0 ∧ cfg.maxIter = 1 :=
  ⟨⟨3, 2, fun _ => 0, fun _ => 0⟩, { rWeights := 1, rHidBias := 1, rVisBias := 1, weightCost := 0, iniMm := 0, finMm := 0, maxIter := 1 }, by decide, by decide, rfl, rfl⟩

/-- **C115, samples.** A hidden unit is sampled to be 1 with the computed probability, and otherwise 0. -/
theorem C115_sampler (p : Vec ℝ) (j : Nat) (h0 : 0 ≤ p j) (h1 : p j ≤ 1) :
    volume {x : ℝ | 0 ≤ x ∧ x < 1 ∧ bernoulliSampler (fun _ => x) p j = 1} = ENNReal.ofReal (p j) ∧ ∀ rand, bernoulliSampler rand p j = 1 ∨ bernoulliSampler rand p j = 0 := by
  constructor
  · have : {x : ℝ | 0 ≤ x ∧ x < 1 ∧ bernoulliSampler (fun _ => x) p j = 1} = Set.Ico 0 (p j) := by
      ext x
      simp only [Set.mem_setOf_eq, Set.mem_Ico, bernoulliSampler]
      constructor
      · rintro ⟨a, b, c⟩
        refine ⟨a, ?_⟩
        by_contra hx
        rw [if_neg hx] at c
        exact zero_ne_one c
      · rintro ⟨a, b⟩
        exact ⟨a, lt_of_lt_of_le b h1, if_pos b⟩
    rw [this, Real.volume_Ico, sub_zero]
  · intro rand
    unfold bernoulliSampler
    split <;> simp

/-- The probabilities that are computed are between 0 and 1. -/
example (r : Machine) (x : Vec ℝ) (j : Nat) : 0 ≤ r.activate x j ∧ r.activate x j ≤ 1 := by
  have hp : ∀ y, 0 < safeExp y := fun y => by unfold safeExp; exact Real.exp_pos _
  unfold Machine.activate sigmoid
  have := hp (-(∑ i ∈ range r.visibleDim, r.params (j * r.visibleDim + i) * x i + r.biasParams j))
  constructor
  · positivity
  · rw [div_le_one (by linarith)]; linarith

/-- **C116, negation (Bernoulli layers).** A unit of a Bernoulli layer with input `p` between 0 and 1 has the output 1 with probability 1 - p, and 0 with probability p: the opposite of what its input says, unless this is one half. -/
theorem C116_negation_bernoulli (p : ℝ) (h0 : 0 ≤ p) (h1 : p ≤ 1) :
    volume {x : ℝ | 0 ≤ x ∧ x < 1 ∧ bernoulliLayer x p = 1} = ENNReal.ofReal (1 - p) ∧ volume {x : ℝ | 0 ≤ x ∧ x < 1 ∧ bernoulliLayer x p = 0} = ENNReal.ofReal p := by
  have e1 : {x : ℝ | 0 ≤ x ∧ x < 1 ∧ bernoulliLayer x p = 1} = Set.Ico p 1 := by
    ext x
    simp only [Set.mem_setOf_eq, Set.mem_Ico, bernoulliLayer]
    constructor
    · rintro ⟨a, b, c⟩
      refine ⟨?_, b⟩
      by_contra hx
      rw [if_neg hx] at c
      exact zero_ne_one c
    · rintro ⟨a, b⟩
      exact ⟨h0.trans a, b, if_pos a⟩
  have e2 : {x : ℝ | 0 ≤ x ∧ x < 1 ∧ bernoulliLayer x p = 0} = Set.Ico 0 p := by
    ext x
    simp only [Set.mem_setOf_eq, Set.mem_Ico, bernoulliLayer]
    constructor
    · rintro ⟨a, b, c⟩
      refine ⟨a, ?_⟩
      by_contra hx
      rw [if_pos (not_lt.1 hx)] at c
      exact one_ne_zero c
    · rintro ⟨a, b⟩
      exact ⟨a, b.trans_le h1, if_neg (not_le.2 b)⟩
  rw [e1, e2, Real.volume_Ico, Real.volume_Ico, sub_zero]
  exact ⟨rfl, rfl⟩

/-- A unit whose input says that it is always on is always off. -/
example : ∀ x : ℝ, 0 ≤ x ∧ x < 1 → bernoulliLayer x 1 = 0 := fun x h => if_neg (not_le.2 h.2)

/-- **C117, negation (deep belief networks).** Training a deep belief network raises an exception for every network, whatever its layers and their names are. -/
theorem C117_negation_train (bias : String) (layers : List String) : ∃ e, deepTrain bias layers = .error e := by
  unfold deepTrain
  split
  · split
    · exact ⟨_, rfl⟩
    · exact ⟨_, rfl⟩
  · exact ⟨_, rfl⟩

/-- For networks of `buildNetwork` it is a KeyError; if the first layer is named 'visible', an AttributeError, after the first machine was trained. -/
example : deepTrain "bias" ["in", "hidden0", "out"] = .error .keyError ∧ deepTrain "bias" ["visible", "hidden"] = .error .attributeError := by decide

end Verif.Props
