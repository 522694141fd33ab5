import Verif.Lemmas.LstmNetTrain
/-
Property theorems C174 (pybrain/structure/networks/recurrent.py with pybrain/structure/modules/lstm.py and
pybrain/supervised/trainers/backprop.py, rprop.py): recurrent networks with LSTM layers.
-/
namespace Verif.Props
open Verif.Net Verif.Net.Spec Verif.LstmNet Verif.LstmNet.Spec Verif.Train Verif.Train.Spec
open Finset

section
variable {V P : Type} [DecidableEq V] [DecidableEq P] {n : Nat}

/-- **C174, activation.** For every well-formed recurrent network with LSTM layers, whatever happened before, and every input sequence: after `reset()`, activating on
the sequence raises nothing and returns the one and only outputs of the unrolled graph, in which each cell of each LSTM layer follows the LSTM recurrence on all the signals that have
reached its layer since the reset. -/
theorem C174_activation (N : LNet V P ℝ) (hN : LWF N) (θ : P → Vec ℝ) (s : LNState V P ℝ) (hs : LShape N s) (xs ys : List (Vec ℝ)) :
    IsLOutputs N θ xs ys ↔ ∃ s', lactivateAll N θ (lreset s) xs = some (s', ys) := by
  have hR := rreset_inv (ext N) θ xs s.r hs.1
  obtain ⟨s', ys', h1, -, -, -⟩ := ractivateAll_inv (ext_rwf hN).base (xs.map fun x => (0, x)) hR (by simp [Function.comp_def]) (Nat.zero_le _)
  obtain ⟨s1, g1, -⟩ := lactivateAll_sim hN xs hR (lreset_rel (fun _ => 0) θ hs) (by simp) (Nat.zero_le _) h1
  have hO := (C16_recurrent_activation (ext N) (ext_rwf hN) θ s.r hs.1 (xs.map fun x => (0, x)) ys').2 ⟨_, h1⟩
  have hx : (xs.map fun x => ((0 : Nat), x)).map Prod.snd = xs := by simp [Function.comp_def]
  rw [hx] at hO
  rw [isLOutputs_iff hN]
  constructor
  · intro h
    rw [isOutputs_unique (ext N) (ext_rwf hN) θ _ ys ys' h hO]
    exact ⟨s1, g1⟩
  · rintro ⟨s2, h⟩
    rw [g1] at h
    simp only [Option.some.injEq, Prod.mk.injEq] at h
    rw [← h.2]; exact hO

/-- **C174, back-propagation through time.** If the layers, the connections and the transfer functions of the LSTM layers have exact derivatives at the values that occur, then
after `reset()`, activating on the inputs `xs`, and calling `backActivate` with errors for the last, last but one, ... first time step, neither run raises, and along
every differentiable motion of the parameters and of all inputs the sum over time of ⟨errors, outputs⟩ moves with velocity
Σ_t ⟨returned input error t, velocity of input t⟩ + ⟨increment of the derivatives, velocity of the parameters⟩.
(The returned errors `gs` come in the order of the calls, last time step first.) -/
theorem C174_bptt (N : LNet V P ℝ) (hN : LWF N) (Ps : Finset P) (pd : P → Nat)
    (hPm : ∀ m ∈ N.sorted, (N.mod m).pc ∈ Ps) (hPc : ∀ m ∈ N.sorted, ∀ c ∈ N.conns m, c.pc ∈ Ps) (hPr : ∀ a ∈ N.recs, a.2.pc ∈ Ps)
    (hPl : ∀ m ∈ N.sorted, ∀ k, N.kind m = some k → pd (N.mod m).pc = if k.peepholes then 3 * k.dim else 0)
    (hz : ∀ a ∈ N.recs, ∀ p x, a.2.bwdErr p (fun _ => 0) x = (fun _ => 0) ∧ a.2.bwdPar p (fun _ => 0) x = fun _ => 0)
    (θ : P → Vec ℝ) (s : LNState V P ℝ) (hs : LShape N s) (xs es : List (Vec ℝ)) (hl : es.length = xs.length) :
    ∃ s1 ys s2 gs, lactivateAll N θ (lreset s) xs = some (s1, ys) ∧ lbackAll N θ s1 es.reverse = some (s2, gs) ∧
      (LSmooth N pd θ xs →
       ∀ (θc : ℝ → P → Vec ℝ) (xc : ℝ → Nat → Vec ℝ) (t0 : ℝ) (θ' : P → Vec ℝ) (x' : Nat → Vec ℝ) (Y : ℝ → List (Vec ℝ)),
        θc t0 = θ → (∀ t < xs.length, xc t0 t = xs.getD t fun _ => 0) →
        (∀ p k, HasDerivAt (fun τ => θc τ p k) (θ' p k) t0) → (∀ t i, HasDerivAt (fun τ => xc τ t i) (x' t i) t0) →
        (∀ τ, IsLOutputs N (θc τ) ((List.range xs.length).map (xc τ)) (Y τ)) →
        HasDerivAt (fun τ => ∑ t ∈ range xs.length, ∑ j ∈ range (outdim N.toNet), es.getD t (fun _ => 0) j * (Y τ).getD t (fun _ => 0) j)
          (∑ t ∈ range xs.length, ∑ i ∈ range (indim N.toNet), gs.reverse.getD t (fun _ => 0) i * x' t i +
            ∑ p ∈ Ps, ∑ k ∈ range (pd p), (s2.r.derivs p k - s.r.derivs p k) * θ' p k) t0) := by
  have hE := ext_rwf hN
  have hR := rreset_inv (ext N) θ xs s.r hs.1
  obtain ⟨s1', ys, h1, h2, -, -⟩ := ractivateAll_inv hE.base (xs.map fun x => (0, x)) hR (by simp [Function.comp_def]) (Nat.zero_le _)
  obtain ⟨s1, g1, g2⟩ := lactivateAll_sim hN xs hR (lreset_rel pd θ hs) (by simp) (Nat.zero_le _) h1
  have hb0 := h2.back hl
  obtain ⟨s2', gs, b1, b2, -, b4⟩ := rbackAll_inv hE.base es.length (Nat.le_refl _) hb0
  have hB0 : BRel N pd θ es.length es.length s1' s1 := by
    rw [hl]; exact g2.back fun u => (h2.errs u).1
  obtain ⟨s2, c1, c2⟩ := lbackAll_sim hN hPl es.length (Nat.le_refl _) hb0 hB0 b1
  rw [List.take_length] at b1 c1
  refine ⟨s1, ys, s2, gs, g1, c1, ?_⟩
  intro hS θc xc t0 θ' x' Y hθ0 hx0 hθ hx hY
  obtain ⟨hM, hC, hR⟩ := ext_smooth hN hPl hS _ _ (rows_solve (ext N) hE θ xs (fun u => s1'.inb.getD u zrow) (fun u => s1'.outb.getD u zrow) s.r.derivs h2.rows)
  rw [hl] at b2 b4
  have hPr' : ∀ a ∈ (ext N).recs, a.2.pc ∈ Ps := by
    intro a ha
    have ha : a ∈ N.recs ++ stateRecs N := ha
    rw [List.mem_append] at ha
    rcases ha with ha | ha
    · exact hPr a ha
    · obtain ⟨k, h1, h2, h3⟩ := stateRecs_mem ha
      rw [h3]
      exact hPm a.1 h1
  have hz' : ∀ a ∈ (ext N).recs, ∀ p x, a.2.bwdErr p (fun _ => 0) x = (fun _ => 0) ∧ a.2.bwdPar p (fun _ => 0) x = fun _ => 0 := by
    intro a ha
    have ha : a ∈ N.recs ++ stateRecs N := ha
    rw [List.mem_append] at ha
    rcases ha with ha | ha
    · exact hz a ha
    · obtain ⟨k, h1, h2, h3⟩ := stateRecs_mem ha
      rw [h3]
      intro p x
      constructor <;> (funext i; simp [stateConn, identityConnection])
  have := bptt_core (ext N) hE Ps pd (fun m hm => by rw [ext_pc]; exact hPm m hm) hPc hPr' hz' θ xs es (fun u => s1'.inb.getD u zrow) (fun u => s1'.outb.getD u zrow)
    s.r.derivs s2' h2.rows b2 hM hC hR θc xc t0 θ' x' Y hθ0 hx0 hθ hx (fun τ => (isLOutputs_iff hN _ _ _).1 (hY τ))
  rw [ext_outdim hN, ext_indim hN] at this
  refine this.congr_deriv ?_
  congr 1
  · apply sum_congr rfl
    intro t ht
    rw [mem_range] at ht
    have hgt : gs.reverse.getD t (fun _ => 0) = concat (fun m => ((ext N).mod m).indim) (ext N).inmods (s2'.ine.getD t zrow) := by
      rw [b4]
      simp only [List.getD_eq_getElem?_getD, List.getElem?_map, List.getElem?_range ht, Option.map_some, Option.getD_some]
    rw [hgt]
  · refine sum_congr rfl fun p _ => sum_congr rfl fun k hk => ?_
    have hdv : s2'.derivs p k = s2.r.derivs p k := (c2.row 0).derivs p k (mem_range.1 hk)
    rw [hdv]

/-- **C174, one sequence.** As `C82_derivs`, for networks with LSTM layers. -/
theorem C174_derivs (N : LNet V P ℝ) (L : Layout P n) (Ps : Finset P) (pd : P → Nat) (h : LTrainable N L Ps pd)
    (s : (Fin n → ℝ) × LNState V P ℝ) (hs : LShape N s.2) (seq : List (Sample ℝ)) :
    ∃ s' g, calcDerivs (lnetLearner N L) (outdim N.toNet) seq s = some (s', lnetError N L s.1 seq, seqWeight (outdim N.toNet) seq) ∧
      LShape N s'.2 ∧ s'.1 = s.1 ∧ (∀ i, (lnetLearner N L).derivs s' i = (lnetLearner N L).derivs s i + g i) ∧ LDescends N L pd s.1 seq g := by
  obtain ⟨s', g, h1, h2, h3, h4, h5⟩ := calcDerivs_lawful (lnetLawful h) (outdim N.toNet) seq s hs
  refine ⟨s', g, ?_, h2, h3, h4, ldescends_of h (backGrad_descends (ext_trainable h) s.1 seq g h5)⟩
  rw [lnetError, loutputsOf_eq h.wf]; exact h1

/-- **C174, online training.** As `C82_online`, for networks with LSTM layers: if the descender holds the parameters of the network, then for every dataset
that is not empty and every order of its sequences `train()` raises nothing, performs for one sequence after the other a step of gradient descent with
momentum on that sequence's error at the parameters then in force, minus the decay of the weights, and leaves the derivatives zero; it returns the sum of the errors
met on the way divided by the total weight. -/
theorem C174_online (N : LNet V P ℝ) (L : Layout P n) (Ps : Finset P) (pd : P → Nat) (h : LTrainable N L Ps pd) (c : Options ℝ)
    (hc : c.batchlearning = false) (seqs : List (List (Sample ℝ))) (hne : ∃ seq ∈ seqs, seq ≠ [])
    (s : (Fin n → ℝ) × LNState V P ℝ) (hs : LShape N s.2) (d : Descent.Momentum ℝ n) (hd : s.1 = d.values) :
    ∃ s' d' e, train (lnetLearner N L) (outdim N.toNet) c seqs s d = some (s', d', e / (seqs.map (seqWeight (outdim N.toNet))).sum) ∧
      LShape N s'.2 ∧ s'.1 = d'.values ∧ (∀ i, (lnetLearner N L).derivs s' i = 0) ∧
      Online (lnetError N L) (LDescends N L pd) c seqs d d' e := by
  obtain ⟨b1, b2, b3⟩ := (lnetLawful h).clear s hs
  obtain ⟨s', d', e, h1, h2, h3, h4, h5⟩ := trainLoop_online (lnetLawful h) (outdim N.toNet) c hc seqs _ b1 d (b2.trans hd) b3 0 0
  have h5' : Online (lnetError N L) (fun w seq g => BackGrad (ext N) L pd w (inputs seq)
      (signals seq (outputsOf (ext N) (L.decode w) (inputs seq))) g) c seqs d d' e := by
    have e1 : lnetError N L = fun w seq => seqError (outdim N.toNet) seq (outputsOf (ext N) (L.decode w) (inputs seq)) := by
      funext w seq
      rw [lnetError, loutputsOf_eq h.wf]
    rw [e1]; exact h5
  refine ⟨s', d', e, ?_, h2, h3, fun i => congrFun h4 i, Online.mono (fun w seq g hg => ldescends_of h (backGrad_descends (ext_trainable h) w seq g hg)) h5'⟩
  · have hl : ¬ (seqs.map List.length).sum = 0 := by
      obtain ⟨seq, hq, hn⟩ := hne
      have := List.single_le_sum (l := seqs.map List.length) (fun _ _ => Nat.zero_le _) _ (List.mem_map_of_mem (f := List.length) hq)
      have := List.length_pos_iff.2 hn
      omega
    unfold train
    rw [if_neg hl, h1]
    simp [hc]

/-- **C174, batch training.** As `C82_batch`, for networks with LSTM layers: `train()` performs one step of gradient descent with momentum along the steepest descent
of the summed error of all sequences at the old parameters, whatever their order, and returns that error divided by the total weight. -/
theorem C174_batch (N : LNet V P ℝ) (L : Layout P n) (Ps : Finset P) (pd : P → Nat) (h : LTrainable N L Ps pd) (c : Options ℝ)
    (hc : c.batchlearning = true) (seqs : List (List (Sample ℝ))) (hne : ∃ seq ∈ seqs, seq ≠ [])
    (s : (Fin n → ℝ) × LNState V P ℝ) (hs : LShape N s.2) (d : Descent.Momentum ℝ n) :
    ∃ s' d', ∃ g : Fin n → ℝ, train (lnetLearner N L) (outdim N.toNet) c seqs s d =
        some (s', d', (seqs.map (lnetError N L s.1)).sum / (seqs.map (seqWeight (outdim N.toNet))).sum) ∧
      LShape N s'.2 ∧ s'.1 = d'.values ∧ Step c g d d' ∧
      ((∀ seq ∈ seqs, LSmooth N pd (L.decode s.1) (inputs seq)) → IsGrad (fun w => (seqs.map (lnetError N L w)).sum) s.1 (fun i => - g i)) := by
  obtain ⟨b1, b2, b3⟩ := (lnetLawful h).clear s hs
  obtain ⟨s1, gs, h1, h2, h3, h4, h5⟩ := trainLoop_batch (lnetLawful h) (outdim N.toNet) c hc seqs _ b1 d 0 0
  rw [b2] at h1 h5
  have hg : (lnetLearner N L).derivs s1 = fun i => (gs.map fun g => g i).sum := by
    funext i; rw [h4, b3]; simp
  obtain ⟨a1, a2, -⟩ := (lnetLawful h).set s1 (d.call c.descent ((lnetLearner N L).derivs s1)).values h2
  rw [lnetError_eq h.wf]
  have hd := (ext_outdim h.wf).symm
  refine ⟨_, d.call c.descent ((lnetLearner N L).derivs s1), (lnetLearner N L).derivs s1, ?_, a1, a2, step_call c d _, ?_⟩
  · have hl : ¬ (seqs.map List.length).sum = 0 := by
      obtain ⟨seq, hq, hn⟩ := hne
      have := List.single_le_sum (l := seqs.map List.length) (fun _ _ => Nat.zero_le _) _ (List.mem_map_of_mem (f := List.length) hq)
      have := List.length_pos_iff.2 hn
      omega
    unfold train
    rw [if_neg hl, h1]
    simp only [hc, if_true, zero_add]
    rw [hd]
    rfl
  · intro hS
    rw [hg]
    exact isGrad_sum (h5.imp fun seq g hq => backGrad_descends (ext_trainable h) s.1 seq g hq) (fun seq hq => ext_smooth h.wf h.cellParams (hS seq hq))

/-- **C174, Rprop.** As `C82_rprop`, for networks with LSTM layers. -/
theorem C174_rprop (N : LNet V P ℝ) (L : Layout P n) (Ps : Finset P) (pd : P → Nat) (h : LTrainable N L Ps pd) (c : Options ℝ)
    (seqs : List (List (Sample ℝ))) (s : (Fin n → ℝ) × LNState V P ℝ) (hs : LShape N s.2) (d : Descent.Rprop ℝ n) :
    ∃ s' d', ∃ g : Fin n → ℝ, rpropTrain (lnetLearner N L) (outdim N.toNet) c seqs s d =
        some (s', d', (seqs.map (lnetError N L s.1)).sum / (seqs.map (seqWeight (outdim N.toNet))).sum) ∧
      LShape N s'.2 ∧ s'.1 = d'.values ∧ d' = d.call c.descent (fun i => g i - c.weightdecay * s.1 i) ∧
      ((∀ seq ∈ seqs, LSmooth N pd (L.decode s.1) (inputs seq)) → IsGrad (fun w => (seqs.map (lnetError N L w)).sum) s.1 (fun i => - g i)) := by
  obtain ⟨b1, b2, b3⟩ := (lnetLawful h).clear s hs
  obtain ⟨s1, gs, h1, h2, h3, h4, h5⟩ := rpropLoop_lawful (lnetLawful h) (outdim N.toNet) seqs _ b1 0 0
  rw [b2] at h1 h3 h5
  have hg : (lnetLearner N L).derivs s1 = fun i => (gs.map fun g => g i).sum := by
    funext i; rw [h4, b3]; simp
  obtain ⟨a1, a2, -⟩ := (lnetLawful h).set s1 (d.call c.descent fun i => (lnetLearner N L).derivs s1 i - c.weightdecay * (lnetLearner N L).params s1 i).values h2
  rw [lnetError_eq h.wf]
  have hd := (ext_outdim h.wf).symm
  refine ⟨_, d.call c.descent fun i => (lnetLearner N L).derivs s1 i - c.weightdecay * (lnetLearner N L).params s1 i, (lnetLearner N L).derivs s1, ?_, a1, a2, ?_, ?_⟩
  · unfold rpropTrain
    rw [h1]
    simp only [zero_add]
    rw [hd]
    rfl
  · rw [h3]; rfl
  · intro hS
    rw [hg]
    exact isGrad_sum (h5.imp fun seq g hq => backGrad_descends (ext_trainable h) s.1 seq g hq) (fun seq hq => ext_smooth h.wf h.cellParams (hS seq hq))

/-- **C174, testing.** As `C82_test`, for networks with LSTM layers: neither parameters nor derivatives change, and the result is the summed error
divided by the total weight. -/
theorem C174_test (N : LNet V P ℝ) (L : Layout P n) (Ps : Finset P) (pd : P → Nat) (h : LTrainable N L Ps pd)
    (seqs : List (List (Sample ℝ))) (hne : ∀ seq ∈ seqs, seq ≠ []) (hp : 0 < (seqs.map (seqWeight (outdim N.toNet))).sum)
    (s : (Fin n → ℝ) × LNState V P ℝ) (hs : LShape N s.2) :
    ∃ s', testOnData (lnetLearner N L) (outdim N.toNet) seqs s =
        some (s', (seqs.map (lnetError N L s.1)).sum / (seqs.map (seqWeight (outdim N.toNet))).sum) ∧
      LShape N s'.2 ∧ s'.1 = s.1 ∧ ∀ i, (lnetLearner N L).derivs s' i = (lnetLearner N L).derivs s i := by
  obtain ⟨s1, h1, h2, h3, h4⟩ := testLoop_lawful (lnetLawful h) (outdim N.toNet) seqs hne s hs 0 0
  refine ⟨s1, ?_, h2, h3, fun i => congrFun h4 i⟩
  have e1 : lnetError N L s.1 = fun seq => seqError (outdim N.toNet) seq (outputsOf (ext N) (L.decode s.1) (inputs seq)) := by
    funext seq
    rw [lnetError, loutputsOf_eq h.wf]
  unfold testOnData
  rw [h1, e1]
  simp only [zero_add]
  rw [if_pos hp]
  rfl

/-- **C174 for library networks.** A network of the layers and connections of `C59_library_networks` and of LSTM layers of the library is differentiable in the sense of these
theorems wherever no gate of an LSTM layer gets an input of 500 or more (there the sigmoid is clipped, `C14_negation_sigmoid_clipped`). -/
theorem C174_library_partial (N : LNet V P ℝ) (pd : P → Nat) (θ : P → Vec ℝ) (xs : List (Vec ℝ))
    (hL : ∀ m ∈ N.sorted, ∀ k, N.kind m = some k → k.T = lstmLibrary)
    (hC : ∀ m ∈ N.sorted, ∀ c ∈ N.conns m, GoodConn pd c) (hR : ∀ a ∈ N.recs, GoodConn pd a.2)
    (hM : ∀ inb outb, LSolves N θ xs inb outb →
      (∀ t < xs.length, ∀ m ∈ N.sorted, N.kind m = none → GoodMod (N.mod m) (inb (m, t))) ∧
      (∀ m ∈ N.sorted, ∀ k, N.kind m = some k → ∀ j < k.dim, ∀ c, c = Lstm.Spec.cellOf k.peepholes k.dim (θ (N.mod m).pc) (fun u => inb (m, u)) j → ∀ t < xs.length,
        |c.i t + c.wi * Lstm.Spec.before lstmLibrary c t| < 500 ∧ |c.f t + c.wf * Lstm.Spec.before lstmLibrary c t| < 500 ∧
          |c.o t + c.wo * Lstm.Spec.before lstmLibrary c (t + 1)| < 500)) :
    LSmooth N pd θ xs := by
  intro inb outb hs
  obtain ⟨h1, h2⟩ := hM inb outb hs
  refine ⟨fun t ht m hm hk => (h1 t ht m hm hk).diff _ _, fun m hm k hk j hj => ?_, fun t _ m hm c hc => (hC m hm c hc).diff _ _, fun t _ a ha => (hR a ha).diff _ _⟩
  rw [hL m hm k hk]
  exact C76_library_partial _ _ fun t ht => h2 m hm k hk j hj _ rfl t ht

end

/-- An example: two inputs, an LSTM layer of two cells with peepholes and a full recurrent connection to itself, and one linear output. -/
noncomputable def exampleLNet : LNet Nat Nat ℝ where
  mod := fun v => match v with
    | 0 => linearLayer 0 2
    | 1 => ⟨8, 2, 5, fun _ _ _ => fun _ => 0, fun _ _ _ _ _ => fun _ => 0, fun _ _ _ _ => fun _ => 0⟩
    | _ => linearLayer 0 1
  sorted := [0, 1, 2]
  inmods := [0]
  outmods := [2]
  conns := fun v => match v with
    | 0 => [fullConnection 1 1 0 2 0 8]
    | 1 => [fullConnection 2 2 0 2 0 1]
    | _ => []
  recs := [(1, fullConnection 1 3 0 2 0 8)]
  kind := fun v => match v with
    | 1 => some ⟨lstmLibrary, true, 2⟩
    | _ => none

/-- its 40 parameters: two connections of 16, one of 2 and the peepholes -/
def exampleLSizes (p : Nat) : Nat := if p = 1 then 16 else if p = 2 then 2 else if p = 3 then 16 else if p = 5 then 6 else 0
def exampleLStart (p : Nat) : Nat := if p = 1 then 0 else if p = 2 then 16 else if p = 3 then 18 else 34
def exampleLLayout : Layout Nat 40 where
  index p k := if h : k < exampleLSizes p ∧ exampleLStart p + k < 40 then some ⟨exampleLStart p + k, h.2⟩ else none
  place i := if i.1 < 16 then (1, i.1) else if i.1 < 18 then (2, i.1 - 16) else if i.1 < 34 then (3, i.1 - 18) else (5, i.1 - 34)

theorem exampleLNet_kind {v : Nat} {k : Kind ℝ} (h : exampleLNet.kind v = some k) : v = 1 ∧ k = ⟨lstmLibrary, true, 2⟩ := by
  match v with
  | 0 => cases h
  | 1 => cases h; exact ⟨rfl, rfl⟩
  | _ + 2 => cases h

/-- The hypotheses of the theorems are met by this network. -/
theorem exampleLNet_trainable : LTrainable exampleLNet exampleLLayout {0, 1, 2, 3, 5} exampleLSizes := by
  refine ⟨⟨⟨⟨by simp [exampleLNet], by simp [exampleLNet], by simp [exampleLNet], by simp [exampleLNet], by simp [exampleLNet], ?_, ?_, ?_⟩, ?_, ?_, ?_⟩, ?_, ?_, ?_, ?_⟩,
    ⟨by decide, ?_⟩, ?_, ?_, ?_, ?_, ?_⟩
  · simp only [exampleLNet, List.forall_mem_cons]
    refine ⟨⟨⟨[], [], [2], rfl⟩, by simp⟩, ⟨⟨[0], [], [], rfl⟩, by simp⟩, by simp, by simp⟩
  · simp [exampleLNet, fullConnection, linearLayer]
  · simp [exampleLNet, fullConnection, linearLayer]
  · simp [exampleLNet, fullConnection]
  · simp [exampleLNet, fullConnection]
  · simp [exampleLNet, fullConnection]
  · intro v k h
    obtain ⟨rfl, rfl⟩ := exampleLNet_kind h
    rfl
  · intro v k h
    obtain ⟨rfl, rfl⟩ := exampleLNet_kind h
    rfl
  · intro v k h
    obtain ⟨rfl, rfl⟩ := exampleLNet_kind h
    simp [exampleLNet]
  · intro v k h
    obtain ⟨rfl, rfl⟩ := exampleLNet_kind h
    simp [exampleLNet]
  · have : ∀ p ∈ ({0, 1, 2, 3, 5} : Finset Nat), ∀ k ∈ Finset.range (exampleLSizes p), ∃ i, exampleLLayout.index p k = some i ∧ exampleLLayout.place i = (p, k) := by
      decide +kernel
    exact fun p hp k hk => this p hp k (Finset.mem_range.2 hk)
  · simp [exampleLNet, linearLayer]
  · intro v _ k h
    obtain ⟨rfl, rfl⟩ := exampleLNet_kind h
    rfl
  · simp [exampleLNet, fullConnection]
  · simp [exampleLNet, fullConnection]
  · intro a ha p x
    simp only [exampleLNet, List.mem_singleton] at ha
    subst ha
    constructor <;> (funext i; simp [fullConnection])

/-- A new network of this kind has buffers of one row. -/
example : LShape exampleLNet ⟨⟨[zrow], [zrow], [zrow], [zrow], fun _ _ => 0, 0, 0⟩, fun _ => Lstm.fresh⟩ := by
  refine ⟨by simp [Shape], fun v _ k h => rfl⟩

theorem exampleLNet_zero {xs : List (Vec ℝ)} {inb outb : Nat × Nat → Vec ℝ} (hs : LSolves exampleLNet (fun _ _ => 0) xs inb outb) (t : Nat) (ht : t < xs.length) (j : Nat) :
    inb (1, t) j = 0 := by
  rw [hs.inputs (1, t) (mem_nodesT.2 ⟨by simp [exampleLNet], ht⟩) j]
  have h1 : extT exampleLNet.toRNet xs (1, t) j = 0 := by
    simp [extT, share, exampleLNet]
  rw [h1, zero_add]
  apply List.sum_eq_zero
  intro y hy
  rw [List.mem_map] at hy
  obtain ⟨a, ha, rfl⟩ := hy
  split
  · unfold arcs at ha
    rw [List.mem_flatMap] at ha
    obtain ⟨m, hm, ha⟩ := ha
    rw [List.mem_map] at ha
    obtain ⟨c, hc, rfl⟩ := ha
    have hf : ∀ p x i, (∀ k, p k = 0) → c.fwd p x i = 0 := by
      unfold connsT at hc
      rw [List.mem_append] at hc
      have key : ∀ c' : Conn Nat Nat ℝ, (∃ v ∈ exampleLNet.sorted, c' ∈ exampleLNet.conns v) ∨ (∃ v, (v, c') ∈ exampleLNet.recs) →
          ∀ p x i, (∀ k, p k = 0) → c'.fwd p x i = 0 := by
        rintro c' (⟨v, hv, h⟩ | ⟨v, h⟩) p x i hp
        · simp only [exampleLNet, List.mem_cons, List.not_mem_nil, or_false] at hv
          rcases hv with rfl | rfl | rfl <;> simp only [exampleLNet, List.mem_singleton, List.not_mem_nil] at h <;> subst h <;> simp [fullConnection, hp]
        · simp only [exampleLNet, List.mem_singleton, Prod.mk.injEq] at h
          obtain ⟨-, rfl⟩ := h
          simp [fullConnection, hp]
      rcases hc with hc | hc
      · rw [List.mem_map] at hc
        obtain ⟨c', hc, rfl⟩ := hc
        exact key c' (Or.inl ⟨_, (mem_nodesT.1 hm).1, hc⟩)
      · split at hc
        · rw [List.mem_map] at hc
          obtain ⟨c', hc, rfl⟩ := hc
          unfold recsOf at hc
          rw [List.mem_map] at hc
          obtain ⟨b, hb, rfl⟩ := hc
          exact key _ (Or.inr ⟨b.1, (List.mem_filter.1 hb).1⟩)
        · cases hc
    simp only [signal]
    split
    · exact hf _ _ _ fun _ => rfl
    · rfl
  · rfl

/-- With all parameters zero it is differentiable for all inputs. -/
example (xs : List (Vec ℝ)) : LSmooth exampleLNet exampleLSizes (fun _ _ => 0) xs := by
  refine C174_library_partial _ _ _ _ ?_ ?_ ?_ ?_
  · intro v _ k h
    obtain ⟨rfl, rfl⟩ := exampleLNet_kind h
    rfl
  · intro m hm c hc
    simp only [exampleLNet, List.mem_cons, List.not_mem_nil, or_false] at hm
    rcases hm with rfl | rfl | rfl <;> simp only [exampleLNet, List.mem_singleton, List.not_mem_nil] at hc
    · subst hc; exact GoodConn.full _ _ _ _ _ _ (by simp [exampleLSizes])
    · subst hc; exact GoodConn.full _ _ _ _ _ _ (by simp [exampleLSizes])
  · intro a ha
    simp only [exampleLNet, List.mem_singleton] at ha
    subst ha
    exact GoodConn.full _ _ _ _ _ _ (by simp [exampleLSizes])
  · intro inb outb hs
    refine ⟨?_, ?_⟩
    · intro t _ m hm hk
      simp only [exampleLNet, List.mem_cons, List.not_mem_nil, or_false] at hm
      rcases hm with rfl | rfl | rfl
      · exact GoodMod.linear 0 2 _
      · cases hk
      · exact GoodMod.linear 0 1 _
    · intro m hm k hk j hj c hc t ht
      obtain ⟨rfl, rfl⟩ := exampleLNet_kind hk
      subst hc
      simp [Lstm.Spec.cellOf, exampleLNet_zero hs t ht]

end Verif.Props
