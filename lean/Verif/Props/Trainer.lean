import Verif.Lemmas.Trainer
/-
Property theorems C82 (pybrain/supervised/trainers/backprop.py, rprop.py).
-/
namespace Verif.Props
open Verif.Net Verif.Net.Spec Verif.Train Verif.Train.Spec
open Finset

section
variable {V P : Type} [DecidableEq V] [DecidableEq P] {n : Nat}

/-- **C82, one sequence.** For every trainable recurrent network in any state and every sequence of samples, with or without importances:
`_calcDerivs` raises nothing, returns half the weighted squared error of the outputs of the network and the total weight, leaves the parameters alone, and
adds to the derivatives the direction of steepest descent of that error (wherever the network is differentiable). -/
theorem C82_derivs (N : RNet V P ℝ) (L : Layout P n) (Ps : Finset P) (pd : P → Nat) (h : Trainable N L Ps pd)
    (s : (Fin n → ℝ) × RState V P ℝ) (hs : Shape s.2) (seq : List (Sample ℝ)) :
    ∃ s' g, calcDerivs (rnetLearner N L) (outdim N.toNet) seq s = some (s', netError N L s.1 seq, seqWeight (outdim N.toNet) seq) ∧
      Shape s'.2 ∧ s'.1 = s.1 ∧ (∀ i, (rnetLearner N L).derivs s' i = (rnetLearner N L).derivs s i + g i) ∧ Descends N L pd s.1 seq g := by
  obtain ⟨s', g, h1, h2, h3, h4, h5⟩ := calcDerivs_lawful (rnetLawful h) (outdim N.toNet) seq s hs
  exact ⟨s', g, h1, h2, h3, h4, backGrad_descends h s.1 seq g h5⟩

/-- **C82, online training.** If the descender holds the parameters of the network (as the constructor arranges and every epoch keeps), then for every dataset
that is not empty and every order of its sequences `train()` raises nothing, performs for one sequence after the other a step of gradient descent with
momentum on that sequence's error at the parameters then in force, minus the decay of the weights, and leaves the derivatives zero; it returns the sum of the errors
met on the way divided by the total weight. -/
theorem C82_online (N : RNet V P ℝ) (L : Layout P n) (Ps : Finset P) (pd : P → Nat) (h : Trainable N L Ps pd) (c : Options ℝ)
    (hc : c.batchlearning = false) (seqs : List (List (Sample ℝ))) (hne : ∃ seq ∈ seqs, seq ≠ [])
    (s : (Fin n → ℝ) × RState V P ℝ) (hs : Shape s.2) (d : Descent.Momentum ℝ n) (hd : s.1 = d.values) :
    ∃ s' d' e, train (rnetLearner N L) (outdim N.toNet) c seqs s d = some (s', d', e / (seqs.map (seqWeight (outdim N.toNet))).sum) ∧
      Shape s'.2 ∧ s'.1 = d'.values ∧ (∀ i, (rnetLearner N L).derivs s' i = 0) ∧
      Online (netError N L) (Descends N L pd) c seqs d d' e := by
  obtain ⟨b1, b2, b3⟩ := (rnetLawful h).clear s hs
  obtain ⟨s', d', e, h1, h2, h3, h4, h5⟩ := trainLoop_online (rnetLawful h) (outdim N.toNet) c hc seqs _ b1 d (b2.trans hd) b3 0 0
  refine ⟨s', d', e, ?_, h2, h3, fun i => congrFun h4 i, Online.mono (fun w seq g hg => backGrad_descends h w seq g hg) h5⟩
  have hl : ¬ (seqs.map List.length).sum = 0 := by
    obtain ⟨seq, hq, hn⟩ := hne
    have := List.single_le_sum (l := seqs.map List.length) (fun _ _ => Nat.zero_le _) _ (List.mem_map_of_mem (f := List.length) hq)
    have := List.length_pos_iff.2 hn
    omega
  unfold train
  rw [if_neg hl, h1]
  simp [hc]

/-- **C82, batch training.** `train()` performs one step of gradient descent with momentum along the steepest descent of the summed error of all
sequences at the old parameters, whatever their order, and returns that error divided by the total weight. -/
theorem C82_batch (N : RNet V P ℝ) (L : Layout P n) (Ps : Finset P) (pd : P → Nat) (h : Trainable N L Ps pd) (c : Options ℝ)
    (hc : c.batchlearning = true) (seqs : List (List (Sample ℝ))) (hne : ∃ seq ∈ seqs, seq ≠ [])
    (s : (Fin n → ℝ) × RState V P ℝ) (hs : Shape s.2) (d : Descent.Momentum ℝ n) :
    ∃ s' d', ∃ g : Fin n → ℝ, train (rnetLearner N L) (outdim N.toNet) c seqs s d =
        some (s', d', (seqs.map (netError N L s.1)).sum / (seqs.map (seqWeight (outdim N.toNet))).sum) ∧
      Shape s'.2 ∧ s'.1 = d'.values ∧ Step c g d d' ∧
      ((∀ seq ∈ seqs, Smooth N pd (L.decode s.1) (inputs seq)) → IsGrad (fun w => (seqs.map (netError N L w)).sum) s.1 (fun i => - g i)) := by
  obtain ⟨b1, b2, b3⟩ := (rnetLawful h).clear s hs
  obtain ⟨s1, gs, h1, h2, h3, h4, h5⟩ := trainLoop_batch (rnetLawful h) (outdim N.toNet) c hc seqs _ b1 d 0 0
  rw [b2] at h1 h5
  have hg : (rnetLearner N L).derivs s1 = fun i => (gs.map fun g => g i).sum := by
    funext i; rw [h4, b3]; simp
  obtain ⟨a1, a2, -⟩ := (rnetLawful h).set s1 (d.call c.descent ((rnetLearner N L).derivs s1)).values h2
  refine ⟨_, d.call c.descent ((rnetLearner N L).derivs s1), (rnetLearner N L).derivs s1, ?_, a1, a2, step_call c d _, ?_⟩
  · have hl : ¬ (seqs.map List.length).sum = 0 := by
      obtain ⟨seq, hq, hn⟩ := hne
      have := List.single_le_sum (l := seqs.map List.length) (fun _ _ => Nat.zero_le _) _ (List.mem_map_of_mem (f := List.length) hq)
      have := List.length_pos_iff.2 hn
      omega
    unfold train
    rw [if_neg hl, h1]
    simp only [hc, if_true, zero_add]
    rfl
  · intro hS
    rw [hg]
    exact isGrad_sum (h5.imp fun seq g hq => backGrad_descends h s.1 seq g hq) hS

/-- **C82, Rprop.** `RPropMinusTrainer.train()` makes one Rprop step with the steepest descent of the summed error minus the decay of the weights. -/
theorem C82_rprop (N : RNet V P ℝ) (L : Layout P n) (Ps : Finset P) (pd : P → Nat) (h : Trainable N L Ps pd) (c : Options ℝ)
    (seqs : List (List (Sample ℝ))) (s : (Fin n → ℝ) × RState V P ℝ) (hs : Shape s.2) (d : Descent.Rprop ℝ n) :
    ∃ s' d', ∃ g : Fin n → ℝ, rpropTrain (rnetLearner N L) (outdim N.toNet) c seqs s d =
        some (s', d', (seqs.map (netError N L s.1)).sum / (seqs.map (seqWeight (outdim N.toNet))).sum) ∧
      Shape s'.2 ∧ s'.1 = d'.values ∧ d' = d.call c.descent (fun i => g i - c.weightdecay * s.1 i) ∧
      ((∀ seq ∈ seqs, Smooth N pd (L.decode s.1) (inputs seq)) → IsGrad (fun w => (seqs.map (netError N L w)).sum) s.1 (fun i => - g i)) := by
  obtain ⟨b1, b2, b3⟩ := (rnetLawful h).clear s hs
  obtain ⟨s1, gs, h1, h2, h3, h4, h5⟩ := rpropLoop_lawful (rnetLawful h) (outdim N.toNet) seqs _ b1 0 0
  rw [b2] at h1 h3 h5
  have hg : (rnetLearner N L).derivs s1 = fun i => (gs.map fun g => g i).sum := by
    funext i; rw [h4, b3]; simp
  obtain ⟨a1, a2, -⟩ := (rnetLawful h).set s1 (d.call c.descent fun i => (rnetLearner N L).derivs s1 i - c.weightdecay * (rnetLearner N L).params s1 i).values h2
  refine ⟨_, d.call c.descent fun i => (rnetLearner N L).derivs s1 i - c.weightdecay * (rnetLearner N L).params s1 i, (rnetLearner N L).derivs s1, ?_, a1, a2, ?_, ?_⟩
  · unfold rpropTrain
    rw [h1]
    simp only [zero_add]
    rfl
  · rw [h3]; rfl
  · intro hS
    rw [hg]
    exact isGrad_sum (h5.imp fun seq g hq => backGrad_descends h s.1 seq g hq) hS

/-- The steepest descent in these theorems is unique, so that the result of a batch or Rprop epoch does not depend on the order of the sequences. -/
theorem C82_descent_unique {E : (Fin n → ℝ) → ℝ} {w g g' : Fin n → ℝ} (h : IsGrad E w (fun i => - g i)) (h' : IsGrad E w (fun i => - g' i)) : g = g' := by
  have := isGrad_unique h h'
  funext i
  have := congrFun this i
  linarith

/-- **C82, testing.** On a dataset of sequences that are not empty, with positive total weight, `testOnData()` raises nothing, changes neither parameters nor derivatives,
and returns the summed error (half of the weighted squared error) divided by the total weight. -/
theorem C82_test (N : RNet V P ℝ) (L : Layout P n) (Ps : Finset P) (pd : P → Nat) (h : Trainable N L Ps pd)
    (seqs : List (List (Sample ℝ))) (hne : ∀ seq ∈ seqs, seq ≠ []) (hp : 0 < (seqs.map (seqWeight (outdim N.toNet))).sum)
    (s : (Fin n → ℝ) × RState V P ℝ) (hs : Shape s.2) :
    ∃ s', testOnData (rnetLearner N L) (outdim N.toNet) seqs s =
        some (s', (seqs.map (netError N L s.1)).sum / (seqs.map (seqWeight (outdim N.toNet))).sum) ∧
      Shape s'.2 ∧ s'.1 = s.1 ∧ ∀ i, (rnetLearner N L).derivs s' i = (rnetLearner N L).derivs s i := by
  obtain ⟨s1, h1, h2, h3, h4⟩ := testLoop_lawful (rnetLawful h) (outdim N.toNet) seqs hne s hs 0 0
  refine ⟨s1, ?_, h2, h3, fun i => congrFun h4 i⟩
  unfold testOnData
  rw [h1]
  simp only [zero_add]
  rw [if_pos hp]
  rfl

/-- **C82 fails for weight decay in batch mode**: `BackpropTrainer(..., batchlearning=True, weightdecay=d)` trains exactly as with no decay, for every module, dataset and state. -/
theorem C82_negation_batch_weightdecay {S K : Type} [Field K] {n : Nat} (M : Learner S K n) (outdim : Nat) (c : Options K)
    (hc : c.batchlearning = true) (seqs : List (List (Sample K))) (s : S) (d : Descent.Momentum K n) :
    train M outdim c seqs s d = train M outdim { c with weightdecay := 0 } seqs s d := by
  obtain ⟨b, wd, ds⟩ := c
  simp only at hc
  subst hc
  have key : ∀ acc, trainLoop M outdim ⟨true, wd, ds⟩ seqs acc = trainLoop M outdim ⟨true, 0, ds⟩ seqs acc := by
    induction seqs with
    | nil => intro acc; rfl
    | cons seq rest ih =>
      rintro ⟨s, d, e, p⟩
      simp only [trainLoop, if_true]
      cases calcDerivs M outdim seq s with
      | none => rfl
      | some r => exact ih _
  unfold train
  rw [key]

/-- **C82 fails for parameters changed between epochs**: the descender works on its own copy of the parameters, taken when the trainer was made. However the parameters `s.1` were
changed since (by `randomize()`, by another trainer, by loading a file), a batch epoch puts the network near the old copy `d.values`: with learning rate and momentum zero it
restores the copy exactly. -/
theorem C82_negation_changed_parameters (N : RNet V P ℝ) (L : Layout P n) (Ps : Finset P) (pd : P → Nat) (h : Trainable N L Ps pd) (c : Options ℝ)
    (hc : c.batchlearning = true) (seqs : List (List (Sample ℝ))) (hne : ∃ seq ∈ seqs, seq ≠ [])
    (s : (Fin n → ℝ) × RState V P ℝ) (hs : Shape s.2) (d : Descent.Momentum ℝ n) (hm : c.descent.momentum = 0) (ha : d.alpha = 0) :
    ∃ s' d' e, train (rnetLearner N L) (outdim N.toNet) c seqs s d = some (s', d', e) ∧ s'.1 = d.values := by
  obtain ⟨s', d', g, h1, -, h3, ⟨h4, h5, -⟩, -⟩ := C82_batch N L Ps pd h c hc seqs hne s hs d
  refine ⟨s', d', _, h1, ?_⟩
  rw [h3]
  funext i
  rw [h5, h4, hm, ha]; ring

end

/-- a module without parameters that always outputs zero -/
def zeroLearner : Learner Unit ℚ 0 where
  params _ := Fin.elim0
  setParams s _ := s
  derivs _ := Fin.elim0
  resetDerivatives s := s
  reset s := s
  activate s _ := some s
  output _ _ := fun _ => 0
  backActivate s _ := some s

/-- **C82 fails for the name of the measure**: what `testOnData()` (documented as the MSE) returns is half the mean squared error: with every output off by one it is 1/2. -/
theorem C82_negation_mse : testOnData zeroLearner 1 [[⟨fun _ => 0, fun _ => 1, none⟩], [⟨fun _ => 0, fun _ => 1, none⟩]] () = some ((), 1 / 2) := by
  simp [testOnData, testLoop, evaluateSequence, zeroLearner, sampleError, sampleWeight]
  norm_num

/-- the numbers of parameters of the connections of the example network, and the order in which its flat vector lists them -/
def exampleSizes (p : Nat) : Nat := if p = 1 then 6 else if p = 2 then 3 else if p = 3 then 3 else if p = 4 then 9 else 0
def exampleStart (p : Nat) : Nat := if p = 1 then 0 else if p = 2 then 6 else if p = 3 then 9 else 12
def exampleLayout : Layout Nat 21 where
  index p k := if h : k < exampleSizes p ∧ exampleStart p + k < 21 then some ⟨exampleStart p + k, h.2⟩ else none
  place i := if i.1 < 6 then (1, i.1) else if i.1 < 9 then (2, i.1 - 6) else if i.1 < 12 then (3, i.1 - 9) else (4, i.1 - 12)

/-- The hypotheses are met by the example network with a recurrent hidden layer, which is differentiable at all parameters and inputs. -/
theorem exampleRNet_trainable : Trainable exampleRNet exampleLayout {0, 1, 2, 3, 4} exampleSizes := by
  refine ⟨⟨exampleNet_wf, ?_, ?_, ?_⟩, ⟨by decide, ?_⟩, ?_, ?_, ?_, ?_⟩
  · simp [exampleRNet, exampleNet, fullConnection]
  · simp [exampleRNet, exampleNet, fullConnection, tanhLayer]
  · simp [exampleRNet, exampleNet, fullConnection, tanhLayer]
  · have : ∀ p ∈ ({0, 1, 2, 3, 4} : Finset Nat), ∀ k ∈ Finset.range (exampleSizes p), ∃ i, exampleLayout.index p k = some i ∧ exampleLayout.place i = (p, k) := by
      decide +kernel
    exact fun p hp k hk => this p hp k (Finset.mem_range.2 hk)
  · simp [exampleRNet, exampleNet, linearLayer, biasUnit, tanhLayer]
  · simp [exampleRNet, exampleNet, fullConnection]
  · simp [exampleRNet, fullConnection]
  · intro a ha p x
    simp only [exampleRNet, List.mem_singleton] at ha
    subst ha
    constructor <;> (funext i; simp [fullConnection])

example (θ : Nat → Vec ℝ) (xs : List (Vec ℝ)) : Smooth exampleRNet exampleSizes θ xs := by
  intro inb outb _
  refine ⟨?_, ?_, ?_⟩
  · intro t _ m hm
    simp only [exampleRNet, exampleNet, List.mem_cons, List.not_mem_nil, or_false] at hm
    rcases hm with rfl | rfl | rfl | rfl
    · exact (GoodMod.linear 0 2 _).diff _ _
    · exact (GoodMod.bias 0 _).diff _ _
    · exact (GoodMod.tanh 0 3 _).diff _ _
    · exact (GoodMod.linear 0 1 _).diff _ _
  · intro t _ m hm c hc
    have hg : GoodConn exampleSizes c := by
      simp only [exampleRNet, exampleNet, List.mem_cons, List.not_mem_nil, or_false] at hm
      rcases hm with rfl | rfl | rfl | rfl <;> simp only [exampleRNet, exampleNet, List.mem_singleton, List.not_mem_nil] at hc
      · subst hc; exact GoodConn.full _ _ _ _ _ _ (by simp [exampleSizes])
      · subst hc; exact GoodConn.full _ _ _ _ _ _ (by simp [exampleSizes])
      · subst hc; exact GoodConn.full _ _ _ _ _ _ (by simp [exampleSizes])
    exact hg.diff _ _
  · intro t _ a ha
    simp only [exampleRNet, List.mem_singleton] at ha
    subst ha
    exact (GoodConn.full _ _ _ _ _ _ (by simp [exampleSizes]) : GoodConn exampleSizes (fullConnection 2 4 0 3 0 3)).diff _ _

end Verif.Props
