import Verif.Spec.Trainer
import Verif.Lemmas.Bptt
import Verif.Props.Recurrent
/-
Lemmas for C82 (training epochs).
-/
namespace Verif.Train
open Verif.Net (Vec RNet RState)
open Verif.Train.Spec
open Finset

section
variable {S K : Type} [Field K] {n : Nat}
variable {M : Learner S K n} {F : (Fin n → K) → List (Vec K) → List (Vec K)} {G : (Fin n → K) → List (Vec K) → List (Vec K) → (Fin n → K) → Prop}

theorem sampleError_eq (outdim : Nat) (x : Sample K) (e : Vec K) : sampleError outdim x e = 1 / 2 * ∑ j ∈ range outdim, weight x j * e j ^ 2 := by
  unfold sampleError weight
  cases x.importance <;> simp

theorem sampleWeight_eq (outdim : Nat) (x : Sample K) : sampleWeight outdim x = ∑ j ∈ range outdim, weight x j := by
  unfold sampleWeight weight
  cases x.importance <;> simp

theorem sampleSignal_eq (x : Sample K) (e : Vec K) : sampleSignal x e = fun j => e j * weight x j := by
  unfold sampleSignal weight
  cases x.importance <;> simp

theorem enumerate_length {α : Type} (l : List α) : (enumerate l).length = l.length := by simp [enumerate]

theorem enumerate_take_succ {α : Type} (l : List α) (t : Nat) (h : t < l.length) :
    ((enumerate l).take (t + 1)).reverse = (t, l[t]) :: ((enumerate l).take t).reverse := by
  rw [List.take_succ_eq_append_getElem (by rw [enumerate_length]; exact h), List.reverse_append]
  simp [enumerate]

theorem activateAll_lawful (hL : Lawful M F G) (θ : Fin n → K) (xs ys : List (Vec K)) (d : Fin n → K) (t : Nat) (s : S)
    (h : hL.Fwd θ xs d t s) (hy : ys = xs.drop t) (ht : t ≤ xs.length) : ∃ s', activateAll M ys s = some s' ∧ hL.Fwd θ xs d xs.length s' := by
  induction ys generalizing t s with
  | nil =>
    have : t = xs.length := by
      have := congrArg List.length hy
      simp at this; omega
    subst this
    exact ⟨s, rfl, h⟩
  | cons y ys ih =>
    have hlt : t < xs.length := by
      have := congrArg List.length hy
      simp at this; omega
    rw [List.drop_eq_getElem_cons hlt, List.cons.injEq] at hy
    obtain ⟨s1, h1, h2⟩ := hL.advance θ xs d t s h hlt
    obtain ⟨s2, h3, h4⟩ := ih (t + 1) s1 h2 hy.2 hlt
    refine ⟨s2, ?_, h4⟩
    have e : xs.getD t (fun _ => 0) = y := by rw [hy.1]; simp [List.getD_eq_getElem?_getD, hlt]
    rw [e] at h1
    simp only [activateAll, h1, Option.bind_some, h3]

theorem signals_getD (seq : List (Sample K)) (ys : List (Vec K)) (t : Nat) (ht : t < seq.length) :
    (signals seq ys).getD t (fun _ => 0) = fun j => ((seq.getD t blank).target j - ys.getD t (fun _ => 0) j) * weight (seq.getD t blank) j := by
  unfold signals
  simp only [List.getD_eq_getElem?_getD, List.getElem?_map, List.getElem?_range ht, Option.map_some, Option.getD_some]

theorem backLoop_lawful (hL : Lawful M F G) (outdim : Nat) (seq : List (Sample K)) (θ d : Fin n → K) (t : Nat) (s : S) (e p : K)
    (ht : t ≤ seq.length) (h : hL.Back θ (inputs seq) (signals seq (F θ (inputs seq))) d t s) :
    ∃ s', backLoop M outdim ((enumerate seq).take t).reverse (s, e, p) = some (s',
      e + ∑ u ∈ range t, 1 / 2 * ∑ j ∈ range outdim, weight (seq.getD u blank) j *
        ((seq.getD u blank).target j - (F θ (inputs seq)).getD u (fun _ => 0) j) ^ 2,
      p + ∑ u ∈ range t, ∑ j ∈ range outdim, weight (seq.getD u blank) j) ∧
      hL.Back θ (inputs seq) (signals seq (F θ (inputs seq))) d 0 s' := by
  induction t generalizing s e p with
  | zero => exact ⟨s, by simp [backLoop], h⟩
  | succ t ih =>
    have hlt : t < seq.length := ht
    have hlx : t < (inputs seq).length := by simpa [inputs] using hlt
    have ho := hL.backOut _ _ _ _ _ _ h t hlx
    obtain ⟨s1, h1, h2⟩ := hL.retreat _ _ _ _ _ _ hlx h
    rw [signals_getD _ _ _ hlt] at h1
    have hx : seq.getD t blank = seq[t] := by simp [List.getD_eq_getElem?_getD, hlt]
    obtain ⟨s2, h3, h4⟩ := ih s1 (e + sampleError outdim seq[t] (fun j => seq[t].target j - M.output s t j)) (p + sampleWeight outdim seq[t]) (by omega) h2
    refine ⟨s2, ?_, h4⟩
    rw [enumerate_take_succ _ _ hlt]
    simp only [backLoop]
    have e1 : sampleSignal seq[t] (fun j => seq[t].target j - M.output s t j) =
        fun j => ((seq.getD t blank).target j - (F θ (inputs seq)).getD t (fun _ => 0) j) * weight (seq.getD t blank) j := by
      rw [sampleSignal_eq, ho, hx]
    rw [e1, h1]
    simp only
    rw [h3, sampleError_eq, sampleWeight_eq, ho, ← hx, Finset.sum_range_succ, Finset.sum_range_succ]
    congr 3
    · ring
    · ring

/-- `_calcDerivs` on a lawful module -/
theorem calcDerivs_lawful (hL : Lawful M F G) (outdim : Nat) (seq : List (Sample K)) (s : S) (hs : hL.ok s) :
    ∃ s' g, calcDerivs M outdim seq s = some (s', seqError outdim seq (F (M.params s) (inputs seq)), seqWeight outdim seq) ∧
      hL.ok s' ∧ M.params s' = M.params s ∧ (∀ i, M.derivs s' i = M.derivs s i + g i) ∧
      G (M.params s) (inputs seq) (signals seq (F (M.params s) (inputs seq))) g := by
  obtain ⟨s1, h1, h2⟩ := activateAll_lawful hL (M.params s) (inputs seq) (inputs seq) (M.derivs s) 0 (M.reset s) (hL.start s _ hs) (by simp) (Nat.zero_le _)
  have hb := hL.turn _ _ (signals seq (F (M.params s) (inputs seq))) _ _ (by simp [signals, inputs]) h2
  rw [show (inputs seq).length = seq.length by simp [inputs]] at hb
  obtain ⟨s2, h3, h4⟩ := backLoop_lawful hL outdim seq (M.params s) (M.derivs s) seq.length s1 0 0 (Nat.le_refl _) hb
  obtain ⟨h5, h6, g, h7, h8⟩ := hL.backEnd _ _ _ _ _ h4
  refine ⟨s2, g, ?_, h5, h6, h7, h8⟩
  unfold calcDerivs
  rw [show seq.map Sample.input = inputs seq from rfl, h1]
  simp only
  rw [List.take_of_length_le (by rw [enumerate_length])] at h3
  rw [h3]
  simp [seqError, seqWeight]

theorem step_call (c : Options K) (d : Descent.Momentum K n) (g : Fin n → K) : Step c g d (d.call c.descent g) :=
  ⟨fun i => by simp only [Descent.Momentum.call]; ring, fun _ => rfl, rfl⟩

theorem trainLoop_online (hL : Lawful M F G) (outdim : Nat) (c : Options K) (hc : c.batchlearning = false) (seqs : List (List (Sample K)))
    (s : S) (hs : hL.ok s) (d : Descent.Momentum K n) (hd : M.params s = d.values) (hz : M.derivs s = fun _ => 0) (e p : K) :
    ∃ s' d' e', trainLoop M outdim c seqs (s, d, e, p) = some (s', d', e + e', p + (seqs.map (seqWeight outdim)).sum) ∧
      hL.ok s' ∧ M.params s' = d'.values ∧ M.derivs s' = (fun _ => 0) ∧
      Online (fun θ seq => seqError outdim seq (F θ (inputs seq)))
        (fun θ seq g => G θ (inputs seq) (signals seq (F θ (inputs seq))) g) c seqs d d' e' := by
  induction seqs generalizing s d e p with
  | nil => exact ⟨s, d, 0, by simp [trainLoop], hs, hd, hz, .nil d⟩
  | cons seq rest ih =>
    obtain ⟨s1, g, h1, h2, h3, h4, h5⟩ := calcDerivs_lawful hL outdim seq s hs
    have hg : (fun i => M.derivs s1 i - c.weightdecay * M.params s1 i) = fun i => g i - c.weightdecay * d.values i := by
      funext i; rw [h4, hz, h3, hd]; simp
    obtain ⟨a1, a2, -⟩ := hL.set s1 (d.call c.descent fun i => g i - c.weightdecay * d.values i).values h2
    obtain ⟨b1, b2, b3⟩ := hL.clear _ a1
    obtain ⟨s2, d2, e2, c1, c2, c3, c4, c5⟩ := ih _ b1 (d.call c.descent fun i => g i - c.weightdecay * d.values i) (b2.trans a2) b3
      (e + seqError outdim seq (F (M.params s) (inputs seq))) (p + seqWeight outdim seq)
    refine ⟨s2, d2, seqError outdim seq (F d.values (inputs seq)) + e2, ?_, c2, c3, c4, ?_⟩
    · simp only [trainLoop, h1, hc, Bool.false_eq_true, if_false]
      rw [hg, c1, hd, List.map_cons, List.sum_cons, add_assoc, add_assoc]
    · exact .cons seq rest d _ d2 g e2 (by rw [← hd]; exact h5) (step_call c d _) c5

theorem trainLoop_batch (hL : Lawful M F G) (outdim : Nat) (c : Options K) (hc : c.batchlearning = true) (seqs : List (List (Sample K)))
    (s : S) (hs : hL.ok s) (d : Descent.Momentum K n) (e p : K) :
    ∃ s' gs, trainLoop M outdim c seqs (s, d, e, p) = some (s', d,
        e + (seqs.map fun seq => seqError outdim seq (F (M.params s) (inputs seq))).sum, p + (seqs.map (seqWeight outdim)).sum) ∧
      hL.ok s' ∧ M.params s' = M.params s ∧ (∀ i, M.derivs s' i = M.derivs s i + (gs.map fun g => g i).sum) ∧
      List.Forall₂ (fun seq g => G (M.params s) (inputs seq) (signals seq (F (M.params s) (inputs seq))) g) seqs gs := by
  induction seqs generalizing s e p with
  | nil => exact ⟨s, [], by simp [trainLoop], hs, rfl, by simp, .nil⟩
  | cons seq rest ih =>
    obtain ⟨s1, g, h1, h2, h3, h4, h5⟩ := calcDerivs_lawful hL outdim seq s hs
    obtain ⟨s2, gs, c1, c2, c3, c4, c5⟩ := ih s1 h2 (e + seqError outdim seq (F (M.params s) (inputs seq))) (p + seqWeight outdim seq)
    rw [h3] at c1 c3 c5
    refine ⟨s2, g :: gs, ?_, c2, c3, ?_, .cons h5 c5⟩
    · simp only [trainLoop, h1, hc, if_true]
      rw [c1, List.map_cons, List.map_cons, List.sum_cons, List.sum_cons, add_assoc, add_assoc]
    · intro i
      rw [c4, h4, List.map_cons, List.sum_cons, add_assoc]

theorem rpropLoop_lawful (hL : Lawful M F G) (outdim : Nat) (seqs : List (List (Sample K))) (s : S) (hs : hL.ok s) (e p : K) :
    ∃ s' gs, rpropLoop M outdim seqs (s, e, p) = some (s',
        e + (seqs.map fun seq => seqError outdim seq (F (M.params s) (inputs seq))).sum, p + (seqs.map (seqWeight outdim)).sum) ∧
      hL.ok s' ∧ M.params s' = M.params s ∧ (∀ i, M.derivs s' i = M.derivs s i + (gs.map fun g => g i).sum) ∧
      List.Forall₂ (fun seq g => G (M.params s) (inputs seq) (signals seq (F (M.params s) (inputs seq))) g) seqs gs := by
  induction seqs generalizing s e p with
  | nil => exact ⟨s, [], by simp [rpropLoop], hs, rfl, by simp, .nil⟩
  | cons seq rest ih =>
    obtain ⟨s1, g, h1, h2, h3, h4, h5⟩ := calcDerivs_lawful hL outdim seq s hs
    obtain ⟨s2, gs, c1, c2, c3, c4, c5⟩ := ih s1 h2 (e + seqError outdim seq (F (M.params s) (inputs seq))) (p + seqWeight outdim seq)
    rw [h3] at c1 c3 c5
    refine ⟨s2, g :: gs, ?_, c2, c3, ?_, .cons h5 c5⟩
    · simp only [rpropLoop, h1]
      rw [c1, List.map_cons, List.map_cons, List.sum_cons, List.sum_cons, add_assoc, add_assoc]
    · intro i
      rw [c4, h4, List.map_cons, List.sum_cons, add_assoc]

theorem evaluateSequence_lawful (hL : Lawful M F G) (outdim : Nat) (seq ys : List (Sample K)) (θ d : Fin n → K) (t : Nat) (s : S) (e p : K)
    (ht : t ≤ seq.length) (hy : ys = seq.drop t) (h : hL.Fwd θ (inputs seq) d t s) :
    ∃ s', evaluateSequence M outdim t ys (s, e, p) = some (s',
      e + ∑ u ∈ Ico t seq.length, 1 / 2 * ∑ j ∈ range outdim, weight (seq.getD u blank) j *
        ((seq.getD u blank).target j - (F θ (inputs seq)).getD u (fun _ => 0) j) ^ 2,
      p + ∑ u ∈ Ico t seq.length, ∑ j ∈ range outdim, weight (seq.getD u blank) j) ∧
      hL.Fwd θ (inputs seq) d seq.length s' := by
  induction ys generalizing t s e p with
  | nil =>
    have : t = seq.length := by
      have := congrArg List.length hy
      simp at this; omega
    subst this
    exact ⟨s, by simp [evaluateSequence], h⟩
  | cons y ys ih =>
    have hlt : t < seq.length := by
      have := congrArg List.length hy
      simp at this; omega
    have hlx : t < (inputs seq).length := by simpa [inputs] using hlt
    rw [List.drop_eq_getElem_cons hlt, List.cons.injEq] at hy
    obtain ⟨s1, h1, h2⟩ := hL.advance _ _ _ _ _ h hlx
    have ho := hL.fwdOut _ _ _ _ _ h2 hlx t (by omega)
    have hx : seq.getD t blank = y := by rw [hy.1]; simp [List.getD_eq_getElem?_getD, hlt]
    have hi : (inputs seq).getD t (fun _ => 0) = y.input := by
      rw [hy.1]; simp [inputs, List.getD_eq_getElem?_getD, hlt]
    rw [hi] at h1
    obtain ⟨s2, h3, h4⟩ := ih (t + 1) s1 (e + sampleError outdim y (fun j => y.target j - M.output s1 t j)) (p + sampleWeight outdim y) hlt hy.2 h2
    refine ⟨s2, ?_, h4⟩
    simp only [evaluateSequence, h1]
    rw [h3, sampleError_eq, sampleWeight_eq, ho, Finset.sum_eq_sum_Ico_succ_bot hlt, Finset.sum_eq_sum_Ico_succ_bot hlt, hx, add_assoc, add_assoc]

theorem testLoop_lawful (hL : Lawful M F G) (outdim : Nat) (seqs : List (List (Sample K))) (hne : ∀ seq ∈ seqs, seq ≠ []) (s : S) (hs : hL.ok s) (e p : K) :
    ∃ s', testLoop M outdim seqs (s, e, p) = some (s',
        e + (seqs.map fun seq => seqError outdim seq (F (M.params s) (inputs seq))).sum, p + (seqs.map (seqWeight outdim)).sum) ∧
      hL.ok s' ∧ M.params s' = M.params s ∧ M.derivs s' = M.derivs s := by
  induction seqs generalizing s e p with
  | nil => exact ⟨s, by simp [testLoop], hs, rfl, rfl⟩
  | cons seq rest ih =>
    obtain ⟨s1, h1, h2⟩ := evaluateSequence_lawful hL outdim seq seq (M.params s) (M.derivs s) 0 (M.reset s) 0 0 (Nat.zero_le _) (by simp) (hL.start s _ hs)
    rw [show seq.length = (inputs seq).length by simp [inputs]] at h2
    obtain ⟨h3, h4, h5⟩ := hL.fwdEnd _ _ _ _ h2
    obtain ⟨s2, c1, c2, c3, c4⟩ := ih (fun q hq => hne q (List.mem_cons_of_mem _ hq)) s1 h3
      (e + seqError outdim seq (F (M.params s) (inputs seq))) (p + seqWeight outdim seq)
    rw [h4] at c1 c3
    rw [h5] at c4
    refine ⟨s2, ?_, c2, c3, c4⟩
    have hse : seq.isEmpty = false := by simpa using hne seq List.mem_cons_self
    simp only [testLoop, h1, hse, Bool.false_eq_true, if_false]
    rw [add_assoc, add_assoc] at c1
    rw [List.map_cons, List.map_cons, List.sum_cons, List.sum_cons]
    refine Eq.trans ?_ c1
    simp [seqError, seqWeight]

end
/-! ### Recurrent networks -/

section
variable {V P : Type} [DecidableEq V] [DecidableEq P] {n : Nat}
open Verif.Net Verif.Net.Spec

theorem outputsOf_spec (N : RNet V P ℝ) (hN : RWF N) (θ : P → Vec ℝ) (xs : List (Vec ℝ)) : IsOutputs N θ xs (outputsOf N θ xs) := by
  have h : ∃ ys, IsOutputs N θ xs ys := by
    obtain ⟨s', ys, h1, -, -, -⟩ := ractivateAll_inv hN.base (xs.map fun x => (0, x))
      (rreset_inv N θ xs ⟨[zrow], [zrow], [zrow], [zrow], fun _ _ => 0, 0, 0⟩ (by simp [Shape])) (by simp [Function.comp_def]) (Nat.zero_le _)
    refine ⟨ys, ?_⟩
    have := (Verif.Props.C16_recurrent_activation N hN θ _ (by simp [Shape]) (xs.map fun x => (0, x)) ys).2 ⟨s', h1⟩
    simpa [Function.comp_def] using this
  unfold outputsOf
  rw [dif_pos h]
  exact h.choose_spec

theorem outputsOf_eq (N : RNet V P ℝ) (hN : RWF N) (θ : P → Vec ℝ) (xs ys : List (Vec ℝ)) (h : IsOutputs N θ xs ys) : outputsOf N θ xs = ys :=
  Verif.Props.isOutputs_unique N hN θ xs _ _ (outputsOf_spec N hN θ xs) h

/-- outputs of rows that satisfy the equations of every time step -/
theorem outputsOf_rows (N : RNet V P ℝ) (hN : RWF N) (θ : P → Vec ℝ) (xs : List (Vec ℝ)) (I O : Nat → V → Vec ℝ) (d0 : P → Vec ℝ)
    (h : ∀ u < xs.length, FInv N.toNet θ (extStep N θ (xs.getD u fun _ => 0) u (O (u - 1))) N.sorted ⟨I u, O u, zrow, zrow, d0⟩)
    (u : Nat) (hu : u < xs.length) : (outputsOf N θ xs).getD u (fun _ => 0) = concat (fun m => (N.mod m).outdim) N.outmods (O u) := by
  rw [outputsOf_eq N hN θ xs _ ⟨_, _, rows_solve N hN θ xs I O d0 h, rfl⟩]
  simp only [List.getD_eq_getElem?_getD, List.getElem?_map, List.getElem?_range hu, Option.map_some, Option.getD_some]

theorem readOut_concat (N : Net V P ℝ) (rows : V → Vec ℝ) : readOut N rows 0 N.outmods (fun _ => 0) = concat (fun m => (N.mod m).outdim) N.outmods rows := by
  rw [readOut_spec _ _ _ _ _ (fun _ _ => rfl)]
  funext j
  simp

theorem decode_deriv (L : Layout P n) (γ : ℝ → Fin n → ℝ) (γ' : Fin n → ℝ) (t0 : ℝ) (h : ∀ i, HasDerivAt (fun τ => γ τ i) (γ' i) t0) (p : P) (k : Nat) :
    HasDerivAt (fun τ => L.decode (γ τ) p k) (L.decode γ' p k) t0 := by
  unfold Layout.decode
  cases L.index p k with
  | none => exact hasDerivAt_const _ _
  | some i => exact h i

theorem layout_sum {L : Layout P n} {Ps : Finset P} {pd : P → Nat} (hL : GoodLayout L Ps pd) (f : P → Nat → ℝ) (w : Fin n → ℝ) :
    ∑ p ∈ Ps, ∑ k ∈ range (pd p), f p k * L.decode w p k = ∑ i, f (L.place i).1 (L.place i).2 * w i := by
  rw [Finset.sum_sigma']
  symm
  refine Finset.sum_bij (fun i _ => ⟨(L.place i).1, (L.place i).2⟩) ?_ ?_ ?_ ?_
  · intro i _
    obtain ⟨h1, h2, -⟩ := hL.place i
    simpa using ⟨h1, h2⟩
  · intro i _ j _ hij
    simp only [Sigma.mk.injEq, heq_eq_eq] at hij
    have h1 := (hL.place i).2.2
    have h2 := (hL.place j).2.2
    rw [hij.1, hij.2, h2] at h1
    exact (Option.some.inj h1).symm
  · rintro ⟨p, k⟩ h
    simp only [mem_sigma, mem_range] at h
    obtain ⟨i, -, h2⟩ := hL.index p h.1 k h.2
    exact ⟨i, mem_univ _, by rw [h2]⟩
  · intro i _
    simp only [Layout.decode, (hL.place i).2.2]

/-- what back-propagation adds to the derivatives: the gradient of the sum of ⟨errors, outputs⟩ -/
def BackGrad (N : RNet V P ℝ) (L : Layout P n) (pd : P → Nat) (w : Fin n → ℝ) (xs es : List (Vec ℝ)) (g : Fin n → ℝ) : Prop :=
  Smooth N pd (L.decode w) xs → IsGrad (fun w => ∑ t ∈ range xs.length, ∑ j ∈ range (outdim N.toNet),
    es.getD t (fun _ => 0) j * (outputsOf N (L.decode w) xs).getD t (fun _ => 0) j) w g

/-- what the theorems below assume of a network -/
structure Trainable (N : RNet V P ℝ) (L : Layout P n) (Ps : Finset P) (pd : P → Nat) : Prop where
  wf : RWF N
  layout : GoodLayout L Ps pd
  modParams : ∀ m ∈ N.sorted, (N.mod m).pc ∈ Ps
  connParams : ∀ m ∈ N.sorted, ∀ c ∈ N.conns m, c.pc ∈ Ps
  recParams : ∀ a ∈ N.recs, a.2.pc ∈ Ps
  zeroBack : ∀ a ∈ N.recs, ∀ p x, a.2.bwdErr p (fun _ => 0) x = (fun _ => 0) ∧ a.2.bwdPar p (fun _ => 0) x = fun _ => 0

noncomputable def rnetLawful {N : RNet V P ℝ} {L : Layout P n} {Ps : Finset P} {pd : P → Nat} (h : Trainable N L Ps pd) :
    Lawful (rnetLearner N L) (fun w xs => outputsOf N (L.decode w) xs) (BackGrad N L pd) where
  ok s := Shape s.2
  Fwd w xs d t s := s.1 = w ∧ ∃ d0, (∀ i, d i = d0 (L.place i).1 (L.place i).2) ∧ RInv N (L.decode w) xs d0 t s.2
  Back w xs es d t s := s.1 = w ∧ ∃ d0 I O, (∀ i, d i = d0 (L.place i).1 (L.place i).2) ∧ es.length = xs.length ∧
    (∀ u < xs.length, FInv N.toNet (L.decode w) (extStep N (L.decode w) (xs.getD u fun _ => 0) u (O (u - 1))) N.sorted ⟨I u, O u, zrow, zrow, d0⟩) ∧
    BRInv N (L.decode w) es I O d0 xs.length t s.2
  set s w hs := ⟨hs, rfl, rfl⟩
  clear s hs := ⟨hs, rfl, rfl⟩
  start s xs hs := ⟨rfl, s.2.derivs, fun _ => rfl, rreset_inv N _ xs s.2 hs⟩
  advance := by
    rintro w xs d t s ⟨rfl, d0, hd, hR⟩ ht
    obtain ⟨s', y, h1, h2, -, -⟩ := ractivate_inv h.wf.base hR _ rfl
    refine ⟨(s.1, s'), ?_, rfl, d0, hd, h2⟩
    exact congrArg (Option.map fun r : RState V P ℝ × Vec ℝ => (s.1, r.1)) h1
  fwdOut := by
    rintro w xs d t s ⟨rfl, d0, hd, hR⟩ ht u hu
    obtain ⟨s', ys, h1, h2, h3, -⟩ := ractivateAll_inv h.wf.base ((xs.drop t).map fun x => (0, x)) hR (by simp [Function.comp_def]) ht
    rw [outputsOf_rows N h.wf (L.decode s.1) xs (fun u => s'.inb.getD u zrow) (fun u => s'.outb.getD u zrow) d0 h2.rows u (by omega), h3 u hu]
    exact readOut_concat _ _
  fwdEnd := by
    rintro w xs d s ⟨rfl, d0, hd, hR⟩
    refine ⟨hR.shape, rfl, ?_⟩
    funext i
    rw [hd]
    simp only [rnetLearner, hR.derivs]
  turn := by
    rintro w xs es d s hl ⟨rfl, d0, hd, hR⟩
    have := hR.back hl
    rw [hl] at this
    exact ⟨rfl, d0, fun u => s.2.inb.getD u zrow, fun u => s.2.outb.getD u zrow, hd, hl, hR.rows, this⟩
  retreat := by
    rintro w xs es d t s ht ⟨rfl, d0, I, O, hd, hl, hrows, hB⟩
    obtain ⟨s', g, h1, h2, -, -⟩ := rbackActivate_inv h.wf.base hB ht _ rfl
    refine ⟨(s.1, s'), ?_, rfl, d0, I, O, hd, hl, hrows, h2⟩
    exact congrArg (Option.map fun r : RState V P ℝ × Vec ℝ => (s.1, r.1)) h1
  backOut := by
    rintro w xs es d t s ⟨rfl, d0, I, O, hd, hl, hrows, hB⟩ u hu
    rw [outputsOf_rows N h.wf _ xs I O d0 hrows u hu, ← hB.outb u]
    exact readOut_concat _ _
  backEnd := by
    rintro w xs es d s ⟨rfl, d0, I, O, hd, hl, hrows, hB⟩
    refine ⟨hB.shape, rfl, fun i => s.2.derivs (L.place i).1 (L.place i).2 - d0 (L.place i).1 (L.place i).2, ?_, ?_⟩
    · intro i; rw [hd]; simp only [rnetLearner]; ring
    · intro hS γ t0 γ' h0 hγ
      obtain ⟨hM, hC, hR⟩ := hS _ _ (rows_solve N h.wf _ xs I O d0 hrows)
      have hxs : (List.range xs.length).map (fun t => xs.getD t fun _ => 0) = xs := by
        apply List.ext_getElem
        · simp
        · intro i h1 h2; simp [List.getD_eq_getElem?_getD, h2]
      have := bptt_core N h.wf Ps pd h.modParams h.connParams h.recParams h.zeroBack (L.decode s.1) xs es I O d0 s.2 hrows hB hM hC hR
        (fun τ => L.decode (γ τ)) (fun _ t => xs.getD t fun _ => 0) t0 (L.decode γ') (fun _ _ => 0) (fun τ => outputsOf N (L.decode (γ τ)) xs)
        (by simp only [h0]) (fun _ _ => rfl) (decode_deriv L γ γ' t0 hγ) (fun _ _ => hasDerivAt_const _ _)
        (by intro τ; simp only [hxs]; exact outputsOf_spec N h.wf _ xs)
      refine this.congr_deriv ?_
      rw [layout_sum h.layout (fun p k => s.2.derivs p k - d0 p k) γ']
      simp

theorem isGrad_unique {E : (Fin n → ℝ) → ℝ} {w g g' : Fin n → ℝ} (h : IsGrad E w g) (h' : IsGrad E w g') : g = g' := by
  funext i
  have hc : ∀ j, HasDerivAt (fun τ : ℝ => w j + τ * (if j = i then 1 else 0)) (if j = i then 1 else 0) 0 := by
    intro j
    have := ((hasDerivAt_id (0 : ℝ)).mul_const (if j = i then (1 : ℝ) else 0)).const_add (w j)
    simpa using this
  have e := (h (fun τ j => w j + τ * (if j = i then 1 else 0)) 0 _ (by funext j; simp) hc).unique
    (h' (fun τ j => w j + τ * (if j = i then 1 else 0)) 0 _ (by funext j; simp) hc)
  simpa using e

/-- Each back-propagated gradient exists; with unit errors this says that the outputs are differentiable. -/
theorem exists_backGrad {N : RNet V P ℝ} {L : Layout P n} {Ps : Finset P} {pd : P → Nat} (h : Trainable N L Ps pd) (w : Fin n → ℝ)
    (xs es : List (Vec ℝ)) (hl : es.length = xs.length) : ∃ g, BackGrad N L pd w xs es g := by
  have key : ∀ t ≤ xs.length, ∀ s, (rnetLawful h).Back w xs es (fun _ => 0) t s → ∃ s', (rnetLawful h).Back w xs es (fun _ => 0) 0 s' := by
    intro t
    induction t with
    | zero => intro _ s hs; exact ⟨s, hs⟩
    | succ t ih =>
      intro ht s hs
      obtain ⟨s', -, h2⟩ := (rnetLawful h).retreat _ _ _ _ _ _ ht hs
      exact ih (by omega) s' h2
  let s0 : (Fin n → ℝ) × RState V P ℝ := (w, ⟨[zrow], [zrow], [zrow], [zrow], fun _ _ => 0, 0, 0⟩)
  have hs0 : (rnetLawful h).Fwd w xs (fun _ => 0) 0 ((rnetLearner N L).reset s0) := (rnetLawful h).start s0 xs (by simp [rnetLawful, s0, Shape])
  obtain ⟨s1, -, h1⟩ := activateAll_lawful (rnetLawful h) w xs xs _ 0 _ hs0 (by simp) (Nat.zero_le _)
  obtain ⟨s2, h2⟩ := key _ (Nat.le_refl _) s1 ((rnetLawful h).turn _ _ es _ _ hl h1)
  obtain ⟨-, -, g, -, h3⟩ := (rnetLawful h).backEnd _ _ _ _ _ h2
  exact ⟨g, h3⟩

theorem output_differentiable {N : RNet V P ℝ} {L : Layout P n} {Ps : Finset P} {pd : P → Nat} (h : Trainable N L Ps pd) (w : Fin n → ℝ)
    (xs : List (Vec ℝ)) (hS : Smooth N pd (L.decode w) xs) (t j : Nat) (ht : t < xs.length) (hj : j < outdim N.toNet) :
    ∃ g, IsGrad (fun w => (outputsOf N (L.decode w) xs).getD t (fun _ => 0) j) w g := by
  obtain ⟨g, hg⟩ := exists_backGrad h w xs ((List.range xs.length).map fun u i => if u = t ∧ i = j then 1 else 0) (by simp)
  refine ⟨g, ?_⟩
  intro γ t0 γ' h0 hγ
  have := hg hS γ t0 γ' h0 hγ
  refine this.congr_of_eventuallyEq (Filter.Eventually.of_forall fun τ => ?_)
  simp only
  rw [Finset.sum_eq_single t, Finset.sum_eq_single j]
  · simp [List.getD_eq_getElem?_getD, ht]
  · intro i _ hi
    simp [List.getD_eq_getElem?_getD, ht, hi]
  · intro hn; exact absurd (mem_range.2 hj) hn
  · intro u hu hut
    apply Finset.sum_eq_zero
    intro i _
    rw [mem_range] at hu
    simp [List.getD_eq_getElem?_getD, hu, hut]
  · intro hn; exact absurd (mem_range.2 ht) hn

/-- Back-propagating the weighted errors yields the direction of steepest descent of the error. -/
theorem backGrad_descends {N : RNet V P ℝ} {L : Layout P n} {Ps : Finset P} {pd : P → Nat} (h : Trainable N L Ps pd) (w : Fin n → ℝ)
    (seq : List (Sample ℝ)) (g : Fin n → ℝ)
    (hg : BackGrad N L pd w (inputs seq) (signals seq (outputsOf N (L.decode w) (inputs seq))) g) : Descends N L pd w seq g := by
  intro hS γ t0 γ' h0 hγ
  have hlen : (inputs seq).length = seq.length := by simp [inputs]
  have hy : ∀ t, ∃ y' : Nat → ℝ, ∀ j, t < seq.length → j < outdim N.toNet →
      HasDerivAt (fun τ => (outputsOf N (L.decode (γ τ)) (inputs seq)).getD t (fun _ => 0) j) (y' j) t0 := by
    intro t
    have : ∀ j, ∃ y' : ℝ, t < seq.length → j < outdim N.toNet →
      HasDerivAt (fun τ => (outputsOf N (L.decode (γ τ)) (inputs seq)).getD t (fun _ => 0) j) y' t0 := by
      intro j
      by_cases hc : t < seq.length ∧ j < outdim N.toNet
      · obtain ⟨q, hq⟩ := output_differentiable h w (inputs seq) hS t j (by rw [hlen]; exact hc.1) hc.2
        exact ⟨_, fun _ _ => hq γ t0 γ' h0 hγ⟩
      · exact ⟨0, fun a b => absurd ⟨a, b⟩ hc⟩
    choose y' hy' using this
    exact ⟨y', hy'⟩
  choose y' hy' using hy
  -- the derivative of the sum of ⟨errors, outputs⟩, in two ways
  have d1 := hg hS γ t0 γ' h0 hγ
  have d2 : HasDerivAt (fun τ => ∑ t ∈ range (inputs seq).length, ∑ j ∈ range (outdim N.toNet),
      (signals seq (outputsOf N (L.decode w) (inputs seq))).getD t (fun _ => 0) j *
        (outputsOf N (L.decode (γ τ)) (inputs seq)).getD t (fun _ => 0) j)
      (∑ t ∈ range (inputs seq).length, ∑ j ∈ range (outdim N.toNet),
        (signals seq (outputsOf N (L.decode w) (inputs seq))).getD t (fun _ => 0) j * y' t j) t0 := by
    refine HasDerivAt.fun_sum fun t ht => HasDerivAt.fun_sum fun j hj => ?_
    rw [mem_range] at ht hj
    exact (hy' t j (by rwa [hlen] at ht) hj).const_mul _
  have e := d1.unique d2
  have d3 : HasDerivAt (fun τ => netError N L (γ τ) seq)
      (∑ t ∈ range seq.length, 1 / 2 * ∑ j ∈ range (outdim N.toNet), weight (seq.getD t blank) j *
        (2 * ((seq.getD t blank).target j - (outputsOf N (L.decode w) (inputs seq)).getD t (fun _ => 0) j) * (- y' t j))) t0 := by
    unfold netError seqError
    refine HasDerivAt.fun_sum fun t ht => HasDerivAt.const_mul _ (HasDerivAt.fun_sum fun j hj => HasDerivAt.const_mul _ ?_)
    rw [mem_range] at ht hj
    have := ((hy' t j ht hj).const_sub ((seq.getD t blank).target j)).fun_pow 2
    refine this.congr_deriv ?_
    rw [h0]
    simp
  refine d3.congr_deriv ?_
  have e2 : ∑ i, (-g i) * γ' i = - ∑ i, g i * γ' i := by
    rw [← Finset.sum_neg_distrib]; exact Finset.sum_congr rfl fun i _ => by ring
  rw [e2, e, hlen, ← Finset.sum_neg_distrib]
  apply Finset.sum_congr rfl
  intro t ht
  rw [mem_range] at ht
  rw [signals_getD _ _ _ ht, Finset.mul_sum, ← Finset.sum_neg_distrib]
  exact Finset.sum_congr rfl fun j _ => by ring

theorem Online.mono {K' : Type} [Field K'] {m : Nat} {E : (Fin m → K') → List (Sample K') → K'} {G1 G2 : (Fin m → K') → List (Sample K') → (Fin m → K') → Prop}
    (himp : ∀ w seq g, G1 w seq g → G2 w seq g) {c : Options K'} {seqs : List (List (Sample K'))} {d d' : Descent.Momentum K' m} {e : K'}
    (h : Online E G1 c seqs d d' e) : Online E G2 c seqs d d' e := by
  induction h with
  | nil d => exact .nil d
  | cons seq rest d d1 d2 g e hg hd _ ih => exact .cons seq rest d d1 d2 g e (himp _ _ _ hg) hd ih

omit [DecidableEq P] in
theorem isGrad_sum {N : RNet V P ℝ} {L : Layout P n} {pd : P → Nat} {w : Fin n → ℝ} {seqs : List (List (Sample ℝ))} {gs : List (Fin n → ℝ)}
    (h : List.Forall₂ (fun seq g => Descends N L pd w seq g) seqs gs) (hS : ∀ seq ∈ seqs, Smooth N pd (L.decode w) (inputs seq)) :
    IsGrad (fun w => (seqs.map (netError N L w)).sum) w (fun i => - (gs.map fun g => g i).sum) := by
  induction h with
  | nil =>
    intro γ t0 γ' h0 hγ
    simpa using hasDerivAt_const t0 (0 : ℝ)
  | @cons seq g seqs gs hg _ ih =>
    intro γ t0 γ' h0 hγ
    have a := hg (hS _ List.mem_cons_self) γ t0 γ' h0 hγ
    have b := ih (fun q hq => hS q (List.mem_cons_of_mem _ hq)) γ t0 γ' h0 hγ
    simp only [List.map_cons, List.sum_cons]
    refine (a.add b).congr_deriv ?_
    rw [← Finset.sum_add_distrib]
    exact Finset.sum_congr rfl fun i _ => by ring

end
end Verif.Train
