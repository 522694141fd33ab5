import Verif.Model.DataEval
import Verif.Props.Sequential
import Mathlib.Algebra.BigOperators.Ring.Finset
import Mathlib.Algebra.BigOperators.Ring.List
import Mathlib.Algebra.BigOperators.Group.List.Basic
import Mathlib.Algebra.Order.BigOperators.Group.Finset
import Mathlib.Algebra.Order.BigOperators.Group.List
import Mathlib.Tactic.Ring
import Mathlib.Tactic.FieldSimp
import Mathlib.Tactic.Linarith
import Mathlib.Tactic.Positivity
import Mathlib.Data.Rat.Init
import Mathlib.Algebra.Order.Ring.Rat
/-
C134: evaluation on data sets.
-/
namespace Verif.DataEval
open Verif.DataSet (Err)

variable {I S K : Type} {d : Nat} [Field K] [LinearOrder K] [IsStrictOrderedRing K]

/-! ### specification -/

/-- the sum of all weighted squared errors of predictions -/
def squaredError (w : Sample I K d → Fin d → K) (f : I → Fin d → K) (xs : List (Sample I K d)) : K :=
  (xs.map fun x => ∑ j, w x j * (x.target j - f x.inp j) ^ 2).sum

/-- the sum of all weights -/
def totalWeight (w : Sample I K d → Fin d → K) (xs : List (Sample I K d)) : K := (xs.map fun x => ∑ j, w x j).sum

/-- the mean squared error: each component of each sample counts once -/
def mse (f : I → Fin d → K) (xs : List (Sample I K d)) : K := squaredError (fun _ _ => 1) f xs / (xs.length * d : Nat)

/-- the predictions of a module for a sequence of inputs -/
def outputs (act : S → I → S × (Fin d → K)) : S → List I → List (Fin d → K)
  | _, [] => []
  | s, x :: xs => (act s x).2 :: outputs act (act s x).1 xs

/-- the error of the predictions in one sequence, read from the state `s` on -/
def seqError (act : S → I → S × (Fin d → K)) (s : S) (seq : List (Sample I K d)) : K :=
  ((seq.zip (outputs act s (seq.map (·.inp)))).map fun p => ∑ j, p.1.importance j * (p.1.target j - p.2 j) ^ 2).sum

/-! ### lemmas -/

omit [LinearOrder K] [IsStrictOrderedRing K] in
theorem evaluateSequence_fun (weighted : Bool) (f : I → Fin d → K) (xs : List (Sample I K d)) (s : S) :
    evaluateSequence weighted (fun s x => (s, f x)) xs s = (s, 1 / 2 * squaredError (fun x => if weighted then x.importance else fun _ => 1) f xs,
      totalWeight (fun x => if weighted then x.importance else fun _ => 1) xs) := by
  induction xs with
  | nil => simp [evaluateSequence, squaredError, totalWeight]
  | cons x xs ih =>
    rw [evaluateSequence, ih]
    cases weighted <;> simp [contribution, squaredError, totalWeight, mul_add]

omit [LinearOrder K] [IsStrictOrderedRing K] in
theorem evaluateAll_fun (weighted : Bool) (f : I → Fin d → K) (seqs : List (List (Sample I K d))) (s : S) :
    evaluateAll weighted (fun s x => (s, f x)) id seqs s = (s, 1 / 2 * squaredError (fun x => if weighted then x.importance else fun _ => 1) f seqs.flatten,
      totalWeight (fun x => if weighted then x.importance else fun _ => 1) seqs.flatten) := by
  induction seqs with
  | nil => simp [evaluateAll, squaredError, totalWeight]
  | cons x xs ih =>
    rw [evaluateAll]
    simp only [id, evaluateSequence_fun, ih]
    cases weighted <;> simp [squaredError, totalWeight, mul_add]

omit [LinearOrder K] [IsStrictOrderedRing K] in
theorem totalWeight_one (xs : List (Sample I K d)) : totalWeight (fun _ _ => (1 : K)) xs = (xs.length * d : Nat) := by
  induction xs with
  | nil => simp [totalWeight]
  | cons x xs ih =>
    unfold totalWeight at ih ⊢
    rw [List.map_cons, List.sum_cons, ih]
    simp
    ring

omit [LinearOrder K] [IsStrictOrderedRing K] in
theorem evaluateSequence_weighted (act : S → I → S × (Fin d → K)) (xs : List (Sample I K d)) : ∀ s,
    (evaluateSequence true act xs s).2 = (1 / 2 * seqError act s xs, totalWeight Sample.importance xs) := by
  induction xs with
  | nil => intro s; simp [evaluateSequence, seqError, totalWeight, outputs]
  | cons x xs ih =>
    intro s
    rw [evaluateSequence]
    simp only [ih]
    simp [contribution, seqError, totalWeight, outputs, mul_add]

omit [LinearOrder K] [IsStrictOrderedRing K] in
theorem evaluateAll_weighted (act : S → I → S × (Fin d → K)) (reset : S → S) (s0 : S) (hr : ∀ s, reset s = s0) (seqs : List (List (Sample I K d))) : ∀ s,
    (evaluateAll true act reset seqs s).2 = (1 / 2 * (seqs.map (seqError act s0)).sum, totalWeight Sample.importance seqs.flatten) := by
  induction seqs with
  | nil => intro s; simp [evaluateAll, totalWeight]
  | cons x xs ih =>
    intro s
    rw [evaluateAll]
    simp only [ih, hr, evaluateSequence_weighted]
    simp [totalWeight, mul_add]

theorem averageLoop_const (pass : S → Except Err (S × K)) (v : K) (h : ∀ s, ∃ s', pass s = .ok (s', v)) (n : Nat) : ∀ s res, ∃ s', averageLoop pass n s res = .ok (s', res + n * v) := by
  induction n with
  | zero => intro s res; exact ⟨s, by simp [averageLoop]⟩
  | succ n ih =>
    intro s res
    obtain ⟨s', hs'⟩ := h s
    obtain ⟨t, ht⟩ := ih s' (res + v)
    refine ⟨t, ?_⟩
    rw [averageLoop, hs']
    simp only
    rw [ht]
    push_cast
    congr 2
    ring

section rows
variable {A : Type} [AddCommMonoid A]

theorem sumRows_from (dim : Nat) (rows : List (List A)) : ∀ acc : List A, acc.length = dim → (∀ r ∈ rows, r.length = dim) →
    rows.foldl (fun acc r => List.zipWith (· + ·) acc r) acc = (List.range dim).map fun j => acc.getD j 0 + (rows.map fun r => r.getD j 0).sum := by
  induction rows with
  | nil =>
    intro acc ha _
    refine List.ext_getElem (by simp [ha]) fun i h1 h2 => ?_
    simp only [List.foldl_nil] at h1
    simp [List.getD, h1]
  | cons r rows ih =>
    intro acc ha hr
    have hrl : r.length = dim := hr r List.mem_cons_self
    rw [List.foldl_cons, ih _ (by simp [ha, hrl]) (fun x hx => hr x (List.mem_cons_of_mem _ hx))]
    refine List.map_congr_left fun j hj => ?_
    have hj' : j < dim := List.mem_range.1 hj
    have h1 : j < acc.length := by omega
    have h2 : j < r.length := by omega
    simp [List.getD, List.getElem?_zipWith, h1, h2, add_assoc]

theorem sumRows_eq (dim : Nat) (rows : List (List A)) (h : ∀ r ∈ rows, r.length = dim) :
    sumRows dim rows = (List.range dim).map fun j => (rows.map fun r => r.getD j 0).sum := by
  unfold sumRows
  rw [sumRows_from dim rows _ (by simp) h]
  refine List.map_congr_left fun j hj => ?_
  simp [List.getD, List.mem_range.1 hj]

theorem mapM_ok {α β : Type} (f : α → Except Err β) (g : α → β) (l : List α) (h : ∀ a ∈ l, f a = .ok (g a)) : l.mapM f = .ok (l.map g) := by
  induction l with
  | nil => rfl
  | cons a l ih =>
    rw [List.mapM_cons, h a List.mem_cons_self, ih fun x hx => h x (List.mem_cons_of_mem _ hx)]
    rfl

end rows

end Verif.DataEval

namespace Verif.Props
open Verif.DataSet (Err)
open Verif.DataEval

variable {I S K : Type} {d : Nat} [Field K] [LinearOrder K] [IsStrictOrderedRing K]

/-- **C134, error of a function.** On a data set with at least one sample (and one target component), `evaluateMSE` returns half the mean squared error of the function, whatever the division
into sequences; on an empty one it raises an AssertionError. -/
theorem C134_mse_partial (f : I → Fin d → K) (seqs : List (List (Sample I K d))) (s : S) :
    meanError false (fun s x => (s, f x)) id seqs s = if 0 < seqs.flatten.length * d then .ok (s, 1 / 2 * mse f seqs.flatten) else .error .assertion := by
  unfold meanError mse
  rw [evaluateAll_fun]
  simp only [Bool.false_eq_true, if_false, totalWeight_one, Nat.cast_pos, mul_div_assoc]

/-- **C134 violated: the mean squared error**, which `evaluateMSE` and `evaluateModuleMSE` are documented to return, is twice what they return. -/
theorem C134_negation_mse (f : I → Fin d → K) (seqs : List (List (Sample I K d))) (s : S) (hn : 0 < seqs.flatten.length * d) (he : mse f seqs.flatten ≠ 0) :
    meanError false (fun s x => (s, f x)) id seqs s ≠ .ok (s, mse f seqs.flatten) := by
  rw [C134_mse_partial, if_pos hn]
  intro h
  have h' := (Prod.mk.inj (Except.ok.inj h)).2
  exact he (by linarith)

/-- **C134, importances.** In an ImportanceDataSet each squared error is multiplied by its importance, and the sum is divided by twice the sum of the importances, which must be positive. -/
theorem C134_importance (f : I → Fin d → K) (seqs : List (List (Sample I K d))) (s : S) :
    meanError true (fun s x => (s, f x)) id seqs s =
      if 0 < totalWeight Sample.importance seqs.flatten then .ok (s, squaredError Sample.importance f seqs.flatten / (2 * totalWeight Sample.importance seqs.flatten)) else .error .assertion := by
  unfold meanError
  rw [evaluateAll_fun]
  simp only [if_true]
  split_ifs with h
  · congr 2
    field_simp
  · rfl

/-- **C134, default importances.** Samples added without importances are evaluated as in a data set without importances. -/
theorem C134_default (f : I → Fin d → K) (data : List (List (I × (Fin d → K)))) (s : S) :
    meanError true (fun s x => (s, f x)) id (data.map fun seq => seq.map fun p => newSample p.1 p.2 none) s =
    meanError false (fun s x => (s, f x)) id (data.map fun seq => seq.map fun p => newSample p.1 p.2 none) s := by
  have h : ∀ x ∈ (data.map fun seq => seq.map fun p => (newSample p.1 p.2 none : Sample I K d)).flatten, x.importance = fun _ => 1 := by
    intro x hx
    simp only [List.mem_flatten, List.mem_map] at hx
    obtain ⟨_, ⟨seq, _, rfl⟩, hx⟩ := hx
    obtain ⟨p, _, rfl⟩ := List.mem_map.1 hx
    rfl
  generalize (data.map fun seq => seq.map fun p => (newSample p.1 p.2 none : Sample I K d)) = seqs at h ⊢
  unfold meanError
  rw [evaluateAll_fun, evaluateAll_fun]
  have h1 : squaredError (fun x : Sample I K d => if true = true then x.importance else fun _ => 1) f seqs.flatten =
      squaredError (fun x => if false = true then x.importance else fun _ => 1) f seqs.flatten := by
    unfold squaredError
    congr 1
    exact List.map_congr_left fun x hx => by simp [h x hx]
  have h2 : totalWeight (fun x : Sample I K d => if true = true then x.importance else fun _ => 1) seqs.flatten =
      totalWeight (fun x => if false = true then x.importance else fun _ => 1) seqs.flatten := by
    unfold totalWeight
    congr 1
    exact List.map_congr_left fun x hx => by simp [h x hx]
  rw [h1, h2]

/-- **C134, units of importance** do not matter: multiplying all importances by a positive factor changes nothing. -/
theorem C134_scale (f : I → Fin d → K) (seqs : List (List (Sample I K d))) (c : K) (hc : 0 < c) (s : S) :
    meanError true (fun s x => (s, f x)) id (seqs.map fun seq => seq.map fun x => { x with importance := fun j => c * x.importance j }) s =
    meanError true (fun s x => (s, f x)) id seqs s := by
  have hfl : (seqs.map fun seq => seq.map fun x : Sample I K d => { x with importance := fun j => c * x.importance j }).flatten =
      seqs.flatten.map fun x => { x with importance := fun j => c * x.importance j } := by
    rw [List.map_flatten]
  rw [C134_importance, C134_importance, hfl]
  have h1 : totalWeight Sample.importance (seqs.flatten.map fun x : Sample I K d => { x with importance := fun j => c * x.importance j }) = c * totalWeight Sample.importance seqs.flatten := by
    unfold totalWeight
    rw [← List.sum_map_mul_left, List.map_map]
    congr 1
    exact List.map_congr_left fun x _ => by simp [Finset.mul_sum]
  have h2 : squaredError Sample.importance f (seqs.flatten.map fun x : Sample I K d => { x with importance := fun j => c * x.importance j }) = c * squaredError Sample.importance f seqs.flatten := by
    unfold squaredError
    rw [← List.sum_map_mul_left, List.map_map]
    congr 1
    exact List.map_congr_left fun x _ => by simp [Finset.mul_sum, mul_assoc]
  rw [h1, h2]
  by_cases hp : 0 < totalWeight Sample.importance seqs.flatten
  · rw [if_pos hp, if_pos (mul_pos hc hp)]
    congr 2
    have := hp.ne'
    have := hc.ne'
    field_simp
  · rw [if_neg hp, if_neg (fun h => hp ((mul_pos_iff_of_pos_left hc).1 h))]

/-- **C134, importance as repetition.** A sample with importance `k` in all components counts as much as `k` samples with importance 1. -/
theorem C134_repeat (f : I → Fin d → K) (inp : I) (target : Fin d → K) (k : Nat) (xs ys : List (Sample I K d)) (s : S) :
    meanError true (fun s x => (s, f x)) id [xs ++ { inp := inp, target := target, importance := fun _ => (k : K) } :: ys] s =
    meanError true (fun s x => (s, f x)) id [xs ++ List.replicate k (newSample inp target none) ++ ys] s := by
  rw [C134_importance, C134_importance]
  have h1 : totalWeight Sample.importance [xs ++ ({ inp := inp, target := target, importance := fun _ => (k : K) } : Sample I K d) :: ys].flatten =
      totalWeight Sample.importance [xs ++ List.replicate k (newSample inp target none : Sample I K d) ++ ys].flatten := by
    simp [totalWeight, newSample, mul_comm]
  have h2 : squaredError Sample.importance f [xs ++ ({ inp := inp, target := target, importance := fun _ => (k : K) } : Sample I K d) :: ys].flatten =
      squaredError Sample.importance f [xs ++ List.replicate k (newSample inp target none : Sample I K d) ++ ys].flatten := by
    simp [squaredError, newSample, ← Finset.mul_sum]
  rw [h1, h2]

/-- **C134, sequences.** On sequential data the value is half the weighted mean of the squared errors of the module's predictions, where the module reads every sequence from its state after a
reset on. It depends neither on what the module did before nor on the number of repetitions. -/
theorem C134_sequences (act : S → I → S × (Fin d → K)) (reset : S → S) (s0 : S) (hr : ∀ s, reset s = s0) (seqs : List (List (Sample I K d)))
    (hw : 0 < totalWeight Sample.importance seqs.flatten) (n : Nat) (hn : 0 < n) (s : S) :
    evaluateModuleMSE true true act reset seqs n s = .ok ((seqs.map (seqError act s0)).sum / (2 * totalWeight Sample.importance seqs.flatten)) := by
  have hp : ∀ s, ∃ s', (if true = true then meanError true act reset seqs s else meanError true act id seqs (reset s)) =
      .ok (s', (seqs.map (seqError act s0)).sum / (2 * totalWeight Sample.importance seqs.flatten)) := by
    intro s
    have h := evaluateAll_weighted act reset s0 hr seqs s
    refine ⟨(evaluateAll true act reset seqs s).1, ?_⟩
    simp only [if_true, meanError]
    rw [h]
    simp only [if_pos hw]
    congr 2
    field_simp
  obtain ⟨t, ht⟩ := averageLoop_const _ _ hp n s 0
  unfold evaluateModuleMSE
  rw [ht]
  have : (n : K) ≠ 0 := by exact_mod_cast hn.ne'
  simp only [if_neg hn.ne', zero_add]
  congr 1
  field_simp

/-- **C134, order of sequences.** The value does not depend on the order of the sequences. -/
theorem C134_order (act : S → I → S × (Fin d → K)) (reset : S → S) (s0 : S) (hr : ∀ s, reset s = s0) (seqs seqs' : List (List (Sample I K d))) (hp : seqs.Perm seqs')
    (hw : 0 < totalWeight Sample.importance seqs.flatten) (n : Nat) (hn : 0 < n) (s s' : S) :
    evaluateModuleMSE true true act reset seqs n s = evaluateModuleMSE true true act reset seqs' n s' := by
  have e : totalWeight Sample.importance seqs.flatten = totalWeight (K := K) Sample.importance seqs'.flatten := by
    unfold totalWeight
    exact (hp.flatten.map _).sum_eq
  rw [C134_sequences act reset s0 hr seqs hw n hn s, C134_sequences act reset s0 hr seqs' (e ▸ hw) n hn s', e, (hp.map _).sum_eq]

/-- a module that predicts the input before (zero after a reset) -/
def delay (s : ℚ) (x : ℚ) : ℚ × (Fin 1 → ℚ) := (x, fun _ => s)

/-- **C134 violated: samples without sequences.** On a SupervisedDataSet, whose samples are independent, a recurrent module is not reset between the samples: its error depends on their order. -/
theorem C134_negation_history : ∃ seqs seqs' : List (List (Sample ℚ ℚ 1)), seqs.Perm seqs' ∧ (∀ q ∈ seqs, q.length = 1) ∧
    evaluateModuleMSE false false delay (fun _ => 0) seqs 1 0 ≠ evaluateModuleMSE false false delay (fun _ => 0) seqs' 1 0 := by
  refine ⟨[[⟨1, fun _ => 0, fun _ => 1⟩], [⟨0, fun _ => 0, fun _ => 1⟩]], [[⟨0, fun _ => 0, fun _ => 1⟩], [⟨1, fun _ => 0, fun _ => 1⟩]], List.Perm.swap _ _ _, by simp, ?_⟩
  simp [evaluateModuleMSE, averageLoop, meanError, evaluateAll, evaluateSequence, contribution, delay]
  norm_num

omit [IsStrictOrderedRing K] in
/-- **C134, no repetitions** at all are refused. -/
theorem C134_zero (sequential weighted : Bool) (act : S → I → S × (Fin d → K)) (reset : S → S) (seqs : List (List (Sample I K d))) (s : S) :
    evaluateModuleMSE sequential weighted act reset seqs 0 s = .error .zeroDivision := by
  simp [evaluateModuleMSE, averageLoop]

open Verif.Sequential in
/-- **C134, sums over sequences.** After any history of a sequential data set (in particular a ReinforcementDataSet), `getSumOverSequences` returns one row for each sequence, with the sum of each column over the
samples of that sequence; and these rows add up to the sums over the whole data set. -/
theorem C134_sums {A : Type} [AddCommMonoid A] (fields : List (String × Nat)) (ops : List (Sequential.Op A)) (h : SeqHistory fields ops = true) (k : Nat) (l : String) (dim : Nat)
    (hk : fields[k]? = some (l, dim)) :
    ∃ sums, getSumOverSequences (Sequential.run (SDS.init fields) ops) l = .ok sums ∧
      sums = (Sequential.Spec.run Sequential.Spec.init ops).map (fun seq => (List.range dim).map fun j => (seq.map fun x => (x.getD k []).getD j 0).sum) ∧
      sumRows dim sums = (List.range dim).map fun j => ((Sequential.Spec.run Sequential.Spec.init ops).flatten.map fun x => (x.getD k []).getD j 0).sum := by
  obtain ⟨hi, _, _⟩ := seqHistory_inv h
  have hsh := (C05_sequences fields ops h).1
  generalize hd : Sequential.run (SDS.init fields) ops = ds at hi hsh ⊢
  generalize hS : Sequential.Spec.run Sequential.Spec.init ops = Ss at hi hsh ⊢
  have hl : (fields.map Prod.fst)[k]? = some l := by rw [List.getElem?_map, hk]; rfl
  have hdim : (fields.map Prod.snd)[k]? = some dim := by rw [List.getElem?_map, hk]; rfl
  have hv := hi.view k l hl
  rw [hdim] at hv
  obtain ⟨f, hf, hfd⟩ : ∃ f, ds.ds.get l = some f ∧ f.dim = dim := by
    unfold DataSet.DS.view at hv
    cases hg : ds.ds.get l with
    | none => rw [hg] at hv; simp at hv
    | some f =>
      rw [hg] at hv
      simp at hv
      exact ⟨f, rfl, hv.1⟩
  have hwid : ∀ seq ∈ Ss, ∀ r ∈ Sequential.Spec.column k seq, r.length = dim := by
    intro seq hseq r hr
    obtain ⟨x, hx, rfl⟩ := List.mem_map.1 hr
    have := hi.wid x (List.mem_flatten.2 ⟨seq, hseq, hx⟩)
    have h2 : (x.map List.length)[k]? = some dim := by rw [this]; exact hdim
    rw [List.getElem?_map] at h2
    cases hxk : x[k]? with
    | none => rw [hxk] at h2; simp at h2
    | some r => rw [hxk] at h2; simpa using h2
  have hcol : ∀ seq ∈ Ss, sumRows dim (Sequential.Spec.column k seq) = (List.range dim).map fun j => (seq.map fun x => (x.getD k []).getD j 0).sum := by
    intro seq hseq
    rw [sumRows_eq dim _ (hwid seq hseq)]
    refine List.map_congr_left fun j _ => ?_
    simp [Sequential.Spec.column, List.map_map, Function.comp_def, List.getD]
  have hm : getSumOverSequences ds l = .ok (Ss.map fun seq => (List.range dim).map fun j => (seq.map fun x => (x.getD k []).getD j 0).sum) := by
    unfold getSumOverSequences
    rw [hf]
    simp only [hfd, hsh]
    rw [mapM_ok _ (fun n => (List.range dim).map fun j => ((Ss.getD n []).map fun x => (x.getD k []).getD j 0).sum)]
    · congr 1
      refine List.ext_getElem (by simp) fun i h1 h2 => ?_
      have hlt : i < Ss.length := by simpa using h2
      simp [List.getD, hlt]
    · intro n hn
      have hlt : n < Ss.length := List.mem_range.1 hn
      rw [hi.getSequenceField n hlt k l hl]
      have hmem : Ss[n] ∈ Ss := List.getElem_mem hlt
      show Except.ok (sumRows dim (Sequential.Spec.column k Ss[n])) = _
      rw [hcol _ hmem]
      simp [List.getD, hlt]
  refine ⟨_, hm, rfl, ?_⟩
  rw [sumRows_eq]
  · refine List.map_congr_left fun j hj => ?_
    have hj' := List.mem_range.1 hj
    rw [List.map_map, List.map_flatten, List.sum_flatten, List.map_map]
    congr 1
    exact List.map_congr_left fun seq _ => by simp [List.getD, hj']
  · intro r hr
    obtain ⟨seq, _, rfl⟩ := List.mem_map.1 hr
    simp

example : SeqHistory (K := Nat) [("state", 1), ("action", 1), ("reward", 1)] [.add [[1], [0], [5]], .add [[1], [0], [6]], .newSequence, .add [[0], [1], [7]]] = true ∧
    (getSumOverSequences (Sequential.run (Sequential.SDS.init [("state", 1), ("action", 1), ("reward", 1)])
      [.add [[1], [0], [5]], .add [[1], [0], [6]], .newSequence, .add [[0], [1], [7]]]) "reward").toOption = some [[11], [7]] := by
  decide +kernel

example : evaluateModuleMSE true true delay (fun _ => 0) [[⟨1, fun _ => 0, fun _ => 1⟩, ⟨2, fun _ => 3, fun _ => 2⟩]] 1 9 = .ok (4 / 3) := by
  simp [evaluateModuleMSE, averageLoop, meanError, evaluateAll, evaluateSequence, contribution, delay]
  norm_num

end Verif.Props
