import Verif.Lemmas.SequentialShow
import Verif.Lemmas.Split
/-
Property theorems C05-C07 (pybrain/datasets/sequential.py, supervised.py).
-/
namespace Verif.Props
open Verif.DataSet Verif.Py Verif.Sequential

variable {K : Type}

/-- A layout with fields of the given names and widths, and a history whose samples fit it. -/
def SeqHistory (fields : List (String × Nat)) (ops : List (Sequential.Op K)) : Bool :=
  decide (fields ≠ []) && decide ((fields.map Prod.fst).Nodup) && ops.all (okOp (fields.map Prod.snd))

theorem seqHistory_inv [Zero K] {fields : List (String × Nat)} {ops : List (Sequential.Op K)} (h : SeqHistory fields ops = true) :
    Inv (fields.map Prod.fst) (fields.map Prod.snd) (Sequential.run (SDS.init fields) ops) (Sequential.Spec.run Sequential.Spec.init ops) ∧
    (fields.map Prod.fst) ≠ [] ∧ (fields.map Prod.fst).Nodup := by
  simp only [SeqHistory, Bool.and_eq_true, decide_eq_true_eq, List.all_eq_true] at h
  obtain ⟨⟨h1, h2⟩, h3⟩ := h
  exact ⟨run_inv ops (inv_init fields h2) (by simpa using h1) h2 (by simp) h3, by simpa using h1, h2⟩

/-! ### C05  Sequences partition the samples -/

/-- **C05.** After every history of `addSample`, `newSequence`, `removeSequence(i ≥ 0)`, `clear`, linked
reads and `gotoSequence` calls on a fresh sequential dataset (calls that raise included), the dataset
shows exactly the sequences of the list-of-lists specification: the number of sequences, the samples of
each sequence field by field, each sequence's length, IndexError beyond the last, and each field is the
concatenation of all sequences. -/
theorem C05_sequences [Zero K] (fields : List (String × Nat)) (ops : List (Sequential.Op K))
    (h : SeqHistory fields ops = true) :
    Sequential.Spec.Shows (Sequential.run (SDS.init fields) ops) (Sequential.Spec.run Sequential.Spec.init ops) := by
  obtain ⟨hi, hl, _⟩ := seqHistory_inv h
  exact hi.shows hl

/-- **C05, outcome of each call.** In every such reachable state each call raises exactly when the
specification says so, with the same exception; in particular `newSequence` raises EmptySequenceError
exactly when data exist and the open sequence is empty. -/
theorem C05_call_outcome [Zero K] (fields : List (String × Nat)) (ops : List (Sequential.Op K)) (op : Sequential.Op K)
    (h : SeqHistory fields (ops ++ [op]) = true)
    (hop : (match op with | .getLinked _ | .gotoSequence _ => false | _ => true) = true) :
    (Sequential.step (Sequential.run (SDS.init fields) ops) op).2 =
      (Sequential.Spec.step (Sequential.Spec.run Sequential.Spec.init ops) op).2 := by
  have h' : SeqHistory fields ops = true := by
    simp only [SeqHistory, Bool.and_eq_true, List.all_append] at h ⊢
    exact ⟨h.1, h.2.1⟩
  obtain ⟨hi, hl, hnd⟩ := seqHistory_inv h'
  have hok : okOp (fields.map Prod.snd) op = true := by
    simp only [SeqHistory, Bool.and_eq_true, List.all_append] at h
    simpa using h.2.2
  cases op with
  | add s => simpa [Sequential.Spec.step] using (hi.add hnd (by simp) s hok).1
  | newSequence => exact (hi.newSequence hl).1
  | removeSequence i => exact (hi.remove hl hnd i).1
  | clear => rfl
  | getLinked i => simp at hop
  | gotoSequence i => simp at hop

/-- non-vacuity: a history with two fields, a rejected `newSequence`, several sequences and a removal -/
example : SeqHistory (K := Nat) [("input", 1), ("target", 2)]
    [.newSequence, .add [[1], [2, 3]], .add [[4], [5, 6]], .newSequence, .newSequence, .add [[7], [8, 9]],
     .newSequence, .add [[0], [0, 0]], .removeSequence 1, .removeSequence 7, .gotoSequence 1, .getLinked none, .newSequence] = true := by decide

example : Sequential.Spec.run (K := Nat) Sequential.Spec.init
    [.newSequence, .add [[1], [2, 3]], .add [[4], [5, 6]], .newSequence, .newSequence, .add [[7], [8, 9]],
     .newSequence, .add [[0], [0, 0]], .removeSequence 1, .removeSequence 7, .newSequence]
    = [[[[1], [2, 3]], [[4], [5, 6]]], [[[0], [0, 0]]], []] := by decide

/-! ### C06  removeSequence removes exactly one sequence -/

/-- **C06 (partial: non-negative indices).** In every reachable state showing the sequences `S`,
`removeSequence i` raises IndexError and changes nothing when `i` is not a sequence number; otherwise the
dataset then shows exactly the other sequences, in order and unchanged (when the last remaining sequence
is removed the dataset shows a single empty open sequence). Missing: negative indices, which the code
accepts (see the negation). -/
theorem C06_removeSequence_partial [Zero K] (fields : List (String × Nat)) (ops : List (Sequential.Op K))
    (h : SeqHistory fields ops = true) (i : Nat) :
    let d := Sequential.run (SDS.init fields) ops
    let S := Sequential.Spec.run (K := K) Sequential.Spec.init ops
    (i < S.length → (d.removeSequence i).2 = none ∧
      Sequential.Spec.Shows (d.removeSequence i).1 (if S.eraseIdx i = [] then [[]] else S.eraseIdx i)) ∧
    (S.length ≤ i → d.removeSequence i = (d, some .indexError)) := by
  obtain ⟨hi, hl, hnd⟩ := seqHistory_inv h
  have hr := hi.remove hl hnd i
  refine ⟨fun hlt => ?_, fun hge => ?_⟩
  · simp only [Sequential.Spec.step, hlt, if_true] at hr
    exact ⟨hr.1, hr.2.shows hl⟩
  · unfold SDS.removeSequence
    rw [hi.numSeq]
    have : (i : Int) ≥ ((Sequential.Spec.run (K := K) Sequential.Spec.init ops).length : Int) := by omega
    simp [this]

/-- two sequences, `[10], [20]` and `[30]` -/
def c06Ops : List (Sequential.Op Nat) := [.add [[10]], .add [[20]], .newSequence, .add [[30]]]

/-- **C06, negation.** A negative index is not out of range for `removeSequence`; `removeSequence(-1)`
raises nothing and, instead of removing a sequence, makes the data longer and duplicates rows. -/
theorem C06_negation_negative :
    let d := Sequential.run (SDS.init [("x", 1)]) c06Ops
    d.ds.getField "x" = some [[10], [20], [30]] ∧
    (d.removeSequence (-1)).2 = none ∧
    (d.removeSequence (-1)).1.ds.getLength = some 5 := by decide

/-! ### C07  Proportional splits -/

/-- **C07 (plain data).** For every history that ends with the fields `input` and `target` linked and
holding the samples `rows`, every outcome `perm` of the random permutation and every proportion `p`: the
split succeeds, and the two results hold samples `A` and `B` that together are exactly the samples of
the original; for `0 ≤ p ≤ 1` the first holds `⌊p·n⌋` of them. -/
theorem C07_supervised_split [Zero K] (ops : List (DataSet.Op K)) (rows : List (List K × List K))
    (hlink : (DataSet.run (DS.empty : DS K) ops).link = ["input", "target"])
    (hi : (DataSet.run (DS.empty : DS K) ops).getField "input" = some (rows.map Prod.fst))
    (ht : (DataSet.run (DS.empty : DS K) ops).getField "target" = some (rows.map Prod.snd))
    (perm : List Nat) (hp : perm.Perm (List.range rows.length)) (p : Rat) :
    ∃ (l r : DS K) (A B : List (List K × List K)),
      (DataSet.run (DS.empty : DS K) ops).splitWithProportion perm p = .ok (l, r) ∧ (A ++ B).Perm rows ∧
      (l.link = ["input", "target"] ∧ l.getField "input" = some (A.map Prod.fst) ∧ l.getField "target" = some (A.map Prod.snd) ∧
        l.getLength = some A.length) ∧
      (r.link = ["input", "target"] ∧ r.getField "input" = some (B.map Prod.fst) ∧ r.getField "target" = some (B.map Prod.snd) ∧
        r.getLength = some B.length) ∧
      (0 ≤ p → p ≤ 1 → (A.length : Int) = ((rows.length : Rat) * p).floor) :=
  split_ok _ (run_wf _ empty_wf ops) rows hlink hi ht perm hp p

def c07Ops : List (DataSet.Op Nat) := [.addField "input" 2, .addField "target" 1, .linkFields ["input", "target"],
  .appendLinked [[1, 2], [0]], .appendLinked [[3, 4], [1]], .appendLinked [[5, 6], [0]]]

/-- non-vacuity -/
example : (DataSet.run (DS.empty : DS Nat) c07Ops).link = ["input", "target"] ∧
    (DataSet.run (DS.empty : DS Nat) c07Ops).getField "input" = some ([([1, 2], [0]), ([3, 4], [1]), ([5, 6], [0])].map Prod.fst) ∧
    (DataSet.run (DS.empty : DS Nat) c07Ops).getField "target" = some ([([1, 2], [0]), ([3, 4], [1]), ([5, 6], [0])].map Prod.snd) ∧
    [2, 0, 1].Perm (List.range 3) := by decide

/-- **C07 (sequential data).** For every history on a sequential dataset and every outcome `leftIdx` of
the random sample of sequence numbers, the split succeeds; the first result shows exactly the sampled
sequences and the second exactly the others, each intact and in the original order (a result that
receives no sequence shows one empty open sequence, as a fresh dataset does). -/
theorem C07_sequential_split [Zero K] (fields : List (String × Nat)) (ops : List (Sequential.Op K))
    (h : SeqHistory fields ops = true) (leftIdx : List Nat) :
    let S := Sequential.Spec.run (K := K) Sequential.Spec.init ops
    let A := Sequential.Spec.select (fun i => decide (i ∈ leftIdx)) S
    let B := Sequential.Spec.select (fun i => !decide (i ∈ leftIdx)) S
    ∃ l r, (Sequential.run (SDS.init fields) ops).split leftIdx = .ok (l, r) ∧
      Sequential.Spec.Shows l (if A.isEmpty then [[]] else A) ∧
      Sequential.Spec.Shows r (if B.isEmpty then [[]] else B) ∧
      (A ++ B).Perm S ∧
      (leftIdx.Nodup → (∀ i ∈ leftIdx, i < S.length) → A.length = leftIdx.length) := by
  obtain ⟨hi, hl, hnd⟩ := seqHistory_inv h
  obtain ⟨l, r, h1, h2, h3⟩ := split_inv hl hnd (by simp) hi leftIdx
  refine ⟨l, r, h1, h2.shows hl, h3.shows hl, ?_, ?_⟩
  · unfold Sequential.Spec.select
    rw [← List.map_append]
    have := (List.filter_append_perm (fun x : List (Sequential.Spec.Sample K) × Nat => decide (x.2 ∈ leftIdx))
      ((Sequential.Spec.run (K := K) Sequential.Spec.init ops).zipIdx)).map Prod.fst
    simpa using this
  · intro hnd2 hlt
    generalize Sequential.Spec.run (K := K) Sequential.Spec.init ops = S at *
    unfold Sequential.Spec.select
    rw [List.length_map]
    have e : ((S.zipIdx.filter (fun x => decide (x.2 ∈ leftIdx))).map Prod.snd).Perm leftIdx := by
      have e1 : (S.zipIdx.filter (fun x => decide (x.2 ∈ leftIdx))).map Prod.snd = (List.range S.length).filter (fun i => decide (i ∈ leftIdx)) := by
        have : (S.zipIdx.map Prod.snd) = List.range S.length := by
          rw [List.zipIdx_map_snd, List.range_eq_range']
        rw [← this, List.filter_map]; rfl
      rw [e1]
      apply (List.perm_ext_iff_of_nodup (List.nodup_range.filter _) hnd2).2
      intro i
      simp only [List.mem_filter, List.mem_range, decide_eq_true_eq]
      exact ⟨fun h => h.2, fun h => ⟨hlt i h, h⟩⟩
    simpa using e.length_eq

end Verif.Props
