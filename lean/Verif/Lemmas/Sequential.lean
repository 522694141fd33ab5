import Verif.Spec.Sequential
import Verif.Lemmas.DataSetRead
/- Helper lemmas: the SequentialDataSet model refines lists of sequences. -/
namespace Verif.Sequential
open Verif.Py Verif.DataSet

variable {K : Type}

/-- Start offset of sequence `i`. -/
def off {α : Type} (S : List (List α)) (i : Nat) : Nat := (S.take i).flatten.length

def offsets {α : Type} (S : List (List α)) : List Nat := (List.range S.length).map (off S)

theorem take_flatten {α : Type} (S : List (List α)) (i : Nat) :
    S.flatten.take (off S i) = (S.take i).flatten := by
  unfold off
  have h := @List.take_left _ (S.take i).flatten (S.drop i).flatten
  rw [← List.flatten_append, List.take_append_drop] at h
  exact h

theorem drop_flatten {α : Type} (S : List (List α)) (i : Nat) :
    S.flatten.drop (off S i) = (S.drop i).flatten := by
  unfold off
  have h := @List.drop_left _ (S.take i).flatten (S.drop i).flatten
  rw [← List.flatten_append, List.take_append_drop] at h
  exact h

theorem off_succ {α : Type} (S : List (List α)) (i : Nat) (h : i < S.length) :
    off S (i + 1) = off S i + S[i].length := by
  unfold off
  rw [List.take_add_one, List.flatten_append]
  simp [h]

theorem off_le {α : Type} (S : List (List α)) (i : Nat) : off S i ≤ S.flatten.length := by
  have := congrArg List.length (take_flatten S i)
  simp only [List.length_take] at this
  unfold off at *
  omega

theorem off_length {α : Type} (S : List (List α)) : off S S.length = S.flatten.length := by
  simp [off]

theorem off_mono {α : Type} (S : List (List α)) {i j : Nat} (h : i ≤ j) : off S i ≤ off S j := by
  unfold off
  rw [show S.take i = (S.take j).take i by rw [List.take_take]; congr 1; omega]
  exact off_le (S.take j) i

theorem slice_flatten {α : Type} (S : List (List α)) (i : Nat) (h : i < S.length) :
    (S.flatten.take (off S (i + 1))).drop (off S i) = S[i] := by
  rw [take_flatten, List.take_add_one, List.flatten_append, List.drop_append_of_le_length (by simp [off])]
  simp [off, h]

theorem off_eraseIdx_lt {α : Type} (S : List (List α)) (i j : Nat) (h : j ≤ i) :
    off (S.eraseIdx i) j = off S j := by
  unfold off
  congr 2
  rw [List.eraseIdx_eq_take_drop_succ, List.take_append]
  by_cases hl : i ≤ S.length
  · have : j - (S.take i).length = 0 := by simp; omega
    rw [this, List.take_take]; simp [Nat.min_eq_left h]
  · rw [List.drop_eq_nil_of_le (by omega), List.take_of_length_le (l := S) (by omega)]; simp

theorem off_eraseIdx_ge {α : Type} (S : List (List α)) (i j : Nat) (hi : i < S.length) (h : i ≤ j) :
    off (S.eraseIdx i) j + S[i].length = off S (j + 1) := by
  unfold off
  rw [List.eraseIdx_eq_take_drop_succ]
  rw [List.take_append]
  have h1 : (S.take i).length = i := by simp; omega
  rw [h1, List.take_of_length_le (by omega)]
  have h2 : S.take (j + 1) = S.take i ++ S[i] :: (S.drop (i + 1)).take (j - i) := by
    conv => lhs; rw [← List.take_append_drop i S, List.take_append, h1]
    rw [List.take_of_length_le (by omega)]
    congr 1
    rw [List.drop_eq_getElem_cons hi, show j + 1 - i = (j - i) + 1 by omega, List.take_succ_cons]
  rw [h2]
  simp only [List.flatten_append, List.length_append, List.flatten_cons]
  omega

/-- Cutting `s..e` out of the buffer cuts it out of the visible part. -/
theorem take_cut {α : Type} (b : List α) (fin s e : Nat) (hse : s ≤ e) (hef : e ≤ fin) (hf : fin ≤ b.length) :
    (b.take s ++ b.drop e).take (fin - (e - s)) = (b.take fin).take s ++ (b.take fin).drop e := by
  have hlen : (b.take s).length = s := by simp; omega
  rw [List.take_append, hlen, List.take_of_length_le (by omega), List.take_take, List.take_drop]
  rw [show min s fin = s by omega, show e + (fin - (e - s) - s) = fin by omega]

theorem pushSeq_spec (f : Field Int) (hf : f.WF) (h1 : f.dim = 1) (v : Int) :
    (pushSeq f v).WF ∧ (pushSeq f v).dim = 1 ∧ (pushSeq f v).rows = f.rows ++ [[v]] := by
  unfold pushSeq
  dsimp only
  generalize hg : (if f.buf.length ≤ f.fin then f.grow else f) = g
  have hgw : g.WF := by subst hg; split; exact Field.grow_wf f hf; exact hf
  have hgd : g.dim = 1 := by subst hg; split; exact h1; exact h1
  have hgr : g.rows = f.rows := by subst hg; split; exact Field.grow_rows f hf; rfl
  have hlt : g.fin < g.buf.length := by
    subst hg; split
    · rw [Field.grow_length, Field.grow_fin]; have := hf.1; omega
    · omega
  refine ⟨⟨by simp; omega, ?_⟩, hgd, ?_⟩
  · intro r hr
    rcases List.mem_or_eq_of_mem_set hr with hr | hr
    · exact hgw.2 r hr
    · subst hr; simp [hgd]
  · rw [← hgr]
    simp only [Field.rows]
    rw [List.take_add_one, List.take_set_of_le (Nat.le_refl _)]
    simp [hlt]

/-- Relation between a model state and the list of sequences it stands for. -/
structure Inv (labels : List String) (dims : List Nat) (d : SDS K) (S : Spec.Seqs K) : Prop where
  link : d.ds.link = labels
  wf : d.ds.WF
  view : ∀ k l, labels[k]? = some l → d.ds.view l = some ((dims[k]?).getD 0, Spec.column k S.flatten)
  wid : ∀ s ∈ S.flatten, s.map List.length = dims
  seqwf : d.seq.WF
  seqdim : d.seq.dim = 1
  seqrows : d.seq.rows = (offsets S).map (fun (n : Nat) => [(n : Int)])
  ne : S ≠ []
  nonempty : ∀ s ∈ S.dropLast, s ≠ []

theorem flatten_singletons {α β : Type} (l : List α) (f : α → β) : (l.map (fun a => [f a])).flatten = l.map f := by
  induction l with
  | nil => rfl
  | cons a l ih => simp [ih]

theorem Inv.seqs_eq {labels dims} {d : SDS K} {S} (h : Inv labels dims d S) :
    d.seqs = (offsets S).map (fun (n : Nat) => (n : Int)) := by
  unfold SDS.seqs
  rw [h.seqrows, flatten_singletons]

theorem Inv.seqs_get {labels dims} {d : SDS K} {S} (h : Inv labels dims d S) (i : Nat) (hi : i < S.length) :
    getIdx d.seqs i = some (off S i : Int) := by
  rw [getIdx_ofNat, h.seqs_eq]
  simp [offsets, hi]

theorem Inv.seqs_length {labels dims} {d : SDS K} {S} (h : Inv labels dims d S) : d.seqs.length = S.length := by
  rw [h.seqs_eq]; simp [offsets]

theorem Inv.numSeq {labels dims} {d : SDS K} {S} (h : Inv labels dims d S) : d.getNumSequences = S.length := by
  unfold SDS.getNumSequences; rw [h.seqrows]; simp [offsets]

theorem column_length (k : Nat) (l : List (Spec.Sample K)) : (Spec.column k l).length = l.length := by
  simp [Spec.column]

theorem Inv.getField {labels dims} {d : SDS K} {S} (h : Inv labels dims d S) (k : Nat) (l : String)
    (hk : labels[k]? = some l) : d.ds.getField l = some (Spec.column k S.flatten) := by
  rw [DS.getField_eq_view, h.view k l hk]; rfl

theorem Inv.lock {labels dims} {d : SDS K} {S} (h : Inv labels dims d S) :
    ∀ l ∈ d.ds.link, (d.ds.getField l).map List.length = some S.flatten.length := by
  intro l hl
  rw [h.link] at hl
  obtain ⟨k, hk⟩ := List.getElem?_of_mem hl
  rw [h.getField k l hk]; simp [column_length]

theorem Inv.getLength {labels dims} {d : SDS K} {S} (h : Inv labels dims d S) (hl : labels ≠ []) :
    d.ds.getLength = some S.flatten.length :=
  getLength_of_lockstep d.ds h.wf (by rw [h.link]; exact hl) _ h.lock

theorem Inv.getSequenceField {labels dims} {d : SDS K} {S} (h : Inv labels dims d S) (i : Nat) (hi : i < S.length)
    (k : Nat) (l : String) (hk : labels[k]? = some l) :
    d.getSequenceField i l = .ok (Spec.column k S[i]) := by
  unfold SDS.getSequenceField
  rw [h.getField k l hk]
  simp only [h.seqs_length, h.seqs_get i hi]
  by_cases hlast : S.length = i + 1
  · have e : (S.length : Int) = (i : Int) + 1 := by omega
    simp only [e, if_true]
    rw [sliceFrom_ofNat]
    congr 1
    have := slice_flatten S i hi
    rw [← hlast, off_length, List.take_length] at this
    rw [← this]
    simp [Spec.column, List.map_drop]
  · have e1 : ¬ (S.length : Int) = (i : Int) + 1 := by omega
    have e2 : ¬ (S.length : Int) < (i : Int) + 1 := by omega
    simp only [e1, e2, if_false]
    have := h.seqs_get (i + 1) (by omega)
    simp only [Int.natCast_add, Int.cast_ofNat_Int] at this
    simp only [this]
    rw [slice_ofNat, ← slice_flatten S i hi]
    simp [Spec.column, List.map_drop, List.map_take]

theorem Inv.getSequenceLength {labels dims} {d : SDS K} {S} (h : Inv labels dims d S) (hl : labels ≠ []) (i : Nat)
    (hi : i < S.length) : d.getSequenceLength i = .ok (S[i].length : Int) := by
  unfold SDS.getSequenceLength
  simp only [h.seqs_length, h.seqs_get i hi, h.getLength hl]
  by_cases hlast : S.length = i + 1
  · have e : (S.length : Int) = (i : Int) + 1 := by omega
    simp only [e, if_true]
    have h1 := off_succ S i hi
    rw [← hlast, off_length] at h1
    rw [h1]; congr 1; omega
  · have e1 : ¬ (S.length : Int) = (i : Int) + 1 := by omega
    have e2 : ¬ (S.length : Int) < (i : Int) + 1 := by omega
    simp only [e1, e2, if_false]
    have := h.seqs_get (i + 1) (by omega)
    simp only [Int.natCast_add, Int.cast_ofNat_Int] at this
    simp only [this]
    have h1 := off_succ S i hi
    rw [h1]; congr 1; omega

theorem Inv.outOfRange {labels dims} {d : SDS K} {S} (h : Inv labels dims d S) (i : Nat) (hi : S.length ≤ i)
    (k : Nat) (l : String) (hk : labels[k]? = some l) :
    d.getSequenceField i l = .error .indexError ∧ d.getSequenceLength i = .error .indexError := by
  unfold SDS.getSequenceField SDS.getSequenceLength
  rw [h.getField k l hk]
  have e1 : ¬ (S.length : Int) = (i : Int) + 1 := by omega
  have e2 : (S.length : Int) < (i : Int) + 1 := by omega
  simp only [h.seqs_length, e1, e2, if_true, if_false, and_self]

/-! #### Preservation -/

theorem addLast_flatten (S : Spec.Seqs K) (hS : S ≠ []) (s : Spec.Sample K) :
    (Spec.addLast S s).flatten = S.flatten ++ [s] := by
  unfold Spec.addLast
  conv => rhs; rw [← List.dropLast_concat_getLast hS]
  have : S.getLastD [] = S.getLast hS := by rw [List.getLastD_eq_getLast?, List.getLast?_eq_some_getLast hS]; rfl
  rw [this]; simp

theorem addLast_length (S : Spec.Seqs K) (hS : S ≠ []) (s : Spec.Sample K) :
    (Spec.addLast S s).length = S.length := by
  have : 0 < S.length := List.length_pos_iff.2 hS
  simp [Spec.addLast]; omega

theorem addLast_offsets (S : Spec.Seqs K) (hS : S ≠ []) (s : Spec.Sample K) :
    offsets (Spec.addLast S s) = offsets S := by
  unfold offsets
  rw [addLast_length S hS]
  apply List.map_congr_left
  intro i hi
  simp only [List.mem_range] at hi
  unfold off Spec.addLast
  rw [List.take_append_of_le_length (by simp; omega)]
  rw [List.dropLast_eq_take, List.take_take]
  congr 3; omega

theorem broadcast_exact (dim : Nat) (row : List K) (h : row.length = dim) : broadcast dim row = some row := by
  simp [broadcast, h]

theorem Inv.add [Zero K] {labels : List String} {dims : List Nat} {d : SDS K} {S} (h : Inv labels dims d S)
    (hnd : labels.Nodup) (hdl : dims.length = labels.length)
    (s : Spec.Sample K) (hs : Spec.okSample dims s = true) :
    (step d (.add s)).2 = none ∧ Inv labels dims (step d (.add s)).1 (Spec.addLast S s) := by
  simp only [Spec.okSample, decide_eq_true_eq] at hs
  have hsl : s.length = labels.length := by rw [← hdl, ← hs]; simp
  have hfst : (d.ds.link.zip s).map Prod.fst = labels := by rw [h.link]; exact List.map_fst_zip (by omega)
  have hmem : ∀ p ∈ d.ds.link.zip s, ∃ k : Nat, labels[k]? = some p.1 ∧ s[k]? = some p.2 := by
    intro p hp
    obtain ⟨k, hk⟩ := List.getElem?_of_mem hp
    rw [h.link, List.getElem?_zip_eq_some] at hk
    exact ⟨k, hk⟩
  have hwidth : ∀ (k : Nat) r, s[k]? = some r → dims[k]? = some r.length := by
    intro k r hr; rw [← hs]; simp [hr]
  have hfit : ∀ p ∈ d.ds.link.zip s, ∃ f r, d.ds.get p.1 = some f ∧ broadcast f.dim p.2 = some r := by
    intro p hp
    obtain ⟨k, h1, h2⟩ := hmem p hp
    obtain ⟨f, hf, h3, _⟩ := (view_some_iff d.ds p.1 _).1 (h.view k p.1 h1)
    refine ⟨f, p.2, hf, ?_⟩
    apply broadcast_exact
    rw [h3, hwidth k p.2 h2]; rfl
  have hall := appendAll_ok (d.ds.link.zip s) d.ds h.wf (by rw [hfst]; exact hnd)
    (fun p hp => (List.of_mem_zip hp).1) hfit
  have hw := DS.appendAll_wf d.ds h.wf (d.ds.link.zip s)
  have hstep : step d (.add s) = ({ d with ds := (d.ds.appendAll (d.ds.link.zip s)).1 }, none) := by
    simp only [step, DS.appendLinked]
    rw [if_pos (by rw [h.link]; exact hsl)]
    cases ha : d.ds.appendAll (d.ds.link.zip s) with
    | mk a b => rw [ha] at hall; simp only at hall; rw [hall.1]
  rw [hstep]
  refine ⟨rfl, ?_⟩
  refine ⟨hw.2.1.trans h.link, hw.1, ?_, ?_, h.seqwf, h.seqdim, ?_, ?_, ?_⟩
  · intro k l hk
    have hkl : k < labels.length := (List.getElem?_eq_some_iff.1 hk).1
    have hp : (l, s[k]'(by omega)) ∈ d.ds.link.zip s := by
      apply List.mem_of_getElem? (i := k)
      rw [h.link, List.getElem?_zip_eq_some]
      exact ⟨hk, by simp⟩
    obtain ⟨dim, rows, r, h1, h2, h3⟩ := hall.2.2 _ hp
    simp only at h1 h2 h3
    rw [h.view k l hk] at h1
    simp only [Option.some.injEq, Prod.mk.injEq] at h1
    obtain ⟨hd1, hr1⟩ := h1
    have hr : r = s[k] := by
      rw [broadcast_exact] at h2
      · simp at h2; exact h2.symm
      · rw [← hd1, hwidth k s[k] (by simp)]; rfl
    show DS.view _ l = _
    rw [h3, addLast_flatten S h.ne]
    simp only [Option.some.injEq, Prod.mk.injEq]
    refine ⟨hd1.symm, ?_⟩
    rw [← hr1, hr]
    have : k < s.length := by omega
    simp [Spec.column, this]
  · intro x hx
    rw [addLast_flatten S h.ne] at hx
    rcases List.mem_append.1 hx with hx | hx
    · exact h.wid x hx
    · simp at hx; subst hx; exact hs
  · rw [addLast_offsets S h.ne]; exact h.seqrows
  · simp [Spec.addLast]
  · intro x hx
    simp only [Spec.addLast, List.dropLast_concat] at hx
    exact h.nonempty x hx

theorem last_off_iff (S : Spec.Seqs K) (hS : S ≠ []) :
    off S (S.length - 1) = S.flatten.length ↔ S.getLastD [] = [] := by
  have hp : 0 < S.length := List.length_pos_iff.2 hS
  have h1 := off_succ S (S.length - 1) (by omega)
  rw [show S.length - 1 + 1 = S.length by omega, off_length] at h1
  have : S.getLastD [] = S[S.length - 1] := by
    rw [List.getLastD_eq_getLast?, List.getLast?_eq_getElem?, List.getElem?_eq_getElem (by omega)]; rfl
  rw [this, ← List.length_eq_zero_iff]
  omega

theorem Inv.newSequence {labels : List String} {dims : List Nat} {d : SDS K} {S} (h : Inv labels dims d S)
    (hl : labels ≠ []) :
    d.newSequence.2 = (Spec.step S .newSequence).2 ∧ Inv labels dims d.newSequence.1 (Spec.step S .newSequence).1 := by
  have hp : 0 < S.length := List.length_pos_iff.2 h.ne
  unfold SDS.newSequence
  simp only [h.getLength hl, Spec.step]
  by_cases h0 : S.flatten = []
  · simp [h0, h]
  · have h0' : S.flatten.length ≠ 0 := fun hh => h0 (List.length_eq_zero_iff.1 hh)
    have hneg : getIdx d.seqs (-1) = some (off S (S.length - 1) : Int) := by
      have e : getIdx d.seqs (-1) = getIdx d.seqs ((S.length - 1 : Nat) : Int) := by
        unfold getIdx normIdx
        rw [h.seqs_length]
        have h2 : (S.length - 1 : Nat) < S.length := by omega
        have h3 : (0:Int) ≤ (S.length : Int) + -1 := by omega
        have h4 : ((S.length : Int) + -1).toNat = S.length - 1 := by omega
        simp [h3, h4, h2]
      rw [e, h.seqs_get _ (by omega)]
    simp only [h0', ne_eq, not_false_eq_true, if_true, if_false, hneg, h0]
    by_cases hlast : S.getLastD [] = []
    · have := (last_off_iff S h.ne).2 hlast
      simp only [this, hlast, if_true, true_and]; exact h
    · have h5 : ¬ off S (S.length - 1) = S.flatten.length := fun hh => hlast ((last_off_iff S h.ne).1 hh)
      have h6 : ¬ ((off S (S.length - 1) : Int) = (S.flatten.length : Int)) := by omega
      simp only [h6, hlast, if_false, true_and]
      have hps := pushSeq_spec d.seq h.seqwf h.seqdim S.flatten.length
      refine ⟨h.link, h.wf, ?_, ?_, hps.1, hps.2.1, ?_, by simp, ?_⟩
      · intro k l hk; have := h.view k l hk; simpa using this
      · intro x hx; exact h.wid x (by simpa using hx)
      · rw [hps.2.2, h.seqrows]
        have : offsets (S ++ [[]]) = offsets S ++ [S.flatten.length] := by
          unfold offsets
          rw [List.length_append, List.length_singleton, List.range_succ, List.map_append]
          congr 1
          · apply List.map_congr_left
            intro i hi
            simp only [List.mem_range] at hi
            unfold off
            rw [List.take_append_of_le_length (by omega)]
          · simp [off]
        rw [this]; simp
      · intro x hx
        rw [List.dropLast_concat] at hx
        by_cases hxl : x ∈ S.dropLast
        · exact h.nonempty x hxl
        · rw [← List.dropLast_concat_getLast h.ne] at hx
          rcases List.mem_append.1 hx with hx | hx
          · exact absurd hx hxl
          · simp only [List.mem_singleton] at hx
            subst hx
            have : S.getLastD [] = S.getLast h.ne := by
              rw [List.getLastD_eq_getLast?, List.getLast?_eq_some_getLast h.ne]; rfl
            rw [← this]; exact hlast

theorem inv_init_of {labels : List String} {dims : List Nat} (d : SDS K) (hlink : d.ds.link = labels) (hwf : d.ds.WF)
    (hview : ∀ (k : Nat) l, labels[k]? = some l → d.ds.view l = some ((dims[k]?).getD 0, []))
    (hseq : ∃ f : Field Int, f.WF ∧ f.dim = 1 ∧ f.rows = [] ∧ d.seq = pushSeq f 0) : Inv labels dims d [[]] := by
  obtain ⟨f, h1, h2, h3, h4⟩ := hseq
  have hps := pushSeq_spec f h1 h2 0
  refine ⟨hlink, hwf, ?_, by simp, by rw [h4]; exact hps.1, by rw [h4]; exact hps.2.1, ?_, by simp, by simp⟩
  · intro k l hk; rw [hview k l hk]; simp [Spec.column]
  · rw [h4, hps.2.2, h3]; simp [offsets, off]

theorem Inv.clear {labels : List String} {dims : List Nat} {d : SDS K} {S} (h : Inv labels dims d S) :
    Inv labels dims d.clear [[]] := by
  apply inv_init_of
  · exact h.link
  · exact DS.clear_wf d.ds h.wf true
  · intro k l hk
    have hv := h.view k l hk
    obtain ⟨f, hf, h1, h2⟩ := (view_some_iff d.ds l _).1 hv
    show (d.ds.clear true).view l = _
    unfold DS.view
    rw [DS.get_clear, hf]
    simp only at h1
    simp [Field.rows, h1]
  · exact ⟨{ d.seq with buf := [], fin := 0 }, ⟨by simp, by simp⟩, h.seqdim, by simp [Field.rows], rfl⟩

theorem cutField_spec (f : Field K) (hf : f.WF) (s e : Nat) (hse : s ≤ e) (hef : e ≤ f.fin) :
    (cutField f s e).WF ∧ (cutField f s e).dim = f.dim ∧
    (cutField f s e).rows = f.rows.take s ++ f.rows.drop e := by
  have hfin : ((f.fin : Int) - ((e : Int) - (s : Int))).toNat = f.fin - (e - s) := by omega
  have hb := hf.1
  refine ⟨⟨?_, ?_⟩, rfl, ?_⟩
  · simp only [cutField, hfin, sliceTo_ofNat, sliceFrom_ofNat, List.length_append, List.length_take, List.length_drop]
    omega
  · intro r hr
    simp only [cutField, sliceTo_ofNat, sliceFrom_ofNat, List.mem_append] at hr
    rcases hr with hr | hr
    · exact hf.2 r (List.mem_of_mem_take hr)
    · exact hf.2 r (List.mem_of_mem_drop hr)
  · simp only [cutField, Field.rows, hfin, sliceTo_ofNat, sliceFrom_ofNat]
    exact take_cut f.buf f.fin s e hse hef hb

theorem cutAll_spec (s e : Nat) (hse : s ≤ e) (ls : List String) (d : DS K) (hd : d.WF) (hnd : ls.Nodup)
    (hx : ∀ l ∈ ls, ∃ f, d.get l = some f ∧ e ≤ f.fin) :
    (cutAll d s e ls).2 = none ∧ (cutAll d s e ls).1.WF ∧ (cutAll d s e ls).1.link = d.link ∧
    (∀ q, (cutAll d s e ls).1.view q = if q ∈ ls then (d.view q).map (fun p => (p.1, p.2.take s ++ p.2.drop e)) else d.view q) := by
  induction ls generalizing d with
  | nil => simp [cutAll, hd]
  | cons l rest ih =>
    obtain ⟨f, hf, hef⟩ := hx l (by simp)
    have hw := hd.1 l f hf
    have hc := cutField_spec f hw s e hse hef
    simp only [List.nodup_cons] at hnd
    unfold cutAll
    rw [hf]
    simp only
    have := ih (d.put l (cutField f s e)) (DS.put_wf d hd l _ hc.1) hnd.2 (by
      intro q hq
      obtain ⟨g, hg, hge⟩ := hx q (by simp [hq])
      have hne : l ≠ q := fun hh => hnd.1 (hh ▸ hq)
      exact ⟨g, by rw [DS.get_put]; simp [hne, hg], hge⟩)
    refine ⟨this.1, this.2.1, this.2.2.1, ?_⟩
    intro q
    rw [this.2.2.2 q, DS.view_put]
    by_cases hq : q ∈ rest
    · have hne : l ≠ q := fun hh => hnd.1 (hh ▸ hq)
      simp [hq, hne]
    · by_cases hql : q = l
      · subst hql
        simp [hq, DS.view, hf, hc.2.1, hc.2.2]
      · simp [hq, hql, Ne.symm hql]

theorem off_lt_of_lt (S : Spec.Seqs K) (hne : ∀ s ∈ S.dropLast, s ≠ []) (i j : Nat) (hij : i < j) (hj : j < S.length) :
    off S i < off S j := by
  have h1 := off_succ S i (by omega)
  have h2 : off S (i + 1) ≤ off S j := off_mono S (by omega)
  have h3 : S[i] ≠ [] := by
    apply hne
    apply List.mem_of_getElem? (i := i)
    rw [List.dropLast_eq_take, List.getElem?_take_of_lt (by omega), List.getElem?_eq_getElem (by omega)]
  have : 0 < S[i].length := List.length_pos_iff.2 h3
  omega

theorem offsets_get (S : Spec.Seqs K) (j : Nat) : (offsets S)[j]? = if j < S.length then some (off S j) else none := by
  unfold offsets
  by_cases h : j < S.length <;> simp [h]

/-- The index bookkeeping of `removeSequence` (lines 135-141). -/
theorem shift_spec (S : Spec.Seqs K) (hne : ∀ s ∈ S.dropLast, s ≠ []) (i : Nat) (hi : i < S.length)
    (f : Field Int) (hf : f.WF) (hd : f.dim = 1) (hrows : f.rows = (offsets S).map (fun (n : Nat) => [(n : Int)]))
    (sequences : List Int) (hseq : sequences = (offsets S).map (fun (n : Nat) => (n : Int)))
    (shifted : List (List Int)) (hshift : shifted = (List.range f.buf.length).map (fun j =>
            match sequences[j]? with
            | some val =>
              if val > (off S i : Int) then ((f.buf[j]?).getD []).map (fun x => x - ((off S (i + 1) : Int) - (off S i : Int)))
              else (f.buf[j]?).getD []
            | none => (f.buf[j]?).getD []))
    (g : Field Int) (hg : g = { f with buf := sliceTo shifted i ++ sliceFrom shifted ((i : Int) + 1), fin := f.fin - 1 }) :
    g.WF ∧ g.dim = 1 ∧ g.rows = (offsets (S.eraseIdx i)).map (fun (n : Nat) => [(n : Int)]) := by
  have hfinS : f.fin = S.length := by rw [← hf.rows_length, hrows]; simp [offsets]
  have hfb := hf.1
  have hsl : shifted.length = f.buf.length := by rw [hshift]; simp
  have hbuf : ∀ j, j < S.length → f.buf[j]? = some [(off S j : Int)] := by
    intro j hj
    have h1 : f.rows[j]? = f.buf[j]? := by
      unfold Field.rows; rw [List.getElem?_take_of_lt (by omega)]
    rw [← h1, hrows, List.getElem?_map, offsets_get]; simp [hj]
  have hget : ∀ j, j < S.length → shifted[j]? = some [((if i < j then off S j - (S[i]'hi).length else off S j : Nat) : Int)] := by
    intro j hj
    have hs : sequences[j]? = some (off S j : Int) := by
      rw [hseq, List.getElem?_map, offsets_get]; simp [hj]
    rw [hshift, List.getElem?_map, List.getElem?_range (by omega)]
    simp only [Option.map_some, hs, hbuf j hj, Option.getD_some, List.map_cons, List.map_nil]
    have hsucc := off_succ S i hi
    by_cases hij : i < j
    · have h1 := off_lt_of_lt S hne i j hij hj
      have h2 : off S (i + 1) ≤ off S j := off_mono S (by omega)
      have h3 : ((off S j : Int) > (off S i : Int)) := by omega
      simp only [h3, hij, if_true, Option.some.injEq, List.cons.injEq, and_true]
      omega
    · have h1 : off S j ≤ off S i := off_mono S (by omega)
      have h3 : ¬ ((off S j : Int) > (off S i : Int)) := by omega
      simp only [h3, hij, if_false]
  have e1 : ((i : Int) + 1) = ((i + 1 : Nat) : Int) := by omega
  subst hg
  have hrowlen : ∀ r ∈ shifted, r.length = 1 := by
    intro r hr
    rw [hshift] at hr
    obtain ⟨j, hj, rfl⟩ := List.mem_map.1 hr
    simp only [List.mem_range] at hj
    have : ((f.buf[j]?).getD []).length = 1 := by
      rw [List.getElem?_eq_getElem hj]
      simp only [Option.getD_some]
      rw [← hd]; exact hf.2 _ (List.getElem_mem hj)
    cases sequences[j]? with
    | none => exact this
    | some v =>
      dsimp only
      split
      · simpa using this
      · exact this
  refine ⟨⟨?_, ?_⟩, hd, ?_⟩
  · simp only [e1, sliceTo_ofNat, sliceFrom_ofNat, List.length_append, List.length_take, List.length_drop]
    omega
  · intro r hr
    simp only [e1, sliceTo_ofNat, sliceFrom_ofNat, List.mem_append] at hr
    rw [hd]
    rcases hr with hr | hr
    · exact hrowlen r (List.mem_of_mem_take hr)
    · exact hrowlen r (List.mem_of_mem_drop hr)
  · simp only [Field.rows, e1, sliceTo_ofNat, sliceFrom_ofNat]
    have := take_cut shifted f.fin i (i + 1) (by omega) (by omega) (by omega)
    rw [show f.fin - (i + 1 - i) = f.fin - 1 by omega] at this
    rw [this, ← List.eraseIdx_eq_take_drop_succ]
    apply List.ext_getElem?
    intro j
    rw [List.getElem?_eraseIdx, List.getElem?_map, offsets_get, List.length_eraseIdx]
    rw [if_pos hi]
    by_cases hji : j < i
    · rw [if_pos hji, List.getElem?_take_of_lt (by omega), hget j (by omega)]
      have h1 : j < S.length - 1 := by omega
      have h2 : ¬ i < j := by omega
      simp only [h1, h2, if_true, if_false, Option.map_some]
      rw [off_eraseIdx_lt S i j (by omega)]
    · rw [if_neg hji]
      by_cases hjl : j < S.length - 1
      · rw [List.getElem?_take_of_lt (by omega), hget (j + 1) (by omega)]
        have h2 : i < j + 1 := by omega
        simp only [h2, hjl, if_true, Option.map_some]
        have := off_eraseIdx_ge S i j hi (by omega)
        congr 3
        omega
      · rw [List.getElem?_eq_none (by simp; omega)]
        simp [hjl]

theorem eraseIdx_dropLast_sub (S : Spec.Seqs K) (i : Nat) (hne : ∀ s ∈ S.dropLast, s ≠ []) :
    ∀ s ∈ (S.eraseIdx i).dropLast, s ≠ [] := by
  intro s hs
  apply hne
  by_cases hi : i < S.length
  · rw [List.dropLast_eq_take] at hs ⊢
    rw [List.length_eraseIdx, if_pos hi] at hs
    obtain ⟨j, hj⟩ := List.getElem?_of_mem hs
    by_cases hjl : j < S.length - 1 - 1
    · rw [List.getElem?_take_of_lt hjl, List.getElem?_eraseIdx] at hj
      split at hj
      · exact List.mem_of_getElem? (i := j) (by rw [List.getElem?_take_of_lt (by omega)]; exact hj)
      · exact List.mem_of_getElem? (i := j + 1) (by rw [List.getElem?_take_of_lt (by omega)]; exact hj)
    · rw [List.getElem?_eq_none (by simp; omega)] at hj; simp at hj
  · rw [List.eraseIdx_of_length_le (by omega)] at hs; exact hs

theorem Inv.remove {labels : List String} {dims : List Nat} {d : SDS K} {S} (h : Inv labels dims d S)
    (hl : labels ≠ []) (hnd : labels.Nodup) (i : Nat) :
    (d.removeSequence i).2 = (Spec.step S (.removeSequence i)).2 ∧
    Inv labels dims (d.removeSequence i).1 (Spec.step S (.removeSequence i)).1 := by
  have hp : 0 < S.length := List.length_pos_iff.2 h.ne
  unfold SDS.removeSequence
  simp only [h.numSeq, Spec.step]
  by_cases hi : i < S.length
  · have h1 : ¬ ((i : Int) ≥ (S.length : Int)) := by omega
    simp only [h1, if_false, hi, if_true, h.seqs_get i hi]
    -- the end of the removed sequence
    have hend : (if decide ((i : Int) = (S.length : Int) - 1) = true then d.ds.getLength.map (fun (n : Nat) => (n : Int))
        else getIdx d.seqs ((i : Int) + 1)) = some (off S (i + 1) : Int) := by
      by_cases hlast : i + 1 = S.length
      · have : (i : Int) = (S.length : Int) - 1 := by omega
        simp only [this, decide_true, if_true, h.getLength hl, hlast, off_length]
        rfl
      · have : ¬ (i : Int) = (S.length : Int) - 1 := by omega
        simp only [this, decide_false]
        have := h.seqs_get (i + 1) (by omega)
        simp only [Int.natCast_add, Int.cast_ofNat_Int] at this
        simpa using this
    rw [hend]
    simp only
    have hsucc := off_succ S i hi
    have hcut := cutAll_spec (off S i) (off S (i + 1)) (by omega) d.ds.link d.ds h.wf (by rw [h.link]; exact hnd) (by
      intro l hll
      obtain ⟨f, hf⟩ := h.wf.2 l hll
      refine ⟨f, hf, ?_⟩
      have := h.lock l hll
      simp only [DS.getField, hf, Option.map_some, Option.some.injEq] at this
      rw [(h.wf.1 l f hf).rows_length] at this
      rw [this]; exact off_le S (i + 1))
    cases hca : cutAll d.ds (off S i : Int) (off S (i + 1) : Int) d.ds.link with
    | mk ds1 e =>
      rw [hca] at hcut
      obtain ⟨he, hw1, hlink1, hview1⟩ := hcut
      simp only at he hw1 hlink1 hview1
      subst he
      simp only
      generalize hsh : (List.range d.seq.buf.length).map (fun j =>
            match d.seqs[j]? with
            | some val =>
              if val > (off S i : Int) then ((d.seq.buf[j]?).getD []).map (fun x => x - ((off S (i + 1) : Int) - (off S i : Int)))
              else (d.seq.buf[j]?).getD []
            | none => (d.seq.buf[j]?).getD []) = shifted
      generalize hg : ({ d.seq with buf := sliceTo shifted (i : Int) ++ sliceFrom shifted ((i : Int) + 1), fin := d.seq.fin - 1 } : Field Int) = g
      obtain ⟨hgw, hgd, hgr⟩ := shift_spec S h.nonempty i hi d.seq h.seqwf h.seqdim h.seqrows d.seqs h.seqs_eq shifted hsh.symm g hg.symm
      have hflat : (S.eraseIdx i).flatten = S.flatten.take (off S i) ++ S.flatten.drop (off S (i + 1)) := by
        rw [take_flatten, drop_flatten, List.eraseIdx_eq_take_drop_succ, List.flatten_append]
      have hv : ∀ (k : Nat) l, labels[k]? = some l → ds1.view l = some ((dims[k]?).getD 0, Spec.column k (S.eraseIdx i).flatten) := by
        intro k l hk
        rw [hview1 l, h.link, if_pos (List.mem_of_getElem? hk), h.view k l hk, hflat]
        simp [Spec.column]
      have hwid : ∀ s ∈ (S.eraseIdx i).flatten, s.map List.length = dims := by
        intro s hs
        rw [hflat] at hs
        rcases List.mem_append.1 hs with hs | hs
        · exact h.wid s (List.mem_of_mem_take hs)
        · exact h.wid s (List.mem_of_mem_drop hs)
      have key : ∀ (idx cur : Int), S.eraseIdx i ≠ [] →
          Inv labels dims { ds := { ds1 with index := idx }, seq := g, currentSeq := cur } (S.eraseIdx i) := by
        intro idx cur hne'
        exact ⟨hlink1.trans h.link, DS.WF_of_eq (e := ds1) rfl (fun _ hh => hh) hw1, hv, hwid, hgw, hgd, hgr, hne',
          eraseIdx_dropLast_sub S i h.nonempty⟩
      have hlen1 : ds1.getLength = some (S.eraseIdx i).flatten.length := by
        refine getLength_of_lockstep ds1 hw1 (by rw [hlink1, h.link]; exact hl) _ ?_
        intro l hll
        rw [hlink1, h.link] at hll
        obtain ⟨k, hk⟩ := List.getElem?_of_mem hll
        rw [DS.getField_eq_view, hv k l hk]; simp [column_length]
      by_cases hlast : (i : Int) = (S.length : Int) - 1
      · simp only [hlast, decide_true, if_true, hlen1]
        by_cases hz : (S.eraseIdx i).flatten.length = 0
        · simp only [hz, if_true]
          have hnil : S.eraseIdx i = [] := by
            cases hE : S.eraseIdx i with
            | nil => rfl
            | cons x rest =>
              exfalso
              have hx : x ∈ S.dropLast := by
                have hmem : x ∈ S.eraseIdx i := by rw [hE]; simp
                rw [List.eraseIdx_eq_take_drop_succ, List.drop_eq_nil_of_le (by omega), List.append_nil] at hmem
                rw [List.dropLast_eq_take, show S.length - 1 = i by omega]; exact hmem
              have := h.nonempty x hx
              rw [hE] at hz
              have hz' := List.length_eq_zero_iff.1 hz
              simp only [List.flatten_cons, List.append_eq_nil_iff] at hz'
              exact this hz'.1
          simp only [hnil, if_true, true_and]
          apply inv_init_of
          · exact hlink1.trans h.link
          · exact DS.clear_wf _ (DS.WF_of_eq (e := ds1) rfl (fun _ hh => hh) hw1) true
          · intro k l hk
            obtain ⟨f, hf, h1, h2⟩ := (view_some_iff ds1 l _).1 (hv k l hk)
            simp only [SDS.clear]
            unfold DS.view
            rw [DS.get_clear]
            have : ({ ds1 with index := (S.eraseIdx i).flatten.length } : DS K).get l = some f := hf
            have hf' : ∀ idx : Int, ({ ds1 with index := idx } : DS K).get l = some f := fun _ => hf
            rw [hf']
            simp only at h1
            simp [Field.rows, h1]
          · exact ⟨{ g with buf := [], fin := 0 }, ⟨by simp, by simp⟩, hgd, by simp [Field.rows], rfl⟩
        · simp only [hz, if_false]
          have hne' : S.eraseIdx i ≠ [] := by
            intro hh; apply hz; rw [hh]; rfl
          simp only [hne', if_false, true_and]
          exact key _ _ hne'
      · have hne' : S.eraseIdx i ≠ [] := by
          intro hh
          have := congrArg List.length hh
          rw [List.length_eraseIdx, if_pos hi] at this
          simp at this; omega
        have hI := key ds1.index d.currentSeq hne'
        have hgi := hI.seqs_get i (by rw [List.length_eraseIdx, if_pos hi]; omega)
        simp only [hlast, decide_false, hgi, hne', if_false, true_and]
        simp only [Bool.false_eq_true, if_false, true_and]
        exact key _ _ hne'
  · have h1 : ((i : Int) ≥ (S.length : Int)) := by omega
    simp [h1, hi, h]

/-! #### Histories -/

theorem Inv.index {labels dims} {d : SDS K} {S} (h : Inv labels dims d S) (i : Int) :
    Inv labels dims { d with ds := { d.ds with index := i } } S :=
  ⟨h.link, DS.WF_of_eq (e := d.ds) rfl (fun _ hh => hh) h.wf, h.view, h.wid, h.seqwf, h.seqdim, h.seqrows, h.ne, h.nonempty⟩

/-- Samples offered to `addSample` have the right shape. -/
def okOp (dims : List Nat) : Op K → Bool
  | .add s => Spec.okSample dims s
  | _ => true

theorem step_inv [Zero K] {labels : List String} {dims : List Nat} {d : SDS K} {S} (h : Inv labels dims d S)
    (hl : labels ≠ []) (hnd : labels.Nodup) (hdl : dims.length = labels.length) (op : Op K) (hop : okOp dims op = true) :
    Inv labels dims (step d op).1 (Spec.step S op).1 := by
  cases op with
  | add s => exact (h.add hnd hdl s hop).2
  | newSequence => exact (h.newSequence hl).2
  | removeSequence i => exact (h.remove hl hnd i).2
  | clear => exact h.clear
  | getLinked i =>
    have hg := d.ds.getLinked_fst_fields i
    have e : (step d (.getLinked i)).1 = { d with ds := (d.ds.getLinked i).1 } := by
      simp only [step]; cases hgg : d.ds.getLinked i with
      | mk a b => cases b <;> rfl
    rw [e]
    simp only [Spec.step]
    refine ⟨hg.2.trans h.link, DS.WF_of_eq hg.1 (fun q hq => hg.2 ▸ hq) h.wf, ?_, h.wid, h.seqwf, h.seqdim, h.seqrows, h.ne, h.nonempty⟩
    intro k l hk
    rw [← h.view k l hk]; exact DS.view_of_fields_eq hg.1 l
  | gotoSequence i =>
    simp only [step, Spec.step, SDS.gotoSequence]
    cases getIdx d.seqs i with
    | none => exact h
    | some s => exact h.index s

theorem dget_init (fields : List (String × Nat)) (hnd : (fields.map Prod.fst).Nodup) (k : Nat) (p : String × Nat)
    (hk : fields[k]? = some p) :
    dget (fields.map (fun p => (p.1, ({ dim := p.2, buf := [], fin := 0 } : Field K)))) p.1 = some { dim := p.2, buf := [], fin := 0 } := by
  induction fields generalizing k with
  | nil => simp at hk
  | cons q rest ih =>
    simp only [List.map_cons, List.nodup_cons] at hnd
    cases k with
    | zero => simp at hk; subst hk; simp [dget]
    | succ k =>
      simp at hk
      have hmem : p.1 ∈ rest.map Prod.fst := List.mem_map_of_mem (List.mem_of_getElem? hk)
      have hne : q.1 ≠ p.1 := fun hh => hnd.1 (hh ▸ hmem)
      simp [dget, hne]
      exact ih hnd.2 k hk

theorem inv_init (fields : List (String × Nat)) (hnd : (fields.map Prod.fst).Nodup) :
    Inv (fields.map Prod.fst) (fields.map Prod.snd) (SDS.init fields : SDS K) Spec.init := by
  apply inv_init_of
  · rfl
  · constructor
    · intro l f hf
      simp only [SDS.init, DS.get] at hf
      have : ∀ (xs : List (String × Nat)), dget (xs.map (fun p => (p.1, ({ dim := p.2, buf := [], fin := 0 } : Field K)))) l = some f → f.WF := by
        intro xs
        induction xs with
        | nil => simp [dget]
        | cons q rest ih =>
          simp only [List.map_cons, dget]
          split
          · intro hh; simp at hh; subst hh; exact ⟨by simp, by simp⟩
          · exact ih
      exact this fields hf
    · intro l hl'
      simp only [SDS.init] at hl'
      obtain ⟨k, hk⟩ := List.getElem?_of_mem hl'
      rw [List.getElem?_map] at hk
      simp only [Option.map_eq_some_iff] at hk
      obtain ⟨p, hp, rfl⟩ := hk
      exact ⟨_, dget_init fields hnd k p hp⟩
  · intro k l hk
    rw [List.getElem?_map] at hk
    simp only [Option.map_eq_some_iff] at hk
    obtain ⟨p, hp, rfl⟩ := hk
    simp only [DS.view, DS.get, SDS.init]
    rw [dget_init fields hnd k p hp]
    simp [Field.rows, hp]
  · exact ⟨{ dim := 1, buf := [], fin := 0 }, ⟨by simp, by simp⟩, rfl, rfl, rfl⟩

theorem run_inv [Zero K] {labels : List String} {dims : List Nat} (ops : List (Op K)) {d : SDS K} {S} (h : Inv labels dims d S)
    (hl : labels ≠ []) (hnd : labels.Nodup) (hdl : dims.length = labels.length) (hop : ∀ op ∈ ops, okOp dims op = true) :
    Inv labels dims (run d ops) (Spec.run S ops) := by
  induction ops generalizing d S with
  | nil => exact h
  | cons op ops ih =>
    exact ih (step_inv h hl hnd hdl op (hop op (by simp))) (fun o ho => hop o (by simp [ho]))

end Verif.Sequential
