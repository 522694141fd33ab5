import Verif.Lemmas.Sequential
/- From the invariant to the observable behaviour; splitting. -/
namespace Verif.Sequential
open Verif.Py Verif.DataSet

variable {K : Type}

theorem getSequence_go {labels dims} {d : SDS K} {S} (h : Inv labels dims d S) (i : Nat) (hi : i < S.length)
    (a : Nat) (ls : List String) (hls : ∀ j, ls[j]? = labels[a + j]?) :
    SDS.getSequence.go d i ls = .ok ((List.range ls.length).map (fun k => Spec.column (a + k) S[i])) := by
  induction ls generalizing a with
  | nil => rfl
  | cons l rest ih =>
    unfold SDS.getSequence.go
    have h0 := hls 0
    simp only [List.getElem?_cons_zero, Nat.add_zero] at h0
    rw [h.getSequenceField i hi a l h0.symm]
    simp only
    rw [ih (a + 1) (by intro j; have := hls (j + 1); simp only [List.getElem?_cons_succ] at this; rw [this]; congr 1; omega)]
    simp only [List.length_cons, List.range_succ_eq_map, List.map_cons, List.map_map, Nat.add_zero]
    congr 2
    apply List.map_congr_left
    intro k _
    simp only [Function.comp]
    congr 1; omega

theorem Inv.shows {labels : List String} {dims} {d : SDS K} {S} (h : Inv labels dims d S) (hl : labels ≠ []) : Spec.Shows d S := by
  refine ⟨h.numSeq, ?_, ?_, ?_, h.getLength hl⟩
  · intro i hi
    refine ⟨?_, h.getSequenceLength hl i hi⟩
    unfold SDS.getSequence
    rw [h.link, getSequence_go h i hi 0 labels (by intro j; simp)]
    simp
  · intro i hi
    obtain ⟨l, rest, hlr⟩ : ∃ l rest, labels = l :: rest := by
      cases labels with
      | nil => exact absurd rfl hl
      | cons l rest => exact ⟨l, rest, rfl⟩
    have := h.outOfRange i hi 0 l (by rw [hlr]; rfl)
    refine ⟨?_, this.2⟩
    unfold SDS.getSequence
    rw [h.link, hlr]
    unfold SDS.getSequence.go
    rw [this.1]
  · intro k l hk
    rw [h.link] at hk
    exact h.getField k l hk

theorem zipStar_columns {n : Nat} (hn : 0 < n) (samples : List (Spec.Sample K)) (hs : ∀ s ∈ samples, s.length = n) :
    zipStar ((List.range n).map (fun k => Spec.column k samples)) = samples := by
  obtain ⟨m, rfl⟩ : ∃ m, n = m + 1 := ⟨n - 1, by omega⟩
  unfold zipStar
  rw [List.range_succ_eq_map]
  simp only [List.map_cons, List.map_map]
  have hmin : ∀ (ks : List Nat), (ks.map (List.length ∘ (fun k => Spec.column k samples) ∘ Nat.succ)).foldl min (Spec.column 0 samples).length = samples.length := by
    intro ks
    rw [column_length]
    induction ks with
    | nil => rfl
    | cons k ks ih => simp [column_length, ih]
  rw [hmin]
  apply List.ext_getElem?
  intro j
  by_cases hj : j < samples.length
  · rw [List.getElem?_map, List.getElem?_range hj, List.getElem?_eq_getElem hj]
    simp only [Option.map_some, Option.some.injEq]
    have hsl : samples[j].length = m + 1 := hs _ (List.getElem_mem hj)
    have hcons : (Spec.column 0 samples :: List.map ((fun k => Spec.column k samples) ∘ Nat.succ) (List.range m))
        = (List.range (m + 1)).map (fun k => Spec.column k samples) := by
      rw [List.range_succ_eq_map]; simp
    rw [hcons, List.filterMap_map]
    have : (List.range (m + 1)).filterMap ((fun col : List (List K) => col[j]?) ∘ fun k => Spec.column k samples)
        = (List.range (m + 1)).map (fun k => (samples[j][k]?).getD []) := by
      rw [← List.filterMap_eq_map]
      congr 1
      funext k
      simp [Spec.column, hj]
    rw [this]
    apply List.ext_getElem
    · simp [hsl]
    · intro k h1 h2
      simp [h2]
  · rw [List.getElem?_eq_none (by simp; omega), List.getElem?_eq_none (by omega)]

theorem Inv.getSamples {labels : List String} {dims} {d : SDS K} {S} (h : Inv labels dims d S) (hl : labels ≠ [])
    (hdl : dims.length = labels.length) (i : Nat) (hi : i < S.length) : d.getSamples i = .ok S[i] := by
  unfold SDS.getSamples
  rw [((h.shows hl).2.1 i hi).1]
  simp only
  rw [h.link]
  congr 1
  apply zipStar_columns (List.length_pos_iff.2 hl)
  intro s hs
  have : s ∈ S.flatten := List.mem_flatten.2 ⟨S[i], List.getElem_mem hi, hs⟩
  have := congrArg List.length (h.wid s this)
  simp at this; omega

/-- Sequences after adding the samples of one sequence. -/
theorem addSamples_inv [Zero K] {labels : List String} {dims : List Nat} (hnd : labels.Nodup) (hdl : dims.length = labels.length)
    (samples : List (Spec.Sample K)) (hs : ∀ s ∈ samples, s.map List.length = dims) {d : SDS K} {S : Spec.Seqs K} (h : Inv labels dims d S) :
    (SDS.addSequence.addSamples d samples).2 = none ∧
    Inv labels dims (SDS.addSequence.addSamples d samples).1 (S.dropLast ++ [S.getLastD [] ++ samples]) := by
  induction samples generalizing d S with
  | nil =>
    refine ⟨rfl, ?_⟩
    unfold SDS.addSequence.addSamples
    have : S.dropLast ++ [S.getLastD [] ++ []] = S := by
      have e : S.getLastD [] = S.getLast h.ne := by
        rw [List.getLastD_eq_getLast?, List.getLast?_eq_some_getLast h.ne]; rfl
      rw [e, List.append_nil, List.dropLast_concat_getLast h.ne]
    rw [this]; exact h
  | cons s rest ih =>
    have h1 := h.add hnd hdl s (by simp [Spec.okSample, hs s (by simp)])
    unfold SDS.addSequence.addSamples
    cases hst : step d (.add s) with
    | mk d1 e =>
      rw [hst] at h1
      simp only at h1
      obtain ⟨he, h1⟩ := h1
      subst he
      simp only
      have := ih (fun x hx => hs x (by simp [hx])) h1
      simp only [Spec.addLast, List.dropLast_concat] at this
      have e2 : (S.dropLast ++ [S.getLastD [] ++ [s]]).getLastD [] = S.getLastD [] ++ [s] := by
        rw [List.getLastD_eq_getLast?]; simp
      rw [e2, List.append_assoc] at this
      exact this

open Classical in
theorem addSequence_inv [Zero K] {labels : List String} {dims : List Nat} (hl : labels ≠ []) (hnd : labels.Nodup)
    (hdl : dims.length = labels.length)
    (samples : List (Spec.Sample K)) (hs : ∀ s ∈ samples, s.map List.length = dims) {d : SDS K} {S : Spec.Seqs K}
    (h : Inv labels dims d S) (hall : S = [[]] ∨ ∀ x ∈ S, x ≠ []) :
    (d.addSequence samples).2 = none ∧
    Inv labels dims (d.addSequence samples).1 (if S = [[]] then [samples] else S ++ [samples]) := by
  have hN := h.newSequence hl
  unfold SDS.addSequence
  have hd1 : d.newSequence.2 = none ∧ Inv labels dims d.newSequence.1 (if S = [[]] then [[]] else S ++ [[]]) := by
    rcases hall with rfl | hall
    · simpa [Spec.step] using hN
    · have hne : S.flatten ≠ [] := by
        intro h0
        obtain ⟨x, hx⟩ : ∃ x, x ∈ S := by
          cases hS : S with
          | nil => exact absurd hS h.ne
          | cons x r => exact ⟨x, by simp⟩
        exact hall x hx (List.flatten_eq_nil_iff.1 h0 x hx)
      have hne2 : S ≠ [[]] := by rintro rfl; exact hne rfl
      have hlast : S.getLastD [] ≠ [] := by
        have e : S.getLastD [] = S.getLast h.ne := by
          rw [List.getLastD_eq_getLast?, List.getLast?_eq_some_getLast h.ne]; rfl
        rw [e]; exact hall _ (List.getLast_mem h.ne)
      simp only [Spec.step, hne, hlast, hne2, if_false] at hN ⊢
      exact hN
  cases hn : d.newSequence with
  | mk d1 e =>
    rw [hn] at hd1
    simp only at hd1
    obtain ⟨he, hd1⟩ := hd1
    subst he
    simp only
    have := addSamples_inv hnd hdl samples hs hd1
    by_cases hS : S = [[]]
    · simp only [hS, if_true] at this ⊢
      simpa using this
    · simp only [hS, if_false] at this ⊢
      have e : (S ++ [[]]).getLastD [] = [] := by rw [List.getLastD_eq_getLast?]; simp
      rw [e, List.dropLast_concat] at this
      simpa using this

/-- What a fresh dataset holds after receiving the sequences `X` one by one. -/
def received (X : Spec.Seqs K) : Spec.Seqs K := if X.isEmpty then [[]] else X

open Classical in
theorem splitLoop_inv [Zero K] {labels : List String} {dims : List Nat} (hl : labels ≠ []) (hnd : labels.Nodup)
    (hdl : dims.length = labels.length) {src : SDS K} {S : Spec.Seqs K} (hsrc : Inv labels dims src S)
    (leftIdx : List Nat) (n : Nat) (a : Nat) (han : a + n = S.length)
    (left right : SDS K) (X Y : Spec.Seqs K) (hX : Inv labels dims left (received X)) (hY : Inv labels dims right (received Y))
    (hXn : (∀ x ∈ X, x ≠ [])) (hYn : (∀ x ∈ Y, x ≠ [])) :
    ∃ l r, splitLoop src leftIdx left right (List.range' a n) = .ok (l, r) ∧
      Inv labels dims l (received (X ++ (((S.drop a).zipIdx a).filter (fun x => decide (x.2 ∈ leftIdx))).map Prod.fst)) ∧
      Inv labels dims r (received (Y ++ (((S.drop a).zipIdx a).filter (fun x => !decide (x.2 ∈ leftIdx))).map Prod.fst)) := by
  induction n generalizing a left right X Y with
  | zero =>
    refine ⟨left, right, rfl, ?_, ?_⟩
    · rw [List.drop_eq_nil_of_le (by omega)]; simpa using hX
    · rw [List.drop_eq_nil_of_le (by omega)]; simpa using hY
  | succ n ih =>
    have ha : a < S.length := by omega
    rw [List.range'_succ, List.drop_eq_getElem_cons ha]
    unfold splitLoop
    rw [hsrc.getSamples hl hdl a ha]
    simp only [List.zipIdx_cons]
    have hsw : ∀ s ∈ S[a], s.map List.length = dims := fun s hs =>
      hsrc.wid s (List.mem_flatten.2 ⟨S[a], List.getElem_mem ha, hs⟩)
    have hrec : ∀ (Z : Spec.Seqs K), (∀ x ∈ Z, x ≠ []) → (received Z = [[]] ∨ ∀ x ∈ received Z, x ≠ []) ∧
        ∀ x, (if received Z = [[]] then [x] else received Z ++ [x]) = received (Z ++ [x]) := by
      intro Z hZ
      unfold received
      by_cases hZ0 : Z = []
      · simp [hZ0]
      · have h1 : Z ≠ [[]] := by rintro rfl; exact hZ [] (by simp) rfl
        have h2 : Z.isEmpty = false := by simpa using hZ0
        have h3 : ∀ x, (Z ++ [x]).isEmpty = false := by simp
        simp only [h2, h3, h1, if_false, Bool.false_eq_true]
        exact ⟨Or.inr hZ, fun _ => trivial⟩
    by_cases hlastn : n = 0
    · -- last sequence: it may be empty
      subst hlastn
      have hdrop : S.drop (a + 1) = [] := List.drop_eq_nil_of_le (by omega)
      by_cases hmem : a ∈ leftIdx
      · simp only [hmem, if_true]
        have := addSequence_inv hl hnd hdl S[a] hsw hX (hrec X hXn).1
        cases hadd : left.addSequence S[a] with
        | mk l1 e =>
          rw [hadd] at this
          simp only at this
          obtain ⟨he, hi⟩ := this
          subst he
          rw [(hrec X hXn).2] at hi
          refine ⟨l1, right, rfl, ?_, ?_⟩
          · rw [hdrop]; simpa [hmem] using hi
          · rw [hdrop]; simpa [hmem] using hY
      · simp only [hmem, if_false]
        have := addSequence_inv hl hnd hdl S[a] hsw hY (hrec Y hYn).1
        cases hadd : right.addSequence S[a] with
        | mk l1 e =>
          rw [hadd] at this
          simp only at this
          obtain ⟨he, hi⟩ := this
          subst he
          rw [(hrec Y hYn).2] at hi
          refine ⟨left, l1, rfl, ?_, ?_⟩
          · rw [hdrop]; simpa [hmem] using hX
          · rw [hdrop]; simpa [hmem] using hi
    · have hne : S[a] ≠ [] := by
        apply hsrc.nonempty
        apply List.mem_of_getElem? (i := a)
        rw [List.dropLast_eq_take, List.getElem?_take_of_lt (by omega), List.getElem?_eq_getElem ha]
      have happ : ∀ (Z : Spec.Seqs K), (∀ x ∈ Z, x ≠ []) → ∀ x ∈ Z ++ [S[a]], x ≠ [] := by
        intro Z hZ x hx
        rcases List.mem_append.1 hx with hx | hx
        · exact hZ x hx
        · simp at hx; subst hx; exact hne
      by_cases hmem : a ∈ leftIdx
      · simp only [hmem, if_true]
        have := addSequence_inv hl hnd hdl S[a] hsw hX (hrec X hXn).1
        cases hadd : left.addSequence S[a] with
        | mk l1 e =>
          rw [hadd] at this
          simp only at this
          obtain ⟨he, hi⟩ := this
          subst he
          rw [(hrec X hXn).2] at hi
          obtain ⟨l, r, h1, h2, h3⟩ := ih (a + 1) (by omega) l1 right (X ++ [S[a]]) Y hi hY (happ X hXn) hYn
          refine ⟨l, r, h1, ?_, ?_⟩
          · simpa [hmem] using h2
          · simpa [hmem] using h3
      · simp only [hmem, if_false]
        have := addSequence_inv hl hnd hdl S[a] hsw hY (hrec Y hYn).1
        cases hadd : right.addSequence S[a] with
        | mk l1 e =>
          rw [hadd] at this
          simp only at this
          obtain ⟨he, hi⟩ := this
          subst he
          rw [(hrec Y hYn).2] at hi
          obtain ⟨l, r, h1, h2, h3⟩ := ih (a + 1) (by omega) left l1 X (Y ++ [S[a]]) hX hi hXn (happ Y hYn)
          refine ⟨l, r, h1, ?_, ?_⟩
          · simpa [hmem] using h2
          · simpa [hmem] using h3

theorem split_inv [Zero K] {labels : List String} {dims : List Nat} (hl : labels ≠ []) (hnd : labels.Nodup)
    (hdl : dims.length = labels.length) {src : SDS K} {S : Spec.Seqs K} (hsrc : Inv labels dims src S)
    (leftIdx : List Nat) :
    ∃ l r, src.split leftIdx = .ok (l, r) ∧
      Inv labels dims l (received (Spec.select (fun i => decide (i ∈ leftIdx)) S)) ∧
      Inv labels dims r (received (Spec.select (fun i => !decide (i ∈ leftIdx)) S)) := by
  unfold SDS.split
  rw [hsrc.numSeq, List.range_eq_range']
  have := splitLoop_inv hl hnd hdl hsrc leftIdx S.length 0 (by omega) src.clear src.clear [] []
    (by simpa [received] using hsrc.clear) (by simpa [received] using hsrc.clear) (by simp) (by simp)
  simpa [Spec.select] using this

end Verif.Sequential
