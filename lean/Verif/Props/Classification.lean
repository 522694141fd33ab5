import Verif.Lemmas.Classification
/-
Property theorems C08, C09, C54 (pybrain/datasets/classification.py).
-/
namespace Verif.Props
open Verif.DataSet Verif.Py Verif.Classification

variable {I : Type}

/-- The dataset holds scalar integer labels `labels`, one per input. -/
def HasLabels (d : CDS I) (labels : List Int) : Prop :=
  d.outdim = 1 ∧ d.target = labels.map (fun (l : Int) => [(l : Rat)]) ∧ d.input.length = labels.length

/-! ### C08  One-of-many conversion is reversible -/

/-- **C08, round trip.** If all labels lie in `0..nClasses-1`, then for all bounds the conversion
succeeds, leaves the inputs alone, and converting back restores the targets. -/
theorem C08_roundtrip (d : CDS I) (labels : List Int) (h : HasLabels d labels) (hn : 0 < d.nClasses)
    (hl : ∀ l ∈ labels, 0 ≤ l ∧ l < d.nClasses) (lo hi : Num) :
    (d.toOneOfMany lo hi).2 = none ∧ (d.toOneOfMany lo hi).1.input = d.input ∧
    (d.toOneOfMany lo hi).1.toClassNb.target = d.target ∧
    (d.toOneOfMany lo hi).1.toClassNb.outdim = d.outdim ∧
    (d.toOneOfMany lo hi).1.toClassNb.input = d.input := by
  obtain ⟨h1, h2, h3⟩ := h
  rw [toOneOfMany_core d labels h2 h1 hn hl lo hi]
  refine ⟨rfl, rfl, ?_, ?_, rfl⟩
  · simp [CDS.toClassNb, h2]
  · simp [CDS.toClassNb, h1]

/-- **C08, shape (partial).** When the upper bound survives storage in the array the conversion creates
(an integer array if the lower bound is an `int`), every row has the upper bound exactly at the class
index and the lower bound elsewhere, and taking the position of the largest entry of each row gives the
labels back. Missing: fractional upper bound with integer lower bound, where the claim is false. -/
theorem C08_rows_partial (d : CDS I) (labels : List Int) (h : HasLabels d labels) (hn : 0 < d.nClasses)
    (hl : ∀ l ∈ labels, 0 ≤ l ∧ l < d.nClasses) (lo hi : Num) (hs : stored lo hi = hi.val) :
    (d.toOneOfMany lo hi).1.target = labels.map (fun l => Classification.Spec.oneHot d.nClasses.toNat lo.val hi.val l.toNat) ∧
    (lo.val < hi.val → oneOfManyToClasses (d.toOneOfMany lo hi).1.target = labels.map Int.toNat) := by
  obtain ⟨h1, h2, h3⟩ := h
  rw [toOneOfMany_core d labels h2 h1 hn hl lo hi, hs]
  refine ⟨rfl, ?_⟩
  intro hlt
  unfold oneOfManyToClasses
  rw [List.map_map]
  apply List.map_congr_left
  intro l hlm
  have := hl l hlm
  exact argmax_oneHot _ _ hlt _ _ (by omega)

/-- the hypothesis on the bounds holds for two integers and for a float lower bound -/
example (a b : Int) : stored (.int a) (.int b) = (Num.int b).val := by
  simp [stored, Num.val, pyInt_int]
example (a : Rat) (b : Num) : stored (.float a) b = b.val := rfl

/-- four samples with labels 2, 0, 1, 2 and `nb_classes = 3` -/
def c08 : CDS Nat := CDS.ofData [(10, 2), (11, 0), (12, 1), (13, 2)] 3

example : HasLabels c08 [2, 0, 1, 2] ∧ 0 < c08.nClasses ∧ (∀ l ∈ [2, 0, 1, 2], (0 : Int) ≤ l ∧ l < c08.nClasses) := by
  unfold HasLabels; decide +kernel

/-- **C08, unset number of classes.** With `nb_classes = 0` the number of classes is the number of
distinct labels; if the labels lie below it the conversion behaves as if it had been given. -/
theorem C08_unset_classes (d : CDS I) (labels : List Int) (h : HasLabels d labels) (hn : d.nClasses ≤ 0)
    (hne : labels ≠ []) (hc : d.cls = [] ∨ d.cls = labels.map (fun (l : Int) => (l : Rat)))
    (hl : ∀ l ∈ labels, 0 ≤ l ∧ l < (distinctCount (labels.map (fun (l : Int) => (l : Rat))) : Int)) (lo hi : Num) :
    d.toOneOfMany lo hi = { d with cls := labels.map (fun (l : Int) => (l : Rat)), nClasses := distinctCount (labels.map (fun (l : Int) => (l : Rat))) }.toOneOfMany lo hi := by
  obtain ⟨h1, h2, h3⟩ := h
  have hk : 0 < (distinctCount (labels.map (fun (l : Int) => (l : Rat))) : Int) := by
    cases labels with
    | nil => exact absurd rfl hne
    | cons l ls => have := hl l (by simp); omega
  have hac : d.assignClasses = ({ d with cls := labels.map (fun (l : Int) => (l : Rat)), nClasses := distinctCount (labels.map (fun (l : Int) => (l : Rat))) }, none) := by
    have hpos : 0 < labels.length := List.length_pos_iff.2 hne
    have hpi : (fun v : Rat => ((pyInt v : Int) : Rat)) ∘ (fun (l : Int) => (l : Rat)) = fun (l : Int) => (l : Rat) := by
      funext l; simp [pyInt_int]
    unfold CDS.assignClasses
    rcases hc with hc | hc
    · have hlt : d.cls.length < d.target.length := by rw [hc, h2]; simpa using hpos
      simp only [h1, hlt, if_true, targetCol_labels labels d h2, hn, List.map_map, hpi]
      simp
    · have hlt : ¬ d.cls.length < d.target.length := by rw [hc, h2]; simp
      simp only [hlt, if_false, hn, if_true, false_and]
      simp only [hc]
  have hk' : ¬ (distinctCount (labels.map (fun (l : Int) => (l : Rat))) : Int) ≤ 0 := by omega
  unfold CDS.toOneOfMany
  rw [hac]
  simp only [h1, ne_eq, not_true_eq_false, if_false, hn, if_true, hk']

/-- non-vacuity: two samples added to a fresh dataset with unknown number of classes -/
def c08u : CDS Nat := ((CDS.fresh 0 : CDS Nat).addSample 5 [1]).1.addSample 6 [0] |>.1

example : HasLabels c08u [1, 0] ∧ c08u.nClasses ≤ 0 ∧ c08u.cls = [] ∧
    (∀ l ∈ [1, 0], 0 ≤ l ∧ l < (distinctCount ([1, 0].map (fun (l : Int) => (l : Rat))) : Int)) := by
  unfold HasLabels; decide +kernel

/-- **C08, negation.** With bounds `(0, 0.5)` the upper bound is truncated to 0: no entry of any row
is the upper bound. -/
theorem C08_negation_fractional_bound :
    (c08.toOneOfMany (.int 0) (.float (1/2))).2 = none ∧
    (c08.toOneOfMany (.int 0) (.float (1/2))).1.target = List.replicate 4 [0, 0, 0] := by decide +kernel

/-! ### C09  splitByClass and the class histogram -/

/-- **C09 (partial).** When the class field is up to date (one class per sample), `splitByClass c`
returns exactly the samples of class `c` and exactly the others, both in the original order, inputs,
targets and classes together. Missing: a class field that lags behind the samples (negation below). -/
theorem C09_splitByClass_partial (d : CDS I) (h1 : d.cls.length = d.input.length) (h2 : d.cls.length = d.target.length)
    (c : Rat) :
    ∃ l r, d.splitByClass c = .ok (l, r) ∧
      (l.input = ((d.input.zip d.cls).filter (fun x => decide (x.2 = c))).map Prod.fst ∧
       l.target = ((d.target.zip d.cls).filter (fun x => decide (x.2 = c))).map Prod.fst ∧
       l.cls = d.cls.filter (fun v => decide (v = c))) ∧
      (r.input = ((d.input.zip d.cls).filter (fun x => decide (x.2 ≠ c))).map Prod.fst ∧
       r.target = ((d.target.zip d.cls).filter (fun x => decide (x.2 ≠ c))).map Prod.fst ∧
       r.cls = d.cls.filter (fun v => decide (v ≠ c))) := by
  have hzz : ∀ p : Rat → Bool, (((d.cls.zip d.cls).filter (fun x => p x.2)).map Prod.fst) = d.cls.filter p := by
    intro p
    generalize d.cls = l
    induction l with
    | nil => rfl
    | cons a l ih =>
      simp only [List.zip_cons_cons, List.filter_cons]
      split <;> simp [ih]
  have hlen : ∀ p : Rat → Bool, (d.cls.filter p).length = (((d.target.zip d.cls).filter (fun x => p x.2)).map Prod.fst).length := by
    intro p
    have : ∀ (t : List (List Rat)) (l : List Rat), l.length = t.length →
        (l.filter p).length = (((t.zip l).filter (fun x => p x.2)).map Prod.fst).length := by
      intro t l
      induction l generalizing t with
      | nil => intro _; simp
      | cons a l ih =>
        intro ht
        cases t with
        | nil => simp at ht
        | cons b t =>
          have := ih t (by simpa using ht)
          simp only [List.zip_cons_cons, List.filter_cons]
          split <;> simp_all
    exact this _ _ h2
  let part (p : Rat → Bool) : CDS I :=
    { d with input := ((d.input.zip d.cls).filter (fun x => p x.2)).map Prod.fst,
             target := ((d.target.zip d.cls).filter (fun x => p x.2)).map Prod.fst,
             cls := d.cls.filter p }
  have hpart : ∀ p : Rat → Bool, d.part (wherePos d.cls p) = some (part p) := by
    intro p
    unfold CDS.part
    rw [fancy_where d.input d.cls (by omega), fancy_where d.target d.cls (by omega), fancy_where d.cls d.cls (by omega), hzz]
  have hac : ∀ p, _ := fun p => assignClasses_noop (part p) (hlen p)
  obtain ⟨a1, a2, a3, a4, _⟩ := hac (fun v => decide (v = c))
  obtain ⟨b1, b2, b3, b4, _⟩ := hac (fun v => !decide (v = c))
  have hne : (fun v : Rat => !decide (v = c)) = fun v => decide (v ≠ c) := by funext v; simp
  refine ⟨(part (fun v => decide (v = c))).assignClasses.1, (part (fun v => !decide (v = c))).assignClasses.1, ?_, ?_, ?_⟩
  · unfold CDS.splitByClass
    rw [hpart, hpart]
    simp only
    generalize hA : (part (fun v => decide (v = c))).assignClasses = A at *
    generalize hB : (part (fun v => !decide (v = c))).assignClasses = B at *
    obtain ⟨A1, A2⟩ := A
    obtain ⟨B1, B2⟩ := B
    simp only at a1 b1
    subst a1; subst b1
    rfl
  · rw [a2, a3, a4]; exact ⟨rfl, rfl, rfl⟩
  · rw [b2, b3, b4]
    refine ⟨?_, ?_, ?_⟩ <;> simp [part]

example : c08.cls.length = c08.input.length ∧ c08.cls.length = c08.target.length := by decide +kernel

/-- **C09, negation (1).** Samples added with `addSample` have no class entry until some other call
fills it in, and `splitByClass` does not: both parts of the split are empty. -/
theorem C09_negation_stale_class :
    c08u.input = [5, 6] ∧
    (match c08u.splitByClass 0 with
      | .ok (l, r) => (l.input, r.input)
      | .error _ => ([1], [1])) = ([], []) := by decide +kernel

/-- **C09, histogram (partial).** If after `assignClasses` all classes lie in `0..nClasses-1`, the
histogram has one entry per class, each the number of samples of the class, adding up to the number of
classified samples. Missing: other labels (negation below). -/
theorem C09_histogram_partial (d : CDS I) (hist : List Nat) (d1 : CDS I) (h : d.calculateStatistics = (d1, .ok hist))
    (hl : ∀ v ∈ d1.cls, ∃ k : Nat, (k : Int) < d1.nClasses ∧ v = (k : Rat)) :
    hist = (List.range d1.nClasses.toNat).map (fun (c : Nat) => d1.cls.count (c : Rat)) ∧ hist.sum = d1.cls.length := by
  unfold CDS.calculateStatistics at h
  generalize d.assignClasses = r at h
  obtain ⟨d2, e⟩ := r
  cases e with
  | some e => simp at h
  | none =>
    simp only [Prod.mk.injEq, Except.ok.injEq] at h
    obtain ⟨rfl, rfl⟩ := h
    refine ⟨rfl, count_sum _ _ ?_⟩
    intro x hx
    obtain ⟨k, hk, e⟩ := hl x hx
    exact ⟨k, by omega, e⟩

example : (c08.calculateStatistics).2 = .ok [1, 1, 2] := by decide +kernel

/-- **C09, negation (2).** With labels 1 and 2 and the number of classes determined from the data, the
histogram ranges over 0 and 1: class 2 is not counted and the sum is 1 for two samples. -/
theorem C09_negation_histogram :
    ((CDS.ofData [(10, 1), (11, 2)] 0 : CDS Nat).calculateStatistics).2 = .ok [0, 1] := by decide +kernel

/-! ### C54  Adding classification datasets -/

/-- **C54, rejected sums.** Datasets with different numbers of classes, or with targets that are not scalar, are
not added: the sum is refused with an error. -/
theorem C54_rejects (a b : CDS I) :
    (a.outdim = 1 → b.outdim = 1 → a.nClasses ≠ b.nClasses → a.add b = .error .indexError) ∧
    (a.outdim ≠ 1 ∨ b.outdim ≠ 1 → a.add b = .error .typeError) := by
  refine ⟨fun ha hb h => ?_, fun h => ?_⟩
  · unfold CDS.add
    rw [if_neg (by simp [ha, hb]), if_pos h]
  · unfold CDS.add
    rw [if_pos h]

/-- **C54.** `a + b` for two datasets with scalar targets and the same number of classes holds the
samples of `a` followed by the samples of `b`; if `b` is not empty, and the class field of `a` is not
longer than its targets, the class field of the sum lists the (integer) targets. -/
theorem C54_add (a b : CDS I) (la lb : List Int) (ha : HasLabels a la) (hb : HasLabels b lb) (hc : a.nClasses = b.nClasses)
    (hcls : a.cls.length ≤ la.length) :
    ∃ s, a.add b = .ok s ∧ s.input = a.input ++ b.input ∧ s.target = a.target ++ b.target ∧
      (lb ≠ [] → s.cls = (la ++ lb).map (fun (l : Int) => (l : Rat))) := by
  obtain ⟨a1, a2, a3⟩ := ha
  obtain ⟨b1, b2, b3⟩ := hb
  unfold CDS.add
  have hne : ¬ (a.outdim ≠ 1 ∨ b.outdim ≠ 1) := by simp [a1, b1]
  rw [if_neg hne, if_neg (by simp [hc])]
  have hfold : ∀ (xs : List (I × List Rat)) (d : CDS I), d.outdim = 1 → (∀ x ∈ xs, x.2.length = 1) →
      xs.foldl (fun d p => (d.addSample p.1 p.2).1) d
        = { d with input := d.input ++ xs.map Prod.fst, target := d.target ++ xs.map Prod.snd } := by
    intro xs
    induction xs with
    | nil => intro d _ _; simp
    | cons x xs ih =>
      intro d hd hx
      rw [List.foldl_cons]
      have hx1 := hx x (by simp)
      rw [show (d.addSample x.1 x.2).1 = { d with input := d.input ++ [x.1], target := d.target ++ [x.2] } by
        simp [CDS.addSample, hx1, hd]]
      rw [ih _ (by simpa using hd) (fun y hy => hx y (by simp [hy]))]
      simp
  have hz1 : (b.input.zip b.target).map Prod.fst = b.input := by
    rw [List.map_fst_zip]; rw [b2, b3]; simp
  have hz2 : (b.input.zip b.target).map Prod.snd = b.target := by
    rw [List.map_snd_zip]; rw [b2, b3]; simp
  rw [hfold (b.input.zip b.target) a a1 (by
    intro x hx
    have := (List.of_mem_zip hx).2
    rw [b2] at this
    obtain ⟨l, _, e⟩ := List.mem_map.1 this
    rw [← e]; rfl), hz1, hz2]
  have hpi : (fun v : Rat => ((pyInt v : Int) : Rat)) ∘ (fun (l : Int) => (l : Rat)) = fun (l : Int) => (l : Rat) := by
    funext l; simp [pyInt_int]
  have hcol := targetCol_labels (la ++ lb) ({ a with input := a.input ++ b.input, target := a.target ++ b.target } : CDS I)
    (by simp [a2, b2])
  obtain ⟨e1, e2, e3, e4⟩ := assignClasses_scalar ({ a with input := a.input ++ b.input, target := a.target ++ b.target } : CDS I) a1
  simp only
  generalize CDS.assignClasses _ = r at e1 e2 e3 e4 ⊢
  obtain ⟨s, e⟩ := r
  simp only at e1 e2 e3 e4
  subst e1
  refine ⟨s, rfl, e2, e3, ?_⟩
  intro hlb
  have hlt : a.cls.length < (a.target ++ b.target).length := by
    rw [a2, b2]
    have : 0 < lb.length := List.length_pos_iff.2 hlb
    simp; omega
  rw [e4, if_pos hlt, hcol, List.map_map, hpi]

example : HasLabels c08 [2, 0, 1, 2] ∧ HasLabels (CDS.ofData [(1, 0)] 3 : CDS Nat) [0] ∧
    c08.nClasses = (CDS.ofData [(1, 0)] 3 : CDS Nat).nClasses ∧ c08.cls.length ≤ 4 := by
  unfold HasLabels; decide +kernel

end Verif.Props
