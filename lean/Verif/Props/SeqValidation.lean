import Verif.Model.SeqValidation
import Verif.Props.Landscape
/-
Properties of the validation of modules on sequences.
-/
namespace Verif.Spec
open Verif.SeqValidation
open Verif.Landscape (Mod)

/-- The numbers of the first samples of sequences that follow one another. -/
def seqStarts {α : Type} : Nat → List (List α) → List Nat
  | _, [] => []
  | off, q :: qs => off :: seqStarts (off + q.length) qs

/-- The data set with these sequences. -/
def dataOf {X K : Type} (kind : Kind) (outdim : Nat) (qs : List (List (Sample X K))) : Data X K := { kind := kind, rows := qs.flatten, starts := seqStarts 0 qs, outdim := outdim }

/-- The sum of the outputs of a module for one sequence, activated for its samples after a reset. -/
def summed {S X K : Type} [Field K] (m : Mod S X K) (s0 : S) (outdim : Nat) (q : List (Sample X K)) : List K :=
  (List.range outdim).map fun j => ((outputs m s0 (q.map Sample.inp)).map fun o => o.getD j 0).sum

/-- The target of the last sample. -/
def lastTarget {X K : Type} (q : List (Sample X K)) : List K := (q.getLast?.map Sample.target).getD []

end Verif.Spec

namespace Verif.SeqValidation
open Verif.Spec
open Verif.DataSet (Err)
open Verif.Landscape (Mod argmax argmax_spec)

variable {S X K : Type} [Field K] [LinearOrder K]

/-- the ends of all sequences, also of empty ones -/
def allEnds {α : Type} : Nat → List (List α) → List Int
  | _, [] => []
  | off, q :: qs => (((off + q.length : Nat) : Int) - 1) :: allEnds (off + q.length) qs

theorem ends_eq {α : Type} (qs : List (List α)) (off : Nat) (h : qs ≠ []) :
    ((seqStarts off qs).map fun i : Nat => (i : Int) - 1).eraseIdx 0 ++ [((off + qs.flatten.length : Nat) : Int) - 1] = allEnds off qs := by
  induction qs generalizing off with
  | nil => exact absurd rfl h
  | cons q qs ih =>
    cases qs with
    | nil => simp [seqStarts, allEnds]
    | cons q' qs =>
      have := ih (off + q.length) (by simp)
      simp only [seqStarts, List.map_cons, List.eraseIdx_zero, List.tail_cons, allEnds, List.cons_append, List.cons.injEq, true_and] at this ⊢
      rw [← this]
      simp [Nat.add_assoc]

theorem sequenceEnds_eq (kind : Kind) (outdim : Nat) (qs : List (List (Sample X K))) (h : qs ≠ []) : sequenceEnds (dataOf kind outdim qs) = allEnds 0 qs := by
  rw [← ends_eq qs 0 h]
  simp [sequenceEnds, dataOf]

theorem mem_allEnds {α : Type} (qs : List (List α)) (off : Nat) (v : Int) : v ∈ allEnds off qs ↔ ∃ pre q post, qs = pre ++ q :: post ∧ v = ((off + (pre.flatten.length + q.length) : Nat) : Int) - 1 := by
  induction qs generalizing off with
  | nil => simp [allEnds]
  | cons a qs ih =>
    rw [allEnds, List.mem_cons, ih]
    constructor
    · rintro (rfl | ⟨pre, q, post, rfl, rfl⟩)
      · exact ⟨[], a, qs, rfl, by simp⟩
      · exact ⟨a :: pre, q, post, rfl, by simp; omega⟩
    · rintro ⟨pre, q, post, e, rfl⟩
      cases pre with
      | nil =>
        simp only [List.nil_append, List.cons.injEq] at e
        obtain ⟨rfl, rfl⟩ := e
        left; simp
      | cons b pre =>
        simp only [List.cons_append, List.cons.injEq] at e
        obtain ⟨rfl, rfl⟩ := e
        exact .inr ⟨pre, q, post, rfl, by simp; omega⟩

theorem allEnds_ge {α : Type} (qs : List (List α)) (off : Nat) (v : Int) (h : v ∈ allEnds off qs) : (off : Int) - 1 ≤ v := by
  obtain ⟨pre, q, post, -, rfl⟩ := (mem_allEnds qs off v).1 h
  omega

theorem sequences_eq {α : Type} (qs : List (List α)) (pre : List α) : sequences (pre ++ qs.flatten) (seqStarts pre.length qs) = qs := by
  induction qs generalizing pre with
  | nil => rfl
  | cons q qs ih =>
    cases qs with
    | nil => simp [seqStarts, sequences]
    | cons q' qs =>
      have := ih (pre ++ q)
      simp only [List.length_append, List.append_assoc] at this
      rw [seqStarts, seqStarts, sequences]
      rw [← seqStarts]
      simp only [List.flatten_cons] at this ⊢
      rw [this]
      congr 1
      rw [← List.append_assoc, List.take_append_of_le_length (by simp), List.take_of_length_le (by simp)]
      simp

theorem activateAll_eq (m : Mod S X K) (s : S) (xs : List X) : (activateAll m s xs).2 = outputs m s xs := by
  induction xs generalizing s with
  | nil => rfl
  | cons x xs ih => simp [activateAll, outputs, ih]

theorem outputSequential_eq (m : Mod S X K) (s0 : S) (hr : ∀ s, m.reset s = s0) (s : S) (qs : List (List (Sample X K))) :
    (outputSequential m s qs).2 = qs.flatMap fun q => outputs m s0 (q.map Sample.inp) := by
  induction qs generalizing s with
  | nil => rfl
  | cons q qs ih => simp [outputSequential, ih, activateAll_eq, hr]

theorem outputs_length (m : Mod S X K) (s : S) (xs : List X) : (outputs m s xs).length = xs.length := by
  induction xs generalizing s with
  | nil => rfl
  | cons x xs ih => simp [outputs, ih]

/-- one sequence in the loop -/
theorem classLoop_block (outdim : Nat) (ends : List Int) (cls : List K → Nat) (hcls : ∀ v, v ≠ [] → argmax v = .ok (cls v)) (hout : 0 < outdim) (b rest : List (List K × List K)) (j : Nat) (acc : List K) (hacc : acc.length = outdim)
    (hb : ∀ p ∈ b, p.1.length = outdim ∧ p.2.length = outdim) (hne : b ≠ []) (he : ∀ i < b.length, ((j + i : Nat) : Int) ∈ ends ↔ i + 1 = b.length) :
    classLoop outdim ends j (b ++ rest) acc =
      (classLoop outdim ends (j + b.length) rest (List.replicate outdim 0)).map fun r => (cls (b.foldl (fun a p => List.zipWith (· + ·) a p.1) acc), cls ((b.getLast?.map Prod.snd).getD [])) :: r := by
  induction b generalizing j acc with
  | nil => exact absurd rfl hne
  | cons p b ih =>
    obtain ⟨hp1, hp2⟩ := hb p (by simp)
    have hlen : (List.zipWith (· + ·) acc p.1).length = outdim := by simp [hacc, hp1]
    rw [List.cons_append, classLoop]
    cases b with
    | nil =>
      have h0 := (he 0 (by simp)).2 (by simp)
      simp only [Nat.add_zero] at h0
      rw [if_pos h0, hcls _ (by intro e; rw [e] at hlen; simp at hlen; omega), hcls p.2 (by intro e; rw [e] at hp2; simp at hp2; omega)]
      simp only [List.nil_append, List.length_cons, List.length_nil, List.foldl_cons, List.foldl_nil, List.getLast?_singleton, Option.map_some, Option.getD_some]
      cases classLoop outdim ends (j + 1) rest (List.replicate outdim 0) <;> rfl
    | cons p' b =>
      have h0 : ¬ (j : Int) ∈ ends := by
        intro h
        have := (he 0 (by simp)).1 (by simpa using h)
        simp at this
      rw [if_neg h0, ih (j + 1) _ hlen (fun q hq => hb q (by simp [hq])) (by simp)]
      · simp only [List.length_cons, List.foldl_cons, List.getLast?_cons_cons]
        rw [show j + 1 + (b.length + 1) = j + (b.length + 1 + 1) by omega]
      · intro i hi
        have := he (i + 1) (by simp at hi ⊢; omega)
        rw [show j + 1 + i = j + (i + 1) by omega, this]
        simp

/-- all sequences in the loop -/
theorem classLoop_all (outdim : Nat) (cls : List K → Nat) (hcls : ∀ v, v ≠ [] → argmax v = .ok (cls v)) (hout : 0 < outdim) (bs : List (List (List K × List K))) (off : Nat) (pre : List Int) (hpre : ∀ v ∈ pre, v < off)
    (hb : ∀ b ∈ bs, ∀ p ∈ b, p.1.length = outdim ∧ p.2.length = outdim) :
    classLoop outdim (pre ++ allEnds off bs) off bs.flatten (List.replicate outdim 0) =
      .ok ((bs.filter fun b => !b.isEmpty).map fun b => (cls (b.foldl (fun a p => List.zipWith (· + ·) a p.1) (List.replicate outdim 0)), cls ((b.getLast?.map Prod.snd).getD []))) := by
  induction bs generalizing off pre with
  | nil => simp [classLoop]
  | cons b bs ih =>
    have hcons : pre ++ allEnds off (b :: bs) = (pre ++ [((off + b.length : Nat) : Int) - 1]) ++ allEnds (off + b.length) bs := by simp [allEnds]
    have hpre' : ∀ v ∈ pre ++ [((off + b.length : Nat) : Int) - 1], v < ((off + b.length : Nat) : Int) := by
      intro v hv
      rcases List.mem_append.1 hv with h | h
      · have := hpre v h; push_cast; omega
      · simp at h; subst h; push_cast; omega
    have ih' := ih (off + b.length) _ hpre' (fun b' hb' => hb b' (by simp [hb']))
    rw [hcons]
    by_cases hne : b = []
    · subst hne
      simpa using ih'
    · rw [List.flatten_cons, classLoop_block outdim _ cls hcls hout b bs.flatten off _ (by simp) (hb b (by simp)) hne, ih']
      · have : (!b.isEmpty) = true := by simp [hne]
        rw [List.filter_cons, if_pos this]
        rfl
      · intro i hi
        constructor
        · intro h
          rcases List.mem_append.1 h with h | h
          · rcases List.mem_append.1 h with h | h
            · have := hpre _ h; push_cast at this; omega
            · simp at h; omega
          · have := allEnds_ge _ _ _ h
            push_cast at this; omega
        · intro h
          refine List.mem_append.2 (.inl (List.mem_append.2 (.inr ?_)))
          simp; omega

theorem foldl_summed (outdim : Nat) (os : List (List K)) (acc : List K) (hacc : acc.length = outdim) (ho : ∀ o ∈ os, o.length = outdim) :
    os.foldl (fun a o => List.zipWith (· + ·) a o) acc = (List.range outdim).map fun j => acc.getD j 0 + (os.map fun o => o.getD j 0).sum := by
  induction os generalizing acc with
  | nil =>
    apply List.ext_getElem
    · simp [hacc]
    · intro i h1 h2
      simp at h1
      simp [List.getElem?_eq_getElem h1]
  | cons o os ih =>
    have h1 := ho o (by simp)
    rw [List.foldl_cons, ih _ (by simp [hacc, h1]) fun o' h' => ho o' (by simp [h'])]
    apply List.map_congr_left
    intro j hj
    have hj := List.mem_range.1 hj
    rw [List.getD_eq_getElem _ _ (by simp [hacc, h1, hj]), List.getElem_zipWith, List.getD_eq_getElem _ _ (by omega), List.map_cons, List.sum_cons, List.getD_eq_getElem _ _ (by omega), add_assoc]

end Verif.SeqValidation

namespace Verif.Props
open Verif.SeqValidation Verif.Spec
open Verif.DataSet (Err)
open Verif.Landscape (Mod argmax argmax_spec)

variable {S X K : Type} [Field K] [LinearOrder K]

/-- C199 (ends of sequences). For every data set of sequences, the reported sequence ends are the numbers of the last samples: a sample number is among them exactly if it is the last one of a sequence with samples. -/
theorem C199_ends (kind : Kind) (outdim : Nat) (qs : List (List (Sample X K))) (hqs : qs ≠ []) (j : Nat) :
    (j : Int) ∈ sequenceEnds (dataOf kind outdim qs) ↔ ∃ pre q post, qs = pre ++ q :: post ∧ q ≠ [] ∧ j + 1 = pre.flatten.length + q.length := by
  rw [sequenceEnds_eq kind outdim qs hqs, mem_allEnds]
  constructor
  · rintro ⟨pre, q, post, rfl, e⟩
    by_cases hq : q = []
    · subst hq
      -- the end of the last sequence with samples before it
      have hj : j + 1 = pre.flatten.length := by simp at e ⊢; omega
      clear e hqs
      induction pre using List.reverseRecOn generalizing post with
      | nil => simp at hj
      | append_singleton pre b ih =>
        by_cases hb : b = []
        · subst hb
          obtain ⟨pre', q', post', e1, e2⟩ := ih ([] :: post) (by simpa using hj)
          exact ⟨pre', q', post', by rw [← e1]; simp, e2⟩
        · exact ⟨pre, b, [] :: post, by simp, hb, by simpa using hj⟩
    · exact ⟨pre, q, post, rfl, hq, by omega⟩
  · rintro ⟨pre, q, post, rfl, -, e⟩
    exact ⟨pre, q, post, rfl, by omega⟩

private theorem setOne_fold (js : List Int) (l : List K) (hl : 0 < l.length) (hjs : ∀ v ∈ js, -1 ≤ v ∧ v < l.length) :
    ∃ r, js.foldlM setOne l = .ok r ∧ r.length = l.length ∧ ∀ i < l.length, r.getD i 0 = if (i : Int) ∈ js ∨ (i + 1 = l.length ∧ (-1 : Int) ∈ js) then 1 else l.getD i 0 := by
  induction js generalizing l with
  | nil => exact ⟨l, rfl, rfl, fun i _ => by simp⟩
  | cons v js ih =>
    have hv := hjs v (by simp)
    let k : Nat := if v = -1 then l.length - 1 else v.toNat
    have hk : k < l.length := by show (if v = -1 then l.length - 1 else v.toNat) < _; split_ifs <;> omega
    have h1 : setOne l v = .ok (l.set k 1) := by
      by_cases h : v = -1
      · have : k = (v + l.length).toNat := by show (if v = -1 then l.length - 1 else v.toNat) = _; rw [if_pos h]; omega
        rw [setOne, if_neg (by omega), if_pos (by omega), this]
      · have : k = v.toNat := if_neg h
        rw [setOne, if_pos (by omega), this]
    obtain ⟨r, h2, h3, h4⟩ := ih (l.set k 1) (by simpa using hl) (fun w hw => by simpa using hjs w (by simp [hw]))
    refine ⟨r, ?_, by simpa using h3, fun i hi => ?_⟩
    · rw [List.foldlM_cons, h1]; exact h2
    · rw [h4 i (by simpa using hi)]
      simp only [List.length_set, List.mem_cons]
      by_cases h : (i : Int) ∈ js ∨ (i + 1 = l.length ∧ (-1 : Int) ∈ js)
      · rw [if_pos h, if_pos (by tauto)]
      · rw [if_neg h]
        by_cases hik : k = i
        · have hc : (i : Int) = v ∨ (i + 1 = l.length ∧ -1 = v) := by
            by_cases hv1 : v = -1
            · right
              have : k = l.length - 1 := if_pos hv1
              omega
            · left
              have : k = v.toNat := if_neg hv1
              omega
          rw [if_pos (by tauto), List.getD_eq_getElem _ _ (by simpa using hi), List.getElem_set]
          simp [hik]
        · have hc : ¬ ((i : Int) = v ∨ (i + 1 = l.length ∧ -1 = v)) := by
            intro hc
            apply hik
            show (if v = -1 then l.length - 1 else v.toNat) = i
            split_ifs <;> omega
          rw [if_neg (by tauto), List.getD_eq_getElem _ _ (by simpa using hi), List.getElem_set_ne hik, List.getD_eq_getElem _ _ hi]

/-- the last sample of all is the last one of a sequence -/
private theorem last_is_end {α : Type} (qs : List (List α)) (j : Nat) (h : j + 1 = qs.flatten.length) : ∃ pre q post, qs = pre ++ q :: post ∧ q ≠ [] ∧ j + 1 = pre.flatten.length + q.length := by
  induction qs using List.reverseRecOn with
  | nil => simp at h
  | append_singleton pre b ih =>
    by_cases hb : b = []
    · subst hb
      obtain ⟨pre', q', post', e1, e2⟩ := ih (by simpa using h)
      exact ⟨pre', q', post' ++ [[]], by rw [e1]; simp, e2⟩
    · exact ⟨pre, b, [], rfl, hb, by simpa using h⟩

open Classical in
/-- C199 (importance). For every data set of sequences with samples, the importances made for it are 1 for the last sample of each sequence and 0 for every other sample; without samples an IndexError is raised. -/
theorem C199_importance (kind : Kind) (outdim : Nat) (qs : List (List (Sample X K))) (hqs : qs ≠ []) :
    (qs.flatten = [] → sequenceEndsImportance (dataOf kind outdim qs) = .error .indexError) ∧
    (qs.flatten ≠ [] → ∃ imp, sequenceEndsImportance (dataOf kind outdim qs) = .ok imp ∧ imp.length = qs.flatten.length ∧
      ∀ j < imp.length, imp.getD j 0 = if (∃ pre q post, qs = pre ++ q :: post ∧ q ≠ [] ∧ j + 1 = pre.flatten.length + q.length) then 1 else 0) := by
  constructor
  · intro he
    unfold sequenceEndsImportance
    rw [sequenceEnds_eq kind outdim qs hqs, show (dataOf kind outdim qs).rows.length = 0 from by show qs.flatten.length = 0; rw [he]; rfl]
    cases qs with
    | nil => exact absurd rfl hqs
    | cons q qs =>
      have hq : q = [] := by simp at he; exact he.1
      subst hq
      rfl
  · intro hne
    have hpos : 0 < qs.flatten.length := List.length_pos_iff.2 hne
    obtain ⟨r, h1, h2, h3⟩ := setOne_fold (sequenceEnds (dataOf kind outdim qs)) (List.replicate qs.flatten.length (0 : K)) (by simpa using hpos) (by
      intro v hv
      rw [sequenceEnds_eq kind outdim _ hqs, mem_allEnds] at hv
      obtain ⟨pre, a, post, e, rfl⟩ := hv
      rw [e]
      simp only [List.length_replicate, List.flatten_append, List.flatten_cons, List.length_append]
      omega)
    refine ⟨r, h1, by simpa using h2, fun j hj => ?_⟩
    rw [h3 j (by omega)]
    have hends := C199_ends kind outdim qs hqs j
    have hj' : j < (List.replicate qs.flatten.length (0 : K)).length := by omega
    rw [List.getD_eq_getElem _ _ hj', List.getElem_replicate]
    simp only [List.length_replicate]
    by_cases h : ∃ pre q post, qs = pre ++ q :: post ∧ q ≠ [] ∧ j + 1 = pre.flatten.length + q.length
    · rw [if_pos (.inl (hends.2 h)), if_pos h]
    · rw [if_neg h, if_neg]
      rintro (h' | h')
      · exact h (hends.1 h')
      · exact h (last_is_end qs j h'.1)

/-- three sequences, the second of which is empty -/
example : (sequenceEndsImportance (dataOf (X := Nat) (K := ℚ) .importance 1 [[⟨0, [1], [1]⟩, ⟨1, [1], [1]⟩], [], [⟨2, [1], [1]⟩]])).toOption = some [0, 1, 1] := by decide +kernel

/-- C199 (outputs). Let a reset always lead to the same state. Then the outputs for a data set of sequences are the outputs that the module gives for each sequence separately, in order, whatever state it was in before. -/
theorem C199_outputs (m : Mod S X K) (s0 : S) (hr : ∀ s, m.reset s = s0) (s : S) (kind : Kind) (hk : kind ≠ .supervised) (outdim : Nat) (qs : List (List (Sample X K))) :
    (calculateModuleOutput m s (dataOf kind outdim qs)).2 = qs.flatMap fun q => outputs m s0 (q.map Sample.inp) := by
  have h : (calculateModuleOutput m s (dataOf kind outdim qs)).2 = (outputSequential m s (sequences qs.flatten (seqStarts 0 qs))).2 := by
    cases kind with
    | supervised => exact absurd rfl hk
    | sequential => rfl
    | importance => rfl
  have h2 := sequences_eq qs []
  simp only [List.nil_append, List.length_nil] at h2
  rw [h, h2, outputSequential_eq m s0 hr]

private theorem zip_flatMap {A B C : Type} (f : List A → List B) (g : A → C) (hf : ∀ q, (f q).length = q.length) (qs : List (List A)) :
    (qs.flatMap f).zip (qs.flatten.map g) = (qs.map fun q => (f q).zip (q.map g)).flatten := by
  induction qs with
  | nil => rfl
  | cons q qs ih => rw [List.flatMap_cons, List.flatten_cons, List.map_append, List.zip_append (by simp [hf]), ih]; rfl

private theorem allEnds_map {A B : Type} (f : List A → List B) (hf : ∀ q, (f q).length = q.length) (qs : List (List A)) (off : Nat) : allEnds off (qs.map f) = allEnds off qs := by
  induction qs generalizing off with
  | nil => rfl
  | cons q qs ih => simp [allEnds, hf, ih]

/-- C199 (classes of sequences). Let a reset always lead to the same state, and let outputs and targets have the same positive length. The hit rate on a data set of sequences is the fraction of the sequences with samples for which
the first largest entry of the summed outputs is the first largest entry of the last target; without samples a ZeroDivisionError is raised. -/
theorem C199_class (m : Mod S X K) (s0 : S) (hr : ∀ s, m.reset s = s0) (s : S) (kind : Kind) (hk : kind ≠ .supervised) (outdim : Nat) (hout : 0 < outdim) (qs : List (List (Sample X K))) (hqs : qs ≠ [])
    (hm : ∀ s x, (m.activate s x).2.length = outdim) (ht : ∀ q ∈ qs, ∀ r ∈ q, r.target.length = outdim) (cls : List K → Nat) (hcls : ∀ v, v ≠ [] → FirstLargest v (cls v)) :
    testOnSequenceData m s (dataOf kind outdim qs) =
      if qs.flatten = [] then .error .zeroDivision
      else .ok (((qs.filter fun q => !q.isEmpty).countP (fun q => decide (cls (summed m s0 outdim q) = cls (lastTarget q))) : Nat) / ((qs.filter fun q => !q.isEmpty).length : Nat)) := by
  have hcls' : ∀ v : List K, v ≠ [] → argmax v = .ok (cls v) := fun v hv => (argmax_spec v _).2 (hcls v hv)
  have hol : ∀ (s : S) (xs : List X), ∀ o ∈ outputs m s xs, o.length = outdim := by
    intro s xs
    induction xs generalizing s with
    | nil => simp [outputs]
    | cons x xs ih =>
      intro o ho
      rcases List.mem_cons.1 ho with rfl | ho
      · exact hm s x
      · exact ih _ o ho
  let f : List (Sample X K) → List (List K × List K) := fun q => (outputs m s0 (q.map Sample.inp)).zip (q.map Sample.target)
  have hf : ∀ q, (f q).length = q.length := fun q => by simp [f, outputs_length]
  have hloop := classLoop_all outdim cls hcls' hout (qs.map f) 0 [] (by simp) (by
    intro b hb p hp
    obtain ⟨q, hq, rfl⟩ := List.mem_map.1 hb
    have h1 := (List.of_mem_zip hp).1
    have h2 := (List.of_mem_zip hp).2
    obtain ⟨r, hr', e⟩ := List.mem_map.1 h2
    exact ⟨hol _ _ _ h1, e ▸ ht q hq r hr'⟩)
  rw [allEnds_map f hf, List.nil_append] at hloop
  have hz : (qs.flatMap fun q => outputs m s0 (q.map Sample.inp)).zip (qs.flatten.map Sample.target) = (qs.map f).flatten := zip_flatMap (fun q => outputs m s0 (q.map Sample.inp)) Sample.target (fun q => by simp [outputs_length]) qs
  unfold testOnSequenceData
  simp only
  rw [C199_outputs m s0 hr s kind hk, sequenceEnds_eq kind outdim qs hqs]
  have hrows : (dataOf kind outdim qs).rows = qs.flatten := rfl
  have hod : (dataOf kind outdim qs).outdim = outdim := rfl
  rw [hrows, hod, hz, hloop]
  have hfil : (qs.map f).filter (fun b => !b.isEmpty) = (qs.filter fun q => !q.isEmpty).map f := by
    rw [List.filter_map]
    congr 1
    apply List.filter_congr
    intro q _
    have := hf q
    cases q with
    | nil => simp [f, outputs]
    | cons a q => simp only [Function.comp, List.isEmpty_cons, Bool.not_false]; cases hfa : f (a :: q) with
      | nil => rw [hfa] at this; simp at this
      | cons _ _ => rfl
  rw [hfil, List.map_map]
  have hpair : ∀ q ∈ qs.filter (fun q => !q.isEmpty), ((fun b : List (List K × List K) => (cls (b.foldl (fun a p => List.zipWith (· + ·) a p.1) (List.replicate outdim 0)), cls ((b.getLast?.map Prod.snd).getD []))) ∘ f) q = (cls (summed m s0 outdim q), cls (lastTarget q)) := by
    intro q _
    simp only [Function.comp, Prod.mk.injEq]
    constructor
    · congr 1
      rw [← List.foldl_map (f := Prod.fst) (g := fun a o => List.zipWith (· + ·) a o)]
      rw [show (f q).map Prod.fst = outputs m s0 (q.map Sample.inp) from List.map_fst_zip (by simp [outputs_length])]
      rw [foldl_summed outdim _ _ (by simp) (hol _ _)]
      apply List.map_congr_left
      intro j hj
      simp
    · congr 1
      rw [← List.getLast?_map, show (f q).map Prod.snd = q.map Sample.target from List.map_snd_zip (by simp [outputs_length]), List.getLast?_map]
      rfl
  rw [List.map_congr_left hpair]
  show Validation.classificationPerformance _ _ = _
  unfold Validation.classificationPerformance
  have hemp : (qs.filter fun q => !q.isEmpty).length = 0 ↔ qs.flatten = [] := by
    rw [List.length_eq_zero_iff, List.filter_eq_nil_iff, List.flatten_eq_nil_iff]
    simp
  rw [if_neg (by simp)]
  simp only [List.length_map, List.map_map]
  by_cases he : qs.flatten = []
  · rw [if_pos (hemp.2 he), if_pos he]
  · rw [if_neg fun h => he (hemp.1 h), if_neg he]
    congr 3
    rw [List.zip_map', List.countP_map]
    rfl

/-- C199 (hit rate, one column). For a data set without importances and with one target for each sample, the hit rate of a module is the fraction of samples for which output and target are equal. -/
theorem C199_hits_partial (m : Mod S X K) (s0 : S) (hr : ∀ s, m.reset s = s0) (s : S) (qs : List (List (Sample X K))) (hqs : qs.flatten ≠ []) :
    modulePerformance m s (dataOf .sequential 1 qs) =
      .ok (((((qs.flatMap fun q => outputs m s0 (q.map Sample.inp)).zip (qs.flatten.map Sample.target)).countP fun p => decide (p.1 = p.2) : Nat) : K) / (qs.flatten.length : Nat)) := by
  have hl : (qs.flatMap fun q => outputs m s0 (q.map Sample.inp)).length = qs.flatten.length := by
    clear hqs
    induction qs with
    | nil => rfl
    | cons q qs ih => simp only [List.flatMap_cons, List.length_append, List.flatten_cons, ih, outputs_length, List.length_map]
  have hpos : qs.flatten.length ≠ 0 := fun h => hqs (List.length_eq_zero_iff.1 h)
  unfold modulePerformance
  simp only
  rw [C199_outputs m s0 hr s .sequential (by decide)]
  have hrows : (dataOf Kind.sequential 1 qs).rows = qs.flatten := rfl
  have hkind : (dataOf Kind.sequential 1 qs).kind = .sequential := rfl
  have hod : (dataOf Kind.sequential 1 qs).outdim = 1 := rfl
  rw [hrows, hkind, hod]
  simp only [hl, ne_eq, not_true_eq_false, if_false, hpos, Validation.classificationPerformance, List.length_map]

/-- C199 (violation). With more than one column of targets the hit rate of a module on a data set with samples cannot be calculated: for every module and data set a TypeError is raised, unless the numbers of outputs and samples differ. -/
theorem C199_negation_columns (m : Mod S X K) (s : S) (d : Data X K) (hd : 2 ≤ d.outdim) (hne : d.rows ≠ []) : modulePerformance m s d = .error .typeError ∨ modulePerformance m s d = .error .assertion ∧ (calculateModuleOutput m s d).2.length ≠ d.rows.length := by
  have hpos : d.rows.length ≠ 0 := fun h => hne (List.length_eq_zero_iff.1 h)
  unfold modulePerformance
  simp only
  by_cases hl : (calculateModuleOutput m s d).2.length = d.rows.length
  · left
    cases d.kind <;> simp [hl, hpos, show d.outdim ≠ 1 by omega]
  · cases hk : d.kind <;> simp [hl, hpos, show d.outdim ≠ 1 by omega]

/-- C199 (violation). For a data set with importances the hit rate of a module is never calculated: a TypeError is raised. -/
theorem C199_negation_importance (m : Mod S X K) (s : S) (d : Data X K) (hd : d.kind = .importance) : modulePerformance m s d = .error .typeError := by
  unfold modulePerformance
  simp only [hd]

private theorem mse_sums (d : Nat) (l : List (List K × List K × List K)) (h : ∀ p ∈ l, p.1.length = d ∧ p.2.1.length = d ∧ p.2.2.length = d) :
    ((((((l.map fun p => p.1).flatten.zip (l.map fun p => p.2.1).flatten).map fun p => (p.1 - p.2) ^ 2).zip (l.map fun p => p.2.2).flatten).map fun p => p.1 * p.2).sum)
      = (l.map fun p => ((List.range d).map fun j => p.2.2.getD j 0 * (p.1.getD j 0 - p.2.1.getD j 0) ^ 2).sum).sum := by
  induction l with
  | nil => rfl
  | cons p l ih =>
    obtain ⟨h1, h2, h3⟩ := h p (by simp)
    simp only [List.map_cons, List.flatten_cons, List.sum_cons]
    rw [List.zip_append (by omega), List.map_append, List.zip_append (by simp [h1, h2, h3]), List.map_append, List.sum_append, ih fun q hq => h q (by simp [hq])]
    congr 2
    apply List.ext_getElem
    · simp [h1, h2, h3]
    · intro i hi1 hi2
      rw [List.length_map, List.length_range] at hi2
      rw [List.getElem_map, List.getElem_zip, List.getElem_map, List.getElem_zip, List.getElem_map, List.getElem_range, List.getD_eq_getElem _ _ (by omega), List.getD_eq_getElem _ _ (by omega), List.getD_eq_getElem _ _ (by omega)]
      exact mul_comm _ _

/-- C199 (mean squared error with importances). Let a reset always lead to the same state, and let outputs, targets and importances have the same length. On a data set of sequences with importances, the error is the sum of the
squared differences of outputs and targets, each with its importance, divided by the sum of the importances, provided that this is not zero. -/
theorem C199_mse (m : Mod S X K) (s0 : S) (hr : ∀ s, m.reset s = s0) (s : S) (outdim : Nat) (qs : List (List (Sample X K))) (hne : qs.flatten ≠ [])
    (hm : ∀ s x, (m.activate s x).2.length = outdim) (ht : ∀ r ∈ qs.flatten, r.target.length = outdim ∧ r.importance.length = outdim) (h0 : (qs.flatten.map fun r => r.importance.sum).sum ≠ 0) :
    moduleMSE m s (dataOf .importance outdim qs) =
      .ok ((((qs.flatMap fun q => outputs m s0 (q.map Sample.inp)).zip qs.flatten).map fun p => ((List.range outdim).map fun j => p.2.importance.getD j 0 * (p.1.getD j 0 - p.2.target.getD j 0) ^ 2).sum).sum
        / (qs.flatten.map fun r => r.importance.sum).sum) := by
  have hol : ∀ (s : S) (xs : List X), ∀ o ∈ outputs m s xs, o.length = outdim := by
    intro s xs
    induction xs generalizing s with
    | nil => simp [outputs]
    | cons x xs ih =>
      intro o ho
      rcases List.mem_cons.1 ho with rfl | ho
      · exact hm s x
      · exact ih _ o ho
  have hl : (qs.flatMap fun q => outputs m s0 (q.map Sample.inp)).length = qs.flatten.length := by
    clear hne h0 ht
    induction qs with
    | nil => rfl
    | cons q qs ih => simp only [List.flatMap_cons, List.length_append, List.flatten_cons, ih, outputs_length, List.length_map]
  have hO : ∀ o ∈ qs.flatMap fun q => outputs m s0 (q.map Sample.inp), o.length = outdim := by
    intro o ho
    obtain ⟨q, -, h⟩ := List.mem_flatMap.1 ho
    exact hol _ _ o h
  have hpos : qs.flatten.length ≠ 0 := fun h => hne (List.length_eq_zero_iff.1 h)
  unfold moduleMSE
  simp only
  rw [C199_outputs m s0 hr s .importance (by decide)]
  have hrows : (dataOf Kind.importance outdim qs).rows = qs.flatten := rfl
  have hkind : (dataOf Kind.importance outdim qs).kind = .importance := rfl
  rw [hrows, hkind, if_neg hpos]
  generalize (qs.flatMap fun q => outputs m s0 (q.map Sample.inp)) = os at *
  generalize qs.flatten = rows at *
  let l : List (List K × List K × List K) := (os.zip rows).map fun p => (p.1, p.2.target, p.2.importance)
  have e1 : l.map (fun p => p.1) = os := by simp only [l, List.map_map]; exact List.map_fst_zip (by omega)
  have e2 : l.map (fun p => p.2.1) = rows.map Sample.target := by
    simp only [l, List.map_map]
    conv_rhs => rw [← List.map_snd_zip (l₁ := os) (l₂ := rows) (by omega), List.map_map]
    rfl
  have e3 : l.map (fun p => p.2.2) = rows.map Sample.importance := by
    simp only [l, List.map_map]
    conv_rhs => rw [← List.map_snd_zip (l₁ := os) (l₂ := rows) (by omega), List.map_map]
    rfl
  have hs := mse_sums outdim l (by
    intro p hp
    obtain ⟨q, hq, rfl⟩ := List.mem_map.1 hp
    have := List.of_mem_zip hq
    exact ⟨hO _ this.1, ht _ this.2⟩)
  rw [e1, e2, e3] at hs
  have len : ∀ ls : List (List K), (∀ a ∈ ls, a.length = outdim) → ls.flatten.length = ls.length * outdim := by
    intro ls hls
    induction ls with
    | nil => simp
    | cons a ls ih => rw [List.flatten_cons, List.length_append, ih fun b hb => hls b (by simp [hb]), hls a (by simp), List.length_cons]; ring
  have l1 := len os hO
  have l2 := len (rows.map Sample.target) (by intro a ha; obtain ⟨r, h, rfl⟩ := List.mem_map.1 ha; exact (ht r h).1)
  have l3 := len (rows.map Sample.importance) (by intro a ha; obtain ⟨r, h, rfl⟩ := List.mem_map.1 ha; exact (ht r h).2)
  have hsum : (rows.map Sample.importance).flatten.sum = (rows.map fun r => r.importance.sum).sum := by
    rw [List.sum_flatten, List.map_map]; rfl
  simp only [Validation.MSE, Option.getD_some]
  rw [if_neg (by rw [l1, l2, hl]; simp), if_neg (by rw [l3, l2]; simp), if_neg (by rw [hsum]; exact h0), hsum, hs]
  simp only [l, List.map_map]
  rfl

/-- a module with memory: the output is the sum of the inputs since the reset, and the input -/
private def sumModule : Mod ℚ ℚ ℚ := { reset := fun _ => 0, activate := fun s x => (s + x, [s + x, x]), outdim := 2 }

example : (∀ s, sumModule.reset s = 0) ∧ (∀ s x, (sumModule.activate s x).2.length = 2) := ⟨fun _ => rfl, fun _ _ => rfl⟩
/-- three sequences, one of them empty; the first one is classified wrongly -/
example : (testOnSequenceData sumModule 7 (dataOf .sequential 2 [[⟨1, [1, 0], []⟩, ⟨2, [0, 1], []⟩], [], [⟨-1, [1, 0], []⟩]])).toOption = some (1 / 2) := by decide +kernel
example : (moduleMSE sumModule 7 (dataOf .importance 2 [[⟨1, [1, 0], [1, 0]⟩, ⟨2, [0, 1], [0, 2]⟩], [⟨-1, [1, 0], [1, 0]⟩]])).toOption = some ((0 + 2 + 4) / 4) := by decide +kernel
example : (modulePerformance sumModule 7 (dataOf .sequential 2 [[⟨1, [1, 1], []⟩]])).toOption = none := by decide +kernel

end Verif.Props
