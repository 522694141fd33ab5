import Verif.Model.Validation
import Mathlib.Data.List.Perm.Basic
import Mathlib.Algebra.Order.Field.Basic
import Mathlib.Algebra.Order.BigOperators.Group.List
import Mathlib.Algebra.BigOperators.Group.List.Lemmas
import Mathlib.Tactic.Positivity
import Mathlib.Tactic.Ring
/-
Property theorems C30 (cross-validation) and C66 (validation measures), pybrain/tools/validation.py.
-/
namespace Verif.Props
open Verif.DataSet (Err)
open Verif.Validation

theorem sectionSizes_sum (l n : Nat) (hn : 0 < n) : (sectionSizes l n).sum = l := by
  have h1 := Nat.mod_lt l hn
  have h2 := Nat.div_add_mod l n
  simp only [sectionSizes, List.sum_append, List.sum_replicate_nat]
  have h3 : (n - l % n) * (l / n) + l % n * (l / n) = n * (l / n) := by
    rw [← Nat.add_mul]; congr 1; omega
  rw [Nat.mul_add]; omega

theorem sectionSizes_length (l n : Nat) (hn : 0 < n) : (sectionSizes l n).length = n := by
  have h1 := Nat.mod_lt l hn
  simp [sectionSizes]; omega

theorem cut_length {α : Type} (ks : List Nat) : ∀ xs : List α, (cut ks xs).length = ks.length := by
  induction ks with
  | nil => intro xs; rfl
  | cons k ks ih => intro xs; simp [cut, ih]

theorem cut_flatten {α : Type} (ks : List Nat) : ∀ xs : List α, ks.sum = xs.length → (cut ks xs).flatten = xs := by
  induction ks with
  | nil => intro xs h; simp at h; cases xs <;> simp_all [cut]
  | cons k ks ih =>
    intro xs h
    simp only [List.sum_cons] at h
    rw [cut, List.flatten_cons, ih _ (by rw [List.length_drop]; omega), List.take_append_drop]

theorem cut_sizes {α : Type} (ks : List Nat) : ∀ xs : List α, ks.sum = xs.length → (cut ks xs).map List.length = ks := by
  induction ks with
  | nil => intro xs _; rfl
  | cons k ks ih =>
    intro xs h
    simp only [List.sum_cons] at h
    rw [cut, List.map_cons, ih _ (by rw [List.length_drop]; omega), List.length_take]
    congr 1; omega

/-- the test part and the training parts together are everything -/
theorem split_perm (perms : List (List Nat)) (n i : Nat) (hl : perms.length = n) (hi : i < n) :
    (trainIdxs perms n i ++ perms.getD i []).Perm perms.flatten := by
  have h0 : perms = (List.range n).map (fun j => perms.getD j []) := by
    apply List.ext_getElem?
    intro k
    rw [List.getElem?_map]
    by_cases hk : k < n
    · rw [List.getElem?_range hk, Option.map_some, List.getD_eq_getElem?_getD, List.getElem?_eq_getElem (by omega)]; rfl
    · rw [List.getElem?_eq_none (by omega), List.getElem?_eq_none (by simp; omega)]; rfl
  have h1 : ((List.range n).eraseIdx i ++ [i]).Perm (List.range n) := by
    rw [List.eraseIdx_eq_take_drop_succ]
    have h2 : List.range n = (List.range n).take i ++ (i :: (List.range n).drop (i + 1)) := by
      have h3 : i < (List.range n).length := by simpa using hi
      conv_lhs => rw [← List.take_append_drop i (List.range n), List.drop_eq_getElem_cons h3]
      simp
    conv_rhs => rw [h2]
    rw [List.append_assoc]
    exact List.Perm.append_left _ (List.perm_append_comm (l₂ := [i]))
  have h2 := (h1.map (fun j => perms.getD j [])).flatten
  rw [← h0] at h2
  simpa [trainIdxs] using h2

theorem arraySplit_facts (perm : List Nat) (n : Nat) (hn : 0 < n) :
    (arraySplit perm n).length = n ∧ (arraySplit perm n).flatten = perm ∧ (arraySplit perm n).map List.length = sectionSizes perm.length n := by
  have hs := sectionSizes_sum perm.length n hn
  exact ⟨by rw [arraySplit, cut_length, sectionSizes_length _ _ hn], cut_flatten _ _ hs, cut_sizes _ _ hs⟩

theorem range_map_getD {α : Type} (l : List (List α)) (n : Nat) (h : l.length = n) : (List.range n).map (fun j => l.getD j []) = l := by
  apply List.ext_getElem?
  intro k
  rw [List.getElem?_map]
  by_cases hk : k < n
  · rw [List.getElem?_range hk, Option.map_some, List.getD_eq_getElem?_getD, List.getElem?_eq_getElem (by omega)]; rfl
  · rw [List.getElem?_eq_none (l := l) (by omega), List.getElem?_eq_none (by simp; omega)]; rfl

/-- the folds of a cross-validation of `l` samples: (training indices, test indices) -/
def folds (perm : List Nat) (n : Nat) : List (List Nat × List Nat) := (List.range n).map (foldIdxs perm n)

/-- **C30, folds.** For any number of samples, folds and any shuffling: there are `n` folds; every sample is in exactly one test
fold (the test folds together are a rearrangement of all indices); each training set is the complement of its test fold; and the
test folds have sizes that differ by at most one. -/
theorem C30_folds (l n : Nat) (hn : 0 < n) (perm : List Nat) (hp : perm.Perm (List.range l)) :
    (folds perm n).length = n ∧ ((folds perm n).map Prod.snd).flatten.Perm (List.range l) ∧
    (∀ f ∈ folds perm n, (f.1 ++ f.2).Perm (List.range l)) ∧
    (∀ f ∈ folds perm n, f.2.length = l / n ∨ f.2.length = l / n + 1) := by
  obtain ⟨e1, e2, e3⟩ := arraySplit_facts perm n hn
  have hlen : perm.length = l := by simpa using hp.length_eq
  have hsnd : (folds perm n).map Prod.snd = arraySplit perm n := by
    rw [folds, List.map_map]
    exact range_map_getD (arraySplit perm n) n e1
  refine ⟨by simp [folds], by rw [hsnd, e2]; exact hp, fun f hf => ?_, fun f hf => ?_⟩
  · obtain ⟨i, hi, rfl⟩ := List.mem_map.1 hf
    have := split_perm (arraySplit perm n) n i e1 (List.mem_range.1 hi)
    rw [e2] at this
    exact this.trans hp
  · have : f.2.length ∈ (arraySplit perm n).map List.length := by
      rw [← hsnd, List.map_map]
      exact List.mem_map.2 ⟨f, hf, rfl⟩
    rw [e3, hlen, sectionSizes, List.mem_append, List.mem_replicate, List.mem_replicate] at this
    rcases this with h | h
    · exact Or.inr h.2
    · exact Or.inl h.2

theorem pick_range {α : Type} (rows : List α) : pick rows (List.range rows.length) = rows := by
  unfold pick
  have : ∀ (l : List α) (pre : List α), (List.range' pre.length l.length).filterMap (fun i => (pre ++ l)[i]?) = l := by
    intro l
    induction l with
    | nil => intro pre; simp
    | cons a l ih =>
      intro pre
      have h := ih (pre ++ [a])
      simp only [List.length_append, List.length_cons, List.length_nil, Nat.zero_add, List.append_assoc, List.singleton_append] at h
      rw [List.length_cons, List.range'_succ, List.filterMap_cons]
      simp only [List.getElem?_append_right (Nat.le_refl pre.length), Nat.sub_self, List.getElem?_cons_zero]
      rw [h]
  have h := this rows []
  rw [List.range_eq_range']
  simpa using h

/-- **C30, data.** The training and test data of each fold together are a rearrangement of the data set, and the test data of all
folds together are too. -/
theorem C30_data {α : Type} (rows : List α) (n : Nat) (hn : 0 < n) (perm : List Nat) (hp : perm.Perm (List.range rows.length)) :
    (∀ f ∈ folds perm n, (pick rows f.1 ++ pick rows f.2).Perm rows) ∧ (((folds perm n).map (fun f => pick rows f.2)).flatten).Perm rows := by
  obtain ⟨_, h2, h3, _⟩ := C30_folds rows.length n hn perm hp
  refine ⟨fun f hf => ?_, ?_⟩
  · have := (h3 f hf).filterMap (fun i => rows[i]?)
    rw [List.filterMap_append] at this
    refine this.trans ?_
    exact List.Perm.of_eq (pick_range rows)
  · have := h2.filterMap (fun i => rows[i]?)
    rw [List.filterMap_flatten, List.map_map] at this
    refine List.Perm.trans (List.Perm.of_eq ?_) (this.trans (List.Perm.of_eq (pick_range rows)))
    rfl

/-- **C30, result.** With at least two folds and more samples than folds, validate trains and tests once per fold on the data of
`folds` and returns the mean of the performances; otherwise it raises. -/
theorem C30_result {α K : Type} [Field K] (rows : List α) (n : Nat) (perm : List Nat) (score : Nat → List α → List α → K) :
    (2 ≤ n → n < rows.length → validate rows n perm score =
      .ok (((folds perm n).zipIdx.map (fun (f : (List Nat × List Nat) × Nat) => score f.2 (pick rows f.1.1) (pick rows f.1.2))).sum / (n : K))) ∧
    (rows.length ≤ n → validate rows n perm score = .error .assertion) ∧
    (n < 2 → n < rows.length → validate rows n perm score = .error .valueError) := by
  refine ⟨fun h2 hlt => ?_, fun h => by rw [validate, if_pos h], fun h2 hlt => ?_⟩
  · rw [validate, if_neg (by omega), if_neg (by omega), if_neg (by omega)]
    congr 2
    have hf : ∀ (l : List Nat) (g : Nat → K) (a : K), l.foldl (fun p i => p + g i) a = a + (l.map g).sum := by
      intro l g
      induction l with
      | nil => simp
      | cons b l ih => intro a; rw [List.foldl_cons, ih, List.map_cons, List.sum_cons, add_assoc]
    have h := hf (List.range n) (fun i => score i (pick rows (foldIdxs perm n i).1) (pick rows (foldIdxs perm n i).2)) 0
    simp only [zero_add] at h
    rw [h]
    congr 1
    apply List.ext_getElem?
    intro k
    simp only [folds, List.getElem?_map, List.getElem?_zipIdx]
    by_cases hk : k < n
    · simp [List.getElem?_range hk]
    · rw [List.getElem?_eq_none (by simp; omega)]; rfl
  · rw [validate, if_neg (by omega)]
    split
    · rfl
    · rw [if_pos (by omega)]

example : folds [3, 0, 4, 1, 2] 2 = [([1, 2], [3, 0, 4]), ([3, 0, 4], [1, 2])] := by decide

/-! ### C66  Validation measures -/

section measures
variable {K : Type} [Field K] [LinearOrder K] [IsStrictOrderedRing K]

theorem zip_all_eq {V : Type} : ∀ (a b : List V), a.length = b.length → ((∀ p ∈ a.zip b, p.1 = p.2) ↔ a = b) := by
  intro a
  induction a with
  | nil => intro b h; cases b <;> simp_all
  | cons x a ih =>
    intro b h
    cases b with
    | nil => simp at h
    | cons y b =>
      have := ih b (by simpa using h)
      rw [List.zip_cons_cons, List.forall_mem_cons, this, List.cons.injEq]

/-- **C66, hit rate.** For equally long non-empty arrays the classification performance is the number of hits divided by the number
of samples: between 0 and 1, and 1 exactly when all outputs equal their targets. -/
theorem C66_hitRate {V : Type} [DecidableEq V] (output target : List V) (h : output.length = target.length) (h0 : output ≠ []) :
    ∃ r : K, classificationPerformance output target = .ok r ∧ 0 ≤ r ∧ r ≤ 1 ∧ (r = 1 ↔ output = target) ∧
      r * output.length = ((output.zip target).filter (fun p => p.1 = p.2)).length := by
  have hpos : 0 < output.length := List.length_pos_iff.2 h0
  have hposK : (0 : K) < output.length := by exact_mod_cast hpos
  have hc := List.countP_le_length (p := fun (p : V × V) => decide (p.1 = p.2)) (l := output.zip target)
  have hz : (output.zip target).length = output.length := by simp [h]
  rw [hz] at hc
  refine ⟨_, by rw [classificationPerformance, if_neg (by simpa using h), if_neg (by omega)], by positivity, ?_, ?_, ?_⟩
  · rw [div_le_one hposK]; exact_mod_cast hc
  · rw [div_eq_one_iff_eq hposK.ne', Nat.cast_inj, ← zip_all_eq output target h]
    conv_lhs => rw [← hz]
    rw [List.countP_eq_length]
    simp
  · rw [div_mul_cancel₀ _ hposK.ne', List.countP_eq_length_filter]

theorem mse_terms_nonneg (se imp : List K) (h1 : ∀ x ∈ se, 0 ≤ x) (h2 : ∀ x ∈ imp, 0 ≤ x) : ∀ t ∈ (se.zip imp).map (fun p => p.1 * p.2), 0 ≤ t := by
  intro t ht
  obtain ⟨p, hp, rfl⟩ := List.mem_map.1 ht
  exact mul_nonneg (h1 _ (List.of_mem_zip hp).1) (h2 _ (List.of_mem_zip hp).2)

theorem sum_nonneg_zero : ∀ (l : List K), (∀ x ∈ l, 0 ≤ x) → 0 ≤ l.sum ∧ (l.sum = 0 ↔ ∀ x ∈ l, x = 0) := by
  intro l
  induction l with
  | nil => intro _; simp
  | cons a l ih =>
    intro h
    obtain ⟨h1, h2⟩ := ih (fun x hx => h x (List.mem_cons_of_mem _ hx))
    have ha := h a List.mem_cons_self
    rw [List.sum_cons]
    refine ⟨add_nonneg ha h1, ?_⟩
    rw [add_eq_zero_iff_of_nonneg ha h1, h2]
    simp

/-- **C66, weighted error.** With non-negative importances that do not all vanish the mean squared error is never negative, and it is
zero exactly when output and target agree wherever the importance is not zero. -/
theorem C66_mse (output target imp : List K) (h1 : output.length = target.length) (h2 : imp.length = target.length)
    (h3 : ∀ x ∈ imp, 0 ≤ x) (h4 : ∃ x ∈ imp, x ≠ 0) :
    ∃ r, MSE output target (some imp) = .ok r ∧ 0 ≤ r ∧ (r = 0 ↔ ∀ (i : Nat) (o t w : K), output[i]? = some o → target[i]? = some t →
      imp[i]? = some w → w ≠ 0 → o = t) := by
  obtain ⟨hs1, hs2⟩ := sum_nonneg_zero imp h3
  have hs : imp.sum ≠ 0 := by
    intro h
    obtain ⟨x, hx, hne⟩ := h4
    exact hne (hs2.1 h x hx)
  have hspos : 0 < imp.sum := lt_of_le_of_ne hs1 (Ne.symm hs)
  have hse : ∀ x ∈ (output.zip target).map (fun p => (p.1 - p.2) ^ 2), 0 ≤ x := by
    intro x hx
    obtain ⟨p, _, rfl⟩ := List.mem_map.1 hx
    positivity
  obtain ⟨ht1, ht2⟩ := sum_nonneg_zero _ (mse_terms_nonneg _ imp hse h3)
  refine ⟨_, by simp only [MSE, Option.getD_some]; rw [if_neg (by simpa using h1), if_neg (by simpa using h2), if_neg hs], div_nonneg ht1 hs1, ?_⟩
  rw [div_eq_zero_iff, or_iff_left hs, ht2]
  constructor
  · intro h i o t w ho ht hw hne
    have hget : (((output.zip target).map (fun p => (p.1 - p.2) ^ 2)).zip imp)[i]? = some ((o - t) ^ 2, w) := by
      rw [List.getElem?_zip_eq_some]
      refine ⟨?_, hw⟩
      rw [List.getElem?_map, (List.getElem?_zip_eq_some (z := (o, t))).2 ⟨ho, ht⟩]
      rfl
    have := h _ (List.mem_map.2 ⟨_, List.mem_of_getElem? hget, rfl⟩)
    simp only [mul_eq_zero, or_iff_left hne] at this
    exact sub_eq_zero.1 (pow_eq_zero_iff (two_ne_zero)|>.1 this)
  · intro h x hx
    obtain ⟨p, hp, rfl⟩ := List.mem_map.1 hx
    obtain ⟨i, hi⟩ := List.getElem?_of_mem hp
    obtain ⟨e1, e2⟩ := (List.getElem?_zip_eq_some).1 hi
    rw [List.getElem?_map, Option.map_eq_some_iff] at e1
    obtain ⟨q, hq, hqe⟩ := e1
    obtain ⟨f1, f2⟩ := (List.getElem?_zip_eq_some).1 hq
    by_cases hw : p.2 = 0
    · rw [hw, mul_zero]
    · have := h i q.1 q.2 p.2 f1 f2 e2 hw
      rw [← hqe, this, sub_self]; simp

/-- **C66, plain error.** Without importances it is the mean of the squared errors, as with all importances equal. -/
theorem C66_mse_plain (output target : List K) (h : output.length = target.length) (h0 : output ≠ []) (c : K) (hc : c ≠ 0) :
    MSE output target none = .ok (((output.zip target).map (fun p => (p.1 - p.2) ^ 2)).sum / output.length) ∧
    MSE output target (some (List.replicate output.length c)) = MSE output target none := by
  have hpos : 0 < output.length := List.length_pos_iff.2 h0
  have hposK : (output.length : K) ≠ 0 := by exact_mod_cast hpos.ne'
  have key : ∀ c : K, c ≠ 0 → MSE output target (some (List.replicate output.length c)) =
      .ok (((output.zip target).map (fun p => (p.1 - p.2) ^ 2)).sum / output.length) := by
    intro c hc
    have hsum : (List.replicate output.length c).sum = output.length * c := by rw [List.sum_replicate, nsmul_eq_mul]
    have hz : ∀ (se : List K) (n : Nat), se.length = n → ((se.zip (List.replicate n c)).map (fun p => p.1 * p.2)).sum = se.sum * c := by
      intro se
      induction se with
      | nil => intro n hn; simp at hn; subst hn; simp
      | cons a se ih =>
        intro n hn
        cases n with
        | zero => simp at hn
        | succ n =>
          rw [List.replicate_succ, List.zip_cons_cons, List.map_cons, List.sum_cons, ih n (by simpa using hn), List.sum_cons]
          ring
    simp only [MSE, Option.getD_some]
    rw [if_neg (by simpa using h), if_neg (by simpa using h), hsum, if_neg (mul_ne_zero hposK hc), hz _ _ (by simp [h]),
      mul_div_mul_right _ _ hc]
  have h1 : MSE output target none = MSE output target (some (List.replicate output.length 1)) := rfl
  rw [h1]
  exact ⟨key 1 one_ne_zero, by rw [key c hc, key 1 one_ne_zero]⟩

example : classificationPerformance (K := Rat) [1, 2, 3, 4] [1, 0, 3, 4] = .ok (3 / 4) := by
  unfold classificationPerformance; rfl

end measures

end Verif.Props
