import Verif.Model.Ibp
import Mathlib.Tactic.Linarith
import Mathlib.Tactic.Ring
import Mathlib.Tactic.NormNum
import Mathlib.Tactic.FieldSimp
import Mathlib.Data.Real.Basic
import Mathlib.Algebra.Field.GeomSum
import Mathlib.MeasureTheory.Measure.Lebesgue.Basic
/-
Properties of the helpers for Indian Buffet Processes.
-/
namespace Verif.Ibp

namespace Spec

/-- The number whose binary digits, most significant first, are the entries of a column. -/
def number (c : List Bool) : Nat := c.foldl (fun n b => 2 * n + b.toNat) 0

/-- The product of the first `i + 1` stick proportions. -/
def stick (draws : List (ℝ × List ℝ)) (i : Nat) : ℝ := ((draws.take (i + 1)).map (·.1)).prod

/-- Who takes dish `i`: those whose random number is below the (reduced) length of the stick. -/
noncomputable def column (reduced : ℝ) (draws : List (ℝ × List ℝ)) (i : Nat) : List Bool :=
  ((draws[i]?.map (·.2)).getD []).map fun r => decide (r < stick draws i * reduced)

end Spec

open Spec

section order
variable {α : Type} [LinearOrder α]

theorem tupleLe_refl : ∀ a : List α, tupleLe a a = true
  | [] => rfl
  | a :: as => by rw [tupleLe, if_pos rfl]; exact tupleLe_refl as

theorem tupleLe_total : ∀ a b : List α, tupleLe a b = true ∨ tupleLe b a = true
  | [], _ => Or.inl rfl
  | _ :: _, [] => Or.inr rfl
  | a :: as, b :: bs => by
    rw [tupleLe, tupleLe]
    by_cases h : a = b
    · rw [if_pos h, if_pos h.symm]; exact tupleLe_total as bs
    · rw [if_neg h, if_neg (Ne.symm h)]
      simpa using lt_or_gt_of_ne h

theorem tupleLe_trans : ∀ a b c : List α, tupleLe a b = true → tupleLe b c = true → tupleLe a c = true
  | [], _, _, _, _ => rfl
  | _ :: _, [], _, h, _ => by simp [tupleLe] at h
  | _ :: _, _ :: _, [], _, h => by simp [tupleLe] at h
  | a :: as, b :: bs, c :: cs, h1, h2 => by
    rw [tupleLe] at *
    by_cases hab : a = b
    · subst hab
      rw [if_pos rfl] at h1
      by_cases hac : a = c
      · subst hac; rw [if_pos rfl] at *; exact tupleLe_trans _ _ _ h1 h2
      · rw [if_neg hac] at *; exact h2
    · rw [if_neg hab] at h1
      have h1' : a < b := by simpa using h1
      by_cases hbc : b = c
      · subst hbc; rw [if_neg hab]; exact h1
      · rw [if_neg hbc] at h2
        have h2' : b < c := by simpa using h2
        have := h1'.trans h2'
        rw [if_neg this.ne]
        simpa using this

theorem tupleLe_antisymm : ∀ a b : List α, tupleLe a b = true → tupleLe b a = true → a = b
  | [], [], _, _ => rfl
  | [], _ :: _, _, h => by simp [tupleLe] at h
  | _ :: _, [], h, _ => by simp [tupleLe] at h
  | a :: as, b :: bs, h1, h2 => by
    rw [tupleLe] at *
    by_cases hab : a = b
    · subst hab
      rw [if_pos rfl] at h1 h2
      rw [tupleLe_antisymm _ _ h1 h2]
    · rw [if_neg hab] at h1
      rw [if_neg (Ne.symm hab)] at h2
      simp at h1 h2
      exact absurd h1 (not_lt.2 h2.le)

instance : IsTrans (List α) fun a b => tupleLe a b = true := ⟨tupleLe_trans⟩
instance : Std.Total fun a b : List α => tupleLe a b = true := ⟨tupleLe_total⟩
instance : Std.Antisymm fun a b : List α => tupleLe a b = true := ⟨fun a b => tupleLe_antisymm a b⟩

theorem leftordered_eq (cs : List (List α)) (h : cs ≠ []) : leftordered cs = .cols (cs.insertionSort fun a b => tupleLe a b = true).reverse := by
  unfold leftordered
  split
  · rename_i e
    have := congrArg List.length e
    rw [List.length_insertionSort] at this
    exact absurd (List.length_eq_zero_iff.1 this) h
  · rfl

end order

theorem foldl_number (c : List Bool) : ∀ n, c.foldl (fun n b => 2 * n + b.toNat) n = n * 2 ^ c.length + number c := by
  unfold number
  induction c with
  | nil => intro n; simp
  | cons b c ih =>
    intro n
    rw [List.foldl_cons, List.foldl_cons, ih, ih (2 * 0 + b.toNat), List.length_cons]
    ring

theorem number_cons (b : Bool) (c : List Bool) : number (b :: c) = b.toNat * 2 ^ c.length + number c := by
  rw [number, List.foldl_cons, foldl_number]
  simp

theorem number_lt (c : List Bool) : number c < 2 ^ c.length := by
  induction c with
  | nil => simp [number]
  | cons b c ih =>
    rw [number_cons, List.length_cons, pow_succ]
    have : b.toNat ≤ 1 := Bool.toNat_le b
    nlinarith

/-- On columns of equal length the order of tuples is that of the binary numbers. -/
theorem tupleLe_iff_number : ∀ a b : List Bool, a.length = b.length → (tupleLe a b = true ↔ number a ≤ number b)
  | [], [], _ => by simp [tupleLe]
  | [], _ :: _, h => by simp at h
  | _ :: _, [], h => by simp at h
  | a :: as, b :: bs, h => by
    have hl : as.length = bs.length := by simpa using h
    rw [tupleLe, number_cons, number_cons, hl]
    have ha := number_lt as
    have hb := number_lt bs
    rw [hl] at ha
    cases a <;> cases b
    · simpa using tupleLe_iff_number as bs hl
    · simp; omega
    · have h1 : ¬((true : Bool) < false) := by decide
      simp only [Bool.toNat_true, Bool.toNat_false, Bool.true_eq_false, if_false, h1, decide_false, Bool.false_eq_true, false_iff]
      omega
    · simpa using tupleLe_iff_number as bs hl

end Verif.Ibp

namespace Verif.Props

open Verif.Ibp Verif.Ibp.Spec

/-- The left-ordered form of a matrix with at least one column has the same columns, ordered from left to right by decreasing binary number
with the first row as the most significant digit. -/
theorem C146_leftordered (cs : List (List Bool)) (hne : cs ≠ []) (n : Nat) (hn : ∀ c ∈ cs, c.length = n) :
    ∃ l, leftordered cs = .cols l ∧ l.Perm cs ∧ l.Pairwise fun a b => number b ≤ number a := by
  refine ⟨_, leftordered_eq cs hne, (List.reverse_perm _).trans (List.perm_insertionSort _ _), ?_⟩
  rw [List.pairwise_reverse]
  have hs := List.pairwise_insertionSort (fun a b : List Bool => tupleLe a b = true) cs
  refine List.Pairwise.imp_of_mem ?_ hs
  intro a b ha hb hab
  rw [List.mem_insertionSort] at ha hb
  exact (tupleLe_iff_number a b ((hn a ha).trans (hn b hb).symm)).1 hab

example : leftordered [[false, true], [true, false], [true, true], [false, true]] = .cols [[true, true], [true, false], [false, true], [false, true]] := by decide

/-- The form is canonical: matrices have the same form exactly when they have the same columns in some order. -/
theorem C146_canonical (cs ds : List (List Bool)) : leftordered cs = leftordered ds ↔ cs.Perm ds := by
  constructor
  · intro h
    by_cases hc : cs = []
    · by_cases hd : ds = []
      · rw [hc, hd]
      · rw [leftordered_eq ds hd, hc] at h
        simp [leftordered] at h
    · by_cases hd : ds = []
      · rw [leftordered_eq cs hc, hd] at h
        simp [leftordered] at h
      · rw [leftordered_eq cs hc, leftordered_eq ds hd, Arr.cols.injEq, List.reverse_inj] at h
        exact ((List.perm_insertionSort (fun a b : List Bool => tupleLe a b = true) cs).symm.trans (h ▸ List.Perm.refl _)).trans (List.perm_insertionSort (fun a b : List Bool => tupleLe a b = true) ds)
  · intro h
    unfold leftordered
    have : (cs.insertionSort fun a b => tupleLe a b = true) = ds.insertionSort fun a b => tupleLe a b = true := by
      refine List.Perm.eq_of_pairwise' (r := fun a b : List Bool => tupleLe a b = true) ?_ ?_ ?_
      · exact List.pairwise_insertionSort _ _
      · exact List.pairwise_insertionSort _ _
      · exact ((List.perm_insertionSort _ cs).trans h).trans (List.perm_insertionSort _ ds).symm
    rw [this]

/-- The form of a matrix in left-ordered form is the matrix itself. -/
theorem C146_idempotent (cs l : List (List Bool)) (h : leftordered cs = .cols l) : leftordered l = .cols l := by
  rw [← h, C146_canonical]
  have hne : cs ≠ [] := by rintro rfl; simp [leftordered] at h
  rw [leftordered_eq cs hne, Arr.cols.injEq] at h
  rw [← h]
  exact (List.reverse_perm _).trans (List.perm_insertionSort _ _)

example : leftordered [[false, true], [true, false]] = .cols [[true, false], [false, true]] := by decide

/-- A generated matrix has exactly the columns of the dishes that at least one customer takes, in the order of the sticks: a customer takes the
dish `i` if the random number is below the product of the first stick proportions, times the reducing factor. -/
theorem C146_generate (customers : Nat) (reduced : ℝ) (draws : List (ℝ × List ℝ)) :
    generate customers reduced draws = ((List.range draws.length).map (column reduced draws)).filter fun c => c.any id := by
  have key : ∀ (n : Nat), n ≤ draws.length → ∃ (rest : List (List Bool)) (k : Nat),
      (draws.take n).foldl (step reduced) (List.replicate draws.length (List.replicate customers false), 1, 0, 0) =
        (((List.range n).map (column reduced draws)).filter (fun c => c.any id) ++ rest, ((draws.take n).map (·.1)).prod, k, n) ∧
      k + (((List.range n).map (column reduced draws)).filter fun c => c.any id).length = n ∧
      rest.length + (((List.range n).map (column reduced draws)).filter fun c => c.any id).length = draws.length := by
    intro n
    induction n with
    | zero => intro _; exact ⟨List.replicate draws.length (List.replicate customers false), 0, by simp, by simp, by simp⟩
    | succ n ih =>
      intro hn
      obtain ⟨rest, k, h1, h2, h3⟩ := ih (by omega)
      have hlt : n < draws.length := by omega
      rw [List.take_add_one, List.getElem?_eq_getElem hlt, Option.toList_some, List.foldl_append, h1, List.foldl_cons, List.foldl_nil, List.range_succ, List.map_append, List.filter_append]
      have hst : ((draws.take n).map (·.1)).prod * draws[n].1 = ((draws.take n ++ [draws[n]]).map (·.1)).prod := by
        rw [List.map_append, List.prod_append]
        simp
      have hcol : dishes (((draws.take n).map (·.1)).prod * draws[n].1) reduced draws[n].2 = column reduced draws n := by
        rw [hst]
        unfold dishes column Spec.stick
        rw [List.take_add_one, List.getElem?_eq_getElem hlt]
        rfl
      have hany : ((column reduced draws n).count true > 0) ↔ (column reduced draws n).any id = true := by
        rw [gt_iff_lt, List.count_pos_iff, List.any_eq_true]
        simp
      unfold step
      simp only
      rw [hcol, hst]
      by_cases ht : (column reduced draws n).any id = true
      · rw [if_pos (hany.2 ht)]
        generalize hf : ((List.range n).map (column reduced draws)).filter (fun c => c.any id) = F at *
        have hrest : rest ≠ [] := by
          intro e
          rw [e, List.length_nil] at h3
          omega
        obtain ⟨r, rest', rfl⟩ := List.exists_cons_of_ne_nil hrest
        refine ⟨rest', k, ?_, ?_, ?_⟩
        · rw [show n - k = F.length by omega, List.set_append_right _ _ (le_refl _), Nat.sub_self, List.set_cons_zero]
          simp [ht]
        · simp [ht]; omega
        · simp [ht]
          simp at h3
          omega
      · rw [if_neg (fun h => ht (hany.1 h))]
        refine ⟨rest, k + 1, ?_, ?_, ?_⟩
        · simp [ht]
        · simp [ht]; omega
        · simpa [ht] using h3
  obtain ⟨rest, k, h1, h2, h3⟩ := key draws.length (le_refl _)
  rw [List.take_length] at h1
  unfold generate
  rw [h1]
  simp only
  rw [show draws.length - k = (((List.range draws.length).map (column reduced draws)).filter fun c => c.any id).length by omega, List.take_left']
  rfl

example : generate 2 1 [((1 : ℝ) / 2, [1 / 4, 3 / 4]), (1 / 2, [1 / 2, 1 / 2]), (1 / 2, [1 / 16, 1 / 16])] = [[true, false], [true, true]] := by
  rw [C146_generate]
  norm_num [column, Spec.stick, List.range_succ]

/-- A customer takes a dish with a probability equal to the length of its stick, times the reducing factor, and for proportions in the unit interval later dishes are never more likely. -/
theorem C146_probability (reduced : ℝ) (hr : 0 ≤ reduced) (hr1 : reduced ≤ 1) (draws : List (ℝ × List ℝ)) (h : ∀ d ∈ draws, 0 ≤ d.1 ∧ d.1 ≤ 1) (i : Nat) :
    MeasureTheory.volume {r : ℝ | 0 ≤ r ∧ r < 1 ∧ dishes (Spec.stick draws i) reduced [r] = [true]} = ENNReal.ofReal (Spec.stick draws i * reduced) ∧
    ∀ j, i ≤ j → Spec.stick draws j ≤ Spec.stick draws i := by
  have hb : ∀ l : List (ℝ × List ℝ), (∀ d ∈ l, 0 ≤ d.1 ∧ d.1 ≤ 1) → 0 ≤ (l.map (·.1)).prod ∧ (l.map (·.1)).prod ≤ 1 := by
    intro l hl
    induction l with
    | nil => simp
    | cons d l ih =>
      obtain ⟨a, b⟩ := ih fun x hx => hl x (List.mem_cons_of_mem _ hx)
      obtain ⟨a', b'⟩ := hl d (by simp)
      rw [List.map_cons, List.prod_cons]
      exact ⟨mul_nonneg a' a, mul_le_one₀ b' a b⟩
  have hs := hb (draws.take (i + 1)) fun d hd => h d (List.mem_of_mem_take hd)
  constructor
  · have : {r : ℝ | 0 ≤ r ∧ r < 1 ∧ dishes (Spec.stick draws i) reduced [r] = [true]} = Set.Ico 0 (Spec.stick draws i * reduced) := by
      ext r
      simp only [dishes, List.map_cons, List.map_nil, List.cons.injEq, decide_eq_true_eq, and_true, Set.mem_ofPred_eq, Set.mem_Ico]
      constructor
      · rintro ⟨a, -, b⟩; exact ⟨a, b⟩
      · rintro ⟨a, b⟩
        exact ⟨a, lt_of_lt_of_le b (mul_le_one₀ hs.2 hr hr1), b⟩
    rw [this, Real.volume_Ico, sub_zero]
  · intro j hij
    unfold Spec.stick
    have e : draws.take (j + 1) = draws.take (i + 1) ++ (draws.take (j + 1)).drop (i + 1) := by
      conv_lhs => rw [← List.take_append_drop (i + 1) (draws.take (j + 1))]
      rw [List.take_take, min_eq_left (by omega)]
    rw [e, List.map_append, List.prod_append]
    have h2 := hb ((draws.take (j + 1)).drop (i + 1)) fun d hd => h d (List.mem_of_mem_take (List.mem_of_mem_drop hd))
    exact mul_le_of_le_one_right hs.1 h2.2

example : ∀ d ∈ [((1 : ℝ) / 2, [(1 : ℝ) / 4, 3 / 4]), (1 / 2, [1 / 2, 1 / 2])], 0 ≤ d.1 ∧ d.1 ≤ 1 := by norm_num

/-- A matrix without columns loses its shape: the result has one dimension. -/
theorem C146_negation_shape : leftordered ([] : List (List Bool)) = .flat ∧ ∃ draws : List (ℝ × List ℝ), (∀ d ∈ draws, 0 < d.1 ∧ d.1 < 1 ∧ d.2.length = 3) ∧ draws ≠ [] ∧ leftordered (generate 3 1 draws) = .flat := by
  refine ⟨rfl, [(1 / 2, [3 / 4, 3 / 4, 3 / 4])], by norm_num, by simp, ?_⟩
  rw [C146_generate]
  norm_num [column, Spec.stick, List.range_succ, leftordered]

/-- The documented expected number of columns, here that for one customer, `alpha`, is not reached, whatever the number of sticks: if the stick proportions are
independent with the mean `a / (a + 1)` of `beta(a, 1)`, `a = alpha / reducedprop`, the expected number of columns, the sum of the expected probabilities, is smaller. -/
theorem C146_negation_expected (alpha reduced : ℝ) (ha : 0 < alpha) (hr : 0 < reduced) (m : Nat) (E : (List ℝ → ℝ) → ℝ)
    (hE : ∀ i < m, E (fun nus => (nus.take (i + 1)).prod) = (alpha / reduced / (alpha / reduced + 1)) ^ (i + 1)) :
    ∑ i ∈ Finset.range m, E (fun nus => (nus.take (i + 1)).prod) * reduced < alpha := by
  rw [Finset.sum_congr rfl fun i hi => by rw [hE i (Finset.mem_range.1 hi)]]
  have hq : 0 < alpha / reduced := by positivity
  generalize hqe : alpha / reduced = q at *
  have hal : alpha = q * reduced := by rw [← hqe]; field_simp
  have h1 : q / (q + 1) < 1 := by rw [div_lt_one (by linarith)]; linarith
  have h0 : 0 < q / (q + 1) := by positivity
  rw [← Finset.sum_mul, hal]
  refine mul_lt_mul_of_pos_right ?_ hr
  have hsum : ∑ i ∈ Finset.range m, (q / (q + 1)) ^ (i + 1) = q / (q + 1) * ∑ i ∈ Finset.range m, (q / (q + 1)) ^ i := by
    rw [Finset.mul_sum]
    exact Finset.sum_congr rfl fun i _ => by rw [pow_succ']
  rw [hsum, geom_sum_eq h1.ne]
  have hq1 : q + 1 ≠ 0 := by linarith
  have e : q / (q + 1) * (((q / (q + 1)) ^ m - 1) / (q / (q + 1) - 1)) = q * (1 - (q / (q + 1)) ^ m) := by
    have : q / (q + 1) - 1 = -1 / (q + 1) := by field_simp; ring
    rw [this]
    field_simp
    ring
  rw [e]
  have : 0 < (q / (q + 1)) ^ m := pow_pos h0 m
  nlinarith

/-- An expectation with these values exists, for instance that of constant proportions. -/
example (m : Nat) : ∃ E : (List ℝ → ℝ) → ℝ, ∀ i < m, E (fun nus => (nus.take (i + 1)).prod) = ((10 : ℝ) / 1 / (10 / 1 + 1)) ^ (i + 1) :=
  ⟨fun f => f (List.replicate m (10 / 11)), fun i hi => by
    beta_reduce
    rw [List.take_replicate, min_eq_left (by omega), List.prod_replicate]
    norm_num⟩

end Verif.Props
