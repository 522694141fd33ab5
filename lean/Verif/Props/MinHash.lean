import Verif.Spec.MinHash
import Mathlib.Tactic.FieldSimp
import Mathlib.Algebra.Order.Field.Basic
import Mathlib.Data.Rat.Cast.Order
import Mathlib.Tactic.Linarith
/-
C48: nearest neighbours in the MinHash structure.
-/
namespace Verif.MinHash
set_option linter.unusedSectionVars false
open Verif.Py
open Spec

variable {S : Type}

theorem sort_perm (l : List (List Int × S)) (q : List Int) :
    (l.insertionSort (fun x y => jacard y.1 q ≤ jacard x.1 q)).Perm l := List.perm_insertionSort _ _

theorem sort_sorted (l : List (List Int × S)) (q : List Int) :
    (l.insertionSort (fun x y => jacard y.1 q ≤ jacard x.1 q)).Pairwise (fun x y => jacard y.1 q ≤ jacard x.1 q) := by
  have : Std.Total (fun x y : List Int × S => jacard y.1 q ≤ jacard x.1 q) := ⟨fun a b => le_total _ _⟩
  have : IsTrans (List Int × S) (fun x y => jacard y.1 q ≤ jacard x.1 q) := ⟨fun a b c h1 h2 => le_trans h2 h1⟩
  exact List.pairwise_insertionSort _ _

/-- every bucket holds exactly the stored items with that hash -/
def Holds (m : Store S) (l : List (List Int × S)) : Prop :=
  ∀ h, (bucket m h).Perm (l.filter (fun p => hash m.perms p.1 = h))

theorem bucket_dset (m : Store S) (h h' : List Nat) (c : List (List Int × S)) :
    bucket { m with buckets := dset m.buckets h c } h' = if h = h' then c else bucket m h' := by
  unfold bucket
  simp only [dget_dset]
  split <;> rfl

theorem run_dim (ops : List (Op S)) : ∀ m : Store S, (run m ops).dim = m.dim ∧ (run m ops).perms = m.perms := by
  induction ops with
  | nil => intro m; exact ⟨rfl, rfl⟩
  | cons op ops ih =>
    intro m
    cases op with
    | put item sat =>
      rw [run, put]
      by_cases hl : item.length ≠ m.dim
      · rw [if_pos hl]; exact ih m
      · rw [if_neg hl]; exact ih _
    | knn item k =>
      rw [run, knn]
      by_cases hl : item.length ≠ m.dim
      · rw [if_pos hl]; exact ih m
      · rw [if_neg hl]; exact ih _

theorem run_holds (ops : List (Op S)) : ∀ (m : Store S) (l : List (List Int × S)), Holds m l → Holds (run m ops) (l ++ stored m.dim ops) := by
  induction ops with
  | nil => intro m l h; simpa [stored, run] using h
  | cons op ops ih =>
    intro m l h
    cases op with
    | put item sat =>
      rw [run, put, stored]
      by_cases hl : item.length = m.dim
      · rw [if_neg (by simpa using hl), if_pos hl]
        have := ih { m with buckets := dset m.buckets (hash m.perms (asBool item)) (bucket m (hash m.perms (asBool item)) ++ [(asBool item, sat)]) }
          (l ++ [(asBool item, sat)]) (by
          intro h'
          rw [bucket_dset, List.filter_append]
          dsimp only
          by_cases e : hash m.perms (asBool item) = h'
          · subst e
            rw [if_pos rfl, List.filter_singleton]
            simp only [decide_true, if_true]
            exact (h _).append_right _
          · rw [if_neg e, List.filter_singleton]
            simp only [e, decide_false]
            simpa using h h')
        simpa using this
      · rw [if_pos (by simpa using hl), if_neg hl]
        exact ih m l h
    | knn item k =>
      rw [run, knn, stored]
      by_cases hl : item.length = m.dim
      · rw [if_neg (by simpa using hl)]
        refine ih { m with buckets := _ } l ?_
        intro h'
        rw [bucket_dset]
        dsimp only
        by_cases e : hash m.perms item = h'
        · subst e; rw [if_pos rfl]; exact (sort_perm _ _).trans (h _)
        · rw [if_neg e]; exact h h'
      · rw [if_pos (by simpa using hl)]
        exact ih m l h

theorem asBool_binary {q : List Int} (h : Binary q) : asBool q = q := by
  unfold asBool
  conv_rhs => rw [← List.map_id q]
  apply List.map_congr_left
  intro x hx
  rcases h x hx with rfl | rfl <;> rfl

theorem asBool_idem (q : List Int) : asBool (asBool q) = asBool q := by
  unfold asBool
  rw [List.map_map]
  apply List.map_congr_left
  intro x _
  dsimp only [Function.comp]
  split <;> simp

theorem stored_form {dim : Nat} : ∀ (ops : List (Op S)) (p : List Int × S), p ∈ stored dim ops → p.1.length = dim ∧ asBool p.1 = p.1 := by
  intro ops
  induction ops with
  | nil => intro p h; simp [stored] at h
  | cons op ops ih =>
    intro p h
    cases op with
    | put item sat =>
      rw [stored] at h
      split at h
      · rename_i hl
        rcases List.mem_cons.1 h with rfl | h
        · exact ⟨by simpa [asBool] using hl, asBool_idem _⟩
        · exact ih p h
      · exact ih p h
    | knn item k => exact ih p h

theorem countP_zip (a b : List Int) : a.length = b.length → ((a.zip b).countP (fun p => p.1 = p.2) ≤ a.length) ∧
    ((a.zip b).countP (fun p => p.1 = p.2) = a.length ↔ a = b) := by
  induction a generalizing b with
  | nil => intro h; cases b with
    | nil => simp
    | cons y b => simp at h
  | cons x a ih =>
    intro h
    cases b with
    | nil => simp at h
    | cons y b =>
      obtain ⟨h1, h2⟩ := ih b (by simpa using h)
      rw [List.zip_cons_cons, List.countP_cons]
      by_cases e : x = y
      · subst e
        simp only [decide_true, if_true, List.length_cons, List.cons.injEq, true_and]
        exact ⟨by omega, by rw [← h2]; omega⟩
      · simp only [e, decide_false, List.length_cons, List.cons.injEq, false_and, iff_false]
        exact ⟨by simp; omega, by simp; omega⟩

theorem jacard_le (a b : List Int) (hl : a.length = b.length) : jacard a b ≤ 1 := by
  unfold jacard
  have h := (countP_zip (asBool a) (asBool b) (by simpa [asBool] using hl)).1
  rw [show (asBool a).length = a.length by simp [asBool]] at h
  rcases Nat.eq_zero_or_pos a.length with h0 | h0
  · rw [h0]; simp
  · rw [div_le_one (by exact_mod_cast h0)]
    exact_mod_cast h

theorem jacard_one (a b : List Int) (hl : a.length = b.length) (h0 : 0 < a.length) : jacard a b = 1 ↔ asBool a = asBool b := by
  unfold jacard
  have h := (countP_zip (asBool a) (asBool b) (by simpa [asBool] using hl)).2
  rw [show (asBool a).length = a.length by simp [asBool]] at h
  rw [div_eq_one_iff_eq (by exact_mod_cast h0.ne')]
  rw [← h]
  norm_cast

theorem sliceTo_nat {α : Type} (l : List α) (k : Nat) : sliceTo l (k : Int) = l.take k := by
  unfold sliceTo clampBound
  rw [if_pos (by omega), Int.toNat_natCast]
  by_cases h : k ≤ l.length
  · rw [Nat.min_eq_left h]
  · rw [Nat.min_eq_right (by omega), List.take_length, List.take_of_length_le (by omega)]

theorem knn_eq (dim : Nat) (perms : List (List Nat)) (ops : List (Op S)) (q : List Int) (k : Nat) (hq : q.length = dim) :
    ∃ (c : List (List Int × S)) (m' : Store S), knn (run (new dim perms) ops) q (k : Int) = .ok (c.take k, m') ∧
      c.Perm ((stored dim ops).filter (fun p => hash perms p.1 = hash perms q)) ∧
      c.Pairwise (fun x y => jacard y.1 q ≤ jacard x.1 q) := by
  have hh := run_holds ops (new dim perms : Store S) [] (by intro h; simp [bucket, new, dget])
  obtain ⟨hd, hp⟩ := run_dim ops (new dim perms : Store S)
  generalize run (new dim perms) ops = m at hh hd hp ⊢
  refine ⟨(bucket m (hash m.perms q)).insertionSort (fun x y => jacard y.1 q ≤ jacard x.1 q),
    { m with buckets := dset m.buckets (hash m.perms q) ((bucket m (hash m.perms q)).insertionSort (fun x y => jacard y.1 q ≤ jacard x.1 q)) },
    ?_, ?_, sort_sorted _ q⟩
  · unfold knn
    rw [if_neg (by rw [hd, hq]; simp [new])]
    dsimp only
    rw [sliceTo_nat]
  · refine (sort_perm _ _).trans ?_
    have := hh (hash m.perms q)
    rw [hp] at this ⊢
    refine this.trans (List.Perm.of_eq ?_)
    rw [List.nil_append]
    rfl

end Verif.MinHash

namespace Verif.Props

open Verif.MinHash Verif.MinHash.Spec
open Verif.DataSet (Err)

variable {S : Type}

/-- C48: after any history of `put` and `knn` calls (some of which may have raised), `knn(q, k)` returns at most
`k` pairs, all of them stored by an accepted `put` (each at most as often as it was put), in order of decreasing Jaccard coefficient. -/
theorem C48_knn [DecidableEq S] (dim : Nat) (perms : List (List Nat)) (ops : List (Op S)) (q : List Int) (k : Nat) (hq : q.length = dim) :
    ∃ res m', knn (run (new dim perms) ops) q (k : Int) = .ok (res, m') ∧ res.length ≤ k ∧
      (∀ p, res.count p ≤ (stored dim ops).count p) ∧ res.Pairwise (fun x y => jacard y.1 q ≤ jacard x.1 q) := by
  obtain ⟨c, m', h1, h2, h3⟩ := knn_eq dim perms ops q k hq
  refine ⟨c.take k, m', h1, by rw [List.length_take]; omega, ?_, h3.sublist (List.take_sublist _ _)⟩
  intro p
  calc (c.take k).count p ≤ c.count p := (List.take_sublist _ _).count_le _
    _ = _ := h2.count_eq _
    _ ≤ _ := List.filter_sublist.count_le _

/-- C48: the answer is best among the candidates: a stored item with the same hash as the query that is
not returned is no more similar than any returned one, and if it is missing the answer has `k` items. -/
theorem C48_best (dim : Nat) (perms : List (List Nat)) (ops : List (Op S)) (q : List Int) (k : Nat) (hq : q.length = dim) :
    ∃ res m', knn (run (new dim perms) ops) q (k : Int) = .ok (res, m') ∧
      ∀ p ∈ stored dim ops, hash perms p.1 = hash perms q → p ∈ res ∨ (res.length = k ∧ ∀ r ∈ res, jacard p.1 q ≤ jacard r.1 q) := by
  obtain ⟨c, m', h1, h2, h3⟩ := knn_eq dim perms ops q k hq
  refine ⟨c.take k, m', h1, ?_⟩
  intro p hp hh
  have hc : p ∈ c := h2.mem_iff.2 (List.mem_filter.2 ⟨hp, by simpa using hh⟩)
  rw [← List.take_append_drop k c, List.mem_append] at hc
  rcases hc with hc | hc
  · exact Or.inl hc
  · right
    have hk : k < c.length := by
      by_contra h
      rw [List.drop_eq_nil_of_le (by omega)] at hc
      simp at hc
    refine ⟨by rw [List.length_take]; omega, ?_⟩
    intro r hr
    rw [← List.take_append_drop k c, List.pairwise_append] at h3
    exact h3.2.2 r hr p hc

/-- C48: for a 0/1 query that was stored, the items identical to the query come first: the first answer
is identical to the query, and every identical stored pair is returned unless `k` identical ones are. -/
theorem C48_identical_partial (dim : Nat) (hdim : 0 < dim) (perms : List (List Nat)) (ops : List (Op S)) (q : List Int) (k : Nat) (hq : q.length = dim)
    (hbin : Binary q) :
    ∃ res m', knn (run (new dim perms) ops) q (k : Int) = .ok (res, m') ∧
      ∀ s, (q, s) ∈ stored dim ops →
        ((q, s) ∈ res ∨ (res.length = k ∧ ∀ r ∈ res, r.1 = q)) ∧
        (0 < k → ∃ s', res.head? = some (q, s')) := by
  obtain ⟨c, m', h1, h2, h3⟩ := knn_eq dim perms ops q k hq
  refine ⟨c.take k, m', h1, ?_⟩
  intro s hs
  have hform : ∀ r ∈ c, r.1.length = dim ∧ asBool r.1 = r.1 := fun r hr => stored_form ops r (List.mem_of_mem_filter (h2.mem_iff.1 hr))
  have hc : (q, s) ∈ c := h2.mem_iff.2 (List.mem_filter.2 ⟨hs, by simp⟩)
  have hone : jacard q q = 1 := (jacard_one q q rfl (by omega)).2 rfl
  have hid : ∀ r ∈ c, jacard q q ≤ jacard r.1 q → r.1 = q := by
    intro r hr hle
    obtain ⟨g1, g2⟩ := hform r hr
    have hle1 := jacard_le r.1 q (by omega)
    have : jacard r.1 q = 1 := le_antisymm hle1 (by rw [← hone]; exact hle)
    have := (jacard_one r.1 q (by omega) (by omega)).1 this
    rw [g2, asBool_binary hbin] at this
    exact this
  refine ⟨?_, ?_⟩
  · have hc' := hc
    rw [← List.take_append_drop k c, List.mem_append] at hc'
    rcases hc' with hc' | hc'
    · exact Or.inl hc'
    · right
      have hk : k < c.length := by
        by_contra h
        rw [List.drop_eq_nil_of_le (by omega)] at hc'
        simp at hc'
      refine ⟨by rw [List.length_take]; omega, ?_⟩
      intro r hr
      have h3' := h3
      rw [← List.take_append_drop k c, List.pairwise_append] at h3'
      exact hid r (List.take_subset _ _ hr) (h3'.2.2 r hr (q, s) hc')
  · intro hk
    cases c with
    | nil => simp at hc
    | cons r c =>
      obtain ⟨r1, r2⟩ := r
      cases k with
      | zero => omega
      | succ k =>
        refine ⟨r2, ?_⟩
        rw [List.take_succ_cons, List.head?_cons]
        have : r1 = q := by
          rcases List.mem_cons.1 hc with e | e
          · cases e; rfl
          · rw [List.pairwise_cons] at h3
            exact hid (r1, r2) (by simp) (h3.1 (q, s) e)
        rw [this]

/-- C48: a query or item of the wrong size raises `ValueError`. -/
theorem C48_wrong_size (m : Store S) (q : List Int) (h : q.length ≠ m.dim) (k : Int) (s : S) :
    knn m q k = .error .valueError ∧ put m q s = .error .valueError := ⟨if_pos h, if_pos h⟩

/-- C48: for arrays with entries other than 0 and 1 the promise fails: `put` hashes the boolean form but
`knn` hashes the raw query, so the very array that was stored is not found. -/
theorem C48_negation_raw :
    ((knn (run (new 2 [[0, 1]]) [.put [2, 1] "a"]) [2, 1] 5).toOption.map (fun r => r.1)) = some [] := by decide +kernel

/-- three stored arrays -/
def MinHash.threeStored : List (Op String) := [.put [0, 1, 1] "a", .put [1, 1, 0] "b", .knn [1, 1, 1] 1, .put [1, 1] "bad", .put [1, 1, 1] "c"]

example : ((knn (run (new 3 [[1, 0, 2]]) MinHash.threeStored) [1, 1, 1] 2).toOption.map (fun r => r.1)) = some [([1, 1, 1], "c"), ([0, 1, 1], "a")] := by
  decide +kernel
example : ([1, 1, 1], "c") ∈ stored 3 MinHash.threeStored ∧ (stored 3 MinHash.threeStored).length = 3 := by decide
example : Binary [1, 1, 1] := by simp [Binary]

end Verif.Props
