import Verif.Model.Ranking
import Mathlib.Data.List.Perm.Subperm
import Mathlib.Tactic.Linarith
/-
Lemmas about rankings.
-/
namespace Verif.Ranking
set_option linter.unusedSectionVars false

section
variable {K : Type} [LinearOrder K]

/-- strictly earlier in the tuple order -/
def Tlt (a b : K × Nat) : Prop := a.1 < b.1 ∨ (a.1 = b.1 ∧ a.2 < b.2)

instance (a b : K × Nat) : Decidable (Tlt a b) := by unfold Tlt; infer_instance

theorem rankLoop_spec : ∀ (l : List (K × Nat)) (i : Nat) (res : List Nat), (l.map Prod.snd).Nodup → (∀ q ∈ l, q.2 < res.length) →
    (rankLoop l i res).length = res.length ∧ (∀ p q, l[p]? = some q → (rankLoop l i res)[q.2]? = some (i + p)) ∧
    (∀ x, x ∉ l.map Prod.snd → (rankLoop l i res)[x]? = res[x]?) := by
  intro l
  induction l with
  | nil => intro i res _ _; simp [rankLoop]
  | cons a l ih =>
    intro i res hnd hlt
    obtain ⟨k, j⟩ := a
    rw [List.map_cons, List.nodup_cons] at hnd
    obtain ⟨h1, h2, h3⟩ := ih (i + 1) (res.set j i) hnd.2 (fun q hq => by rw [List.length_set]; exact hlt q (by simp [hq]))
    rw [rankLoop]
    refine ⟨by rw [h1, List.length_set], ?_, ?_⟩
    · intro p q hp
      cases p with
      | zero =>
        simp only [List.getElem?_cons_zero, Option.some.injEq] at hp
        subst hp
        rw [h3 j hnd.1, List.getElem?_set_self (hlt (k, j) (by simp))]; simp
      | succ p =>
        rw [List.getElem?_cons_succ] at hp
        rw [h2 p q hp]; congr 1; omega
    · intro x hx
      rw [List.map_cons, List.mem_cons, not_or] at hx
      rw [h3 x hx.2, List.getElem?_set_ne (fun h => hx.1 h.symm)]

theorem tupleLe_iff (a b : K × Nat) : tupleLe a b = true ↔ Tlt a b ∨ a = b := by
  obtain ⟨x, i⟩ := a; obtain ⟨y, j⟩ := b
  simp only [tupleLe, Tlt, Bool.or_eq_true, Bool.and_eq_true, decide_eq_true_eq, Prod.mk.injEq]
  constructor
  · rintro (h | ⟨h1, h2⟩)
    · exact Or.inl (Or.inl h)
    · rcases Nat.lt_or_eq_of_le h2 with h | h
      · exact Or.inl (Or.inr ⟨h1, h⟩)
      · exact Or.inr ⟨h1, h⟩
  · rintro ((h | ⟨h1, h2⟩) | ⟨h1, h2⟩)
    · exact Or.inl h
    · exact Or.inr ⟨h1, h2.le⟩
    · exact Or.inr ⟨h1, h2.le⟩

theorem Tlt.trans {a b c : K × Nat} (h1 : Tlt a b) (h2 : Tlt b c) : Tlt a c := by
  rcases h1 with h1 | ⟨h1, g1⟩ <;> rcases h2 with h2 | ⟨h2, g2⟩
  · exact Or.inl (lt_trans h1 h2)
  · exact Or.inl (h2 ▸ h1)
  · exact Or.inl (h1 ▸ h2)
  · exact Or.inr ⟨h1.trans h2, lt_trans g1 g2⟩

theorem Tlt.irrefl (a : K × Nat) : ¬ Tlt a a := by
  rintro (h | ⟨_, h⟩)
  · exact lt_irrefl _ h
  · exact lt_irrefl _ h

theorem Tlt.total (a b : K × Nat) : Tlt a b ∨ a = b ∨ Tlt b a := by
  obtain ⟨x, i⟩ := a; obtain ⟨y, j⟩ := b
  simp only [Tlt, Prod.mk.injEq]
  rcases lt_trichotomy x y with h | h | h
  · exact Or.inl (Or.inl h)
  · subst h
    rcases Nat.lt_trichotomy i j with h | h | h <;> simp [h]
  · exact Or.inr (Or.inr (Or.inl h))

theorem count_before : ∀ (l : List (K × Nat)), l.Pairwise Tlt → ∀ p q, l[p]? = some q → l.countP (fun x => decide (Tlt x q)) = p := by
  intro l
  induction l with
  | nil => intro _ p q h; simp at h
  | cons a l ih =>
    intro hp p q h
    rw [List.pairwise_cons] at hp
    cases p with
    | zero =>
      simp only [List.getElem?_cons_zero, Option.some.injEq] at h
      subst h
      rw [List.countP_eq_zero]
      intro b hb
      rcases List.mem_cons.1 hb with rfl | hb
      · simpa using Tlt.irrefl b
      · simpa using fun hba => Tlt.irrefl _ (hba.trans (hp.1 b hb))
    | succ p =>
      rw [List.getElem?_cons_succ] at h
      rw [List.countP_cons_of_pos (by simpa using hp.1 q (List.mem_of_getElem? h)), ih hp.2 p q h]

/-- the sorted list of tuples behind a ranking -/
theorem ranked_sorted_list (R : List K) : ∃ l : List (K × Nat), l.Perm R.zipIdx ∧ l.Pairwise Tlt ∧
    (rankedFitness R).length = R.length ∧ ∀ (p : Nat) (q : K × Nat), l[p]? = some q → (rankedFitness R)[q.2]? = some p := by
  have hp := List.mergeSort_perm R.zipIdx tupleLe
  have hs : (R.zipIdx.mergeSort tupleLe).Pairwise (fun a b => tupleLe a b = true) :=
    List.pairwise_mergeSort (fun a b c h1 h2 => by
      rw [tupleLe_iff] at *
      rcases h1 with h1 | rfl
      · rcases h2 with h2 | rfl
        · exact Or.inl (h1.trans h2)
        · exact Or.inl h1
      · exact h2) (fun a b => by
      rw [Bool.or_eq_true, tupleLe_iff, tupleLe_iff]
      rcases Tlt.total a b with h | h | h
      · exact Or.inl (Or.inl h)
      · exact Or.inl (Or.inr h)
      · exact Or.inr (Or.inl h)) _
  have hnd0 : (R.zipIdx.map Prod.snd).Nodup := by
    rw [List.zipIdx_map_snd]; exact List.nodup_range' 
  have hnd : ((R.zipIdx.mergeSort tupleLe).map Prod.snd).Nodup := (hp.map Prod.snd).nodup_iff.2 hnd0
  have hst : (R.zipIdx.mergeSort tupleLe).Pairwise Tlt := by
    have hne : (R.zipIdx.mergeSort tupleLe).Pairwise (fun a b => a ≠ b) := hnd.of_map _
    refine (hs.and hne).imp (fun {a b} h => ?_)
    exact ((tupleLe_iff a b).1 h.1).resolve_right h.2
  obtain ⟨h1, h2, _⟩ := rankLoop_spec (R.zipIdx.mergeSort tupleLe) 0 (List.replicate R.length 0) hnd (fun q hq => by
    have := List.mem_zipIdx (hp.mem_iff.1 hq)
    rw [List.length_replicate]; omega)
  refine ⟨_, hp, hst, by rw [rankedFitness, h1, List.length_replicate], fun p q hq => ?_⟩
  have := h2 p q hq
  rwa [Nat.zero_add] at this

theorem zipIdx_getElem? (R : List K) (i : Nat) (v : K) (h : R[i]? = some v) : R.zipIdx[i]? = some (v, i) := by
  rw [List.getElem?_zipIdx, h]; simp

/-- an entry's rank is the number of entries before it in the tuple order -/
theorem rankedFitness_eq (R : List K) (i : Nat) (v : K) (h : R[i]? = some v) :
    (rankedFitness R)[i]? = some (R.zipIdx.countP (fun x => decide (Tlt x (v, i)))) := by
  obtain ⟨l, hp, hs, _, hl⟩ := ranked_sorted_list R
  have hm : (v, i) ∈ l := hp.mem_iff.2 (List.mem_of_getElem? (zipIdx_getElem? R i v h))
  obtain ⟨p, hpq⟩ := List.mem_iff_getElem?.1 hm
  have := hl p _ hpq
  simp only at this
  rw [this, ← hp.countP_eq, count_before l hs p _ hpq]

theorem rankedFitness_perm (R : List K) : (rankedFitness R).Perm (List.range R.length) := by
  obtain ⟨l, hp, hs, hlen, hl⟩ := ranked_sorted_list R
  have hllen : l.length = R.length := by rw [hp.length_eq, List.length_zipIdx]
  have hsub : List.range R.length ⊆ rankedFitness R := by
    intro p hpr
    rw [List.mem_range] at hpr
    obtain ⟨q, hq⟩ : ∃ q, l[p]? = some q := ⟨l[p]'(by omega), List.getElem?_eq_getElem (by omega)⟩
    exact List.mem_of_getElem? (hl p q hq)
  exact ((List.nodup_range.subperm hsub).perm_of_length_le (by rw [hlen, List.length_range])).symm

theorem rankedFitness_lt (R : List K) (i j : Nat) (v w : K) (hi : R[i]? = some v) (hj : R[j]? = some w) (hvw : v < w) (r s : Nat)
    (hr : (rankedFitness R)[i]? = some r) (hs : (rankedFitness R)[j]? = some s) : r < s := by
  obtain ⟨l, hp, hst, _, hl⟩ := ranked_sorted_list R
  obtain ⟨p, hpq⟩ := List.mem_iff_getElem?.1 (hp.mem_iff.2 (List.mem_of_getElem? (zipIdx_getElem? R i v hi)))
  obtain ⟨q, hqq⟩ := List.mem_iff_getElem?.1 (hp.mem_iff.2 (List.mem_of_getElem? (zipIdx_getElem? R j w hj)))
  have e1 := hl p _ hpq
  have e2 := hl q _ hqq
  simp only at e1 e2
  rw [hr] at e1; rw [hs] at e2
  cases e1; cases e2
  by_contra hge
  obtain ⟨hp1, hp2⟩ := List.getElem?_eq_some_iff.1 hpq
  obtain ⟨hq1, hq2⟩ := List.getElem?_eq_some_iff.1 hqq
  rcases Nat.lt_or_eq_of_le (Nat.le_of_not_lt hge) with hlt | heq
  · have := List.pairwise_iff_getElem.1 hst s r hq1 hp1 hlt
    rw [hp2, hq2] at this
    rcases this with h | ⟨h, _⟩
    · exact lt_asymm h hvw
    · exact absurd h (ne_of_gt hvw)
  · subst heq
    rw [hpq] at hqq
    have := congrArg Prod.fst (Option.some.inj hqq)
    exact absurd this (ne_of_lt hvw)

end

theorem foldl_max_spec : ∀ (l : List ℝ) (x : ℝ), x ≤ l.foldl max x ∧ (∀ y ∈ l, y ≤ l.foldl max x) ∧ (l.foldl max x = x ∨ l.foldl max x ∈ l) := by
  intro l
  induction l with
  | nil => intro x; simp
  | cons a l ih =>
    intro x
    obtain ⟨h1, h2, h3⟩ := ih (max x a)
    rw [List.foldl_cons]
    refine ⟨le_trans (le_max_left _ _) h1, ?_, ?_⟩
    · intro y hy
      rcases List.mem_cons.1 hy with rfl | hy
      · exact le_trans (le_max_right _ _) h1
      · exact h2 y hy
    · rcases h3 with h | h
      · rw [h]
        rcases max_choice x a with h' | h'
        · exact Or.inl h'
        · right; rw [h']; simp
      · right; exact List.mem_cons_of_mem _ h

theorem maxOf_spec (l : List ℝ) (h : l ≠ []) : maxOf l ∈ l ∧ ∀ y ∈ l, y ≤ maxOf l := by
  cases l with
  | nil => exact absurd rfl h
  | cons x l =>
    obtain ⟨h1, h2, h3⟩ := foldl_max_spec l x
    rw [maxOf]
    refine ⟨?_, ?_⟩
    · rcases h3 with h | h
      · rw [h]; simp
      · exact List.mem_cons_of_mem _ h
    · intro y hy
      rcases List.mem_cons.1 hy with rfl | hy
      · exact h1
      · exact h2 y hy

end Verif.Ranking
