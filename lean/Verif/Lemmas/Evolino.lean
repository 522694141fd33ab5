import Verif.Spec.Evolino
import Mathlib.Data.List.Nodup
import Mathlib.Data.List.Perm.Subperm
import Mathlib.Order.BoundedOrder.Lattice
import Mathlib.Tactic.Ring
/-
Lemmas about Evolino populations.
-/
namespace Verif.Evolino
set_option linter.unusedSectionVars false

open Verif.Py
open Verif.DataSet (Err)
open Spec

variable {α F : Type} [DecidableEq α] [LinearOrder F] [OrderBot F]

theorem keys_dset (d : List (α × F)) (k : α) (v : F) :
    (dset d k v).map Prod.fst = if k ∈ d.map Prod.fst then d.map Prod.fst else d.map Prod.fst ++ [k] := by
  induction d with
  | nil => simp [dset]
  | cons a d ih =>
    obtain ⟨k', v'⟩ := a
    rw [dset]
    by_cases h : k' = k
    · subst h; simp
    · rw [if_neg h, List.map_cons, ih]
      by_cases h2 : k ∈ d.map Prod.fst
      · rw [if_pos h2, if_pos (by simp only [List.map_cons]; exact List.mem_cons_of_mem _ h2)]; rfl
      · rw [if_neg h2, if_neg (by simp only [List.map_cons, List.mem_cons]; rintro (e | e); exacts [h e.symm, h2 e])]; rfl

theorem nodup_snoc {l : List α} {a : α} (h : l.Nodup) (ha : a ∉ l) : (l ++ [a]).Nodup := by
  rw [List.nodup_append]
  exact ⟨h, List.nodup_singleton _, fun x hx y hy => by simp at hy; subst hy; intro e; subst e; exact ha hx⟩

theorem keys_dset_nodup (d : List (α × F)) (k : α) (v : F) (h : (d.map Prod.fst).Nodup) : ((dset d k v).map Prod.fst).Nodup := by
  rw [keys_dset]
  split
  · exact h
  · rename_i hk; exact nodup_snoc h hk

theorem mem_keys_dset (d : List (α × F)) (k : α) (v : F) (a : α) : a ∈ (dset d k v).map Prod.fst ↔ a = k ∨ a ∈ d.map Prod.fst := by
  rw [keys_dset]
  split
  · rename_i h; exact ⟨Or.inr, fun x => x.elim (fun e => e ▸ h) id⟩
  · rw [List.mem_append, List.mem_singleton]; exact or_comm

theorem dget_isSome (d : List (α × F)) (a : α) : (dget d a).isSome ↔ a ∈ d.map Prod.fst := by
  induction d with
  | nil => simp [dget]
  | cons p d ih =>
    obtain ⟨k, v⟩ := p
    rw [dget]
    by_cases h : k = a
    · simp [h]
    · rw [if_neg h, ih, List.map_cons, List.mem_cons]
      exact ⟨Or.inr, fun x => x.elim (fun e => absurd e.symm h) id⟩

theorem dget_none (d : List (α × F)) (a : α) : dget d a = none ↔ a ∉ d.map Prod.fst := by
  rw [← dget_isSome]
  cases dget d a <;> simp

theorem dget_filter (d : List (α × F)) (P : α → Bool) (a : α) (h : P a = true) : dget (d.filter (fun q => P q.1)) a = dget d a := by
  induction d with
  | nil => rfl
  | cons p d ih =>
    obtain ⟨k, v⟩ := p
    by_cases hk : k = a
    · subst hk; rw [List.filter_cons_of_pos (by simpa using h)]; simp [dget]
    · rw [List.filter_cons]
      split
      · simp only [dget, if_neg hk]; exact ih
      · simp only [dget, if_neg hk]; exact ih

theorem add_consistent (p : Pop α F) (a : α) (h : Consistent p) : Consistent (add p a) := by
  obtain ⟨h1, h2, h3⟩ := h
  refine ⟨?_, keys_dset_nodup _ _ _ h2, ?_⟩
  · simp only [add]
    split
    · exact h1
    · rename_i hk; exact nodup_snoc h1 hk
  · intro b
    simp only [add]
    rw [mem_keys_dset, ← h3 b]
    split
    · rename_i hk; exact ⟨Or.inr, fun x => x.elim (fun e => e ▸ hk) id⟩
    · rw [List.mem_append, List.mem_singleton]; exact or_comm

theorem remove_consistent (p q : Pop α F) (a : α) (h : Consistent p) (hq : remove p a = .ok q) : Consistent q := by
  obtain ⟨h1, h2, h3⟩ := h
  unfold remove at hq
  split at hq
  · cases hq
    refine ⟨h1.filter _, ?_, ?_⟩
    · simp only [ddel]
      exact (List.filter_sublist.map Prod.fst).nodup h2
    · intro b
      simp only [ddel, List.mem_filter, List.mem_map]
      have := h3 b
      rw [List.mem_map] at this
      constructor
      · rintro ⟨g1, g2⟩
        obtain ⟨x, hx, rfl⟩ := this.1 g1
        exact ⟨x, ⟨hx, g2⟩, rfl⟩
      · rintro ⟨x, ⟨hx, g2⟩, rfl⟩
        exact ⟨this.2 ⟨x, hx, rfl⟩, g2⟩
  · cases hq

theorem removeAll_consistent : ∀ (l : List α) (p q : Pop α F), Consistent p → removeAll p l = .ok q → Consistent q := by
  intro l
  induction l with
  | nil => intro p q h hq; cases hq; exact h
  | cons a l ih =>
    intro p q h hq
    rw [removeAll] at hq
    cases hr : remove p a with
    | error e => rw [hr] at hq; cases hq
    | ok r => rw [hr] at hq; exact ih r q (remove_consistent p r a h hr) hq

theorem setFitness_consistent (p : Pop α F) (a : α) (f : F) (h : Consistent p) (ha : a ∈ p.individuals) : Consistent (setFitness p a f) := by
  obtain ⟨h1, h2, h3⟩ := h
  refine ⟨h1, keys_dset_nodup _ _ _ h2, ?_⟩
  intro b
  simp only [setFitness]
  rw [mem_keys_dset, ← h3 b]
  exact ⟨Or.inr, fun x => x.elim (fun e => e ▸ ha) id⟩

theorem clear_consistent (p : Pop α F) (h : Consistent p) : Consistent (clearFitness p) := by
  obtain ⟨h1, h2, h3⟩ := h
  have e : (clearFitness p).fitness.map Prod.fst = p.fitness.map Prod.fst := by simp [clearFitness]
  exact ⟨h1, by rw [e]; exact h2, by rw [e]; exact h3⟩

theorem step_consistent (p q : Pop α F) (op : Op α F) (h : Consistent p)
    (hp : match op with | .setFitness a _ => a ∈ p.individuals | _ => True) (hq : step p op = .ok q) : Consistent q := by
  cases op with
  | add a => cases hq; exact add_consistent p a h
  | remove a => exact remove_consistent p q a h hq
  | setFitness a f => cases hq; exact setFitness_consistent p a f h hp
  | clear => cases hq; exact clear_consistent p h
  | removeWorst n => exact removeAll_consistent _ p q h hq

theorem run_consistent : ∀ (ops : List (Op α F)) (p : Pop α F), Consistent p → Proper p ops → Consistent (run p ops) := by
  intro ops
  induction ops with
  | nil => intro p h _; exact h
  | cons op ops ih =>
    intro p h hp
    obtain ⟨g1, g2⟩ := hp
    rw [run]
    cases hs : step p op with
    | error e => rw [hs] at g2; exact ih p h g2
    | ok q => rw [hs] at g2; exact ih q (step_consistent p q op h g1 hs) g2

/-- Removing a list of different members removes exactly them. -/
theorem removeAll_eq : ∀ (l : List α) (p : Pop α F), l.Nodup → (∀ a ∈ l, a ∈ p.fitness.map Prod.fst) →
    removeAll p l = .ok { individuals := p.individuals.filter (fun b => decide (b ∉ l)), fitness := p.fitness.filter (fun b => decide (b.1 ∉ l)) } := by
  intro l
  induction l with
  | nil => intro p _ _; simp [removeAll]
  | cons a l ih =>
    intro p hnd hk
    rw [List.nodup_cons] at hnd
    have ha : (dget p.fitness a).isSome := (dget_isSome _ _).2 (hk a (by simp))
    rw [removeAll]
    simp only [remove, ha, if_true]
    rw [ih _ hnd.2]
    · simp only [ddel, List.filter_filter, Except.ok.injEq, Pop.mk.injEq]
      constructor
      · apply List.filter_congr
        intro x _
        simp only [List.mem_cons, not_or]
        by_cases h1 : x = a <;> by_cases h2 : x ∈ l <;> simp [h1, h2]
      · apply List.filter_congr
        intro x _
        simp only [List.mem_cons, not_or]
        by_cases h1 : x.1 = a <;> by_cases h2 : x.1 ∈ l <;> simp [h1, h2]
    · intro b hb
      have := hk b (List.mem_cons_of_mem _ hb)
      rw [List.mem_map] at this ⊢
      obtain ⟨x, hx, rfl⟩ := this
      refine ⟨x, ?_, rfl⟩
      simp only [ddel, List.mem_filter]
      exact ⟨hx, by simp; rintro rfl; exact hnd.1 hb⟩

theorem sortedList_perm (p : Pop α F) : (sortedList p).Perm (p.fitness.map Prod.fst) := List.perm_insertionSort _ _

theorem sortedList_sorted (p : Pop α F) : (sortedList p).Pairwise (fun a b => fitOf p b ≤ fitOf p a) := by
  have : Std.Total (fun a b : α => fitOf p b ≤ fitOf p a) := ⟨fun a b => le_total _ _⟩
  have : IsTrans α (fun a b : α => fitOf p b ≤ fitOf p a) := ⟨fun a b c h1 h2 => le_trans h2 h1⟩
  exact List.pairwise_insertionSort _ _

theorem consistent_perm (p : Pop α F) (h : Consistent p) : p.individuals.Perm (p.fitness.map Prod.fst) :=
  (List.perm_ext_iff_of_nodup h.1 h.2.1).2 h.2.2

theorem sortedList_length (p : Pop α F) (h : Consistent p) : (sortedList p).length = size p := by
  rw [(sortedList_perm p).length_eq, size, (consistent_perm p h).length_eq]

theorem worst_eq (p : Pop α F) (n : Nat) (hn : 1 ≤ n) : worst p n = (sortedList p).drop ((sortedList p).length - n) := by
  unfold worst sliceFrom clampBound
  rw [if_neg (by omega)]
  congr 1
  omega

theorem worst_zero (p : Pop α F) : worst p 0 = sortedList p := by
  unfold worst sliceFrom clampBound
  simp

theorem length_filter_notMem (l m : List α) (hl : l.Nodup) (hm : m.Nodup) (hs : m ⊆ l) :
    (l.filter (fun b => decide (b ∉ m))).length = l.length - m.length := by
  have h1 : (l.filter (fun b => decide (b ∈ m))).Perm m := by
    rw [List.perm_ext_iff_of_nodup (hl.filter _) hm]
    intro a
    simp only [List.mem_filter, decide_eq_true_eq]
    exact ⟨fun h => h.2, fun h => ⟨hs h, h⟩⟩
  have h2 := List.length_eq_length_filter_add (l := l) (fun b => decide (b ∈ m))
  rw [h1.length_eq] at h2
  have h3 : (l.filter (fun b => !decide (b ∈ m))) = l.filter (fun b => decide (b ∉ m)) := by
    apply List.filter_congr; intro x _; simp
  rw [h3] at h2
  omega

theorem fitOf_eq (p : Pop α F) (a : α) (f : F) (h : dget p.fitness a = some f) : fitOf p a = f := by
  unfold fitOf; rw [h]; rfl

theorem removeList_fittest (p : Pop α F) (h : Consistent p) (k : Nat) :
    ∃ q, removeAll p ((sortedList p).drop k) = .ok q ∧ Consistent q ∧ Fittest (min k (size p)) p q := by
  have hnd : (sortedList p).Nodup := (sortedList_perm p).nodup_iff.2 h.2.1
  have hsub : ∀ a ∈ (sortedList p).drop k, a ∈ p.fitness.map Prod.fst := fun a ha => (sortedList_perm p).mem_iff.1 (List.drop_subset _ _ ha)
  have e := removeAll_eq ((sortedList p).drop k) p ((List.drop_sublist _ _).nodup hnd) hsub
  refine ⟨_, e, removeAll_consistent _ p _ h e, List.filter_sublist, ?_, ?_, ?_⟩
  · dsimp only
    rw [length_filter_notMem _ _ h.1 ((List.drop_sublist _ _).nodup hnd) (fun a ha => (h.2.2 a).2 (hsub a ha)),
      List.length_drop, sortedList_length p h, size]
    omega
  · intro a ha
    dsimp only at ha ⊢
    rw [List.mem_filter] at ha
    exact dget_filter p.fitness (fun x => decide (x ∉ (sortedList p).drop k)) a ha.2
  · intro a ha b hb hnb fa fb hfa hfb
    dsimp only at ha hnb
    rw [List.mem_filter] at ha hnb
    have hb2 : b ∈ (sortedList p).drop k := by
      by_contra hc; exact hnb ⟨hb, by simpa using hc⟩
    have ha2 : a ∈ (sortedList p).take k := by
      have : a ∈ sortedList p := (sortedList_perm p).mem_iff.2 ((h.2.2 a).1 ha.1)
      rw [← List.take_append_drop k (sortedList p), List.mem_append] at this
      rcases this with g | g
      · exact g
      · exact absurd g (by simpa using ha.2)
    have hs := sortedList_sorted p
    rw [← List.take_append_drop k (sortedList p), List.pairwise_append] at hs
    have := hs.2.2 a ha2 b hb2
    rwa [fitOf_eq p a fa hfa, fitOf_eq p b fb hfb] at this

/-! ### Reproduction -/

/-- The first `m` clones. -/
def kids (best : List Nat) (next m : Nat) : List (Nat × Nat) :=
  (List.range m).map (fun j : Nat => (next + j, (best[j % best.length]?).getD 0))

theorem kids_length (best : List Nat) (next m : Nat) : (kids best next m).length = m := by simp [kids]

theorem kids_succ (best : List Nat) (next m : Nat) : kids best next (m + 1) = kids best next m ++ [(next + m, (best[m % best.length]?).getD 0)] := by
  simp [kids, List.range_succ]

theorem clonePass_kids (f : Nat) (best : List Nat) (next : Nat) : ∀ (k i m : Nat), i + k = best.length → m % best.length = i % best.length → i < best.length ∨ k = 0 → m < f →
    clonePass f (best.drop i) (next + m) (kids best next m) = (next + min f (m + k), kids best next (min f (m + k))) := by
  intro k
  induction k with
  | zero =>
    intro i m hi _ _ hm
    rw [List.drop_eq_nil_of_le (by omega), clonePass, Nat.add_zero, Nat.min_eq_right (by omega)]
  | succ k ih =>
    intro i m hi hmod _ hm
    have hlt : i < best.length := by omega
    rw [List.drop_eq_getElem_cons hlt, clonePass]
    have e : kids best next m ++ [(next + m, best[i])] = kids best next (m + 1) := by
      rw [kids_succ, hmod, Nat.mod_eq_of_lt hlt, List.getElem?_eq_getElem hlt]; rfl
    rw [e, kids_length]
    by_cases hf : f ≤ m + 1
    · rw [if_pos hf, show min f (m + (k + 1)) = m + 1 by omega]; rfl
    · rw [if_neg hf]
      have := ih (i + 1) (m + 1) (by omega) (by rw [Nat.add_mod, hmod, ← Nat.add_mod]) (by omega) (by omega)
      rw [show next + m + 1 = next + (m + 1) by omega, this, show m + 1 + k = m + (k + 1) by omega]

theorem cloneLoop_kids (f : Nat) (best : List Nat) (hb : best ≠ []) (next : Nat) : ∀ (fuel m : Nat), m ≤ f → (m % best.length = 0 ∨ m = f) → f - m < fuel →
    cloneLoop f best fuel (next + m) (kids best next m) = some (next + f, kids best next f) := by
  intro fuel
  induction fuel with
  | zero => intro m _ _ h; omega
  | succ fuel ih =>
    intro m hm hmod hfuel
    have hpos : 0 < best.length := List.length_pos_iff.2 hb
    rw [cloneLoop, kids_length]
    by_cases h : f ≤ m
    · rw [if_pos h, show m = f by omega]
    · rw [if_neg h]
      have hmod' : m % best.length = 0 := by omega
      have := clonePass_kids f best next best.length 0 m (by omega) (by rw [hmod', Nat.zero_mod]) (Or.inl hpos) (by omega)
      rw [List.drop_zero] at this
      rw [this]
      apply ih
      · omega
      · by_cases g : m + best.length ≤ f
        · left; rw [Nat.min_eq_right g, Nat.add_mod_right, hmod']
        · right; omega
      · omega

theorem cloneLoop_none (f : Nat) (hf : 0 < f) : ∀ (fuel next : Nat), cloneLoop f [] fuel next [] = none := by
  intro fuel
  induction fuel with
  | zero => intro next; rfl
  | succ fuel ih =>
    intro next
    rw [cloneLoop, if_neg (by simp; omega)]
    exact ih next

theorem addAll_consistent : ∀ (l : List α) (p : Pop α F), Consistent p → Consistent (addAll p l) := by
  intro l
  induction l with
  | nil => intro p h; exact h
  | cons a l ih => intro p h; exact ih _ (add_consistent p a h)

theorem addAll_fresh : ∀ (l : List α) (p : Pop α F), l.Nodup → (∀ a ∈ l, a ∉ p.individuals) → (∀ a ∈ l, a ∉ p.fitness.map Prod.fst) →
    (addAll p l).individuals = p.individuals ++ l ∧
    (∀ b, dget (addAll p l).fitness b = if b ∈ l then some ⊥ else dget p.fitness b) := by
  intro l
  induction l with
  | nil => intro p _ _ _; simp [addAll]
  | cons a l ih =>
    intro p hnd hi hk
    rw [List.nodup_cons] at hnd
    have ha : (add p a).individuals = p.individuals ++ [a] := by simp only [add]; rw [if_neg (hi a (by simp))]
    obtain ⟨h1, h2⟩ := ih (add p a) hnd.2
      (by intro b hb; rw [ha, List.mem_append, List.mem_singleton]; rintro (g | g)
          · exact hi b (by simp [hb]) g
          · subst g; exact hnd.1 hb)
      (by intro b hb; simp only [add]; rw [mem_keys_dset]; rintro (g | g)
          · subst g; exact hnd.1 hb
          · exact hk b (by simp [hb]) g)
    refine ⟨?_, ?_⟩
    · show (addAll (add p a) l).individuals = _
      rw [h1, ha]; simp
    · intro b
      show dget (addAll (add p a) l).fitness b = _
      rw [h2 b]
      by_cases hb : b ∈ l
      · rw [if_pos hb, if_pos (by simp [hb])]
      · rw [if_neg hb]
        simp only [add]
        rw [dget_dset]
        by_cases hab : a = b
        · subst hab; simp
        · rw [if_neg hab, if_neg (by simp [hb, Ne.symm hab])]

theorem kids_fst (best : List Nat) (next m : Nat) : (kids best next m).map Prod.fst = (List.range m).map (fun j : Nat => next + j) := by
  simp [kids, Function.comp_def]

theorem kids_find (best : List Nat) (next : Nat) : ∀ (m j : Nat), j < m →
    (kids best next m).find? (fun c => decide (c.1 = next + j)) = some (next + j, (best[j % best.length]?).getD 0) := by
  intro m
  induction m with
  | zero => intro j h; omega
  | succ m ih =>
    intro j h
    rw [kids_succ, List.find?_append]
    by_cases hj : j < m
    · rw [ih j hj]; rfl
    · have : j = m := by omega
      subst this
      have hn : (kids best next j).find? (fun c => decide (c.1 = next + j)) = none := by
        rw [List.find?_eq_none]
        intro c hc
        simp only [kids, List.mem_map, List.mem_range] at hc
        obtain ⟨i, hi, rfl⟩ := hc
        simp; omega
      rw [hn]; simp

theorem kids_find_none (best : List Nat) (next m i : Nat) (h : i < next) : (kids best next m).find? (fun c => decide (c.1 = i)) = none := by
  rw [List.find?_eq_none]
  intro c hc
  simp only [kids, List.mem_map, List.mem_range] at hc
  obtain ⟨j, hj, rfl⟩ := hc
  simp; omega

/-! ### Assembling -/

theorem assemble_ok (pick : Nat → Nat → Nat) (n : Nat) : ∀ (ls : List (List α)) (t : Nat), (∀ l ∈ ls, l.length = n + 1) →
    ∃ c r, assemble pick t ls = .ok (c, r) ∧ c.length = ls.length ∧ r.length = ls.length ∧ (∀ l ∈ r, l.length = n) ∧
      ∀ (i : Nat) (l : List α), ls[i]? = some l → ∃ a l', c[i]? = some a ∧ r[i]? = some l' ∧ (a :: l').Perm l := by
  intro ls
  induction ls with
  | nil => intro t _; exact ⟨[], [], rfl, rfl, rfl, by simp, by simp⟩
  | cons l ls ih =>
    intro t h
    obtain ⟨c, r, h1, h2, h3, h4, h5⟩ := ih (t + 1) (fun x hx => h x (by simp [hx]))
    have hl : l.length = n + 1 := h l (by simp)
    have hi : pick t l.length % l.length < l.length := Nat.mod_lt _ (by omega)
    refine ⟨l[pick t l.length % l.length] :: c, l.eraseIdx (pick t l.length % l.length) :: r, ?_, by simp [h2], by simp [h3], ?_, ?_⟩
    · rw [assemble, if_neg (by cases l; simp at hl; simp)]
      dsimp only
      rw [List.getElem?_eq_getElem hi]
      dsimp only
      rw [h1]
    · intro x hx
      rcases List.mem_cons.1 hx with rfl | hx
      · rw [List.length_eraseIdx_of_lt hi]; omega
      · exact h4 x hx
    · intro i l2 hl2
      cases i with
      | zero =>
        simp only [List.getElem?_cons_zero, Option.some.injEq] at hl2 ⊢
        subst hl2
        exact ⟨_, _, rfl, rfl, List.getElem_cons_eraseIdx_perm hi⟩
      | succ i =>
        simp only [List.getElem?_cons_succ] at hl2 ⊢
        exact h5 i l2 hl2

theorem assembleMany_ok (pick : Nat → Nat → Nat) : ∀ (n t : Nat) (ls : List (List α)), (∀ l ∈ ls, l.length = n) →
    ∃ cs, assembleMany pick n t ls = .ok cs ∧ cs.length = n ∧ (∀ c ∈ cs, c.length = ls.length) ∧
      ∀ (i : Nat) (l : List α), ls[i]? = some l → (column i cs).Perm l := by
  intro n
  induction n with
  | zero =>
    intro t ls h
    refine ⟨[], rfl, rfl, by simp, ?_⟩
    intro i l hl
    have := h l (List.mem_of_getElem? hl)
    rw [List.length_eq_zero_iff] at this
    subst this
    exact List.Perm.refl _
  | succ n ih =>
    intro t ls h
    obtain ⟨c, r, h1, h2, h3, h4, h5⟩ := assemble_ok pick n ls t h
    obtain ⟨cs, g1, g2, g3, g4⟩ := ih (t + ls.length) r h4
    refine ⟨c :: cs, ?_, by simp [g2], ?_, ?_⟩
    · rw [assembleMany, h1]; dsimp only; rw [g1]
    · intro x hx
      rcases List.mem_cons.1 hx with rfl | hx
      · exact h2
      · rw [g3 x hx, h3]
    · intro i l hl
      obtain ⟨a, l', k1, k2, k3⟩ := h5 i l hl
      have : column i (c :: cs) = a :: column i cs := by simp [column, k1]
      rw [this]
      exact ((g4 i l' k2).cons a).trans k3

theorem getIndividuals_ok (pick : Nat → Nat → Nat) (n : Nat) (subs : List (List α)) (hne : subs ≠ []) (h : ∀ l ∈ subs, l.length = n) : ∀ (c t : Nat),
    ∃ cs, getIndividuals pick subs c t = .ok cs ∧ cs.length = c * n ∧ (∀ x ∈ cs, x.length = subs.length) ∧
      ∀ (i : Nat) (l : List α), subs[i]? = some l → (column i cs).Perm (List.replicate c l).flatten := by
  intro c
  induction c with
  | zero =>
    intro t
    refine ⟨[], ?_, by simp, by simp, by intro i l _; simp [column]⟩
    rw [getIndividuals, if_neg (by cases subs; exact absurd rfl hne; simp)]
  | succ c ih =>
    intro t
    obtain ⟨l, ls, rfl⟩ := List.exists_cons_of_ne_nil hne
    have hl : l.length = n := h l (by simp)
    obtain ⟨now, h1, h2, h3, h4⟩ := assembleMany_ok pick n t (l :: ls) h
    obtain ⟨more, g1, g2, g3, g4⟩ := ih (t + l.length * (ls.length + 1))
    refine ⟨now ++ more, ?_, by rw [List.length_append, h2, g2]; ring_nf, ?_, ?_⟩
    · rw [getIndividuals]
      rw [hl, h1]; dsimp only; rw [← hl, g1]
    · intro x hx
      rcases List.mem_append.1 hx with hx | hx
      · exact h3 x hx
      · exact g3 x hx
    · intro i l2 hl2
      have : column i (now ++ more) = column i now ++ column i more := by simp [column, List.filterMap_append]
      rw [this, List.replicate_succ, List.flatten_cons]
      exact (h4 i l2 hl2).append (g4 i l2 hl2)

/-! ### Evaluation -/

theorem distribute_ok : ∀ (ps : List (Pop α F)) (c : List α) (f : F), ps.length ≤ c.length →
    (∀ (i : Nat) (p : Pop α F) (a : α), ps[i]? = some p → c[i]? = some a → (dget p.fitness a).isSome) →
    ∃ qs, distribute ps c f = .ok qs ∧ qs.length = ps.length ∧
      ∀ (i : Nat) (p : Pop α F), ps[i]? = some p → ∃ q, qs[i]? = some q ∧ q.individuals = p.individuals ∧
        ∀ b, dget q.fitness b = if c[i]? = some b then (dget p.fitness b).map (fun old => max old f) else dget p.fitness b := by
  intro ps
  induction ps with
  | nil => intro c f _ _; exact ⟨[], by cases c <;> rfl, rfl, by simp⟩
  | cons p ps ih =>
    intro c f hlen hs
    cases c with
    | nil => simp at hlen
    | cons a c =>
      obtain ⟨qs, h1, h2, h3⟩ := ih c f (by simpa using hlen) (fun i p a hp ha => hs (i + 1) p a (by simpa using hp) (by simpa using ha))
      have ha := hs 0 p a (by simp) (by simp)
      obtain ⟨old, hold⟩ := Option.isSome_iff_exists.1 ha
      refine ⟨_, by rw [distribute, getFitness, hold]; dsimp only; rw [h1], by simp [h2], ?_⟩
      intro i p2 hp2
      cases i with
      | zero =>
        simp only [List.getElem?_cons_zero, Option.some.injEq] at hp2 ⊢
        subst hp2
        refine ⟨_, rfl, by split <;> rfl, ?_⟩
        intro b
        by_cases hab : a = b
        · subst hab
          rw [if_pos rfl, hold]
          split
          · rename_i hlt
            simp only [setFitness, dget_dset_self, Option.map_some, max_eq_right hlt.le]
          · rename_i hlt
            rw [hold]; simp only [Option.map_some, max_eq_left (not_lt.1 hlt)]
        · rw [if_neg hab]
          split
          · simp only [setFitness]; rw [dget_dset_ne _ _ _ _ hab]
          · rfl
      | succ i =>
        simp only [List.getElem?_cons_succ] at hp2 ⊢
        exact h3 i p2 hp2

/-- The largest fitness reached by an individual with `a` at position `i`, and `x`. -/
def reached (i : Nat) (a : α) (evaluated : List (List α × F)) (x : F) : F :=
  evaluated.foldl (fun m e => if e.1[i]? = some a then max m e.2 else m) x

theorem evaluateLoop_ok : ∀ (ev : List (List α × F)) (ps : List (Pop α F)), (∀ e ∈ ev, ps.length ≤ e.1.length) →
    (∀ e ∈ ev, ∀ (i : Nat) (p : Pop α F) (a : α), ps[i]? = some p → e.1[i]? = some a → (dget p.fitness a).isSome) →
    ∃ qs, evaluateLoop ps ev = .ok qs ∧ qs.length = ps.length ∧
      ∀ (i : Nat) (p : Pop α F), ps[i]? = some p → ∃ q, qs[i]? = some q ∧ q.individuals = p.individuals ∧
        ∀ b, dget q.fitness b = (dget p.fitness b).map (reached i b ev) := by
  intro ev
  induction ev with
  | nil =>
    intro ps _ _
    refine ⟨ps, rfl, rfl, fun i p hp => ⟨p, hp, rfl, fun b => ?_⟩⟩
    have : reached (F := F) i b [] = id := rfl
    rw [this]; simp
  | cons e ev ih =>
    intro ps hlen hs
    obtain ⟨c, f⟩ := e
    obtain ⟨qs, h1, h2, h3⟩ := distribute_ok ps c f (hlen (c, f) (by simp)) (fun i p a hp ha => hs (c, f) (by simp) i p a hp ha)
    obtain ⟨rs, g1, g2, g3⟩ := ih qs (fun e he => by rw [h2]; exact hlen e (by simp [he])) (by
      intro e he i q a hq ha
      have hi : i < ps.length := by rw [← h2]; exact (List.getElem?_eq_some_iff.1 hq).1
      obtain ⟨q', k1, _, k3⟩ := h3 i ps[i] (List.getElem?_eq_getElem hi)
      rw [hq] at k1
      cases k1
      rw [k3]
      have := hs e (by simp [he]) i ps[i] a (List.getElem?_eq_getElem hi) ha
      split
      · rw [Option.isSome_map]; exact this
      · exact this)
    refine ⟨rs, by rw [evaluateLoop, h1]; exact g1, by rw [g2, h2], ?_⟩
    intro i p hp
    obtain ⟨q, k1, k2, k3⟩ := h3 i p hp
    obtain ⟨r, m1, m2, m3⟩ := g3 i q k1
    refine ⟨r, m1, by rw [m2, k2], ?_⟩
    intro b
    rw [m3, k3]
    by_cases hb : c[i]? = some b
    · rw [if_pos hb, Option.map_map]
      cases dget p.fitness b with
      | none => rfl
      | some x => simp [reached, hb]
    · rw [if_neg hb]
      cases dget p.fitness b with
      | none => rfl
      | some x => simp [reached, hb]

theorem reached_spec (i : Nat) (a : α) : ∀ (ev : List (List α × F)) (x : F), x ≤ reached i a ev x ∧
    (∀ e ∈ ev, e.1[i]? = some a → e.2 ≤ reached i a ev x) ∧
    (reached i a ev x = x ∨ ∃ e ∈ ev, e.1[i]? = some a ∧ e.2 = reached i a ev x) := by
  intro ev
  induction ev with
  | nil => intro x; exact ⟨le_refl _, by simp, Or.inl rfl⟩
  | cons e ev ih =>
    intro x
    by_cases he : e.1[i]? = some a
    · have eq : reached i a (e :: ev) x = reached i a ev (max x e.2) := by simp [reached, he]
      rw [eq]
      obtain ⟨h1, h2, h3⟩ := ih (max x e.2)
      refine ⟨le_trans (le_max_left _ _) h1, ?_, ?_⟩
      · intro g hg ha
        rcases List.mem_cons.1 hg with rfl | hg
        · exact le_trans (le_max_right _ _) h1
        · exact h2 g hg ha
      · rcases h3 with h3 | ⟨g, hg, h4, h5⟩
        · rcases max_choice x e.2 with hm | hm
          · left; rw [h3, hm]
          · right; exact ⟨e, by simp, he, by rw [h3, hm]⟩
        · right; exact ⟨g, by simp [hg], h4, h5⟩
    · have eq : reached i a (e :: ev) x = reached i a ev x := by simp [reached, he]
      rw [eq]
      obtain ⟨h1, h2, h3⟩ := ih x
      refine ⟨h1, ?_, ?_⟩
      · intro g hg ha
        rcases List.mem_cons.1 hg with rfl | hg
        · exact absurd ha he
        · exact h2 g hg ha
      · rcases h3 with h3 | ⟨g, hg, h4, h5⟩
        · left; exact h3
        · right; exact ⟨g, by simp [hg], h4, h5⟩

theorem bestOf_spec : ∀ (ev : List (List α × F)) (acc : Option (List α) × F), acc.2 ≤ (bestOf ev acc).2 ∧ (∀ e ∈ ev, e.2 ≤ (bestOf ev acc).2) ∧
    (bestOf ev acc = acc ∨ ∃ c, (bestOf ev acc).1 = some c ∧ (c, (bestOf ev acc).2) ∈ ev) := by
  intro ev
  induction ev with
  | nil => intro acc; exact ⟨le_refl _, by simp, Or.inl rfl⟩
  | cons e ev ih =>
    intro acc
    obtain ⟨c, f⟩ := e
    rw [bestOf]
    by_cases h : acc.2 < f
    · rw [if_pos h]
      obtain ⟨h1, h2, h3⟩ := ih (some c, f)
      refine ⟨le_trans h.le h1, ?_, ?_⟩
      · intro g hg
        rcases List.mem_cons.1 hg with rfl | hg
        · exact h1
        · exact h2 g hg
      · right
        rcases h3 with h3 | ⟨c2, h4, h5⟩
        · rw [h3]; exact ⟨c, rfl, by simp⟩
        · exact ⟨c2, h4, by simp [h5]⟩
    · rw [if_neg h]
      obtain ⟨h1, h2, h3⟩ := ih acc
      refine ⟨h1, ?_, ?_⟩
      · intro g hg
        rcases List.mem_cons.1 hg with rfl | hg
        · exact le_trans (not_lt.1 h) h1
        · exact h2 g hg
      · rcases h3 with h3 | ⟨c2, h4, h5⟩
        · left; exact h3
        · right; exact ⟨c2, h4, by simp [h5]⟩

end Verif.Evolino
