import Verif.Spec.MdNet
import Verif.Lemmas.Swiping
import Verif.Props.MdLstm
/-
C113 Connections between the states of the cells of a multi-dimensional LSTM network.
-/
namespace Verif.MdNet
open Verif.Mesh Verif.Mesh.Spec Verif.Swiping Verif.Swiping.Spec
open Verif.MdNet.Spec

theorem iter2 (n m : Nat) : Enum.iterCombinations [n, m] = (List.range n).flatMap fun i => (List.range m).map fun j => [i, j] := by
  show Enum.iterCombRev [m, n] = _
  simp only [Enum.iterCombRev, List.flatMap_map]
  rfl

/-- the next coordinate -/
def succ (s d x : Nat) : Nat := if Up s d then x + 1 else x - 1

/-- the units after `[a, b]`, in the order in which they are connected -/
def targets (n m s a b : Nat) : List (List Nat) :=
  if Up s 0 then (if More s 1 b m then [[a, succ s 1 b]] else []) ++ (if More s 0 a n then [[succ s 0 a, b]] else [])
  else (if More s 0 a n then [[succ s 0 a, b]] else []) ++ (if More s 1 b m then [[a, succ s 1 b]] else [])

theorem prev_iff (n m s a b i j : Nat) (hi : i < n) (hj : j < m) (ha : a < n) (hb : b < m) :
    (prev [n, m] s 0 [i, j] = some [a, b] ↔ More s 0 a n ∧ i = succ s 0 a ∧ j = b) ∧
    (prev [n, m] s 1 [i, j] = some [a, b] ↔ More s 1 b m ∧ j = succ s 1 b ∧ i = a) := by
  unfold prev More succ
  constructor
  · by_cases h : Up s 0
    · simp only [if_pos h]
      show (if i = 0 then none else some [i - 1, j]) = some [a, b] ↔ _
      by_cases h0 : i = 0
      · simp [h0]
      · rw [if_neg h0]; simp; omega
    · simp only [if_neg h]
      show (if i + 1 < n then some [i + 1, j] else none) = some [a, b] ↔ _
      by_cases h0 : i + 1 < n
      · rw [if_pos h0]; simp; omega
      · simp [h0]; omega
  · by_cases h : Up s 1
    · simp only [if_pos h]
      show (if j = 0 then none else some [i, j - 1]) = some [a, b] ↔ _
      by_cases h0 : j = 0
      · simp [h0]
      · rw [if_neg h0]; simp; omega
    · simp only [if_neg h]
      show (if j + 1 < m then some [i, j + 1] else none) = some [a, b] ↔ _
      by_cases h0 : j + 1 < m
      · rw [if_pos h0]; simp; omega
      · simp [h0]; omega

theorem prev_ne (n m s i j : Nat) (hi : i < n) (hj : j < m) (u : List Nat) (h0 : prev [n, m] s 0 [i, j] = some u) : ¬ prev [n, m] s 1 [i, j] = some u := by
  have hg : InGrid [n, m] [i, j] := .cons hi (.cons hj .nil)
  have hug := prev_unit hg (by simp) h0
  obtain ⟨a, b, rfl, ha, hb⟩ : ∃ a b, u = [a, b] ∧ a < n ∧ b < m := by
    cases hug with
    | cons ha hr => cases hr with
      | cons hb hr => cases hr; exact ⟨_, _, rfl, ha, hb⟩
  obtain ⟨q1, q2⟩ := prev_iff n m s a b i j hi hj ha hb
  rw [q2]
  rw [q1] at h0
  rintro ⟨-, -, rfl⟩
  obtain ⟨h1, h2, -⟩ := h0
  unfold More at h1; unfold succ at h2
  by_cases h : Up s 0
  · rw [if_pos h] at h1 h2; omega
  · rw [if_neg h] at h1 h2; omega

def rank (m : Nat) (u : List Nat) : Nat := u.getD 0 0 * m + u.getD 1 0

theorem iter_sorted (n m : Nat) : (Enum.iterCombinations [n, m]).Pairwise fun u v => rank m u < rank m v := by
  rw [iter2, List.pairwise_flatMap]
  refine ⟨fun i _ => ?_, ?_⟩
  · rw [List.pairwise_map]
    exact List.pairwise_lt_range.imp fun h => by simpa [rank] using h
  · refine List.pairwise_lt_range.imp fun {i i'} h => ?_
    intro x hx y hy
    obtain ⟨j, hj, rfl⟩ := List.mem_map.1 hx
    obtain ⟨j', hj', rfl⟩ := List.mem_map.1 hy
    have hj := List.mem_range.1 hj
    show i * m + j < i' * m + j'
    have := Nat.mul_le_mul_right m (show i + 1 ≤ i' from h)
    rw [Nat.add_mul, Nat.one_mul] at this
    omega

theorem targets_sorted (n m s a b : Nat) (hm : 2 ≤ m) : (targets n m s a b).Pairwise fun u v => rank m u < rank m v := by
  have k1 : Up s 0 → rank m [a, succ s 1 b] < rank m [succ s 0 a, b] := by
    intro h
    show a * m + succ s 1 b < succ s 0 a * m + b
    have e : succ s 0 a = a + 1 := if_pos h
    have h2 : succ s 1 b ≤ b + 1 := by unfold succ; split <;> omega
    rw [e, Nat.add_mul, Nat.one_mul]; omega
  have k2 : ¬ Up s 0 → More s 0 a n → rank m [succ s 0 a, b] < rank m [a, succ s 1 b] := by
    intro h h0
    show succ s 0 a * m + b < a * m + succ s 1 b
    have e : succ s 0 a = a - 1 := if_neg h
    have h0 : 0 < a := by unfold More at h0; rwa [if_neg h] at h0
    have h2 : b ≤ succ s 1 b + 1 := by unfold succ; split <;> omega
    obtain ⟨a', rfl⟩ : ∃ a', a = a' + 1 := ⟨a - 1, by omega⟩
    rw [e, Nat.add_sub_cancel, Nat.add_mul, Nat.one_mul]; omega
  unfold targets
  by_cases h : Up s 0
  · rw [if_pos h]
    by_cases h0 : More s 0 a n <;> by_cases h1 : More s 1 b m <;> simp [h0, h1, k1 h]
  · rw [if_neg h]
    by_cases h0 : More s 0 a n <;> by_cases h1 : More s 1 b m <;> simp [h0, h1]
    exact k2 h h0

theorem filter_targets (n m s a b : Nat) (hm : 2 ≤ m) (ha : a < n) (hb : b < m) :
    (Enum.iterCombinations [n, m]).filter (fun v => decide (prev [n, m] s 0 v = some [a, b] ∨ prev [n, m] s 1 v = some [a, b])) = targets n m s a b := by
  have ir : ∀ l : List (List Nat), l.Pairwise (fun u v => rank m u < rank m v) → l.Nodup := fun l h => h.imp fun h e => by subst e; exact absurd h (lt_irrefl _)
  have p1 := (iter_sorted n m).filter (fun v => decide (prev [n, m] s 0 v = some [a, b] ∨ prev [n, m] s 1 v = some [a, b]))
  have p2 := targets_sorted n m s a b hm
  refine List.Perm.eq_of_pairwise (fun u v _ _ h h' => absurd h (Nat.lt_asymm h')) p1 p2 ((List.perm_ext_iff_of_nodup (ir _ p1) (ir _ p2)).2 fun v => ?_)
  rw [List.mem_filter, decide_eq_true_iff, iter2]
  simp only [List.mem_flatMap, List.mem_map, List.mem_range]
  have hmem : v ∈ targets n m s a b ↔ (More s 0 a n ∧ v = [succ s 0 a, b]) ∨ (More s 1 b m ∧ v = [a, succ s 1 b]) := by
    unfold targets
    by_cases h : Up s 0 <;> by_cases h0 : More s 0 a n <;> by_cases h1 : More s 1 b m <;> simp [h, h0, h1, or_comm]
  rw [hmem]
  constructor
  · rintro ⟨⟨i, hi, j, hj, rfl⟩, h⟩
    obtain ⟨q1, q2⟩ := prev_iff n m s a b i j hi hj ha hb
    rw [q1, q2] at h
    rcases h with ⟨h1, rfl, rfl⟩ | ⟨h1, rfl, rfl⟩
    · exact .inl ⟨h1, rfl⟩
    · exact .inr ⟨h1, rfl⟩
  · rintro (⟨h1, rfl⟩ | ⟨h1, rfl⟩)
    · have hi : succ s 0 a < n := by unfold succ; unfold More at h1; split at h1 <;> simp_all; omega
      exact ⟨⟨_, hi, _, hb, rfl⟩, .inl ((prev_iff n m s a b _ _ hi hb ha hb).1.2 ⟨h1, rfl, rfl⟩)⟩
    · have hj : succ s 1 b < m := by unfold succ; unfold More at h1; split at h1 <;> simp_all; omega
      exact ⟨⟨_, ha, _, hj, rfl⟩, .inr ((prev_iff n m s a b _ _ ha hj ha hb).2.2 ⟨h1, rfl, rfl⟩)⟩

theorem flatMap_single {α : Type} (n k : Nat) (f : Nat → List α) (hk : k < n) (h : ∀ i < n, i ≠ k → f i = []) : (List.range n).flatMap f = f k := by
  induction n with
  | zero => omega
  | succ n ih =>
    rw [List.range_succ, List.flatMap_append, List.flatMap_cons, List.flatMap_nil, List.append_nil]
    by_cases hkn : k = n
    · subst hkn
      rw [List.flatMap_eq_nil_iff.2 fun i hi => h i (by have := List.mem_range.1 hi; omega) (by have := List.mem_range.1 hi; omega), List.nil_append]
    · rw [ih (by omega) fun i hi => h i (by omega), h n (by omega) (by omega), List.append_nil]

theorem flatMap_if {α β : Type} (l : List α) (p : α → Prop) [DecidablePred p] (g : α → β) : (l.flatMap fun a => if p a then [g a] else []) = (l.filter fun a => decide (p a)).map g := by
  induction l with
  | nil => rfl
  | cons a l ih =>
    rw [List.flatMap_cons, ih, List.filter_cons]
    by_cases h : p a <;> simp [h]

theorem out_links (n m s a b : Nat) (hm : 2 ≤ m) (ha : a < n) (hb : b < m) (hs : s < 4) :
    ((hiddenLinks [n, m]).filter fun x => decide (x.1 = (([a, b], s) : Hid))) = (targets n m s a b).map fun v => (([a, b], s), (v, s)) := by
  unfold hiddenLinks
  rw [List.filter_flatMap, ← filter_targets n m s a b hm ha hb, ← flatMap_if]
  refine List.flatMap_congr fun v hv => ?_
  have hg : InGrid [n, m] v := (iter_mem _ (by simp) v).1 hv
  obtain ⟨i, hi, j, hj, rfl⟩ : ∃ i, i < n ∧ ∃ j, j < m ∧ v = [i, j] := by
    rw [iter2] at hv
    simp only [List.mem_flatMap, List.mem_map, List.mem_range] at hv
    obtain ⟨i, hi, j, hj, rfl⟩ := hv
    exact ⟨i, hi, j, hj, rfl⟩
  rw [List.filter_flatMap, flatMap_single (2 ^ [n, m].length) s _ hs]
  · rw [List.filter_flatMap]
    show (List.range 2).flatMap _ = _
    have e2 : List.range 2 = [0, 1] := rfl
    rw [e2]
    simp only [List.flatMap_cons, List.flatMap_nil, List.append_nil]
    rw [previous_eq [n, m] [i, j] s 0 hg (by simp), previous_eq [n, m] [i, j] s 1 hg (by simp)]
    obtain ⟨q1, q2⟩ := prev_iff n m s a b i j hi hj ha hb
    by_cases h0 : prev [n, m] s 0 [i, j] = some [a, b]
    · have h1 : ¬ prev [n, m] s 1 [i, j] = some [a, b] := prev_ne n m s i j hi hj _ h0
      rw [if_pos (.inl h0), h0]
      cases h : prev [n, m] s 1 [i, j] with
      | none => simp
      | some p =>
        have : p ≠ [a, b] := fun e => h1 (by rw [h, e])
        simp [this]
    · by_cases h1 : prev [n, m] s 1 [i, j] = some [a, b]
      · rw [if_pos (.inr h1), h1]
        cases h : prev [n, m] s 0 [i, j] with
        | none => simp
        | some p =>
          have : p ≠ [a, b] := fun e => h0 (by rw [h, e])
          simp [this]
      · rw [if_neg (not_or.2 ⟨h0, h1⟩)]
        cases h : prev [n, m] s 0 [i, j] with
        | none =>
          cases h' : prev [n, m] s 1 [i, j] with
          | none => simp
          | some p =>
            have : p ≠ [a, b] := fun e => h1 (by rw [h', e])
            simp [this]
        | some p' =>
          have t : p' ≠ [a, b] := fun e => h0 (by rw [h, e])
          cases h' : prev [n, m] s 1 [i, j] with
          | none => simp [t]
          | some p =>
            have : p ≠ [a, b] := fun e => h1 (by rw [h', e])
            simp [this, t]
  · intro s' _ hne
    rw [List.filter_flatMap, List.flatMap_eq_nil_iff]
    intro d _
    cases previous [i, j] s' d ([n, m].getD d 0) with
    | none => rfl
    | some p => simp [hne]

theorem targets_get (n m s a b k : Nat) (v : List Nat) : (targets n m s a b)[k]? = some v ↔
    (More s 0 a n ∧ v = [succ s 0 a, b] ∧ k = if Up s 0 then (if More s 1 b m then 1 else 0) else 0) ∨
    (More s 1 b m ∧ v = [a, succ s 1 b] ∧ k = if Up s 0 then 0 else if More s 0 a n then 1 else 0) := by
  unfold targets
  rcases k with _ | _ | k <;> by_cases h : Up s 0 <;> by_cases h0 : More s 0 a n <;> by_cases h1 : More s 1 b m <;> simp [h, h0, h1, eq_comm]

theorem mem_links (n m : Nat) (hm : 2 ≤ m) (modules : List Hid) (hall : All n m modules) (l : StateLink) :
    l ∈ stateLinks [n, m] modules ↔ ∃ a < n, ∃ b < m, ∃ s < 4, ∃ v k, (targets n m s a b)[k]? = some v ∧ l = ⟨([a, b], s), (v, s), k⟩ := by
  unfold stateLinks
  rw [List.mem_flatMap]
  constructor
  · rintro ⟨h, hh, hl⟩
    obtain ⟨a, ha, b, hb, s, hs, rfl⟩ := (hall.2 h).1 hh
    obtain ⟨⟨x, k⟩, hp, rfl⟩ := List.mem_map.1 hl
    rw [out_links n m s a b hm ha hb hs, List.mk_mem_zipIdx_iff_getElem?, List.getElem?_map] at hp
    obtain ⟨v, hv, rfl⟩ := Option.map_eq_some_iff.1 hp
    exact ⟨a, ha, b, hb, s, hs, v, k, hv, rfl⟩
  · rintro ⟨a, ha, b, hb, s, hs, v, k, hv, rfl⟩
    refine ⟨_, (hall.2 _).2 ⟨a, ha, b, hb, s, hs, rfl⟩, List.mem_map.2 ⟨((([a, b], s), (v, s)), k), ?_, rfl⟩⟩
    rw [out_links n m s a b hm ha hb hs, List.mk_mem_zipIdx_iff_getElem?, List.getElem?_map, hv]
    rfl

theorem links_nodup (dims : List Nat) (modules : List Hid) (h : modules.Nodup) : (stateLinks dims modules).Nodup := by
  unfold stateLinks
  rw [List.nodup_flatMap]
  refine ⟨fun x _ => ?_, h.imp fun {x y} hne => ?_⟩
  · rw [List.Nodup, List.pairwise_map, List.pairwise_iff_getElem]
    intro i j hi hj hij e
    simp only [List.getElem_zipIdx, StateLink.mk.injEq] at e
    omega
  · intro l hl hl'
    obtain ⟨p, _, rfl⟩ := List.mem_map.1 hl
    obtain ⟨q, _, e⟩ := List.mem_map.1 hl'
    exact hne (congrArg StateLink.src e).symm

end Verif.MdNet

namespace Verif.Props
open Verif.Mesh Verif.Mesh.Spec Verif.Swiping Verif.Swiping.Spec Verif.MdNet
open Verif.MdNet.Spec

/-- **C113, links.** A multi-dimensional LSTM network on an n × m grid passes states exactly from the units that precede a unit in its swipe, each once; but the block of incoming states
in which they arrive depends on the place: it is block 0 for the dimension that leads, and block 1 for the other one only as long as the swipe goes on in the leading dimension, else also block 0. -/
theorem C113_links (n m : Nat) (hn : 2 ≤ n) (hm : 2 ≤ m) (modules : List Hid) (hall : All n m modules) :
    ∃ ls, multiDimensionalLSTM [n, m] modules = .ok ls ∧ ls.Nodup ∧
      ∀ l : StateLink, l ∈ ls ↔ ∃ i < n, ∃ j < m, ∃ s < 4, ∃ d < 2, ∃ u, prev [n, m] s d [i, j] = some u ∧ l.src = (u, s) ∧ l.tgt = ([i, j], s) ∧
        l.slot = if d = lead s then 0 else if More s (lead s) ([i, j].getD (lead s) 0) ([n, m].getD (lead s) 0) then 1 else 0 := by
  refine ⟨_, ?_, links_nodup [n, m] modules hall.1, fun l => ?_⟩
  · unfold multiDimensionalLSTM
    rw [if_neg (by simp), if_neg (not_not.2 (by simp; omega))]
  · rw [mem_links n m hm modules hall l]
    have l0 : ∀ s, Up s 0 → lead s = 1 := fun s h => if_pos h
    have l1 : ∀ s, ¬ Up s 0 → lead s = 0 := fun s h => if_neg h
    have sl : ∀ s a N, a < N → More s 0 a N → succ s 0 a < N := fun s a N ha h => by
      unfold succ; unfold More at h; split at h <;> rename_i hu
      · rw [if_pos hu]; exact h
      · rw [if_neg hu]; omega
    have sl' : ∀ s a N, a < N → More s 1 a N → succ s 1 a < N := fun s a N ha h => by
      unfold succ; unfold More at h; split at h <;> rename_i hu
      · rw [if_pos hu]; exact h
      · rw [if_neg hu]; omega
    constructor
    · rintro ⟨a, ha, b, hb, s, hs, v, k, hv, rfl⟩
      rcases (targets_get n m s a b k v).1 hv with ⟨h1, rfl, hk⟩ | ⟨h1, rfl, hk⟩
      · refine ⟨_, sl s a n ha h1, b, hb, s, hs, 0, by omega, [a, b], ((prev_iff n m s a b _ _ (sl s a n ha h1) hb ha hb).1.2 ⟨h1, rfl, rfl⟩), rfl, rfl, ?_⟩
        show k = _
        rw [hk]
        by_cases h : Up s 0
        · rw [l0 s h]; simp [h]
        · rw [l1 s h]; simp [h]
      · refine ⟨a, ha, _, sl' s b m hb h1, s, hs, 1, by omega, [a, b], ((prev_iff n m s a b _ _ ha (sl' s b m hb h1) ha hb).2.2 ⟨h1, rfl, rfl⟩), rfl, rfl, ?_⟩
        show k = _
        rw [hk]
        by_cases h : Up s 0
        · rw [l0 s h]; simp [h]
        · rw [l1 s h]; simp [h]
    · rintro ⟨i, hi, j, hj, s, hs, d, hd, u, hu, h1, h2, h3⟩
      have hg : InGrid [n, m] [i, j] := .cons hi (.cons hj .nil)
      have hug := prev_unit hg (by simpa using hd) hu
      obtain ⟨a, b, rfl, ha, hb⟩ : ∃ a b, u = [a, b] ∧ a < n ∧ b < m := by
        cases hug with
        | cons ha hr => cases hr with
          | cons hb hr => cases hr; exact ⟨_, _, rfl, ha, hb⟩
      obtain ⟨q1, q2⟩ := prev_iff n m s a b i j hi hj ha hb
      refine ⟨a, ha, b, hb, s, hs, [i, j], l.slot, (targets_get n m s a b _ _).2 ?_, by cases l; cases h1; cases h2; rfl⟩
      rcases (by omega : d = 0 ∨ d = 1) with rfl | rfl
      · obtain ⟨r1, rfl, rfl⟩ := q1.1 hu
        refine .inl ⟨r1, rfl, ?_⟩
        rw [h3]
        by_cases h : Up s 0
        · rw [l0 s h]; simp [h]
        · rw [l1 s h]; simp [h]
      · obtain ⟨r1, rfl, rfl⟩ := q2.1 hu
        refine .inr ⟨r1, rfl, ?_⟩
        rw [h3]
        by_cases h : Up s 0
        · rw [l0 s h]; simp [h]
        · rw [l1 s h]; simp [h]

/-- **C113, incoming states.** At a unit with predecessors in both dimensions: where the swipe goes on in the leading dimension, the first block of incoming states is the state of the predecessor in
the leading dimension, and the second block that of the predecessor in the other dimension. Elsewhere (where the swipe ends in the leading dimension) the first block is the sum of both states, and the second block is 0. -/
theorem C113_incoming (n m : Nat) (hn : 2 ≤ n) (hm : 2 ≤ m) (modules : List Hid) (hall : All n m modules) (ls : List StateLink) (hl : multiDimensionalLSTM [n, m] modules = .ok ls)
    (st : Hid → ℝ) (i j s : Nat) (hi : i < n) (hj : j < m) (hs : s < 4) (u v : List Nat) (hu : prev [n, m] s (lead s) [i, j] = some u) (hv : prev [n, m] s (1 - lead s) [i, j] = some v) :
    if More s (lead s) ([i, j].getD (lead s) 0) ([n, m].getD (lead s) 0) then
      incoming ls st ([i, j], s) 0 = st (u, s) ∧ incoming ls st ([i, j], s) 1 = st (v, s)
    else incoming ls st ([i, j], s) 0 = st (u, s) + st (v, s) ∧ incoming ls st ([i, j], s) 1 = 0 := by
  obtain ⟨ls', h1, hnd, hmem⟩ := C113_links n m hn hm modules hall
  rw [hl] at h1
  cases h1
  have hld : lead s = 0 ∨ lead s = 1 := by unfold lead; split <;> simp
  have huv : u ≠ v := by
    rintro rfl
    rcases hld with h | h <;> rw [h] at hu hv
    · exact prev_ne n m s i j hi hj u hu hv
    · exact prev_ne n m s i j hi hj u hv hu
  have key : ∀ k l, l ∈ (ls.filter fun l => decide (l.tgt = ([i, j], s) ∧ l.slot = k)) ↔
      (l = ⟨(u, s), ([i, j], s), 0⟩ ∧ k = 0) ∨ (l = ⟨(v, s), ([i, j], s), k⟩ ∧ k = if More s (lead s) ([i, j].getD (lead s) 0) ([n, m].getD (lead s) 0) then 1 else 0) := by
    intro k l
    rw [List.mem_filter, hmem, decide_eq_true_iff]
    constructor
    · rintro ⟨⟨i', hi', j', hj', s', hs', d, hd, w, hw, g1, g2, g3⟩, g4, g5⟩
      rw [g2] at g4
      cases g4
      by_cases hdl : d = lead s
      · subst hdl
        rw [hu] at hw
        cases hw
        rw [if_pos rfl] at g3
        refine .inl ⟨?_, by rw [← g5, g3]⟩
        cases l; cases g1; cases g2; cases g3; rfl
      · have : d = 1 - lead s := by omega
        subst this
        rw [hv] at hw
        cases hw
        rw [if_neg hdl, g5] at g3
        refine .inr ⟨?_, g3⟩
        cases l; cases g1; cases g2; cases g5; rfl
    · rintro (⟨rfl, rfl⟩ | ⟨rfl, hk⟩)
      · exact ⟨⟨i, hi, j, hj, s, hs, lead s, by omega, u, hu, rfl, rfl, (if_pos rfl).symm⟩, rfl, rfl⟩
      · exact ⟨⟨i, hi, j, hj, s, hs, 1 - lead s, by omega, v, hv, rfl, rfl, by rw [if_neg (by omega)]; exact hk⟩, rfl, rfl⟩
  have hsum : ∀ k (r : List StateLink), r.Nodup → (∀ l, l ∈ (ls.filter fun l => decide (l.tgt = ([i, j], s) ∧ l.slot = k)) ↔ l ∈ r) →
      incoming ls st ([i, j], s) k = (r.map fun l => st l.src).sum := fun k r hr h =>
    (((List.perm_ext_iff_of_nodup (hnd.filter _) hr).2 h).map _).sum_eq
  split
  · rename_i hM
    simp only [if_pos hM] at key
    refine ⟨(hsum 0 [⟨(u, s), ([i, j], s), 0⟩] (by simp) fun l => ?_).trans (by simp), (hsum 1 [⟨(v, s), ([i, j], s), 1⟩] (by simp) fun l => ?_).trans (by simp)⟩
    · rw [key]; simp
    · rw [key]; simp
  · rename_i hM
    simp only [if_neg hM] at key
    refine ⟨(hsum 0 [⟨(u, s), ([i, j], s), 0⟩, ⟨(v, s), ([i, j], s), 0⟩] (by simp [huv]) fun l => ?_).trans (by simp), (hsum 1 [] (by simp) fun l => ?_).trans (by simp)⟩
    · rw [key]; simp
    · rw [key]; simp

/-- all hidden modules of a 3 × 3 grid -/
def nine : List Hid := (List.range 3).flatMap fun i => (List.range 3).flatMap fun j => (List.range 4).map fun s => ([i, j], s)

theorem nine_all : All 3 3 nine := by
  refine ⟨by decide +kernel, fun h => ?_⟩
  unfold nine
  simp only [List.mem_flatMap, List.mem_map, List.mem_range]
  constructor
  · rintro ⟨i, hi, j, hj, s, hs, rfl⟩; exact ⟨i, hi, j, hj, s, hs, rfl⟩
  · rintro ⟨i, hi, j, hj, s, hs, rfl⟩; exact ⟨i, hi, j, hj, s, hs, rfl⟩

/-- A unit inside and one at the end of the first swipe of a 3 × 3 grid. -/
example : prev [3, 3] 0 (lead 0) [1, 1] = some [1, 0] ∧ prev [3, 3] 0 (1 - lead 0) [1, 1] = some [0, 1] ∧ More 0 (lead 0) ([1, 1].getD (lead 0) 0) ([3, 3].getD (lead 0) 0) ∧
    prev [3, 3] 0 (lead 0) [1, 2] = some [1, 1] ∧ prev [3, 3] 0 (1 - lead 0) [1, 2] = some [0, 2] ∧ ¬ More 0 (lead 0) ([1, 2].getD (lead 0) 0) ([3, 3].getD (lead 0) 0) := by decide

/-- **C113, negation (merged states).** In every grid some units have predecessors in both dimensions but get the sum of their states for the first forget gate, and nothing for the second forget gate:
in the first swipe, all units of the last column except for the first row. What comes in at the second forget gate of such a unit does not matter. -/
theorem C113_negation_merged (n m : Nat) (hn : 2 ≤ n) (hm : 2 ≤ m) (modules : List Hid) (hall : All n m modules) (ls : List StateLink) (hl : multiDimensionalLSTM [n, m] modules = .ok ls)
    (st : Hid → ℝ) (i : Nat) (hi : i + 1 < n) :
    incoming ls st ([i + 1, m - 1], 0) 0 = st ([i + 1, m - 2], 0) + st ([i, m - 1], 0) ∧ incoming ls st ([i + 1, m - 1], 0) 1 = 0 ∧
      ∀ (T : Lstm.Trans ℝ) (c : MdLstm.Spec.Cell ℝ) (f' : ℝ), c.s 0 = incoming ls st ([i + 1, m - 1], 0) 0 → c.s 1 = incoming ls st ([i + 1, m - 1], 0) 1 →
        ({ c with f := fun d => if d = 1 then f' else c.f d } : MdLstm.Spec.Cell ℝ).state T 2 = c.state T 2 := by
  have h := C113_incoming n m hn hm modules hall ls hl st (i + 1) (m - 1) 0 hi (by omega) (by omega) [i + 1, m - 2] [i, m - 1]
    (by show (if m - 1 = 0 then none else some [i + 1, m - 1 - 1]) = _; rw [if_neg (by omega)]; rfl)
    (by show (if i + 1 = 0 then none else some [i + 1 - 1, m - 1]) = _; rw [if_neg (by omega)]; rfl)
  have hM : ¬ More 0 (lead 0) ([i + 1, m - 1].getD (lead 0) 0) ([n, m].getD (lead 0) 0) := by show ¬ (m - 1 + 1 < m); omega
  rw [if_neg hM] at h
  refine ⟨h.1, h.2, fun T c f' _ h1 => ?_⟩
  rw [h.2] at h1
  unfold MdLstm.Spec.Cell.state MdLstm.Spec.Cell.inx MdLstm.Spec.Cell.forgetx
  simp [Finset.sum_range_succ, h1]

/-- **C113, negation (dimensions).** Only grids of two dimensions can be used: for all others an AssertionError is raised, because the mesh of hidden units always has four swipes. -/
theorem C113_negation_dims (dims : List Nat) (h : dims.length ≠ 2) (modules : List Hid) : multiDimensionalLSTM dims modules = .error .assertion := by
  unfold multiDimensionalLSTM
  rw [if_pos]
  intro e
  exact h (Nat.pow_right_injective (le_refl 2) (show 2 ^ dims.length = 2 ^ 2 by omega))

/-- **C113, meshes that are too small** (a dimension of 0 or 1) are refused. -/
theorem C113_refused (n m : Nat) (h : n ≤ 1 ∨ m ≤ 1) (modules : List Hid) : multiDimensionalLSTM [n, m] modules = .error .assertion := by
  unfold multiDimensionalLSTM
  rw [if_neg (by simp), if_pos]
  intro hall
  have h1 := hall n (by simp)
  have h2 := hall m (by simp)
  omega

end Verif.Props
