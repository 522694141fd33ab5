import Verif.Model.Mdrnn
import Mathlib.Data.List.Basic
import Mathlib.Data.List.Nodup
import Mathlib.Tactic.Ring
import Mathlib.Tactic.SplitIfs
/-
C158: multi-dimensional recurrent networks: parameters of the layer and swiping directions.
-/
namespace Verif.Mdrnn

/-- the product of the dimensions -/
def total (l : List (Nat × Bool)) : Nat := (l.map Prod.fst).prod

theorem foldl_prod (l : List Nat) : l.foldl (· * ·) 1 = l.prod := by
  rw [List.prod_eq_foldl]

/-- coordinates of a flat position, the last one changing fastest -/
def coords : List Nat → Nat → List Nat
  | [], _ => []
  | _ :: rest, i => i / rest.prod :: coords rest (i % rest.prod)

/-- reversed coordinates -/
def flips : List (Nat × Bool) → List Nat → List Nat
  | (n, rev) :: l, c :: cs => (if rev then n - 1 - c else c) :: flips l cs
  | _, _ => []

theorem swipe_lt : ∀ (l : List (Nat × Bool)) (i : Nat), i < total l → swipe l i < total l
  | [], i, h => h
  | (n, rev) :: rest, i, h => by
    have hp : total ((n, rev) :: rest) = n * total rest := by simp [total]
    rw [hp] at h ⊢
    have hpos : 0 < total rest := Nat.pos_of_ne_zero (by rintro h0; rw [h0] at h; simp at h)
    have hq : i / total rest < n := Nat.div_lt_of_lt_mul (by rwa [Nat.mul_comm] at h)
    have hr := swipe_lt rest (i % total rest) (Nat.mod_lt _ hpos)
    rw [swipe, foldl_prod]
    show (if rev then n - 1 - i / total rest else i / total rest) * total rest + swipe rest (i % total rest) < n * total rest
    have : (if rev then n - 1 - i / total rest else i / total rest) + 1 ≤ n := by
      generalize i / total rest = q at hq ⊢
      split_ifs <;> omega
    calc _ < (if rev then n - 1 - i / total rest else i / total rest) * total rest + total rest := Nat.add_lt_add_left hr _
      _ = ((if rev then n - 1 - i / total rest else i / total rest) + 1) * total rest := by ring
      _ ≤ n * total rest := Nat.mul_le_mul_right _ this

/-- quotient and remainder of the new position -/
theorem swipe_parts (n : Nat) (rev : Bool) (rest : List (Nat × Bool)) (i : Nat) (h : i < total ((n, rev) :: rest)) :
    swipe ((n, rev) :: rest) i / total rest = (if rev then n - 1 - i / total rest else i / total rest) ∧ swipe ((n, rev) :: rest) i % total rest = swipe rest (i % total rest) := by
  have hp : total ((n, rev) :: rest) = n * total rest := by simp [total]
  rw [hp] at h
  have hpos : 0 < total rest := Nat.pos_of_ne_zero (by rintro h0; rw [h0] at h; simp at h)
  have hr := swipe_lt rest (i % total rest) (Nat.mod_lt _ hpos)
  have e : swipe ((n, rev) :: rest) i = swipe rest (i % total rest) + total rest * (if rev then n - 1 - i / total rest else i / total rest) := by
    rw [swipe, foldl_prod, Nat.add_comm, Nat.mul_comm]
    rfl
  rw [e]
  constructor
  · rw [Nat.add_mul_div_left _ _ hpos, Nat.div_eq_of_lt hr, Nat.zero_add]
  · rw [Nat.add_mul_mod_self_left, Nat.mod_eq_of_lt hr]

theorem swipe_swipe : ∀ (l : List (Nat × Bool)) (i : Nat), i < total l → swipe l (swipe l i) = i
  | [], _, _ => rfl
  | (n, rev) :: rest, i, h => by
    have hp : total ((n, rev) :: rest) = n * total rest := by simp [total]
    have h' := h
    rw [hp] at h'
    have hpos : 0 < total rest := Nat.pos_of_ne_zero (by rintro h0; rw [h0] at h'; simp at h')
    have hq : i / total rest < n := Nat.div_lt_of_lt_mul (by rwa [Nat.mul_comm] at h')
    obtain ⟨h1, h2⟩ := swipe_parts n rev rest i h
    have hlt := swipe_lt _ i h
    obtain ⟨h3, h4⟩ := swipe_parts n rev rest (swipe ((n, rev) :: rest) i) hlt
    rw [h1] at h3
    rw [h2, swipe_swipe rest _ (Nat.mod_lt _ hpos)] at h4
    have e : swipe ((n, rev) :: rest) (swipe ((n, rev) :: rest) i) / total rest = i / total rest := by
      rw [h3]
      cases rev
      · rfl
      · generalize i / total rest = q at hq ⊢
        simp only [if_true]
        omega
    rw [← Nat.div_add_mod (swipe ((n, rev) :: rest) (swipe ((n, rev) :: rest) i)) (total rest), e, h4, Nat.div_add_mod]

theorem swipe_coords : ∀ (l : List (Nat × Bool)) (i : Nat), i < total l → coords (l.map Prod.fst) (swipe l i) = flips l (coords (l.map Prod.fst) i)
  | [], _, _ => rfl
  | (n, rev) :: rest, i, h => by
    have hp : total ((n, rev) :: rest) = n * total rest := by simp [total]
    have h' := h
    rw [hp] at h'
    have hpos : 0 < total rest := Nat.pos_of_ne_zero (by rintro h0; rw [h0] at h'; simp at h')
    obtain ⟨h1, h2⟩ := swipe_parts n rev rest i h
    rw [List.map_cons, coords, coords, flips]
    show swipe ((n, rev) :: rest) i / total rest :: coords (rest.map Prod.fst) (swipe ((n, rev) :: rest) i % total rest) = _
    rw [h1, h2, swipe_coords rest _ (Nat.mod_lt _ hpos)]
    rfl

theorem directions_length : ∀ n, (directions n).length = 2 ^ n
  | 0 => rfl
  | n + 1 => by simp [directions, directions_length n]; omega

theorem mem_directions : ∀ (n : Nat) (ds : List Bool), ds ∈ directions n ↔ ds.length = n
  | 0, ds => by simp [directions]
  | n + 1, ds => by
    cases ds with
    | nil => simp [directions]
    | cons d ds =>
      have := mem_directions n ds
      cases d <;> simp [directions, this]

theorem directions_nodup : ∀ n, (directions n).Nodup
  | 0 => by simp [directions]
  | n + 1 => by
    have ih := directions_nodup n
    simp only [directions, List.flatMap_cons, List.flatMap_nil, List.append_nil]
    rw [List.nodup_append]
    refine ⟨ih.map (fun a b h => (List.cons.inj h).2), ih.map (fun a b h => (List.cons.inj h).2), ?_⟩
    rintro a ha b hb rfl
    obtain ⟨_, _, rfl⟩ := List.mem_map.1 ha
    obtain ⟨_, _, h⟩ := List.mem_map.1 hb
    simp at h

/-- the slices in terms of positions -/
theorem mem_slice {K : Type} (params : List K) (a b i : Nat) : (slice params a b)[i]? = if a + i < b then params[a + i]? else none := by
  unfold slice
  rw [List.getElem?_drop, List.getElem?_take]

end Verif.Mdrnn

namespace Verif.Props
open Verif.Mdrnn

/-- **C158, parameters (partial).** For one time dimension, the parameters of the layer are divided among the connections: input, predecessors, output and bias, in this order, without rest or overlap. What is missing:
more time dimensions (see the negation). -/
theorem C158_parameters_partial {K : Type} (l : Layer) (h : l.timedim = 1) (params : List K) (hp : params.length = l.numParams) :
    l.inParams params ++ (l.predParams params).flatten ++ l.outParams params ++ l.biasParams params = params ∧
      (l.inParams params).length = l.numIn ∧ (∀ q ∈ l.predParams params, q.length = l.numRec) ∧ (l.outParams params).length = l.numOut ∧ (l.biasParams params).length = l.numBias := by
  unfold Layer.numParams at hp
  rw [h, Nat.one_mul] at hp
  have e : ∀ a b : Nat, slice params a b = (params.drop a).take (b - a) := by
    intro a b
    unfold slice
    rw [List.drop_take]
  have hpred : l.predParams params = [(params.drop l.numIn).take l.numRec] := by
    unfold Layer.predParams slice
    rw [h]
    simp
  refine ⟨?_, ?_, ?_, ?_, ?_⟩
  · rw [hpred]
    unfold Layer.inParams Layer.outParams Layer.biasParams
    rw [e, e, e]
    simp only [List.flatten_cons, List.flatten_nil, List.append_nil, Nat.sub_zero, List.drop_zero, Nat.add_sub_cancel_left]
    rw [List.take_of_length_le (l := params.drop (l.numIn + l.numRec + l.numOut)) (by rw [List.length_drop]; omega)]
    rw [List.append_assoc, List.append_assoc, ← List.drop_drop (i := l.numOut), List.take_append_drop, ← List.drop_drop (i := l.numRec), List.take_append_drop, List.take_append_drop]
  · unfold Layer.inParams
    rw [e, List.length_take, List.length_drop]
    omega
  · intro q hq
    rw [hpred, List.mem_singleton] at hq
    rw [hq, List.length_take, List.length_drop]
    omega
  · unfold Layer.outParams
    rw [e, List.length_take, List.length_drop]
    omega
  · unfold Layer.biasParams
    rw [e, List.length_take, List.length_drop]
    omega

example : (⟨1, [4], 2, 3, [1]⟩ : Layer).numParams = 49 := by decide

/-- **C158 violated: more time dimensions.** For two or more time dimensions (what the layer is for), the first parameter of the output connection is at the same time the first parameter of the second predecessor, and the last
parameter of the layer belongs to none of the connections. -/
theorem C158_negation_parameters {K : Type} (l : Layer) (h : 2 ≤ l.timedim) (ho : 0 < l.outsize) (hh : 0 < l.hiddendim) (params : List K) (hp : params.length = l.numParams) :
    (l.outParams params)[0]? = params[l.numIn + l.numRec]? ∧ ((l.predParams params)[1]?.bind fun q => q[0]?) = params[l.numIn + l.numRec]? ∧ params[l.numIn + l.numRec]?.isSome ∧
      l.numIn ≤ l.numParams - 1 ∧ (∀ i < l.timedim, l.numIn + (i + 1) * l.numRec ≤ l.numParams - 1) ∧ l.numIn + l.numRec + l.numOut ≤ l.numParams - 1 ∧ l.numIn + l.numRec + l.numOut + l.numBias ≤ l.numParams - 1 := by
  have hO : 0 < l.numOut := Nat.mul_pos ho hh
  have hR : 0 < l.numRec := Nat.mul_pos (Nat.mul_pos ho hh) (by omega)
  have hB : 0 < l.numBias := by unfold Layer.numBias; omega
  have hmul : 2 * l.numRec ≤ l.timedim * l.numRec := Nat.mul_le_mul_right _ h
  have hN : l.numParams = l.numIn + l.timedim * l.numRec + l.numOut + l.numBias := rfl
  refine ⟨?_, ?_, ?_, ?_, ?_, ?_, ?_⟩
  · unfold Layer.outParams
    rw [mem_slice, if_pos (by omega), Nat.add_zero]
  · unfold Layer.predParams
    rw [List.getElem?_map, List.getElem?_range (by omega)]
    simp only [Option.map_some, Option.bind_some]
    rw [mem_slice, if_pos (by omega), List.getElem?_drop]
    congr 1
    omega
  · rw [List.getElem?_eq_getElem (by omega)]
    rfl
  · omega
  · intro i hi
    have : (i + 1) * l.numRec ≤ l.timedim * l.numRec := Nat.mul_le_mul_right _ hi
    omega
  · omega
  · omega

example : 2 ≤ (⟨2, [4, 4], 2, 3, [2, 2]⟩ : Layer).timedim := by decide

/-- **C158, directions.** There is one permutation for each of the `2 ^ timedim` combinations of directions. Each reverses the coordinates of its reversed axes and keeps the others, so it is a permutation of the blocks that is
its own inverse; hence the permutation back, which is computed as the same permutation, restores the order, and a layer that treats the blocks one by one gives the same output for all directions. -/
theorem C158_directions (dims : List Nat) : (permsForSwiping dims).length = 2 ^ dims.length ∧ ∀ p ∈ permsForSwiping dims, ∃ ds : List Bool, ds.length = dims.length ∧
    ∀ i < dims.prod, p i < dims.prod ∧ p (pinv p i) = i ∧ coords dims (p i) = flips (dims.zip ds) (coords dims i) := by
  refine ⟨by rw [permsForSwiping, List.length_map, directions_length], ?_⟩
  intro p hp
  obtain ⟨ds, hds, rfl⟩ := List.mem_map.1 hp
  rw [mem_directions] at hds
  have hm : (dims.zip ds).map Prod.fst = dims := List.map_fst_zip (by omega)
  have ht : total (dims.zip ds) = dims.prod := by unfold total; rw [hm]
  refine ⟨ds, hds, fun i hi => ?_⟩
  rw [← ht] at hi ⊢
  have := swipe_coords _ i hi
  rw [hm] at this
  exact ⟨swipe_lt _ i hi, swipe_swipe _ i hi, this⟩

/-- **C158, blocks in place.** A hidden layer that maps each block on its own leaves every block at its place, for every direction. -/
theorem C158_place {B C : Type} (dims : List Nat) (p : Nat → Nat) (hp : p ∈ permsForSwiping dims) (f : B → C) (x : Nat → B) (j : Nat) (hj : j < dims.prod) :
    through p (fun y i => f (y i)) x j = f (x j) := by
  obtain ⟨ds, _, h⟩ := (C158_directions dims).2 p hp
  show f (x (p (pinv p j))) = f (x j)
  rw [(h j hj).2.1]

example : (permsForSwiping [2, 3]).map (fun p => (List.range 6).map p) = [[0, 1, 2, 3, 4, 5], [2, 1, 0, 5, 4, 3], [3, 4, 5, 0, 1, 2], [5, 4, 3, 2, 1, 0]] := by decide

end Verif.Props
