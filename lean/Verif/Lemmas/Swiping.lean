import Verif.Lemmas.Mesh
import Verif.Spec.Swiping
import Mathlib.Data.Nat.Bitwise
import Mathlib.Algebra.Order.BigOperators.Group.Finset
import Mathlib.Logic.Equiv.Basic
/-
Lemmas about swiping networks.
-/
namespace Verif.Swiping
open Verif.Net Verif.Net.Spec Verif.Mesh Verif.Mesh.Spec Spec

/-! ### units -/

theorem inGrid_iff (dims u : List Nat) : InGrid dims u ↔ u.length = dims.length ∧ ∀ d < dims.length, u.getD d 0 < dims.getD d 0 := by
  unfold InGrid
  rw [List.forall₂_iff_get]
  constructor
  · rintro ⟨h1, h2⟩
    refine ⟨h1, fun d hd => ?_⟩
    have := h2 d (by omega) hd
    rw [List.getD_eq_getElem _ _ (by omega), List.getD_eq_getElem _ _ hd]
    simpa using this
  · rintro ⟨h1, h2⟩
    refine ⟨h1, fun d hd hd' => ?_⟩
    have := h2 d hd'
    rw [List.getD_eq_getElem _ _ (by omega), List.getD_eq_getElem _ _ hd'] at this
    simpa using this

theorem getD_set (u : List Nat) (d e a : Nat) (h : d < u.length) : (u.set d a).getD e 0 = if e = d then a else u.getD e 0 := by
  rw [List.getD_eq_getElem?_getD, List.getD_eq_getElem?_getD, List.getElem?_set]
  by_cases he : d = e
  · subst he; simp [h]
  · rw [if_neg he, if_neg (Ne.symm he)]

theorem ext_getD (u v : List Nat) (h : u.length = v.length) (h' : ∀ d < u.length, u.getD d 0 = v.getD d 0) : u = v := by
  apply List.ext_getElem h
  intro i h1 h2
  have := h' i h1
  rwa [List.getD_eq_getElem _ _ h1, List.getD_eq_getElem _ _ h2] at this

theorem inGrid_set (dims u : List Nat) (d a : Nat) (hu : InGrid dims u) (hd : d < dims.length) (ha : a < dims.getD d 0) : InGrid dims (u.set d a) := by
  rw [inGrid_iff] at hu ⊢
  refine ⟨by simpa using hu.1, fun e he => ?_⟩
  rw [getD_set _ _ _ _ (by omega)]
  split
  · rename_i h; subst h; exact ha
  · exact hu.2 e he

theorem previous_eq (dims u : List Nat) (s d : Nat) (hu : InGrid dims u) (hd : d < dims.length) :
    previous u s d (dims.getD d 0) = prev dims s d u := by
  have hlt := ((inGrid_iff _ _).1 hu).2 d hd
  unfold previous prev
  generalize u.getD d 0 = k at hlt ⊢
  generalize dims.getD d 0 = m at hlt ⊢
  by_cases h : Up s d
  · rw [if_pos h]
    have h : (s / 2 ^ d) % 2 = 0 := h
    simp only [if_pos h]
    by_cases hk : k = 0
    · rw [if_pos hk, if_neg (by omega)]
    · rw [if_pos (by omega), if_neg hk]
      have e : ((k : Int) - 1).toNat = k - 1 := by omega
      rw [e]
  · rw [if_neg h]
    have h : ¬ (s / 2 ^ d) % 2 = 0 := h
    simp only [if_neg h]
    by_cases hk : k + 1 < m
    · rw [if_pos (by omega), if_pos hk]
      have e : ((k : Int) + 1).toNat = k + 1 := by omega
      rw [e]
    · rw [if_neg (by omega), if_neg hk]

theorem prev_cases {dims u v : List Nat} {s d : Nat} (h : prev dims s d u = some v) :
    (Up s d ∧ 0 < u.getD d 0 ∧ v = u.set d (u.getD d 0 - 1)) ∨ (¬ Up s d ∧ u.getD d 0 + 1 < dims.getD d 0 ∧ v = u.set d (u.getD d 0 + 1)) := by
  unfold prev at h
  split at h
  · split at h
    · simp at h
    · simp only [Option.some.injEq] at h
      exact Or.inl ⟨‹_›, by omega, h.symm⟩
  · split at h
    · simp only [Option.some.injEq] at h
      exact Or.inr ⟨‹_›, ‹_›, h.symm⟩
    · simp at h

theorem prev_unit {dims u v : List Nat} {s d : Nat} (hu : InGrid dims u) (hd : d < dims.length) (h : prev dims s d u = some v) : InGrid dims v := by
  have hlt := ((inGrid_iff _ _).1 hu).2 d hd
  rcases prev_cases h with ⟨_, h1, rfl⟩ | ⟨_, h1, rfl⟩
  · exact inGrid_set dims u d _ hu hd (by omega)
  · exact inGrid_set dims u d _ hu hd h1

/-- how far a swipe has come -/
def progress (dims : List Nat) (s : Nat) (u : List Nat) : Nat :=
  ∑ d ∈ Finset.range dims.length, if Up s d then u.getD d 0 else dims.getD d 0 - 1 - u.getD d 0

theorem progress_prev {dims u v : List Nat} {s d : Nat} (hu : InGrid dims u) (hd : d < dims.length) (h : prev dims s d u = some v) :
    progress dims s v < progress dims s u := by
  have hl := ((inGrid_iff _ _).1 hu)
  have hlt := hl.2 d hd
  unfold progress
  apply Finset.sum_lt_sum
  · intro e he
    rcases prev_cases h with ⟨h0, h1, rfl⟩ | ⟨h0, h1, rfl⟩ <;> rw [getD_set _ _ _ _ (by omega)]
    · by_cases e1 : e = d
      · subst e1; rw [if_pos h0, if_pos h0, if_pos rfl]; omega
      · rw [if_neg e1]
    · by_cases e1 : e = d
      · subst e1; rw [if_neg h0, if_neg h0, if_pos rfl]; omega
      · rw [if_neg e1]
  · refine ⟨d, Finset.mem_range.2 hd, ?_⟩
    rcases prev_cases h with ⟨h0, h1, rfl⟩ | ⟨h0, h1, rfl⟩ <;> rw [getD_set _ _ _ _ (by omega), if_pos rfl]
    · rw [if_pos h0, if_pos h0]; omega
    · rw [if_neg h0, if_neg h0]; omega

theorem progress_le {dims u : List Nat} (s : Nat) (hu : InGrid dims u) : progress dims s u ≤ ∑ d ∈ Finset.range dims.length, dims.getD d 0 := by
  unfold progress
  apply Finset.sum_le_sum
  intro d hd
  have := ((inGrid_iff _ _).1 hu).2 d (Finset.mem_range.1 hd)
  split_ifs <;> omega

/-- The equations of the swipes have at most one solution. -/
theorem swipes_unique (c : Cfg) (W : Weights) (x : List Nat → Nat → ℝ) (H H' : List Nat → Nat → Nat → ℝ) (h : Swipes c W x H) (h' : Swipes c W x H') :
    ∀ n u, InGrid c.dims u → ∀ s < 2 ^ c.dims.length, progress c.dims s u ≤ n → ∀ j < c.hsize, H u s j = H' u s j := by
  intro n
  induction n using Nat.strong_induction_on with
  | _ n ih =>
    intro u hu s hs hn j hj
    rw [h u hu s hs j hj, h' u hu s hs j hj]
    congr 2
    refine Finset.sum_congr rfl fun d hd => ?_
    cases hp : prev c.dims s d u with
    | none => rfl
    | some v =>
      have hd := Finset.mem_range.1 hd
      simp only [Option.elim_some]
      refine Finset.sum_congr rfl fun i hi => ?_
      have hlt := progress_prev hu hd hp
      rw [ih (progress c.dims s v) (by omega) v (prev_unit hu hd hp) s hs le_rfl i (Finset.mem_range.1 hi)]

/-! ### the network -/

def rank (c : Cfg) : Node → Nat
  | .inp => 0
  | .bias => 0
  | .hid u s => progress c.dims s u + 1
  | .out => (∑ d ∈ Finset.range c.dims.length, c.dims.getD d 0) + 2

/-- the links of a unit, with the slices spelled out -/
theorem unitLinks_eq (c : Cfg) (ing outg : Grid Node) (u : List Nat) (s : Nat) (hu : InGrid c.dims u)
    (hi : ing.lookup u = some (piece .inp c.insize c.insize (rowMajor c.dims u)))
    (ho : outg.lookup u = some (piece .out c.outputs c.outputs (rowMajor c.dims u))) :
    unitLinks c ing outg u s =
      [(Node.inp, fullConnection (Node.hid u s) Mother.inconn (c.insize * rowMajor c.dims u) (c.insize * rowMajor c.dims u + c.insize) 0 c.hsize),
       (Node.hid u s, fullConnection Node.out Mother.outconn 0 c.hsize (c.outputs * rowMajor c.dims u) (c.outputs * rowMajor c.dims u + c.outputs))] ++
      (List.range c.dims.length).flatMap fun d => (prev c.dims s d u).elim []
        fun v => [(Node.hid v s, fullConnection (Node.hid u s) (hconn c s d) 0 c.hsize 0 c.hsize)] := by
  unfold unitLinks
  have e1 : ∀ a b : Nat, ((a : Int) * (b : Int)).toNat = a * b := by
    intro a b
    rw [← Int.natCast_mul, Int.toNat_natCast]
  have e2 : ∀ a b k : Nat, ((a : Int) * (b : Int) + k).toNat = a * b + k := by
    intro a b k
    rw [← Int.natCast_mul, ← Int.natCast_add, Int.toNat_natCast]
  congr 1
  · simp only [Grid.at, hi, ho, Option.getD_some, sharedFull, piece, hidRef, whole, e1, e2]
    simp
  · refine List.flatMap_congr fun d hd => ?_
    rw [previous_eq _ _ _ _ hu (List.mem_range.1 hd)]
    cases prev c.dims s d u with
    | none => rfl
    | some v => simp [sharedFull, hidRef, whole]

theorem unit_sum (c : Cfg) (ing outg : Grid Node) (u : List Nat) (s : Nat) (hu : InGrid c.dims u)
    (hi : ing.lookup u = some (piece .inp c.insize c.insize (rowMajor c.dims u)))
    (ho : outg.lookup u = some (piece .out c.outputs c.outputs (rowMajor c.dims u))) (F : Node × Conn Node Mother ℝ → ℝ) :
    ((unitLinks c ing outg u s).map F).sum =
      F (Node.inp, fullConnection (Node.hid u s) Mother.inconn (c.insize * rowMajor c.dims u) (c.insize * rowMajor c.dims u + c.insize) 0 c.hsize) +
      F (Node.hid u s, fullConnection Node.out Mother.outconn 0 c.hsize (c.outputs * rowMajor c.dims u) (c.outputs * rowMajor c.dims u + c.outputs)) +
      ∑ d ∈ Finset.range c.dims.length, (prev c.dims s d u).elim 0
        fun v => F (Node.hid v s, fullConnection (Node.hid u s) (hconn c s d) 0 c.hsize 0 c.hsize) := by
  rw [unitLinks_eq c ing outg u s hu hi ho, List.map_append, List.sum_append, sum_flatMap, ← sum_range]
  congr 1
  · simp
  · congr 1
    refine List.map_congr_left fun d _ => ?_
    cases prev c.dims s d u with
    | none => rfl
    | some v => simp

theorem mem_unitLinks (c : Cfg) (ing outg : Grid Node) (u : List Nat) (s : Nat) (hu : InGrid c.dims u)
    (hi : ing.lookup u = some (piece .inp c.insize c.insize (rowMajor c.dims u)))
    (ho : outg.lookup u = some (piece .out c.outputs c.outputs (rowMajor c.dims u))) (a : Node × Conn Node Mother ℝ) (ha : a ∈ unitLinks c ing outg u s) :
    a = (Node.inp, fullConnection (Node.hid u s) Mother.inconn (c.insize * rowMajor c.dims u) (c.insize * rowMajor c.dims u + c.insize) 0 c.hsize) ∨
    a = (Node.hid u s, fullConnection Node.out Mother.outconn 0 c.hsize (c.outputs * rowMajor c.dims u) (c.outputs * rowMajor c.dims u + c.outputs)) ∨
    ∃ d v, d < c.dims.length ∧ prev c.dims s d u = some v ∧ a = (Node.hid v s, fullConnection (Node.hid u s) (hconn c s d) 0 c.hsize 0 c.hsize) := by
  rw [unitLinks_eq c ing outg u s hu hi ho] at ha
  rcases List.mem_append.1 ha with ha | ha
  · simp only [List.mem_cons, List.not_mem_nil, or_false] at ha
    rcases ha with ha | ha
    · exact Or.inl ha
    · exact Or.inr (Or.inl ha)
  · obtain ⟨d, hd, ha⟩ := List.mem_flatMap.1 ha
    cases hp : prev c.dims s d u with
    | none => rw [hp] at ha; simp at ha
    | some v =>
      rw [hp] at ha
      exact Or.inr (Or.inr ⟨d, v, List.mem_range.1 hd, hp, by simpa using ha⟩)

/-- the modules -/
def nodes (c : Cfg) : List Node :=
  [.inp, .out] ++ (Enum.iterCombinations c.dims).flatMap fun unit => (List.range c.swipes).map fun swipe => Node.hid unit swipe

theorem mem_nodes (c : Cfg) (h : c.dims ≠ []) (u : List Nat) (s : Nat) (hu : InGrid c.dims u) (hs : s < 2 ^ c.dims.length) : Node.hid u s ∈ nodes c := by
  unfold nodes
  refine List.mem_append_right _ (List.mem_flatMap.2 ⟨u, (iter_mem c.dims h u).2 hu, List.mem_map.2 ⟨s, List.mem_range.2 hs, rfl⟩⟩)

theorem nodup_nodes (c : Cfg) : (nodes c).Nodup := by
  unfold nodes
  refine List.nodup_append.2 ⟨by decide, ?_, ?_⟩
  · rw [List.nodup_flatMap]
    refine ⟨fun u _ => (List.nodup_range).map (fun a b h => by simpa using h), ?_⟩
    refine (iter_nodup c.dims).imp ?_
    intro a b hab x hx hy
    simp only [List.mem_map] at hx hy
    obtain ⟨_, _, rfl⟩ := hx
    obtain ⟨_, _, e⟩ := hy
    simp only [Node.hid.injEq] at e
    exact hab e.1.symm
  · intro a ha b hb e
    subst e
    simp only [List.mem_flatMap, List.mem_map] at hb
    obtain ⟨_, _, _, _, rfl⟩ := hb
    simp at ha

/-- the network is built, and its links are known -/
theorem build_ok (c : Cfg) (ok : Cfg.Ok c) : ∃ ing outg : Grid Node,
    (∀ u, InGrid c.dims u → ing.lookup u = some (piece .inp c.insize c.insize (rowMajor c.dims u))) ∧
    (∀ u, InGrid c.dims u → outg.lookup u = some (piece .out c.outputs c.outputs (rowMajor c.dims u))) ∧
    multiDimensionalRNN c = .ok { modules := nodes c, mod := module c, links := links c ing outg, inmods := [.inp], outmods := [.out] } := by
  have hz : 0 ∉ c.dims := fun h => by have := ok.two 0 h; omega
  have h1 : ∃ d ∈ c.dims, 1 < d := by
    obtain ⟨d, hd⟩ := List.exists_mem_of_ne_nil _ ok.dims
    exact ⟨d, hd, ok.two d hd⟩
  obtain ⟨g, hg, hgl, _⟩ := view_ok Node.inp c.insize c.insize c.dims ok.dims hz h1 (by have := ok.ins; omega)
  obtain ⟨g', hg', hgl', _⟩ := view_ok Node.out c.outputs c.outputs c.dims ok.dims hz h1 (by have := ok.outs; omega)
  refine ⟨g, g', hgl, hgl', ?_⟩
  have hn : ¬ (c.insize * c.hsize = 0 ∨ c.outputs * c.hsize = 0 ∨ c.hsize * c.hsize = 0) := by
    have h1 := Nat.mul_pos ok.ins ok.hid
    have h2 := Nat.mul_pos ok.outs ok.hid
    have h3 := Nat.mul_pos ok.hid ok.hid
    omega
  simp only [multiDimensionalRNN, hg, hg']
  rw [if_neg (not_not.2 ok.two), if_neg hn]
  rfl

theorem mem_links (c : Cfg) (ok : Cfg.Ok c) (ing outg : Grid Node) (a : Node × Conn Node Mother ℝ) (ha : a ∈ links c ing outg) :
    ∃ u s, InGrid c.dims u ∧ s < 2 ^ c.dims.length ∧ a ∈ unitLinks c ing outg u s := by
  unfold links at ha
  obtain ⟨u, hu, ha⟩ := List.mem_flatMap.1 ha
  obtain ⟨s, hs, ha⟩ := List.mem_flatMap.1 ha
  exact ⟨u, s, (iter_mem c.dims ok.dims u).1 hu, List.mem_range.1 hs, ha⟩

theorem good (c : Cfg) (ok : Cfg.Ok c) (ing outg : Grid Node)
    (hi : ∀ u, InGrid c.dims u → ing.lookup u = some (piece .inp c.insize c.insize (rowMajor c.dims u)))
    (ho : ∀ u, InGrid c.dims u → outg.lookup u = some (piece .out c.outputs c.outputs (rowMajor c.dims u))) :
    Plan.Good { modules := nodes c, mod := module c, links := links c ing outg, inmods := [.inp], outmods := [.out] } (rank c) := by
  have key : ∀ a ∈ links c ing outg, (a.1 ∈ nodes c ∧ a.2.outmod ∈ nodes c) ∧ rank c a.1 < rank c a.2.outmod ∧
      (a.2.inFrom ≤ a.2.inTo ∧ a.2.inTo ≤ (module c a.1).outdim) ∧ (a.2.outFrom ≤ a.2.outTo ∧ a.2.outTo ≤ (module c a.2.outmod).indim) := by
    intro a ha
    obtain ⟨u, s, hu, hs, ha⟩ := mem_links c ok ing outg a ha
    have hidx := index_lt c.dims u hu
    have hle : ∀ k, k * rowMajor c.dims u + k ≤ k * c.dims.prod := fun k => by
      calc k * rowMajor c.dims u + k = k * (rowMajor c.dims u + 1) := by ring
        _ ≤ k * c.dims.prod := Nat.mul_le_mul_left k hidx
    rcases mem_unitLinks c ing outg u s hu (hi u hu) (ho u hu) a ha with rfl | rfl | ⟨d, v, hd, hp, rfl⟩
    · refine ⟨⟨by simp [nodes], mem_nodes c ok.dims u s hu hs⟩, by simp [rank, fullConnection], ⟨by simp [fullConnection], hle c.insize⟩,
        ⟨by simp [fullConnection], le_rfl⟩⟩
    · refine ⟨⟨mem_nodes c ok.dims u s hu hs, by simp [nodes, fullConnection]⟩, ?_, ⟨by simp [fullConnection], le_rfl⟩,
        ⟨by simp [fullConnection], hle c.outputs⟩⟩
      have := progress_le s hu
      simp only [rank, fullConnection]
      omega
    · refine ⟨⟨mem_nodes c ok.dims v s (prev_unit hu hd hp) hs, mem_nodes c ok.dims u s hu hs⟩, ?_, ⟨by simp [fullConnection], le_rfl⟩,
        ⟨by simp [fullConnection], le_rfl⟩⟩
      have := progress_prev hu hd hp
      simp only [rank, fullConnection]
      omega
  exact
    { nodup := nodup_nodes c, insNodup := by simp, outsNodup := by simp
      ins := by simp [nodes], outs := by simp [nodes]
      src := fun a ha => (key a ha).1.1, dst := fun a ha => (key a ha).1.2
      rank := fun a ha => (key a ha).2.1, inSlice := fun a ha => (key a ha).2.2.1, outSlice := fun a ha => (key a ha).2.2.2 }

theorem wh_eq (c : Cfg) (θ : Mother → Vec ℝ) (s d j i : Nat) : (weights c θ).wh d (decide (Up s d)) j i = θ (hconn c s d) (j * c.hsize + i) := by
  unfold weights hconn plus Up
  split <;> rfl

/-- what a unit of a swipe contributes to the input of the module `n` -/
theorem unit_into (c : Cfg) (ing outg : Grid Node) (u : List Nat) (s : Nat) (hu : InGrid c.dims u)
    (hi : ing.lookup u = some (piece .inp c.insize c.insize (rowMajor c.dims u)))
    (ho : outg.lookup u = some (piece .out c.outputs c.outputs (rowMajor c.dims u))) (θ : Mother → Vec ℝ) (outb : Node → Vec ℝ) (n : Node) (j : Nat) :
    ((unitLinks c ing outg u s).map (fun a => if a.2.outmod = n then signal θ (outb a.1) a.2 j else 0)).sum =
      (if Node.hid u s = n then (if j < c.hsize then
        (∑ i ∈ Finset.range c.insize, (weights c θ).win j i * outb .inp (c.insize * rowMajor c.dims u + i)) +
        ∑ d ∈ Finset.range c.dims.length, (prev c.dims s d u).elim 0
          fun v => ∑ i ∈ Finset.range c.hsize, (weights c θ).wh d (decide (Up s d)) j i * outb (.hid v s) i else 0) else 0) +
      (if Node.out = n then (if c.outputs * rowMajor c.dims u ≤ j ∧ j < c.outputs * rowMajor c.dims u + c.outputs then
        ∑ i ∈ Finset.range c.hsize, (weights c θ).wout (j - c.outputs * rowMajor c.dims u) i * outb (.hid u s) i else 0) else 0) := by
  rw [unit_sum c ing outg u s hu hi ho]
  have e1 : signal θ (outb .inp) (fullConnection (Node.hid u s) Mother.inconn (c.insize * rowMajor c.dims u) (c.insize * rowMajor c.dims u + c.insize) 0 c.hsize) j =
      if j < c.hsize then ∑ i ∈ Finset.range c.insize, (weights c θ).win j i * outb .inp (c.insize * rowMajor c.dims u + i) else 0 := by
    rw [signal_full]
    simp only [Nat.zero_le, true_and, Nat.add_sub_cancel_left, Nat.sub_zero]
    rfl
  have e2 : signal θ (outb (.hid u s)) (fullConnection Node.out Mother.outconn 0 c.hsize (c.outputs * rowMajor c.dims u) (c.outputs * rowMajor c.dims u + c.outputs)) j =
      if c.outputs * rowMajor c.dims u ≤ j ∧ j < c.outputs * rowMajor c.dims u + c.outputs then
        ∑ i ∈ Finset.range c.hsize, (weights c θ).wout (j - c.outputs * rowMajor c.dims u) i * outb (.hid u s) i else 0 := by
    rw [signal_full]
    simp only [Nat.sub_zero, Nat.zero_add]
    rfl
  have e3 : ∀ d v, signal θ (outb (.hid v s)) (fullConnection (Node.hid u s) (hconn c s d) 0 c.hsize 0 c.hsize) j =
      if j < c.hsize then ∑ i ∈ Finset.range c.hsize, (weights c θ).wh d (decide (Up s d)) j i * outb (.hid v s) i else 0 := by
    intro d v
    rw [signal_full]
    simp only [Nat.zero_le, true_and, Nat.zero_add, Nat.sub_zero, wh_eq]
  have o1 : ∀ (o : Node) (pc : Mother) (a b c d : Nat), (fullConnection o pc a b c d).outmod = o := fun _ _ _ _ _ _ => rfl
  simp only [e1, e2, e3, o1]
  by_cases hn : Node.hid u s = n
  · have hn' : ¬ Node.out = n := by subst hn; simp
    simp only [hn, hn', if_true, if_false, add_zero]
    by_cases hj : j < c.hsize
    · simp only [hj, if_true]
    · simp only [hj, if_false, zero_add]
      refine Finset.sum_eq_zero fun d _ => ?_
      cases prev c.dims s d u <;> rfl
  · simp only [hn, if_false, zero_add]
    have : ∀ d, ((prev c.dims s d u).elim (0 : ℝ) fun _ => 0) = 0 := fun d => by cases prev c.dims s d u <;> rfl
    simp only [this, Finset.sum_const_zero, add_zero]

/-- building, sorting and activating -/
theorem run (c : Cfg) (ok : Cfg.Ok c) (name : Node → String) :
    ∃ p N, multiDimensionalRNN c = .ok p ∧ p.sort name = .ok N ∧ WF N ∧ ∀ (θ : Mother → Vec ℝ) (b : Bufs Node Mother ℝ) (x : Vec ℝ), ∃ H,
      Swipes c (weights c θ) (inputAt c x) H ∧
      ∀ u, InGrid c.dims u → ∀ j < c.outputs, (activate N θ b x).2 (c.outputs * rowMajor c.dims u + j) = result c (weights c θ) H u j := by
  obtain ⟨ing, outg, hi, ho, hb⟩ := build_ok c ok
  obtain ⟨N, hN, wf, hrun⟩ := plan_run _ (rank c) (good c ok ing outg hi ho) name
  refine ⟨_, N, hb, hN, wf, fun θ b x => ?_⟩
  obtain ⟨inb, outb, h1, h2, h3⟩ := hrun θ b x
  have hsum : ∀ F : Node × Conn Node Mother ℝ → ℝ, ((links c ing outg).map F).sum =
      ((Enum.iterCombinations c.dims).map fun u => ∑ s ∈ Finset.range (2 ^ c.dims.length), ((unitLinks c ing outg u s).map F).sum).sum := by
    intro F
    unfold links
    rw [sum_flatMap]
    congr 1
    refine List.map_congr_left fun u _ => ?_
    rw [sum_flatMap, sum_range]
    rfl
  -- the input layer
  have hin : ∀ k, k < c.insize * c.dims.prod → outb .inp k = x k := by
    intro k hk
    rw [h2 .inp (by simp [nodes])]
    have e : inb .inp k = x k := by
      rw [h1 .inp (by simp [nodes]) k, hsum, sum_zero]
      · have e1 : (module c Node.inp).indim = c.insize * c.dims.prod := rfl
        simp only [share, if_true, tr, e1, hk, add_zero]
      · intro u hu
        have hu := (iter_mem c.dims ok.dims u).1 hu
        refine Finset.sum_eq_zero fun s _ => ?_
        rw [unit_into c ing outg u s hu (hi u hu) (ho u hu), if_neg (by simp), if_neg (by simp), add_zero]
    show tr (c.insize * c.dims.prod) (inb .inp) k = x k
    simp only [tr, hk, if_true, e]
  -- the hidden layers
  have hhid : ∀ u, InGrid c.dims u → ∀ s < 2 ^ c.dims.length, ∀ j < c.hsize, outb (.hid u s) j = c.f ((∑ i ∈ Finset.range c.insize, (weights c θ).win j i * inputAt c x u i) +
      ∑ d ∈ Finset.range c.dims.length, (prev c.dims s d u).elim 0 fun v => ∑ i ∈ Finset.range c.hsize, (weights c θ).wh d (decide (Up s d)) j i * outb (.hid v s) i) := by
    intro u hu s hs j hj
    have hmem := mem_nodes c ok.dims u s hu hs
    have hg : outb (.hid u s) j = c.f (inb (.hid u s) j) := by
      rw [h2 (.hid u s) hmem]
      show tr c.hsize (fun j => c.f (inb (.hid u s) j)) j = _
      simp only [tr, hj, if_true]
    rw [hg]
    congr 1
    rw [h1 _ hmem j, hsum]
    have e0 : share (fun m => (module c m).indim) [Node.inp] x (Node.hid u s) j = 0 := by simp [share]
    rw [e0, zero_add, sum_single _ u ((iter_mem c.dims ok.dims u).2 hu) (iter_nodup c.dims), Finset.sum_eq_single s]
    · rw [unit_into c ing outg u s hu (hi u hu) (ho u hu), if_pos rfl, if_pos hj, if_neg (by simp), add_zero]
      congr 1
      refine Finset.sum_congr rfl fun i hi' => ?_
      have hlt : c.insize * rowMajor c.dims u + i < c.insize * c.dims.prod := by
        have := Finset.mem_range.1 hi'
        calc c.insize * rowMajor c.dims u + i < c.insize * (rowMajor c.dims u + 1) := by rw [Nat.mul_add]; omega
          _ ≤ _ := Nat.mul_le_mul_left _ (index_lt c.dims u hu)
      rw [hin _ hlt]
      rfl
    · intro s' _ hs'
      rw [unit_into c ing outg u s' hu (hi u hu) (ho u hu), if_neg (by simpa using hs'), if_neg (by simp), add_zero]
    · intro h; exact absurd (Finset.mem_range.2 hs) h
    · intro u' hu' hne
      have hu' := (iter_mem c.dims ok.dims u').1 hu'
      refine Finset.sum_eq_zero fun s' _ => ?_
      rw [unit_into c ing outg u' s' hu' (hi u' hu') (ho u' hu'), if_neg (by simp [hne]), if_neg (by simp), add_zero]
  refine ⟨fun u s => outb (.hid u s), hhid, fun u hu j hj => ?_⟩
  -- the output layer
  have hlt : c.outputs * rowMajor c.dims u + j < c.outputs * c.dims.prod := by
    calc c.outputs * rowMajor c.dims u + j < c.outputs * (rowMajor c.dims u + 1) := by rw [Nat.mul_add]; omega
      _ ≤ _ := Nat.mul_le_mul_left _ (index_lt c.dims u hu)
  have hmem : Node.out ∈ nodes c := by simp [nodes]
  rw [h3]
  have hc : concat (fun m => (module c m).outdim) [Node.out] outb (c.outputs * rowMajor c.dims u + j) = outb .out (c.outputs * rowMajor c.dims u + j) :=
    if_pos hlt
  refine hc.trans ?_
  have hg : outb .out (c.outputs * rowMajor c.dims u + j) = c.g (inb .out (c.outputs * rowMajor c.dims u + j)) := by
    rw [h2 .out hmem]
    show tr (c.outputs * c.dims.prod) (fun j => c.g (inb .out j)) _ = _
    simp only [tr, hlt, if_true]
  rw [hg]
  unfold result
  congr 1
  rw [h1 _ hmem _, hsum]
  have e0 : share (fun m => (module c m).indim) [Node.inp] x Node.out (c.outputs * rowMajor c.dims u + j) = 0 := by simp [share]
  rw [e0, zero_add, sum_single _ u ((iter_mem c.dims ok.dims u).2 hu) (iter_nodup c.dims)]
  · refine Finset.sum_congr rfl fun s hs => ?_
    rw [unit_into c ing outg u s hu (hi u hu) (ho u hu), if_neg (by simp), if_pos rfl, if_pos ⟨by omega, by omega⟩, zero_add, Nat.add_sub_cancel_left]
  · intro u' hu' hne
    have hu' := (iter_mem c.dims ok.dims u').1 hu'
    refine Finset.sum_eq_zero fun s _ => ?_
    rw [unit_into c ing outg u' s hu' (hi u' hu') (ho u' hu'), if_neg (by simp), if_pos rfl, if_neg, add_zero]
    rintro ⟨ha, hb⟩
    apply hne
    apply index_inj c.dims u' u ok.dims hu' hu
    have hpos := ok.outs
    have h1 : rowMajor c.dims u' < rowMajor c.dims u + 1 := by
      by_contra hcon
      have := Nat.mul_le_mul_left c.outputs (not_lt.1 hcon)
      rw [Nat.mul_add] at this
      omega
    have h2 : rowMajor c.dims u < rowMajor c.dims u' + 1 := by
      by_contra hcon
      have := Nat.mul_le_mul_left c.outputs (not_lt.1 hcon)
      rw [Nat.mul_add] at this
      omega
    omega


/-- the output does not depend on the solution chosen -/
theorem result_unique (c : Cfg) (W : Weights) (x : List Nat → Nat → ℝ) (H H' : List Nat → Nat → Nat → ℝ) (h : Swipes c W x H) (h' : Swipes c W x H')
    (u : List Nat) (hu : InGrid c.dims u) (j : Nat) : result c W H u j = result c W H' u j := by
  unfold result
  congr 1
  refine Finset.sum_congr rfl fun s hs => Finset.sum_congr rfl fun i hi => ?_
  rw [swipes_unique c W x H H' h h' _ u hu s (Finset.mem_range.1 hs) le_rfl i (Finset.mem_range.1 hi)]

/-! ### symmetries -/

theorem up_iff (s d : Nat) : Up s d ↔ s.testBit d = false := by
  unfold Up
  rw [Nat.testBit_eq_decide_div_mod_eq]
  have := Nat.mod_two_eq_zero_or_one (s / 2 ^ d)
  simp only [decide_eq_false_iff_not]
  omega

/-- the swipe going the other way in dimension `d` -/
def flip (d s : Nat) : Nat := s ^^^ 2 ^ d

theorem flip_flip (d s : Nat) : flip d (flip d s) = s := by
  unfold flip; rw [Nat.xor_assoc, Nat.xor_self, Nat.xor_zero]

theorem flip_lt (d s n : Nat) (hd : d < n) (hs : s < 2 ^ n) : flip d s < 2 ^ n :=
  Nat.xor_lt_two_pow hs (Nat.pow_lt_pow_right (by norm_num) hd)

theorem up_flip (d s e : Nat) : Up (flip d s) e ↔ (if e = d then ¬ Up s e else Up s e) := by
  simp only [up_iff, flip, Nat.testBit_xor, Nat.testBit_two_pow]
  by_cases h : e = d
  · subst h; simp
  · simp [h, Ne.symm h]

theorem mirror_unit (dims : List Nat) (d : Nat) (u : List Nat) (hu : InGrid dims u) (hd : d < dims.length) : InGrid dims (mirror dims d u) := by
  have := ((inGrid_iff _ _).1 hu).2 d hd
  exact inGrid_set dims u d _ hu hd (by omega)

theorem mirror_mirror (dims : List Nat) (d : Nat) (u : List Nat) (hu : InGrid dims u) (hd : d < dims.length) : mirror dims d (mirror dims d u) = u := by
  have hl := (inGrid_iff _ _).1 hu
  have := hl.2 d hd
  unfold mirror
  apply ext_getD _ _ (by simp)
  intro e he
  rw [getD_set _ _ _ _ (by simp; omega), getD_set _ _ _ _ (by omega), getD_set _ _ _ _ (by omega)]
  by_cases h : e = d
  · subst h; simp only [if_true]; omega
  · simp only [h, if_false]

theorem prev_mirror (dims : List Nat) (s d e : Nat) (u : List Nat) (hu : InGrid dims u) (hd : d < dims.length) (he : e < dims.length) :
    prev dims (flip d s) e (mirror dims d u) = (prev dims s e u).map (mirror dims d) := by
  have hl := (inGrid_iff _ _).1 hu
  have hdl := hl.2 d hd
  have hel := hl.2 e he
  have hm : (mirror dims d u).getD e 0 = if e = d then dims.getD d 0 - 1 - u.getD d 0 else u.getD e 0 := getD_set _ _ _ _ (by omega)
  unfold prev
  rw [hm]
  simp only [up_flip]
  by_cases h : e = d
  · subst h
    simp only [if_true]
    have hset : ∀ a, (mirror dims e u).set e a = u.set e a := fun a => by unfold mirror; rw [List.set_set]
    have hmir : ∀ a, mirror dims e (u.set e a) = u.set e (dims.getD e 0 - 1 - a) := fun a => by
      unfold mirror
      rw [List.set_set, getD_set _ _ _ _ (by omega), if_pos rfl]
    by_cases hup : Up s e
    · simp only [hup, not_true_eq_false, if_true, if_false]
      by_cases h0 : u.getD e 0 = 0
      · rw [if_neg (by omega), if_pos h0]; rfl
      · rw [if_pos (by omega), if_neg h0, hset, Option.map_some, hmir]
        congr 2; omega
    · simp only [hup, not_false_eq_true, if_true, if_false]
      by_cases h0 : u.getD e 0 + 1 < dims.getD e 0
      · rw [if_neg (by omega), if_pos h0, hset, Option.map_some, hmir]
        congr 2
      · rw [if_pos (by omega), if_neg h0]; rfl
  · simp only [h, if_false]
    have hset : ∀ a, (mirror dims d u).set e a = mirror dims d (u.set e a) := fun a => by
      unfold mirror
      rw [getD_set _ _ _ _ (by omega), if_neg (Ne.symm h), List.set_comm _ _ (Ne.symm h)]
    split
    · split
      · rfl
      · rw [hset]; rfl
    · split
      · rw [hset]; rfl
      · rfl

theorem swipes_mirror (c : Cfg) (W : Weights) (hW : ∀ d j i, W.wh d true j i = W.wh d false j i) (d : Nat) (hd : d < c.dims.length)
    (x : List Nat → Nat → ℝ) (H : List Nat → Nat → Nat → ℝ) (h : Swipes c W x H) (x' : List Nat → Nat → ℝ)
    (hx : ∀ u, InGrid c.dims u → ∀ i < c.insize, x' u i = x (mirror c.dims d u) i) :
    Swipes c W x' (fun u s => H (mirror c.dims d u) (flip d s)) := by
  intro u hu s hs j hj
  have hum := mirror_unit c.dims d u hu hd
  simp only
  rw [h _ hum _ (flip_lt d s _ hd hs) j hj]
  congr 1
  congr 1
  · exact Finset.sum_congr rfl fun i hi => by rw [hx u hu i (Finset.mem_range.1 hi)]
  · refine Finset.sum_congr rfl fun e he => ?_
    rw [prev_mirror c.dims s d e u hu hd (Finset.mem_range.1 he)]
    cases prev c.dims s e u with
    | none => rfl
    | some v =>
      simp only [Option.map_some, Option.elim_some]
      refine Finset.sum_congr rfl fun i _ => ?_
      have : ∀ a b : Bool, W.wh e a j i = W.wh e b j i := by
        intro a b
        cases a <;> cases b <;> simp [hW]
      rw [this _ (decide (Up s e))]

theorem sum_flip (n d : Nat) (hd : d < n) (F : Nat → ℝ) : ∑ s ∈ Finset.range (2 ^ n), F (flip d s) = ∑ s ∈ Finset.range (2 ^ n), F s :=
  Finset.sum_bij' (fun s _ => flip d s) (fun s _ => flip d s) (fun s hs => Finset.mem_range.2 (flip_lt d s n hd (Finset.mem_range.1 hs)))
    (fun s hs => Finset.mem_range.2 (flip_lt d s n hd (Finset.mem_range.1 hs))) (fun s _ => flip_flip d s) (fun s _ => flip_flip d s) (fun s _ => rfl)

/-- the swipe going in dimension `a` the way `s` goes in `b`, and the other way round -/
def swapBits (a b s : Nat) : Nat := if s.testBit a = s.testBit b then s else s ^^^ 2 ^ a ^^^ 2 ^ b

theorem testBit_swapBits (a b s e : Nat) : (swapBits a b s).testBit e = s.testBit (Equiv.swap a b e) := by
  unfold swapBits
  split
  · rename_i h
    rcases Equiv.swap_apply_eq_iff.1 (rfl : Equiv.swap a b e = _) with _
    by_cases h1 : e = a
    · subst h1; rw [Equiv.swap_apply_left, h]
    · by_cases h2 : e = b
      · subst h2; rw [Equiv.swap_apply_right, h]
      · rw [Equiv.swap_apply_of_ne_of_ne h1 h2]
  · rename_i h
    have hab : a ≠ b := fun e => h (by rw [e])
    simp only [Nat.testBit_xor, Nat.testBit_two_pow]
    by_cases h1 : e = a
    · subst h1
      rw [Equiv.swap_apply_left]
      cases h3 : s.testBit e <;> cases h4 : s.testBit b <;> simp_all [Ne.symm hab]
    · by_cases h2 : e = b
      · subst h2
        rw [Equiv.swap_apply_right]
        cases h3 : s.testBit a <;> cases h4 : s.testBit e <;> simp_all
      · rw [Equiv.swap_apply_of_ne_of_ne h1 h2]
        simp [Ne.symm h1, Ne.symm h2]

theorem swapBits_swapBits (a b s : Nat) : swapBits a b (swapBits a b s) = s := by
  apply Nat.eq_of_testBit_eq
  intro e
  rw [testBit_swapBits, testBit_swapBits, Equiv.swap_apply_self]

theorem swapBits_lt (a b s n : Nat) (ha : a < n) (hb : b < n) (hs : s < 2 ^ n) : swapBits a b s < 2 ^ n := by
  unfold swapBits
  split
  · exact hs
  · exact Nat.xor_lt_two_pow (Nat.xor_lt_two_pow hs (Nat.pow_lt_pow_right (by norm_num) ha)) (Nat.pow_lt_pow_right (by norm_num) hb)

theorem up_swapBits (a b s e : Nat) : Up (swapBits a b s) (Equiv.swap a b e) ↔ Up s e := by
  rw [up_iff, up_iff, testBit_swapBits, Equiv.swap_apply_self]

theorem exchange_getD (a b : Nat) (u : List Nat) (ha : a < u.length) (hb : b < u.length) (e : Nat) :
    (exchange a b u).getD e 0 = u.getD (Equiv.swap a b e) 0 := by
  unfold exchange
  rw [getD_set _ _ _ _ (by simpa using hb), getD_set _ _ _ _ ha]
  by_cases h2 : e = b
  · subst h2; rw [if_pos rfl, Equiv.swap_apply_right]
  · rw [if_neg h2]
    by_cases h1 : e = a
    · subst h1; rw [if_pos rfl, Equiv.swap_apply_left]
    · rw [if_neg h1, Equiv.swap_apply_of_ne_of_ne h1 h2]

theorem swap_lt {a b e n : Nat} (ha : a < n) (hb : b < n) (he : e < n) : Equiv.swap a b e < n := by
  rw [Equiv.swap_apply_def]; split_ifs <;> assumption

theorem dims_swap {dims : List Nat} {a b : Nat} (hab : dims.getD a 0 = dims.getD b 0) (e : Nat) : dims.getD (Equiv.swap a b e) 0 = dims.getD e 0 := by
  rw [Equiv.swap_apply_def]
  split_ifs with h1 h2
  · rw [h1, hab]
  · rw [h2, hab]
  · rfl

theorem exchange_unit (dims : List Nat) (a b : Nat) (u : List Nat) (hu : InGrid dims u) (ha : a < dims.length) (hb : b < dims.length)
    (hab : dims.getD a 0 = dims.getD b 0) : InGrid dims (exchange a b u) := by
  have hl := (inGrid_iff _ _).1 hu
  rw [inGrid_iff]
  refine ⟨by simp [exchange, hl.1], fun e he => ?_⟩
  rw [exchange_getD a b u (by omega) (by omega), ← dims_swap hab e]
  exact hl.2 _ (swap_lt ha hb he)

theorem exchange_set (a b : Nat) (u : List Nat) (ha : a < u.length) (hb : b < u.length) (e k : Nat) (he : e < u.length) :
    (exchange a b u).set (Equiv.swap a b e) k = exchange a b (u.set e k) := by
  apply ext_getD _ _ (by simp [exchange])
  intro f hf
  have hl : (exchange a b u).length = u.length := by simp [exchange]
  rw [getD_set _ _ _ _ (by rw [hl]; exact swap_lt ha hb he), exchange_getD a b u ha hb, exchange_getD a b _ (by simpa using ha) (by simpa using hb),
    getD_set _ _ _ _ he]
  by_cases h : Equiv.swap a b f = e
  · rw [if_pos h, if_pos (by rw [← h, Equiv.swap_apply_self])]
  · rw [if_neg h, if_neg (fun h' => h (by rw [h', Equiv.swap_apply_self]))]

theorem prev_exchange (dims : List Nat) (s a b e : Nat) (u : List Nat) (hu : InGrid dims u) (ha : a < dims.length) (hb : b < dims.length)
    (hab : dims.getD a 0 = dims.getD b 0) (he : e < dims.length) :
    prev dims (swapBits a b s) (Equiv.swap a b e) (exchange a b u) = (prev dims s e u).map (exchange a b) := by
  have hl := (inGrid_iff _ _).1 hu
  unfold prev
  rw [exchange_getD a b u (by omega) (by omega), Equiv.swap_apply_self, dims_swap hab]
  simp only [up_swapBits, exchange_set a b u (by omega : a < u.length) (by omega : b < u.length) e _ (by omega : e < u.length)]
  split
  · split <;> rfl
  · split <;> rfl

theorem sum_swap (n a b : Nat) (ha : a < n) (hb : b < n) (F : Nat → ℝ) : ∑ e ∈ Finset.range n, F (Equiv.swap a b e) = ∑ e ∈ Finset.range n, F e :=
  Finset.sum_bij' (fun s _ => Equiv.swap a b s) (fun s _ => Equiv.swap a b s) (fun s hs => Finset.mem_range.2 (swap_lt ha hb (Finset.mem_range.1 hs)))
    (fun s hs => Finset.mem_range.2 (swap_lt ha hb (Finset.mem_range.1 hs))) (fun s _ => Equiv.swap_apply_self a b s) (fun s _ => Equiv.swap_apply_self a b s) (fun s _ => rfl)

theorem sum_swapBits (n a b : Nat) (ha : a < n) (hb : b < n) (F : Nat → ℝ) :
    ∑ s ∈ Finset.range (2 ^ n), F (swapBits a b s) = ∑ s ∈ Finset.range (2 ^ n), F s :=
  Finset.sum_bij' (fun s _ => swapBits a b s) (fun s _ => swapBits a b s) (fun s hs => Finset.mem_range.2 (swapBits_lt a b s n ha hb (Finset.mem_range.1 hs)))
    (fun s hs => Finset.mem_range.2 (swapBits_lt a b s n ha hb (Finset.mem_range.1 hs))) (fun s _ => swapBits_swapBits a b s) (fun s _ => swapBits_swapBits a b s) (fun s _ => rfl)

theorem swipes_exchange (c : Cfg) (W : Weights) (hW : ∀ d e p j i, W.wh d p j i = W.wh e p j i) (a b : Nat) (ha : a < c.dims.length) (hb : b < c.dims.length)
    (hab : c.dims.getD a 0 = c.dims.getD b 0) (x : List Nat → Nat → ℝ) (H : List Nat → Nat → Nat → ℝ) (h : Swipes c W x H) (x' : List Nat → Nat → ℝ)
    (hx : ∀ u, InGrid c.dims u → ∀ i < c.insize, x' u i = x (exchange a b u) i) :
    Swipes c W x' (fun u s => H (exchange a b u) (swapBits a b s)) := by
  intro u hu s hs j hj
  have hum := exchange_unit c.dims a b u hu ha hb hab
  simp only
  rw [h _ hum _ (swapBits_lt a b s _ ha hb hs) j hj]
  congr 1
  congr 1
  · exact Finset.sum_congr rfl fun i hi => by rw [hx u hu i (Finset.mem_range.1 hi)]
  · rw [← sum_swap _ a b ha hb]
    refine Finset.sum_congr rfl fun e he => ?_
    rw [prev_exchange c.dims s a b e u hu ha hb hab (Finset.mem_range.1 he)]
    cases prev c.dims s e u with
    | none => rfl
    | some v =>
      simp only [Option.map_some, Option.elim_some, up_swapBits]
      exact Finset.sum_congr rfl fun i _ => by rw [hW _ e]

/-! ### every output depends on every input -/

theorem behind_cases {dims : List Nat} {s : Nat} {u v : List Nat} (hu : InGrid dims u) (hv : InGrid dims v) (h : Behind dims s v u) (hne : v ≠ u) :
    ∃ d w, d < dims.length ∧ prev dims s d u = some w ∧ Behind dims s v w := by
  have hlu := (inGrid_iff _ _).1 hu
  have hlv := (inGrid_iff _ _).1 hv
  have : ∃ d, d < dims.length ∧ v.getD d 0 ≠ u.getD d 0 := by
    by_contra hcon
    push Not at hcon
    exact hne (ext_getD v u (by omega) (fun d hd => hcon d (by omega)))
  obtain ⟨d, hd, hdne⟩ := this
  have hbd := h d hd
  have hud := hlu.2 d hd
  have hvd := hlv.2 d hd
  by_cases hup : Up s d
  · rw [if_pos hup] at hbd
    refine ⟨d, u.set d (u.getD d 0 - 1), hd, ?_, ?_⟩
    · unfold prev; rw [if_pos hup, if_neg (by omega)]
    · intro e he
      rw [getD_set _ _ _ _ (by omega)]
      by_cases hed : e = d
      · subst hed; rw [if_pos hup, if_pos rfl]; omega
      · rw [if_neg hed]; exact h e he
  · rw [if_neg hup] at hbd
    refine ⟨d, u.set d (u.getD d 0 + 1), hd, ?_, ?_⟩
    · unfold prev; rw [if_neg hup, if_pos (by omega)]
    · intro e he
      rw [getD_set _ _ _ _ (by omega)]
      by_cases hed : e = d
      · subst hed; rw [if_neg hup, if_pos rfl]; omega
      · rw [if_neg hed]; exact h e he

/-- some swipe visits `v` before `u` -/
theorem exists_behind : ∀ (n : Nat) (v u : Nat → Nat), ∃ s < 2 ^ n, ∀ d < n, if Up s d then v d ≤ u d else u d ≤ v d := by
  intro n
  induction n with
  | zero => intro v u; exact ⟨0, by simp, fun d hd => by omega⟩
  | succ n ih =>
    intro v u
    obtain ⟨s, hs, h⟩ := ih v u
    by_cases hc : v n ≤ u n
    · refine ⟨s, lt_trans hs (Nat.pow_lt_pow_right (by norm_num) (Nat.lt_succ_self n)), fun d hd => ?_⟩
      rcases Nat.lt_succ_iff_lt_or_eq.1 hd with hd | rfl
      · exact h d hd
      · rw [if_pos]
        · exact hc
        · rw [up_iff]; exact Nat.testBit_lt_two_pow hs
    · refine ⟨flip n s, flip_lt n s _ (Nat.lt_succ_self n) (lt_trans hs (Nat.pow_lt_pow_right (by norm_num) (Nat.lt_succ_self n))), fun d hd => ?_⟩
      rcases Nat.lt_succ_iff_lt_or_eq.1 hd with hd | rfl
      · have := h d hd
        have e : Up (flip n s) d ↔ Up s d := by rw [up_flip, if_neg (by omega)]
        simp only [e]
        exact this
      · have hup : Up s d := by rw [up_iff]; exact Nat.testBit_lt_two_pow hs
        have e : ¬ Up (flip d s) d := by rw [up_flip, if_pos rfl]; exact not_not.2 hup
        rw [if_neg e]
        omega

theorem swipes_mono (c : Cfg) (W : Weights) (hf : StrictMono c.f) (hwin : ∀ j < c.hsize, ∀ i < c.insize, 0 < W.win j i)
    (hwh : ∀ d < c.dims.length, ∀ p, ∀ j < c.hsize, ∀ i < c.hsize, 0 < W.wh d p j i) (x x' : List Nat → Nat → ℝ) (H H' : List Nat → Nat → Nat → ℝ)
    (h : Swipes c W x H) (h' : Swipes c W x' H') (hx : ∀ u, InGrid c.dims u → ∀ i < c.insize, x u i ≤ x' u i) :
    ∀ n u, InGrid c.dims u → ∀ s < 2 ^ c.dims.length, progress c.dims s u ≤ n → ∀ j < c.hsize, H u s j ≤ H' u s j := by
  intro n
  induction n using Nat.strong_induction_on with
  | _ n ih =>
    intro u hu s hs hn j hj
    rw [h u hu s hs j hj, h' u hu s hs j hj]
    apply hf.monotone
    apply add_le_add
    · exact Finset.sum_le_sum fun i hi => mul_le_mul_of_nonneg_left (hx u hu i (Finset.mem_range.1 hi)) (hwin j hj i (Finset.mem_range.1 hi)).le
    · refine Finset.sum_le_sum fun d hd => ?_
      have hd := Finset.mem_range.1 hd
      cases hp : prev c.dims s d u with
      | none => exact le_rfl
      | some v =>
        simp only [Option.elim_some]
        have hlt := progress_prev hu hd hp
        exact Finset.sum_le_sum fun i hi => mul_le_mul_of_nonneg_left
          (ih (progress c.dims s v) (by omega) v (prev_unit hu hd hp) s hs le_rfl i (Finset.mem_range.1 hi)) (hwh d hd _ j hj i (Finset.mem_range.1 hi)).le

theorem swipes_strict (c : Cfg) (ok : Cfg.Ok c) (W : Weights) (hf : StrictMono c.f) (hwin : ∀ j < c.hsize, ∀ i < c.insize, 0 < W.win j i)
    (hwh : ∀ d < c.dims.length, ∀ p, ∀ j < c.hsize, ∀ i < c.hsize, 0 < W.wh d p j i) (x x' : List Nat → Nat → ℝ) (H H' : List Nat → Nat → Nat → ℝ)
    (h : Swipes c W x H) (h' : Swipes c W x' H') (hx : ∀ u, InGrid c.dims u → ∀ i < c.insize, x u i ≤ x' u i)
    (v : List Nat) (hv : InGrid c.dims v) (k : Nat) (hk : k < c.insize) (hvk : x v k < x' v k) (s : Nat) (hs : s < 2 ^ c.dims.length) :
    ∀ n u, InGrid c.dims u → Behind c.dims s v u → progress c.dims s u ≤ n → ∀ j < c.hsize, H u s j < H' u s j := by
  have mono := swipes_mono c W hf hwin hwh x x' H H' h h' hx
  intro n
  induction n using Nat.strong_induction_on with
  | _ n ih =>
    intro u hu hb hn j hj
    rw [h u hu s hs j hj, h' u hu s hs j hj]
    apply hf
    have hle1 : ∀ i ∈ Finset.range c.insize, W.win j i * x u i ≤ W.win j i * x' u i := fun i hi =>
      mul_le_mul_of_nonneg_left (hx u hu i (Finset.mem_range.1 hi)) (hwin j hj i (Finset.mem_range.1 hi)).le
    have hle2 : ∀ d ∈ Finset.range c.dims.length, ((prev c.dims s d u).elim 0 fun v => ∑ i ∈ Finset.range c.hsize, W.wh d (decide (Up s d)) j i * H v s i) ≤
        (prev c.dims s d u).elim 0 fun v => ∑ i ∈ Finset.range c.hsize, W.wh d (decide (Up s d)) j i * H' v s i := by
      intro d hd
      have hd := Finset.mem_range.1 hd
      cases hp : prev c.dims s d u with
      | none => exact le_rfl
      | some w =>
        simp only [Option.elim_some]
        exact Finset.sum_le_sum fun i hi => mul_le_mul_of_nonneg_left
          (mono _ w (prev_unit hu hd hp) s hs le_rfl i (Finset.mem_range.1 hi)) (hwh d hd _ j hj i (Finset.mem_range.1 hi)).le
    by_cases hvu : v = u
    · subst hvu
      refine add_lt_add_of_lt_of_le (Finset.sum_lt_sum hle1 ⟨k, Finset.mem_range.2 hk, ?_⟩) (Finset.sum_le_sum hle2)
      exact mul_lt_mul_of_pos_left hvk (hwin j hj k hk)
    · obtain ⟨d, w, hd, hp, hbw⟩ := behind_cases hu hv hb hvu
      refine add_lt_add_of_le_of_lt (Finset.sum_le_sum hle1) (Finset.sum_lt_sum hle2 ⟨d, Finset.mem_range.2 hd, ?_⟩)
      rw [hp]
      simp only [Option.elim_some]
      have hlt := progress_prev hu hd hp
      refine Finset.sum_lt_sum_of_nonempty ⟨0, Finset.mem_range.2 ok.hid⟩ fun i hi => ?_
      exact mul_lt_mul_of_pos_left (ih (progress c.dims s w) (by omega) w (prev_unit hu hd hp) hbw le_rfl i (Finset.mem_range.1 hi))
        (hwh d hd _ j hj i (Finset.mem_range.1 hi))

end Verif.Swiping
