import Verif.Model.GA
import Mathlib.Tactic.Linarith
import Mathlib.Tactic.NormNum
import Mathlib.Tactic.IntervalCases
/-
C79: the genetic algorithm: population size, elitism, provenance of genes, bounds.
-/
namespace Verif.GA
open Verif.DataSet (Err)

variable {K : Type} [CommRing K] [LinearOrder K]

/-- Python's guarantees about the random decisions. -/
structure Fair (c : Config K) (r : Rand K) : Prop where
  parents : ∀ l, (r.shuffleParents l).Perm l
  children : ∀ l, (r.shuffleChildren l).Perm l
  cut : ∀ i, 2 ≤ c.xdim → r.cut i < c.xdim - 1
  pick : ∀ n, 0 < n → r.pick n < n

/-- Gene `i` of an individual is gene `i` of one of the others. -/
def Inherits (ps : List (List K)) (x : List K) : Prop := ∀ i < x.length, ∃ p ∈ ps, x[i]? = p[i]?

theorem refill_ok (pick : Nat → Nat) (hp : ∀ n, 0 < n → pick n < n) : ∀ (n : Nat) (cs : List (List K)), cs ≠ [] →
    ∃ cs', refill pick n cs = .ok cs' ∧ cs'.length = cs.length + n ∧ ∀ x ∈ cs', x ∈ cs
  | 0, cs, _ => ⟨cs, rfl, rfl, fun _ h => h⟩
  | n + 1, cs, h => by
    have hm : cs.getD (pick cs.length) [] ∈ cs := by
      have := hp cs.length (List.length_pos_iff.2 h)
      rw [List.getD_eq_getElem?_getD, List.getElem?_eq_getElem this]
      exact List.getElem_mem _
    obtain ⟨cs', h1, h2, h3⟩ := refill_ok pick hp n (cs ++ [cs.getD (pick cs.length) []]) (by simp)
    refine ⟨cs', by rw [refill, if_neg h]; exact h1, by rw [h2]; simp; omega, fun x hx => ?_⟩
    rcases List.mem_append.1 (h3 x hx) with h4 | h4
    · exact h4
    · rw [List.mem_singleton] at h4; rw [h4]; exact hm

theorem inherits_mem {ps : List (List K)} {x : List K} (h : x ∈ ps) : Inherits ps x := fun _ _ => ⟨x, h, rfl⟩

theorem pair_spec (c : Config K) (p1 p2 : List K) (ps : List (List K)) (h1 : p1 ∈ ps) (h2 : p2 ∈ ps) (l1 : p1.length = c.xdim) (l2 : p2.length = c.xdim)
    (cut : Nat) (hc : 2 ≤ c.xdim → cut < c.xdim - 1) :
    (pairChildren c.xdim p1 p2 cut).length = 2 ∧ ∀ x ∈ pairChildren c.xdim p1 p2 cut, x.length = c.xdim ∧ Inherits ps x := by
  have mix : ∀ a b : List K, a ∈ ps → b ∈ ps → a.length = c.xdim → b.length = c.xdim → cut + 1 < c.xdim →
      (a.take (cut + 1) ++ b.drop (cut + 1)).length = c.xdim ∧ Inherits ps (a.take (cut + 1) ++ b.drop (cut + 1)) := by
    intro a b ha hb la lb hcut
    refine ⟨by simp; omega, fun i hi => ?_⟩
    by_cases hlt : i < cut + 1
    · refine ⟨a, ha, ?_⟩
      rw [List.getElem?_append_left (by simp; omega), List.getElem?_take_of_lt hlt]
    · refine ⟨b, hb, ?_⟩
      rw [List.getElem?_append_right (by simp; omega), List.getElem?_drop]
      congr 1
      simp only [List.length_take]
      omega
  unfold pairChildren
  split_ifs with h
  · refine ⟨rfl, fun x hx => ?_⟩
    simp at hx
    rcases hx with rfl | rfl
    · exact ⟨l1, inherits_mem h1⟩
    · exact ⟨l2, inherits_mem h2⟩
  · have hcut := hc (by omega)
    refine ⟨rfl, fun x hx => ?_⟩
    simp at hx
    rcases hx with rfl | rfl
    · exact mix p1 p2 h1 h2 l1 l2 (by omega)
    · exact mix p2 p1 h2 h1 l2 l1 (by omega)

theorem crossOver_ok (c : Config K) (r : Rand K) (hr : Fair c r) (parents : List (List K)) (hl : ∀ p ∈ parents, p.length = c.xdim)
    (h2 : 2 ≤ parents.length) (nb : Nat) :
    ∃ cs, crossOver c r parents nb = .ok cs ∧ cs.length = nb ∧ ∀ x ∈ cs, x.length = c.xdim ∧ Inherits parents x := by
  have hperm := hr.parents parents
  have hlen : (r.shuffleParents parents).length = parents.length := hperm.length_eq
  have hmem : ∀ i, i < parents.length → (r.shuffleParents parents).getD i [] ∈ parents := by
    intro i hi
    rw [List.getD_eq_getElem?_getD, List.getElem?_eq_getElem (by omega)]
    exact hperm.mem_iff.1 (List.getElem_mem _)
  set ch := (List.range ((r.shuffleParents parents).length / 2)).flatMap fun i =>
    pairChildren c.xdim ((r.shuffleParents parents).getD i []) ((r.shuffleParents parents).getD (i + (r.shuffleParents parents).length / 2) []) (r.cut i) with hch
  have hpair : ∀ i ∈ List.range ((r.shuffleParents parents).length / 2), _ := fun i hi =>
    pair_spec c ((r.shuffleParents parents).getD i []) ((r.shuffleParents parents).getD (i + (r.shuffleParents parents).length / 2) []) parents
      (hmem i (by have := List.mem_range.1 hi; omega)) (hmem _ (by have := List.mem_range.1 hi; omega))
      (hl _ (hmem i (by have := List.mem_range.1 hi; omega))) (hl _ (hmem _ (by have := List.mem_range.1 hi; omega))) (r.cut i) (hr.cut i)
  have hspec : ∀ x ∈ ch, x.length = c.xdim ∧ Inherits parents x := by
    intro x hx
    obtain ⟨i, hi, hx⟩ := List.mem_flatMap.1 hx
    exact (hpair i hi).2 x hx
  have hne : ch ≠ [] := by
    intro h
    have h0 : 0 ∈ List.range ((r.shuffleParents parents).length / 2) := List.mem_range.2 (by omega)
    have h3 := (hpair 0 h0).1
    have h4 : pairChildren c.xdim ((r.shuffleParents parents).getD 0 []) ((r.shuffleParents parents).getD (0 + (r.shuffleParents parents).length / 2) []) (r.cut 0) = [] := by
      rw [hch, List.flatMap_eq_nil_iff] at h
      exact h 0 h0
    rw [h4] at h3
    simp at h3
  have hcp := hr.children ch
  have hspec' : ∀ x ∈ r.shuffleChildren ch, x.length = c.xdim ∧ Inherits parents x := fun x hx => hspec x (hcp.mem_iff.1 hx)
  unfold crossOver
  dsimp only
  rw [← hch]
  split_ifs with hlt
  · exact ⟨_, rfl, by simp; omega, fun x hx => hspec' x (List.mem_of_mem_take hx)⟩
  · have hne' : r.shuffleChildren ch ≠ [] := fun h => hne (by rw [h] at hcp; exact hcp.nil_eq.symm)
    obtain ⟨cs, h1, h3, h4⟩ := refill_ok r.pick hr.pick (nb - (r.shuffleChildren ch).length) _ hne'
    exact ⟨cs, h1, by omega, fun x hx => hspec' x (h4 x hx)⟩

theorem mutated_length (c : Config K) (r : Rand K) (k : Nat) (x : List K) : (mutated c r k x).length = x.length := by simp [mutated]

/-- The pairs (fitness, individual), best first. -/
def ranked (fitnesses : List K) (pop : List (List K)) : List (K × List K) := ((fitnesses.zip pop).insertionSort (fun a b => a.1 ≤ b.1)).reverse

theorem ranked_perm (fitnesses : List K) (pop : List (List K)) : (ranked fitnesses pop).Perm (fitnesses.zip pop) :=
  (List.reverse_perm _).trans (List.perm_insertionSort _ _)

theorem ranked_sorted (fitnesses : List K) (pop : List (List K)) : (ranked fitnesses pop).Pairwise (fun a b => b.1 ≤ a.1) := by
  unfold ranked
  rw [List.pairwise_reverse]
  haveI : Std.Total (fun a b : K × List K => a.1 ≤ b.1) := ⟨fun a b => le_total a.1 b.1⟩
  haveI : IsTrans (K × List K) (fun a b => a.1 ≤ b.1) := ⟨fun a b c h1 h2 => le_trans h1 h2⟩
  exact List.pairwise_insertionSort _ _

theorem ranked_length (f : List K → K) (pop : List (List K)) : (ranked (pop.map f) pop).length = pop.length := by
  rw [(ranked_perm _ _).length_eq]; simp

theorem ranked_fit (f : List K → K) (pop : List (List K)) : ∀ a ∈ ranked (pop.map f) pop, a.1 = f a.2 ∧ a.2 ∈ pop := by
  intro a ha
  have := (ranked_perm _ _).mem_iff.1 ha
  rw [List.zip_map_left, List.mem_map] at this
  obtain ⟨⟨x, y⟩, hxy, rfl⟩ := this
  rw [List.mem_iff_getElem] at hxy
  obtain ⟨i, hi, hxy⟩ := hxy
  rw [List.getElem_zip, Prod.mk.injEq] at hxy
  obtain ⟨rfl, rfl⟩ := hxy
  exact ⟨rfl, List.getElem_mem _⟩

theorem mem_ranked (f : List K → K) (pop : List (List K)) (x : List K) (hx : x ∈ pop) : (f x, x) ∈ ranked (pop.map f) pop := by
  rw [(ranked_perm _ _).mem_iff, List.zip_map_left, List.mem_map]
  obtain ⟨i, hi, rfl⟩ := List.mem_iff_getElem.1 hx
  exact ⟨(pop[i], pop[i]), List.mem_iff_getElem.2 ⟨i, by simpa using hi, by simp⟩, rfl⟩

theorem select_eq (c : Config K) (f : List K → K) (pop : List (List K)) :
    select c (pop.map f) pop = (((ranked (pop.map f) pop).take (selectionSize c)).map Prod.snd) := rfl

theorem select_length (c : Config K) (f : List K → K) (pop : List (List K)) :
    (select c (pop.map f) pop).length = min (selectionSize c) pop.length := by
  rw [select_eq, List.length_map, List.length_take, ranked_length]

theorem select_mem (c : Config K) (f : List K → K) (pop : List (List K)) : ∀ x ∈ select c (pop.map f) pop, x ∈ pop := by
  intro x hx
  rw [select_eq] at hx
  obtain ⟨a, ha, rfl⟩ := List.mem_map.1 hx
  exact (ranked_fit f pop a (List.mem_of_mem_take ha)).2

/-- The number of elites kept unchanged. -/
def kept (c : Config K) : Nat := min (eliteSize c) (selectionSize c)

theorem step_ok (c : Config K) (f : List K → K) (r : Rand K) (hr : Fair c r) (pop : List (List K)) (hl : ∀ p ∈ pop, p.length = c.xdim)
    (h2 : 2 ≤ selectionSize c) (hp : 2 ≤ pop.length) (hk : kept c < c.populationSize) :
    ∃ cs : List (List K), cs.length = c.populationSize - kept c ∧ (∀ x ∈ cs, x.length = c.xdim ∧ Inherits (select c (pop.map f) pop) x) ∧
      learnStep c f r pop = .ok ((select c (pop.map f) pop).take (kept c) ++ cs.zipIdx.map fun (x, k) => mutated c r k x) := by
  have hlen := select_length c f pop
  obtain ⟨cs, h1, h3, h4⟩ := crossOver_ok c r hr (select c (pop.map f) pop) (fun p hp => hl p (select_mem c f pop p hp)) (by omega)
    (c.populationSize - kept c)
  refine ⟨cs, h3, h4, ?_⟩
  unfold learnStep produceOffspring
  dsimp only
  have hk' : ¬ c.populationSize ≤ min (eliteSize c) (selectionSize c) := not_le.2 hk
  rw [if_neg hk', show min (eliteSize c) (selectionSize c) = kept c from rfl, h1]

end Verif.GA

namespace Verif.Props
open Verif.GA
open Verif.DataSet (Err)

variable {K : Type} [CommRing K] [LinearOrder K]

/-- **C79**, selection takes the best: the selected parents are the `int(populationSize * topProportion)` individuals (or all) of largest
fitness, best first. -/
theorem C79_select (c : Config K) (f : List K → K) (pop : List (List K)) :
    ∃ rest, (select c (pop.map f) pop ++ rest).Perm pop ∧ (select c (pop.map f) pop).length = min (selectionSize c) pop.length ∧
      (select c (pop.map f) pop).Pairwise (fun a b => f b ≤ f a) ∧ ∀ x ∈ select c (pop.map f) pop, ∀ y ∈ rest, f y ≤ f x := by
  have hs := ranked_sorted (pop.map f) pop
  have hf := ranked_fit f pop
  refine ⟨((ranked (pop.map f) pop).drop (selectionSize c)).map Prod.snd, ?_, select_length c f pop, ?_, ?_⟩
  · rw [select_eq, ← List.map_append, List.take_append_drop]
    have := (ranked_perm (pop.map f) pop).map Prod.snd
    rwa [List.map_snd_zip (by simp)] at this
  · rw [select_eq, List.pairwise_map]
    have h1 : ((ranked (pop.map f) pop).take (selectionSize c)).Pairwise (fun a b => b.1 ≤ a.1) := hs.sublist (List.take_sublist _ _)
    refine h1.imp_of_mem ?_
    intro a b ha hb hab
    rwa [← (hf a (List.mem_of_mem_take ha)).1, ← (hf b (List.mem_of_mem_take hb)).1]
  · intro x hx y hy
    rw [select_eq] at hx
    obtain ⟨a, ha, rfl⟩ := List.mem_map.1 hx
    obtain ⟨b, hb, rfl⟩ := List.mem_map.1 hy
    rw [← (hf a (List.mem_of_mem_take ha)).1, ← (hf b (List.mem_of_mem_drop hb)).1]
    rw [← List.take_append_drop (selectionSize c) (ranked (pop.map f) pop), List.pairwise_append] at hs
    exact hs.2.2 a ha b hb

/-- **C79**, one generation, when at least two parents are selected and the elite does not fill the population: no error, the new population has
`populationSize` individuals of the same dimension, it starts with the elite unchanged, and every gene of every other individual is the
gene of a selected parent at the same place unless it was mutated. -/
theorem C79_generation (c : Config K) (f : List K → K) (r : Rand K) (hr : Fair c r) (pop : List (List K)) (hl : ∀ p ∈ pop, p.length = c.xdim)
    (h2 : 2 ≤ selectionSize c) (hp : 2 ≤ pop.length) (hk : kept c < c.populationSize) :
    ∃ pop', learnStep c f r pop = .ok pop' ∧ pop'.length = (if kept c ≤ pop.length then c.populationSize else c.populationSize - kept c + pop.length) ∧
      (∀ p ∈ pop', p.length = c.xdim) ∧
      pop'.take (min (kept c) pop.length) = (select c (pop.map f) pop).take (kept c) ∧
      ∀ k, ∀ x, pop'[min (kept c) pop.length + k]? = some x → ∀ i < c.xdim,
        r.coin k i = true ∨ ∃ p ∈ select c (pop.map f) pop, x[i]? = p[i]? := by
  obtain ⟨cs, h1, h3, h4⟩ := step_ok c f r hr pop hl h2 hp hk
  have hlen := select_length c f pop
  have hkl : kept c ≤ selectionSize c := min_le_right _ _
  have htake : ((select c (pop.map f) pop).take (kept c)).length = min (kept c) pop.length := by
    rw [List.length_take, hlen]; omega
  refine ⟨_, h4, ?_, ?_, ?_, ?_⟩
  · rw [List.length_append, htake, List.length_map, List.length_zipIdx, h1]
    split_ifs <;> omega
  · intro p hp
    rcases List.mem_append.1 hp with hp | hp
    · exact hl p (select_mem c f pop p (List.mem_of_mem_take hp))
    · obtain ⟨⟨x, k⟩, hx, rfl⟩ := List.mem_map.1 hp
      rw [mutated_length]
      exact (h3 x (List.fst_mem_of_mem_zipIdx hx)).1
  · rw [← htake, List.take_left']
    rfl
  · intro k x hx i hi
    rw [List.getElem?_append_right (by omega), htake, Nat.add_sub_cancel_left, List.getElem?_map] at hx
    obtain ⟨⟨y, k'⟩, hy, rfl⟩ := Option.map_eq_some_iff.1 hx
    rw [List.getElem?_zipIdx] at hy
    obtain ⟨z, hz, hzy⟩ := Option.map_eq_some_iff.1 hy
    simp only [Nat.zero_add, Prod.mk.injEq] at hzy
    obtain ⟨rfl, rfl⟩ := hzy
    have hmem : z ∈ cs := List.mem_of_getElem? hz
    obtain ⟨hzl, hzi⟩ := h3 z hmem
    cases hcoin : r.coin k i with
    | true => exact Or.inl rfl
    | false =>
      refine Or.inr ?_
      obtain ⟨p, hp, hpi⟩ := hzi i (by omega)
      refine ⟨p, hp, ?_⟩
      rw [← hpi]
      have hi' : i < z.length := by omega
      simp [mutated, List.getElem?_zipIdx, List.getElem?_eq_getElem hi', hcoin]

/-- **C79**: with at least one elite the best fitness of the population never decreases. -/
theorem C79_elitism (c : Config K) (f : List K → K) (r : Rand K) (hr : Fair c r) (pop : List (List K)) (hl : ∀ p ∈ pop, p.length = c.xdim)
    (h2 : 2 ≤ selectionSize c) (hp : 2 ≤ pop.length) (hk : kept c < c.populationSize) (he : 0 < kept c) :
    ∃ pop', learnStep c f r pop = .ok pop' ∧ ∃ b ∈ pop', ∀ x ∈ pop, f x ≤ f b := by
  obtain ⟨cs, h1, h3, h4⟩ := step_ok c f r hr pop hl h2 hp hk
  refine ⟨_, h4, ?_⟩
  have hlen := ranked_length f pop
  have hs := ranked_sorted (pop.map f) pop
  have hf := ranked_fit f pop
  obtain ⟨a, rest, hrk⟩ : ∃ a rest, ranked (pop.map f) pop = a :: rest := by
    cases h : ranked (pop.map f) pop with
    | nil => rw [h] at hlen; simp at hlen; omega
    | cons a rest => exact ⟨a, rest, rfl⟩
  refine ⟨a.2, List.mem_append_left _ ?_, fun x hx => ?_⟩
  · rw [select_eq, hrk]
    obtain ⟨n, hn⟩ : ∃ n, selectionSize c = n + 1 := ⟨selectionSize c - 1, by omega⟩
    obtain ⟨m, hm⟩ : ∃ m, kept c = m + 1 := ⟨kept c - 1, by omega⟩
    rw [hn, hm]
    simp
  · have hxm := mem_ranked f pop x hx
    rw [hrk] at hs hxm
    have ha := hf a (by rw [hrk]; simp)
    rw [← ha.1]
    rcases List.mem_cons.1 hxm with h | h
    · rw [← h]
    · exact (List.pairwise_cons.1 hs).1 _ h

/-- All individuals have the right dimension and respect the bounds. -/
def InBounds (c : Config K) (pop : List (List K)) : Prop :=
  ∀ p ∈ pop, p.length = c.xdim ∧ ∀ mins maxs, c.bounds = some (mins, maxs) → ∀ i < c.xdim, ∀ v, p[i]? = some v → mins.getD i 0 ≤ v ∧ v ≤ maxs.getD i 0

/-- **C79**, any number of generations: if the initial population respects the bounds (`xBound`), so do all later ones, and after at least one
generation the population has `populationSize` individuals. -/
theorem C79_bounds (c : Config K) (f : List K → K) (h2 : 2 ≤ selectionSize c) (hps : 2 ≤ c.populationSize) (hk : kept c < c.populationSize)
    (hb : ∀ mins maxs, c.bounds = some (mins, maxs) → ∀ i < c.xdim, mins.getD i 0 ≤ maxs.getD i 0) :
    ∀ (rs : List (Rand K)) (pop : List (List K)), (∀ r ∈ rs, Fair c r) → InBounds c pop → max 2 (kept c) ≤ pop.length →
      ∃ pop', evolve c f rs pop = .ok pop' ∧ InBounds c pop' ∧ (rs ≠ [] → pop'.length = c.populationSize)
  | [], pop, _, hin, _ => ⟨pop, rfl, hin, fun h => absurd rfl h⟩
  | r :: rs, pop, hr, hin, hp => by
    have hl : ∀ p ∈ pop, p.length = c.xdim := fun p hp => (hin p hp).1
    obtain ⟨cs, h1, h3, h4⟩ := step_ok c f r (hr r (by simp)) pop hl h2 (by omega) hk
    obtain ⟨pop1, g1, g2, g3, -, -⟩ := C79_generation c f r (hr r (by simp)) pop hl h2 (by omega) hk
    rw [h4] at g1
    have g1 := Except.ok.inj g1
    rw [if_pos (by omega)] at g2
    have hin1 : InBounds c pop1 := by
      intro p hp1
      refine ⟨g3 p hp1, fun mins maxs hbd i hi v hv => ?_⟩
      have hpar : ∀ q ∈ select c (pop.map f) pop, ∀ v, q[i]? = some v → mins.getD i 0 ≤ v ∧ v ≤ maxs.getD i 0 :=
        fun q hq v hv => (hin q (select_mem c f pop q hq)).2 mins maxs hbd i hi v hv
      rw [← g1] at hp1
      rcases List.mem_append.1 hp1 with hp1 | hp1
      · exact hpar p (List.mem_of_mem_take hp1) v hv
      · obtain ⟨⟨x, k⟩, hx, rfl⟩ := List.mem_map.1 hp1
        obtain ⟨hxl, hxi⟩ := h3 x (List.fst_mem_of_mem_zipIdx hx)
        have hi' : i < x.length := by omega
        obtain ⟨q, hq, hqi⟩ := hxi i hi'
        have hxb := hpar q hq x[i] (by rw [← hqi, List.getElem?_eq_getElem hi'])
        simp only [mutated, List.getElem?_map, List.getElem?_zipIdx, List.getElem?_eq_getElem hi', Option.map_some, Option.some.injEq, hbd, Nat.zero_add] at hv
        split_ifs at hv with hc
        · rw [← hv]
          exact ⟨le_max_right _ _, max_le (min_le_right _ _) (hb mins maxs hbd i hi)⟩
        · rw [← hv]; exact hxb
    have hsz : max 2 (kept c) ≤ pop1.length := by
      rw [g2]
      omega
    obtain ⟨pop', e1, e2, e3⟩ := C79_bounds c f h2 hps hk hb rs pop1 (fun r hr' => hr r (by simp [hr'])) hin1 hsz
    refine ⟨pop', ?_, e2, fun _ => ?_⟩
    · rw [evolve, h4]
      rw [g1]; exact e1
    · cases rs with
      | nil => rw [evolve] at e1; rw [← Except.ok.inj e1]; exact g2
      | cons r' rs => exact e3 (by simp)

/-- **C79 violated for small populations**: when fewer than two parents are selected (as with the default `topProportion` 0.2 and less than ten
individuals) there are no children to draw from, and the first generation raises a ValueError. -/
theorem C79_negation_small (c : Config K) (f : List K → K) (r : Rand K) (hr : Fair c r) (pop : List (List K)) (h2 : selectionSize c < 2)
    (hk : kept c < c.populationSize) : learnStep c f r pop = .error .valueError := by
  have hlen := select_length c f pop
  have hlen2 : (r.shuffleParents (select c (pop.map f) pop)).length / 2 = 0 := by
    rw [(hr.parents _).length_eq]; omega
  have hch : r.shuffleChildren [] = [] := (hr.children []).eq_nil
  unfold learnStep produceOffspring crossOver
  dsimp only
  have hk' : ¬ c.populationSize ≤ min (eliteSize c) (selectionSize c) := not_le.2 hk
  rw [if_neg hk', hlen2]
  have hk2 : min (eliteSize c) (selectionSize c) = kept c := rfl
  rw [hk2]
  obtain ⟨n, hn⟩ : ∃ n, c.populationSize - kept c = n + 1 := ⟨c.populationSize - kept c - 1, by omega⟩
  simp [hch, hn, refill]

/-- **C79 violated when everybody is elite**: if the elite is as large as the population, as many children are added on top: the population has
twice its size. -/
theorem C79_negation_all_elite (c : Config K) (f : List K → K) (r : Rand K) (hr : Fair c r) (pop : List (List K)) (hl : ∀ p ∈ pop, p.length = c.xdim)
    (hp : 2 ≤ pop.length) (hs : pop.length = c.populationSize) (hk : c.populationSize ≤ kept c) :
    ∃ pop', learnStep c f r pop = .ok pop' ∧ pop'.length = 2 * c.populationSize := by
  have hlen := select_length c f pop
  have hle : kept c ≤ selectionSize c := min_le_right _ _
  obtain ⟨cs, h1, h3, h4⟩ := crossOver_ok c r hr (select c (pop.map f) pop) (fun p hp => hl p (select_mem c f pop p hp)) (by omega)
    (select c (pop.map f) pop).length
  refine ⟨(select c (pop.map f) pop).take (kept c) ++ cs.zipIdx.map fun (x, k) => mutated c r k x, ?_, ?_⟩
  · unfold learnStep produceOffspring
    dsimp only
    have hk' : c.populationSize ≤ min (eliteSize c) (selectionSize c) := hk
    rw [if_pos hk', h1]
    rfl
  · rw [List.length_append, List.length_take, List.length_map, List.length_zipIdx]
    omega

/-- A configuration and fair random decisions that meet the hypotheses: ten individuals with two genes between -1 and 1, one elite. -/
def gaConfig : Config ℚ :=
  { populationSize := 10, topProportion := 1 / 5, elitism := true, eliteProportion := 1 / 10, eliteExact := none, xdim := 2, bounds := some ([-1, -1], [1, 1]) }
def gaRand : Rand ℚ :=
  { shuffleParents := List.reverse, cut := fun _ => 0, shuffleChildren := id, pick := fun _ => 0, coin := fun _ i => i == 0, noise := fun k _ => k }

example : selectionSize gaConfig = 2 ∧ kept gaConfig = 1 ∧ Fair gaConfig gaRand ∧ InBounds gaConfig (List.replicate 10 [0, 1 / 2]) ∧
    (∀ mins maxs, gaConfig.bounds = some (mins, maxs) → ∀ i < gaConfig.xdim, mins.getD i 0 ≤ maxs.getD i 0) := by
  refine ⟨by decide +kernel, by decide +kernel, ⟨fun l => List.reverse_perm l, fun l => .refl l, fun i _ => by simp [gaRand, gaConfig], fun n h => h⟩, ?_, ?_⟩
  · intro p hp
    have := List.eq_of_mem_replicate hp
    subst this
    refine ⟨rfl, fun mins maxs h i hi v hv => ?_⟩
    simp only [gaConfig, Option.some.injEq, Prod.mk.injEq] at h
    obtain ⟨rfl, rfl⟩ := h
    have hi : i < 2 := hi
    interval_cases i <;> · simp at hv; subst hv; norm_num
  · intro mins maxs h i hi
    simp only [gaConfig, Option.some.injEq, Prod.mk.injEq] at h
    obtain ⟨rfl, rfl⟩ := h
    have hi : i < 2 := hi
    interval_cases i <;> norm_num

example : selectionSize { gaConfig with populationSize := 9 } < 2 ∧ kept { gaConfig with populationSize := 9 } < 9 := by decide +kernel
example : kept { gaConfig with topProportion := 1, eliteExact := some 10 } = 10 := by decide +kernel

end Verif.Props
