import Verif.Model.Genome
import Mathlib.MeasureTheory.Measure.Lebesgue.Basic
import Mathlib.Tactic.Linarith
import Mathlib.Tactic.Ring
import Mathlib.Tactic.FieldSimp
/-
C159: genomes of the Evolino framework: manipulation in place, individuals and their copies, random variates.
-/
namespace Verif.Genome
open Verif.DataSet (Err)
variable {K : Type}

mutual
/-- the numbers of a genome from left to right -/
def GTree.leaves : GTree K → List K
  | .leaf x => [x]
  | .node l => leavesList l
def leavesList : List (GTree K) → List K
  | [] => []
  | t :: l => t.leaves ++ leavesList l
end

mutual
/-- the nesting of a genome, without its numbers -/
def GTree.shape : GTree K → GTree Unit
  | .leaf _ => .leaf ()
  | .node l => .node (shapeList l)
def shapeList : List (GTree K) → List (GTree Unit)
  | [] => []
  | t :: l => t.shape :: shapeList l
end

mutual
theorem manip_spec (f : Nat → K → K) : ∀ (t : GTree K) (n : Nat),
    (t.manip f n).1.leaves = t.leaves.mapIdx (fun i x => f (n + i) x) ∧ (t.manip f n).1.shape = t.shape ∧ (t.manip f n).2 = n + t.leaves.length
  | .leaf x, n => by simp [GTree.manip, GTree.leaves, GTree.shape]
  | .node l, n => by
    obtain ⟨h1, h2, h3⟩ := manipList_spec f l n
    simp only [GTree.manip, GTree.leaves, GTree.shape]
    exact ⟨h1, by rw [h2], h3⟩
theorem manipList_spec (f : Nat → K → K) : ∀ (l : List (GTree K)) (n : Nat),
    leavesList (manipList f l n).1 = (leavesList l).mapIdx (fun i x => f (n + i) x) ∧ shapeList (manipList f l n).1 = shapeList l ∧ (manipList f l n).2 = n + (leavesList l).length
  | [], n => by simp [manipList, leavesList, shapeList]
  | t :: l, n => by
    obtain ⟨h1, h2, h3⟩ := manip_spec f t n
    obtain ⟨g1, g2, g3⟩ := manipList_spec f l (t.manip f n).2
    simp only [manipList, leavesList, shapeList]
    rw [h1, h2, g1, g2, g3, h3]
    refine ⟨?_, rfl, by rw [List.length_append]; omega⟩
    rw [List.mapIdx_append]
    congr 1
    apply List.mapIdx_eq_mapIdx_iff.2
    intro i hi
    congr 1
    omega
end

/-- a container, not a number -/
def GTree.isNode : GTree K → Bool
  | .leaf _ => false
  | .node _ => true

theorem manipulate_node (f : Nat → K → K) (g : GTree K) (hg : g.isNode = true) (n : Nat) : manipulateGenome f g n = .ok (g.manip f n) := by
  cases g with
  | leaf x => exact absurd hg (by simp [GTree.isNode])
  | node l => rfl

theorem manip_isNode (f : Nat → K → K) (g : GTree K) (n : Nat) : (g.manip f n).1.isNode = g.isNode := by
  cases g <;> rfl

theorem manipSub_eq (f : Nat → K → K) (w : World K) (s : Sub) (g : GTree K) (hg : w.genome s = some g) (hn : g.isNode = true) :
    w.manipSub f s = .ok { w with heap := w.heap.set s.addr (g.manip f w.drawn).1, drawn := (g.manip f w.drawn).2 } := by
  unfold World.manipSub
  rw [hg]
  simp only [manipulate_node f g hn]
  rfl

/-- the identifiers of the sub-individuals are distinct and so are their genome objects -/
structure GInv (st : World K × List Sub) : Prop where
  ids : (st.2.map Sub.id).Nodup
  idLt : ∀ s ∈ st.2, s.id < st.1.nextId
  addrs : (st.2.map Sub.addr).Nodup
  addrLt : ∀ s ∈ st.2, s.addr < st.1.heap.length

theorem inv_new {st : World K × List Sub} (h : GInv st) (g : GTree K) : GInv ((st.1.newSub g).1, st.2 ++ [(st.1.newSub g).2]) where
  ids := by
    rw [List.map_append, List.nodup_append]
    refine ⟨h.ids, by simp, ?_⟩
    rintro a ha b hb rfl
    simp only [World.newSub, List.map_cons, List.map_nil, List.mem_singleton] at hb
    obtain ⟨s, hs, rfl⟩ := List.mem_map.1 ha
    have := h.idLt s hs
    omega
  idLt := by
    intro s hs
    simp only [World.newSub, List.mem_append, List.mem_singleton] at hs ⊢
    rcases hs with hs | rfl
    · have := h.idLt s hs; omega
    · simp
  addrs := by
    rw [List.map_append, List.nodup_append]
    refine ⟨h.addrs, by simp, ?_⟩
    rintro a ha b hb rfl
    simp only [World.newSub, List.map_cons, List.map_nil, List.mem_singleton] at hb
    obtain ⟨s, hs, rfl⟩ := List.mem_map.1 ha
    have := h.addrLt s hs
    omega
  addrLt := by
    intro s hs
    simp only [World.newSub, List.mem_append, List.mem_singleton, List.length_append, List.length_singleton] at hs ⊢
    rcases hs with hs | rfl
    · have := h.addrLt s hs; omega
    · simp

theorem manipSub_heap {f : Nat → K → K} {w w' : World K} {s : Sub} (h : w.manipSub f s = .ok w') :
    w'.nextId = w.nextId ∧ w'.heap.length = w.heap.length ∧ ∀ a, a ≠ s.addr → w'.heap[a]? = w.heap[a]? := by
  unfold World.manipSub at h
  cases hg : w.genome s with
  | none => rw [hg] at h; cases h
  | some g =>
    rw [hg] at h
    simp only at h
    cases hm : manipulateGenome f g w.drawn with
    | error e => rw [hm] at h; cases h
    | ok r =>
      rw [hm] at h
      cases h
      refine ⟨rfl, by simp, fun a ha => ?_⟩
      simp only
      rw [List.getElem?_set_ne (Ne.symm ha)]

theorem inv_step {st : World K × List Sub} (h : GInv st) (op : GOp K) (hop : ∀ s g, op = .setGenome s g → s ∈ st.2) : GInv (step st op) := by
  cases op with
  | create g => exact inv_new h g
  | copy s =>
    simp only [step, World.copySub]
    cases hg : st.1.genome s with
    | none => exact h
    | some g => exact inv_new h g
  | mutate f s =>
    simp only [step]
    cases hm : st.1.manipSub f s with
    | error e => exact h
    | ok w =>
      obtain ⟨h1, h2, _⟩ := manipSub_heap hm
      exact ⟨h.ids, fun s hs => by simp only [h1]; exact h.idLt s hs, h.addrs, fun s hs => by simp only [h2]; exact h.addrLt s hs⟩
  | setGenome s g =>
    have hs := hop s g rfl
    simp only [step, World.setGenome]
    have hid : (st.2.map fun x => if x.id = s.id then { s with addr := st.1.heap.length } else x).map Sub.id = st.2.map Sub.id := by
      rw [List.map_map]
      apply List.map_congr_left
      intro x hx
      simp only [Function.comp]
      split_ifs with hx'
      · exact hx'.symm
      · rfl
    refine ⟨by simp only [hid]; exact h.ids, ?_, ?_, ?_⟩
    · intro x hx
      obtain ⟨y, hy, rfl⟩ := List.mem_map.1 hx
      split_ifs with hy'
      · exact h.idLt s hs
      · exact h.idLt y hy
    · simp only [List.map_map]
      have key : ∀ l : List Sub, (l.map Sub.id).Nodup → (l.map Sub.addr).Nodup → (∀ x ∈ l, x.addr < st.1.heap.length) →
          (l.map (Sub.addr ∘ fun x => if x.id = s.id then { s with addr := st.1.heap.length } else x)).Nodup := by
        intro l
        induction l with
        | nil => simp
        | cons x l ih =>
          intro h1 h2 h3
          rw [List.map_cons, List.nodup_cons] at h1 h2
          rw [List.map_cons, List.nodup_cons]
          refine ⟨?_, ih h1.2 h2.2 fun y hy => h3 y (List.mem_cons_of_mem _ hy)⟩
          intro hmem
          obtain ⟨y, hy, hxy⟩ := List.mem_map.1 hmem
          simp only [Function.comp] at hxy
          have hyl := h3 y (List.mem_cons_of_mem _ hy)
          have hxl := h3 x List.mem_cons_self
          split_ifs at hxy with hy1 hx1 hx1
          · exact h1.1 (List.mem_map.2 ⟨y, hy, by rw [hy1, hx1]⟩)
          · simp only at hxy; omega
          · simp only at hxy; omega
          · exact h2.1 (List.mem_map.2 ⟨y, hy, hxy⟩)
      exact key st.2 h.ids h.addrs h.addrLt
    · intro x hx
      obtain ⟨y, hy, rfl⟩ := List.mem_map.1 hx
      simp only [List.length_append, List.length_singleton]
      split_ifs with hy'
      · simp
      · have := h.addrLt y hy; omega

/-- a history that only sets genomes of existing sub-individuals -/
def Legal : World K × List Sub → List (GOp K) → Prop
  | _, [] => True
  | st, op :: ops => (∀ s g, op = .setGenome s g → s ∈ st.2) ∧ Legal (step st op) ops

theorem inv_run : ∀ (ops : List (GOp K)) (st : World K × List Sub), GInv st → Legal st ops → GInv (ops.foldl step st)
  | [], _, h, _ => h
  | op :: ops, st, h, hl => by
    rw [List.foldl_cons]
    exact inv_run ops _ (inv_step h op hl.1) hl.2

end Verif.Genome

namespace Verif.Props
open Verif.Genome
open Verif.DataSet (Err)
variable {K : Type}

/-- **C159, manipulation.** A manipulation of a nested genome replaces each number once, from left to right, each with a fresh random number, and keeps the nesting; a plain number is refused. -/
theorem C159_manipulate (f : Nat → K → K) (g : GTree K) (n : Nat) :
    (g.isNode = true → ∃ g' m, manipulateGenome f g n = .ok (g', m) ∧ g'.leaves = g.leaves.mapIdx (fun i x => f (n + i) x) ∧ g'.shape = g.shape ∧ m = n + g.leaves.length) ∧
      (g.isNode = false → manipulateGenome f g n = .error .assertion) := by
  constructor
  · intro hg
    exact ⟨_, _, manipulate_node f g hg n, manip_spec f g n⟩
  · intro hg
    cases g with
    | leaf x => rfl
    | node l => exact absurd hg (by simp [GTree.isNode])

example : (GTree.node [.node [.leaf (1 : Int)], .node [.leaf 1, .leaf 2, .node [.leaf 3]], .node []]).leaves = [1, 1, 2, 3] := rfl

/-- **C159, randomization.** Randomization replaces every number of a genome by one between the bounds. -/
theorem C159_randomize [Field K] [LinearOrder K] [IsStrictOrderedRing K] (a b : K) (hab : a ≤ b) (u : Nat → K) (hu : ∀ n, 0 ≤ u n ∧ u n ≤ 1) (g : GTree K) (hg : g.isNode = true) (n : Nat) :
    ∃ g' m, manipulateGenome (uniformValue a b u) g n = .ok (g', m) ∧ g'.leaves.length = g.leaves.length ∧ ∀ x ∈ g'.leaves, a ≤ x ∧ x ≤ b := by
  obtain ⟨g', m, h, h1, _, _⟩ := (C159_manipulate (uniformValue a b u) g n).1 hg
  refine ⟨g', m, h, by rw [h1]; simp, fun x hx => ?_⟩
  rw [h1] at hx
  obtain ⟨i, hi, rfl⟩ := List.mem_mapIdx.1 hx
  obtain ⟨h0, h2⟩ := hu (n + i)
  have hd : 0 ≤ b - a := sub_nonneg.2 hab
  have := mul_nonneg hd h0
  have := mul_le_mul_of_nonneg_left h2 hd
  unfold uniformValue
  constructor <;> linarith

example : (0 : Rat) ≤ 1 ∧ ∀ n : Nat, (0 : Rat) ≤ (fun _ => (1 / 2 : Rat)) n ∧ (fun _ => (1 / 2 : Rat)) n ≤ 1 := by norm_num

/-- **C159, populations of sub-individuals.** A filter applied to a population whose individuals hold different genome objects changes every genome once, each number with its own random number in the order of the
individuals, and no other genome. -/
theorem C159_subs (f : Nat → K → K) : ∀ (subs : List Sub) (w : World K), (subs.map Sub.addr).Nodup → (∀ s ∈ subs, ∃ g, w.genome s = some g ∧ g.isNode = true) →
    ∃ w', w.applySubs f subs = .ok w' ∧ w'.nextId = w.nextId ∧ (∀ a, a ∉ subs.map Sub.addr → w'.heap[a]? = w.heap[a]?) ∧
      ∀ pre s post, subs = pre ++ s :: post → ∀ g, w.genome s = some g → w'.genome s = some (g.manip f (w.drawn + (pre.map fun t => ((w.genome t).map fun h => h.leaves.length).getD 0).sum)).1
  | [], w, _, _ => ⟨w, rfl, rfl, fun _ _ => rfl, fun pre s post h => by simp at h⟩
  | s :: subs, w, hn, hg => by
    obtain ⟨g, hs, hnode⟩ := hg s List.mem_cons_self
    rw [List.map_cons, List.nodup_cons] at hn
    have hne : ∀ t ∈ subs, t.addr ≠ s.addr := fun t ht h => hn.1 (List.mem_map.2 ⟨t, ht, h⟩)
    have hm := manipSub_eq f w s g hs hnode
    have hkeep : ∀ t ∈ subs, World.genome ({ w with heap := w.heap.set s.addr (g.manip f w.drawn).1, drawn := (g.manip f w.drawn).2 } : World K) t = w.genome t := by
      intro t ht
      unfold World.genome
      simp only
      rw [List.getElem?_set_ne (Ne.symm (hne t ht))]
    obtain ⟨w', h1, h2, h3, h4⟩ := C159_subs f subs { w with heap := w.heap.set s.addr (g.manip f w.drawn).1, drawn := (g.manip f w.drawn).2 } hn.2 (by
      intro t ht
      rw [hkeep t ht]
      exact hg t (List.mem_cons_of_mem _ ht))
    refine ⟨w', ?_, h2, ?_, ?_⟩
    · rw [World.applySubs, hm]
      exact h1
    · intro a ha
      rw [List.map_cons, List.mem_cons, not_or] at ha
      rw [h3 a ha.2]
      simp only
      rw [List.getElem?_set_ne (Ne.symm ha.1)]
    · intro pre t post hsplit g' hg'
      cases pre with
      | nil =>
        simp only [List.nil_append, List.cons.injEq] at hsplit
        obtain ⟨rfl, rfl⟩ := hsplit
        rw [hs] at hg'
        cases hg'
        unfold World.genome
        rw [h3 _ hn.1]
        have hlt : s.addr < w.heap.length := by
          unfold World.genome at hs
          exact (List.getElem?_eq_some_iff.1 hs).1
        simp only
        rw [List.getElem?_set_self hlt]
        simp
      | cons p pre =>
        simp only [List.cons_append, List.cons.injEq] at hsplit
        obtain ⟨rfl, rfl⟩ := hsplit
        have := h4 pre t post rfl g' (by rw [hkeep t (by simp)]; exact hg')
        rw [this]
        simp only [List.map_cons, List.sum_cons, hs, Option.map_some, Option.getD_some]
        rw [(manip_spec f g w.drawn).2.2]
        have e : (pre.map fun t => ((World.genome ({ w with heap := w.heap.set s.addr (g.manip f w.drawn).1, drawn := w.drawn + g.leaves.length } : World K) t).map fun h => h.leaves.length).getD 0) =
            pre.map fun t => ((w.genome t).map fun h => h.leaves.length).getD 0 := by
          apply List.map_congr_left
          intro q hq
          have := hkeep q (by simp [hq])
          rw [(manip_spec f g w.drawn).2.2] at this
          rw [this]
        rw [e, Nat.add_assoc]

example : ([⟨0, 0⟩, ⟨1, 1⟩].map Sub.addr).Nodup := by decide

/-- **C159 violated: main individuals.** The genome of a main individual is a copy, although the interface asks for a reference: a mutation or randomization applied to a population of main individuals succeeds and changes no
genome at all. -/
theorem C159_negation_main (f : Nat → K → K) : ∀ (pop : List (List Sub)) (w : World K), (∀ subs ∈ pop, ∀ s ∈ subs, (w.genome s).isSome) → ∃ w', w.applyMains f pop = .ok w' ∧ w'.heap = w.heap ∧ w'.nextId = w.nextId
  | [], w, _ => ⟨w, rfl, rfl, rfl⟩
  | subs :: pop, w, h => by
    have hs : ∃ l, subs.mapM w.genome = some l := by
      have := h subs List.mem_cons_self
      revert this
      induction subs with
      | nil => exact fun _ => ⟨[], by simp⟩
      | cons s subs ih =>
        intro this
        obtain ⟨l, hl⟩ := ih (fun subs' hs' => by
          rcases List.mem_cons.1 hs' with rfl | hs'
          · exact fun s hs => this s (List.mem_cons_of_mem _ hs)
          · exact h subs' (List.mem_cons_of_mem _ hs')) (fun s hs => this s (List.mem_cons_of_mem _ hs))
        obtain ⟨g, hg⟩ := Option.isSome_iff_exists.1 (this s List.mem_cons_self)
        exact ⟨g :: l, by simp [hg, hl]⟩
    obtain ⟨l, hl⟩ := hs
    have hm : ∃ w₁, w.manipMain f subs = .ok w₁ ∧ w₁.heap = w.heap ∧ w₁.nextId = w.nextId := by
      unfold World.manipMain World.mainGenome
      rw [hl]
      exact ⟨_, rfl, rfl, rfl⟩
    obtain ⟨w₁, e1, e2, e3⟩ := hm
    obtain ⟨w', h1, h2, h3⟩ := C159_negation_main f pop w₁ (by
      intro subs' hs' s hs
      unfold World.genome
      rw [e2]
      exact h subs' (List.mem_cons_of_mem _ hs') s hs)
    refine ⟨w', ?_, h2.trans e2, h3.trans e3⟩
    rw [World.applyMains, e1]
    exact h1

example : (World.genome (⟨[.node [.leaf (1 : Int)]], 1, 0⟩ : World Int) ⟨0, 0⟩).isSome = true := rfl

/-- **C159, identity.** In every history of creating, copying, mutating and setting genomes, the sub-individuals have distinct identifiers and distinct genome objects; so a mutation of one leaves the genomes of
all others as they are. -/
theorem C159_identity (ops : List (GOp K)) (hl : Legal (⟨[], 0, 0⟩, []) ops) :
    let st := ops.foldl step (⟨[], 0, 0⟩, [])
    (st.2.map Sub.id).Nodup ∧ ∀ s ∈ st.2, ∀ f w, st.1.manipSub f s = .ok w → ∀ t ∈ st.2, t ≠ s → w.genome t = st.1.genome t := by
  intro st
  have hinv : GInv st := inv_run ops _ ⟨by simp, by simp, by simp, by simp⟩ hl
  refine ⟨hinv.ids, ?_⟩
  intro s hs f w hw t ht hts
  have : t.addr ≠ s.addr := fun h => hts (List.inj_on_of_nodup_map hinv.addrs ht hs h)
  exact (manipSub_heap hw).2.2 _ this

/-- **C159, copies.** A copy has an equal genome and a new identifier, and keeps the genome when the original is changed, and the other way round. -/
theorem C159_copy (w w' : World K) (s c : Sub) (h : w.copySub s = some (w', c)) (hid : s.id < w.nextId) :
    w'.genome c = w.genome s ∧ w'.genome s = w.genome s ∧ c.id ≠ s.id ∧
      (∀ f w'', w'.manipSub f s = .ok w'' → w''.genome c = w.genome s) ∧ (∀ f w'', w'.manipSub f c = .ok w'' → w''.genome s = w.genome s) := by
  unfold World.copySub at h
  obtain ⟨g, hg, he⟩ := Option.map_eq_some_iff.1 h
  have hw : w' = (w.newSub g).1 := by rw [he]
  have hc : c = (w.newSub g).2 := by rw [he]
  subst hw hc
  have hlt : s.addr < w.heap.length := by
    unfold World.genome at hg
    exact (List.getElem?_eq_some_iff.1 hg).1
  have h1 : (w.newSub g).1.genome (w.newSub g).2 = w.genome s := by
    rw [hg]
    unfold World.genome World.newSub
    simp
  have h2 : (w.newSub g).1.genome s = w.genome s := by
    unfold World.genome World.newSub
    simp only
    rw [List.getElem?_append_left hlt]
  have hne : (w.newSub g).2.addr ≠ s.addr := by
    simp only [World.newSub]
    omega
  refine ⟨h1, h2, by simp only [World.newSub]; omega, fun f w'' hw => ?_, fun f w'' hw => ?_⟩
  · rw [← h1]
    exact (manipSub_heap hw).2.2 _ hne
  · rw [← h2]
    exact (manipSub_heap hw).2.2 _ (Ne.symm hne)

example : ((⟨[.node [.leaf (1 : Int)]], 1, 0⟩ : World Int).copySub ⟨0, 0⟩).map (fun r => r.2) = some ⟨1, 1⟩ := rfl

open MeasureTheory in
/-- **C159, Cauchy variate.** The probability that a sample is at most `x` is `1/2 + arctan ((x - x0) / alpha) / pi`: the samples have the Cauchy distribution with median `x0` and scale `alpha`. -/
theorem C159_cauchy (x0 alpha x : ℝ) (ha : 0 < alpha) :
    volume {u : ℝ | u ∈ Set.Ioo (0 : ℝ) 1 ∧ cauchySample x0 alpha u ≤ x} = ENNReal.ofReal (1 / 2 + Real.arctan ((x - x0) / alpha) / Real.pi) := by
  have hpi := Real.pi_pos
  have hlt := Real.arctan_lt_pi_div_two ((x - x0) / alpha)
  have hgt := Real.neg_pi_div_two_lt_arctan ((x - x0) / alpha)
  set t := Real.arctan ((x - x0) / alpha) with ht
  have hlt1 : 1 / 2 + t / Real.pi < 1 := by
    have : t / Real.pi < 1 / 2 := by rw [div_lt_iff₀ hpi]; linarith
    linarith
  have e : {u : ℝ | u ∈ Set.Ioo (0 : ℝ) 1 ∧ cauchySample x0 alpha u ≤ x} = Set.Ioc 0 (1 / 2 + t / Real.pi) := by
    ext u
    simp only [Set.mem_ofPred_eq, Set.mem_Ioo, Set.mem_Ioc]
    have key : u ∈ Set.Ioo (0 : ℝ) 1 → (cauchySample x0 alpha u ≤ x ↔ u ≤ 1 / 2 + t / Real.pi) := by
      rintro ⟨h0, h1⟩
      have hy1 : -(Real.pi / 2) < Real.pi * (u - 1 / 2) := by nlinarith
      have hy2 : Real.pi * (u - 1 / 2) < Real.pi / 2 := by nlinarith
      have e1 : cauchySample x0 alpha u ≤ x ↔ Real.tan (Real.pi * (u - 1 / 2)) ≤ (x - x0) / alpha := by
        unfold cauchySample
        rw [le_div_iff₀ ha]
        constructor <;> intro h <;> linarith
      rw [e1, ← Real.arctan_strictMono.le_iff_le, Real.arctan_tan hy1 hy2, ← ht]
      constructor
      · intro h
        have : u - 1 / 2 ≤ t / Real.pi := by rw [le_div_iff₀ hpi]; linarith
        linarith
      · intro h
        have : u - 1 / 2 ≤ t / Real.pi := by linarith
        rw [le_div_iff₀ hpi] at this
        linarith
    constructor
    · rintro ⟨hu, h⟩
      exact ⟨hu.1, (key hu).1 h⟩
    · rintro ⟨h0, h⟩
      have hu : u ∈ Set.Ioo (0 : ℝ) 1 := ⟨h0, by linarith⟩
      exact ⟨hu, (key hu).2 h⟩
  rw [e, Real.volume_Ioc, sub_zero]

example : (1 : ℝ) / 2 + Real.arctan ((3 - 3) / 2) / Real.pi = 1 / 2 := by simp

open MeasureTheory in
/-- **C159, uniform variate.** The probability that a sample of the uniform variate is at most `x` is the share of the interval up to `x`. -/
theorem C159_uniform (a b x : ℝ) (hab : a < b) (hx' : x ≤ b) : volume {u : ℝ | u ∈ Set.Icc (0 : ℝ) 1 ∧ uniformSample a b u ≤ x} = ENNReal.ofReal ((x - a) / (b - a)) := by
  have hd : 0 < b - a := sub_pos.2 hab
  have e : {u : ℝ | u ∈ Set.Icc (0 : ℝ) 1 ∧ uniformSample a b u ≤ x} = Set.Icc 0 ((x - a) / (b - a)) := by
    ext u
    simp only [Set.mem_ofPred_eq, Set.mem_Icc, uniformSample]
    rw [le_div_iff₀ hd]
    constructor
    · rintro ⟨⟨h0, h1⟩, h⟩
      exact ⟨h0, by linarith⟩
    · rintro ⟨h0, h⟩
      refine ⟨⟨h0, ?_⟩, by linarith⟩
      by_contra hc
      push Not at hc
      nlinarith
  rw [e, Real.volume_Icc, sub_zero]

example : (0 : ℝ) < 1 ∧ (1 / 2 : ℝ) ≤ 1 := by norm_num

end Verif.Props
