import Verif.Lemmas.Convert
import Verif.Lemmas.Params
import Verif.Spec.Convert
/-
C183: conversion of networks into decomposable ones.
-/
namespace Verif.Builder

open Verif.Py Verif.Topo Verif.Topo.Spec Verif.Builder.Spec

variable {V M X : Type} [DecidableEq V] [DecidableEq M]

/-! ### what the calls of the conversion add -/

theorem filterMap_map_none {α β γ : Type} (f : β → Option γ) (g : α → β) (l : List α) (h : ∀ a, f (g a) = none) : (l.map g).filterMap f = [] := by
  rw [List.filterMap_map, List.filterMap_eq_nil_iff]
  exact fun a _ => h a

theorem filterMap_map_some {α β : Type} (f : β → Option α) (g : α → β) (l : List α) (h : ∀ a, f (g a) = some a) : (l.map g).filterMap f = l := by
  rw [List.filterMap_map]
  have : f ∘ g = some := funext h
  rw [this, List.filterMap_some]

/-- the recurrent connections that are converted -/
def convRecs (recurrent : Bool) (n : Net V M X) : List (Conn V M X) := if recurrent then n.recurrentConns else []

theorem convertOps_eq (recurrent : Bool) (it : List V) (n : Net V M X) :
    convertOps recurrent it n = (convRecs recurrent n).map .recurrent ++ n.inmodules.map .input ++ n.outmodules.map .output ++ it.map .module ++ (allConns n).map .connection := by
  cases recurrent <;> rfl

theorem conv_modOf (recurrent : Bool) (it : List V) (n : Net V M X) : (convertOps recurrent it n).filterMap modOf = n.inmodules ++ n.outmodules ++ it := by
  rw [convertOps_eq]
  simp only [List.filterMap_append]
  rw [filterMap_map_none modOf (.recurrent : Conn V M X → _) _ (fun _ => rfl), filterMap_map_some modOf .input _ (fun _ => rfl), filterMap_map_some modOf .output _ (fun _ => rfl),
    filterMap_map_some modOf .module _ (fun _ => rfl), filterMap_map_none modOf .connection _ (fun _ => rfl)]
  simp

theorem conv_inputOf (recurrent : Bool) (it : List V) (n : Net V M X) : (convertOps recurrent it n).filterMap inputOf = n.inmodules := by
  rw [convertOps_eq]
  simp only [List.filterMap_append]
  rw [filterMap_map_none inputOf (.recurrent : Conn V M X → _) _ (fun _ => rfl), filterMap_map_some inputOf .input _ (fun _ => rfl), filterMap_map_none inputOf .output _ (fun _ => rfl),
    filterMap_map_none inputOf .module _ (fun _ => rfl), filterMap_map_none inputOf .connection _ (fun _ => rfl)]
  simp

theorem conv_outputOf (recurrent : Bool) (it : List V) (n : Net V M X) : (convertOps recurrent it n).filterMap outputOf = n.outmodules := by
  rw [convertOps_eq]
  simp only [List.filterMap_append]
  rw [filterMap_map_none outputOf (.recurrent : Conn V M X → _) _ (fun _ => rfl), filterMap_map_none outputOf .input _ (fun _ => rfl), filterMap_map_some outputOf .output _ (fun _ => rfl),
    filterMap_map_none outputOf .module _ (fun _ => rfl), filterMap_map_none outputOf .connection _ (fun _ => rfl)]
  simp

theorem conv_connOf (recurrent : Bool) (it : List V) (n : Net V M X) : (convertOps recurrent it n).filterMap connOf = allConns n := by
  rw [convertOps_eq]
  simp only [List.filterMap_append]
  rw [filterMap_map_none connOf (.recurrent : Conn V M X → _) _ (fun _ => rfl), filterMap_map_none connOf .input _ (fun _ => rfl), filterMap_map_none connOf .output _ (fun _ => rfl),
    filterMap_map_none connOf .module _ (fun _ => rfl), filterMap_map_some connOf .connection _ (fun _ => rfl)]
  simp

theorem conv_recOf (recurrent : Bool) (it : List V) (n : Net V M X) : (convertOps recurrent it n).filterMap recOf = convRecs recurrent n := by
  rw [convertOps_eq]
  simp only [List.filterMap_append]
  rw [filterMap_map_some recOf (.recurrent : Conn V M X → _) _ (fun _ => rfl), filterMap_map_none recOf .input _ (fun _ => rfl), filterMap_map_none recOf .output _ (fun _ => rfl),
    filterMap_map_none recOf .module _ (fun _ => rfl), filterMap_map_none recOf .connection _ (fun _ => rfl)]
  simp

theorem mem_motherOf (ops : List (Op V M X)) (q : M) : q ∈ ops.filterMap motherOf ↔ (∃ c ∈ ops.filterMap connOf, c.mother = some q) ∨ ∃ c ∈ ops.filterMap recOf, c.mother = some q := by
  simp only [List.mem_filterMap]
  constructor
  · rintro ⟨op, hop, hm⟩
    cases op with
    | connection c => exact .inl ⟨c, ⟨_, hop, rfl⟩, hm⟩
    | recurrent c => exact .inr ⟨c, ⟨_, hop, rfl⟩, hm⟩
    | _ => simp [motherOf] at hm
  · rintro (⟨c, ⟨op, hop, hc⟩, hm⟩ | ⟨c, ⟨op, hop, hc⟩, hm⟩)
    · cases op <;> simp [connOf] at hc
      subst hc
      exact ⟨_, hop, hm⟩
    · cases op <;> simp [recOf] at hc
      subst hc
      exact ⟨_, hop, hm⟩

theorem first_self {α : Type} [DecidableEq α] {l l' : List α} (hn : l.Nodup) (h : FirstOccurrences l l') : l' = l := by
  rw [h, List.dedup_eq_self.2 (List.nodup_reverse.2 hn), List.reverse_reverse]

/-- a network sorted after any history -/
structure Ready (A : Attr V M) (ops : List (Op V M X)) (n : Net V M X) : Prop where
  inv : Inv A ops n
  sorted : n.sorted = true
  recs : n.recurrentConns.Pairwise (fun a b => a.name ≤ b.name)
  keys : (n.connections.map Prod.fst).Nodup

theorem ready (A : Attr V M) (order : List V → List V) (ho : ∀ l, (order l).Perm l) (ops : List (Op V M X)) (it : List V) (n : Net V M X)
    (hit : it.Perm (run A order empty ops).modules) (h : sortModules A it (run A order empty ops) = .ok n) : Ready A ops n := by
  have hi : Inv A ops (run A order empty ops) := by simpa using inv_run A order ho [] ops empty (inv_empty A)
  have hs := sortModules_spec A it ops _ hi hit
  have hk : (n.connections.map Prod.fst).Nodup := nodup_sortModules A it _ n (nodup_run A order empty ops (by simp [empty])) h
  by_cases hmem : ∀ e ∈ edgesOf ops, e.1 ∈ ops.filterMap modOf ∧ e.2 ∈ ops.filterMap modOf
  · by_cases hac : Acyclic (edgesOf ops)
    · obtain ⟨n2, h1, h2, h3, h4⟩ := hs.1 hmem hac
      rw [h1] at h; cases h
      exact ⟨h3, h2, h4, hk⟩
    · rw [hs.2.1 hmem hac] at h; cases h
  · rw [hs.2.2 (by push Not at hmem; obtain ⟨e, he, h'⟩ := hmem; exact ⟨e, he, by tauto⟩)] at h; cases h

theorem mods_sub (A : Attr V M) (ops : List (Op V M X)) (n : Net V M X) (h : Inv A ops n) : (∀ m ∈ n.inmodules, m ∈ n.modules) ∧ ∀ m ∈ n.outmodules, m ∈ n.modules := by
  constructor
  all_goals
    intro m hm
    rw [first_mem h.modules]
  · rw [first_mem h.inputs, List.mem_filterMap] at hm
    obtain ⟨op, hop, hv⟩ := hm
    exact List.mem_filterMap.2 ⟨op, hop, by cases op <;> simp_all [inputOf, modOf]⟩
  · rw [first_mem h.outputs, List.mem_filterMap] at hm
    obtain ⟨op, hop, hv⟩ := hm
    exact List.mem_filterMap.2 ⟨op, hop, by cases op <;> simp_all [outputOf, modOf]⟩

/-- the network before the last sort of the conversion -/
def converted (A : Attr V M) (order : List V → List V) (recurrent : Bool) (n : Net V M X) : Net V M X := run A order empty (convertOps recurrent (order n.modules) n)

theorem convert_main (A : Attr V M) (order : List V → List V) (ho : ∀ l, (order l).Perm l) (ops : List (Op V M X)) (n : Net V M X) (h : Ready A ops n)
    (recurrent : Bool) (hrec : recurrent = false → n.recurrentConns = []) :
    ∃ n', sortModules A (order (converted A order recurrent n).modules) (converted A order recurrent n) = .ok n' ∧ SameNet A n n' := by
  have hcr : convRecs recurrent n = n.recurrentConns := by
    cases recurrent with
    | true => rfl
    | false => exact (hrec rfl).symm
  have hi : Inv A (convertOps recurrent (order n.modules) n) (converted A order recurrent n) := by
    simpa [converted] using inv_run A order ho [] (convertOps recurrent (order n.modules) n) empty (inv_empty A)
  have hmods : ∀ v, v ∈ (convertOps recurrent (order n.modules) n).filterMap modOf ↔ v ∈ n.modules := by
    intro v
    rw [conv_modOf, List.mem_append, List.mem_append, (ho n.modules).mem_iff]
    have := mods_sub A ops n h.inv
    constructor
    · rintro ((h1 | h1) | h1)
      · exact this.1 v h1
      · exact this.2 v h1
      · exact h1
    · exact .inr
  have hedges : edgesOf (convertOps recurrent (order n.modules) n) = (allConns n).map fun c => (c.inmod, c.outmod) := by rw [edgesOf, conv_connOf]
  have hold : ∀ e, e ∈ (allConns n).map (fun c => (c.inmod, c.outmod)) ↔ e ∈ edgesOf ops := fun e => (h.inv.all.map _).mem_iff
  have ho1 := h.inv.order h.sorted
  have hmem : ∀ e ∈ edgesOf (convertOps recurrent (order n.modules) n), e.1 ∈ (convertOps recurrent (order n.modules) n).filterMap modOf ∧
      e.2 ∈ (convertOps recurrent (order n.modules) n).filterMap modOf := by
    intro e he
    rw [hedges, hold] at he
    obtain ⟨l1, l2, l3, hl⟩ := ho1.2.2 e he
    rw [hmods, hmods, first_mem h.inv.modules, first_mem h.inv.modules]
    exact ⟨(ho1.2.1 e.1).1 (by simp [hl]), (ho1.2.1 e.2).1 (by simp [hl])⟩
  have hac : Acyclic (edgesOf (convertOps recurrent (order n.modules) n)) := by
    rw [hedges]
    exact acyclic_congr (fun e => (hold e).symm) (acyclic_of_topo ho1)
  obtain ⟨n', h1, h2, h3, h4⟩ := (sortModules_spec A _ _ _ hi (ho _)).1 hmem hac
  have hb := built_of_inv A _ n' h3 h2 h4
  have hmm : ∀ v, v ∈ n'.modules ↔ v ∈ n.modules := fun v => (first_mem h3.modules v).trans (hmods v)
  refine ⟨n', h1, h2, ?_, ?_, ?_, ?_, ?_, ⟨?_, hb.mothers.2.2⟩, ?_, ?_, ?_⟩
  · exact (List.perm_ext_iff_of_nodup (first_nodup h3.modules) (first_nodup h.inv.modules)).2 hmm
  · have := h3.inputs
    rw [conv_inputOf] at this
    exact first_self (first_nodup h.inv.inputs) this
  · have := h3.outputs
    rw [conv_outputOf] at this
    exact first_self (first_nodup h.inv.outputs) this
  · intro m hm
    obtain ⟨cs, hcs⟩ := Option.isSome_iff_exists.1 (h.inv.keys m hm)
    obtain ⟨cs', hcs'⟩ := Option.isSome_iff_exists.1 (h3.keys m ((hmm m).2 hm))
    have hst := h3.conns m cs' hcs'
    rw [own, conv_connOf, filter_allConns A ops n h.inv h.keys m, hcs, Option.getD_some] at hst
    rw [hcs, hcs', sortedBy_unique (fun c : Conn V M X => c.name) cs cs' ((sortedBy_iff _ _ _).2 ⟨hst, h3.csorted h2 m ((hmm m).2 hm) cs' hcs'⟩) (h.inv.csorted h.sorted m hm cs hcs)]
  · have := hb.recs
    rw [conv_recOf, hcr] at this
    exact sortedBy_unique _ _ _ this h.recs
  · refine (List.perm_ext_iff_of_nodup hb.mothers.2.1 h.inv.mothers.2).2 fun q => ?_
    rw [hb.mothers.1, h.inv.mothers.1, mem_motherOf, mem_motherOf, conv_connOf, conv_recOf, hcr]
    have e1 : ∀ c, c ∈ allConns n ↔ c ∈ ops.filterMap connOf := fun c => h.inv.all.mem_iff
    have e2 : ∀ c, c ∈ n.recurrentConns ↔ c ∈ ops.filterMap recOf := fun c => h.inv.recs.1.mem_iff
    simp only [e1, e2]
  · exact topo_congr hmods (fun e => by rw [← hedges]; rfl) hb.order
  · rw [hb.indim, (h.inv.dims h.sorted).1]
    have := h3.inputs
    rw [conv_inputOf] at this
    rw [first_self (first_nodup h.inv.inputs) this]
  · rw [hb.outdim, (h.inv.dims h.sorted).2]
    have := h3.outputs
    rw [conv_outputOf] at this
    rw [first_self (first_nodup h.inv.outputs) this]

theorem containers_perm (A : Attr V M) (n n' : Net V M X) (h : SameNet A n n') (hn : n.modulesSorted.Nodup) (hm : ∀ v, v ∈ n.modulesSorted ↔ v ∈ n.modules) (size : Part V M X → Nat) :
    (containers size n').Perm (containers size n) := by
  unfold containers
  apply List.Perm.filter
  rw [h.recs]
  refine List.Perm.append_right _ (List.Perm.append ?_ (h.mothers.1.map _))
  have hp : n'.modulesSorted.Perm n.modulesSorted := (List.perm_ext_iff_of_nodup h.order.1 hn).2 fun v => (h.order.2.1 v).trans (hm v).symm
  refine (hp.flatMap_right _).trans (List.Perm.of_eq ?_)
  refine List.flatMap_congr fun m hmm => ?_
  rw [ownParts, ownParts, h.conns m ((hm m).1 hmm)]

/-- each list of connections was in the order of names before the network was sorted -/
def NameOrder (n : Net V M X) : Prop := ∀ m cs, dget n.connections m = some cs → cs.Pairwise (fun a b => a.name ≤ b.name)

theorem order_main (A : Attr V M) (order : List V → List V) (ho : ∀ l, (order l).Perm l) (ops : List (Op V M X)) (it : List V) (n n' : Net V M X)
    (hit : it.Perm (run A order empty ops).modules) (hun : (run A order empty ops).sorted = false) (hs : sortModules A it (run A order empty ops) = .ok n)
    (hno : NameOrder (run A order empty ops)) (hname : ∀ a ∈ n.modules, ∀ b ∈ n.modules, A.name a = A.name b → a = b)
    (recurrent : Bool) (h' : sortModules A (order (converted A order recurrent n).modules) (converted A order recurrent n) = .ok n') (hsame : SameNet A n n') :
    n'.modulesSorted = n.modulesSorted := by
  have hr := ready A order ho ops it n hit hs
  have hi0 : Inv A ops (run A order empty ops) := by simpa using inv_run A order ho [] ops empty (inv_empty A)
  have hk0 := nodup_run A order empty ops (by simp [empty] : ((empty : Net V M X).connections.map Prod.fst).Nodup)
  have hic : Inv A (convertOps recurrent (order n.modules) n) (converted A order recurrent n) := by
    simpa [converted] using inv_run A order ho [] (convertOps recurrent (order n.modules) n) empty (inv_empty A)
  have hkc := nodup_run A order empty (convertOps recurrent (order n.modules) n) (by simp [empty] : ((empty : Net V M X).connections.map Prod.fst).Nodup)
  -- the result of a sort of an unsorted network
  have hsplit : ∀ (j : List V) (a b : Net V M X), a.sorted = false → sortModules A j a = .ok b →
      topologicalSort j ((allConns a).map (fun c => (c.inmod, c.outmod))) A.name = .ok b.modulesSorted ∧ b.modules = a.modules := by
    intro j a b hf hab
    simp only [sortModules, hf, Bool.false_eq_true, if_false] at hab
    split at hab
    · cases hab
    · rename_i l hl
      split at hab
      · cases hab
      · cases hab
        exact ⟨hl, rfl⟩
  have hfc : (converted A order recurrent n).sorted = false ∨ (converted A order recurrent n).sorted = false := by
    have key : ∀ (l : List (Op V M X)) (a : Net V M X), (∀ o ∈ l, o ≠ .sort) → a.sorted = false → (run A order a l).sorted = false := by
      intro l
      induction l with
      | nil => intro a _ h; exact h
      | cons o l ih =>
        intro a hl ha
        refine ih _ (fun o' ho' => hl o' (by simp [ho'])) ?_
        cases o with
        | sort => exact absurd rfl (hl .sort (by simp))
        | _ => rfl
    refine .inl (key _ _ ?_ rfl)
    intro o hmem
    rw [convertOps_eq] at hmem
    simp only [List.mem_append, List.mem_map] at hmem
    rcases hmem with (((⟨_, _, rfl⟩ | ⟨_, _, rfl⟩) | ⟨_, _, rfl⟩) | ⟨_, _, rfl⟩) | ⟨_, _, rfl⟩ <;> simp
  have hfc := hfc.elim id id
  obtain ⟨t1, m1⟩ := hsplit _ _ _ hun hs
  obtain ⟨t2, m2⟩ := hsplit _ _ _ hfc h'
  have hnosort : ∀ o ∈ convertOps recurrent (order n.modules) n, o ≠ .sort := by
    intro o hmem
    rw [convertOps_eq] at hmem
    simp only [List.mem_append, List.mem_map] at hmem
    rcases hmem with (((⟨_, _, rfl⟩ | ⟨_, _, rfl⟩) | ⟨_, _, rfl⟩) | ⟨_, _, rfl⟩) | ⟨_, _, rfl⟩ <;> simp
  -- connections per module
  have hc1 : ∀ m, (allConns (run A order empty ops)).filter (fun c => c.inmod = m) = (allConns n).filter (fun c => c.inmod = m) := by
    intro m
    rw [filter_allConns A ops _ hi0 hk0, filter_allConns A ops n hr.inv hr.keys]
    have hconn : n.connections = n.connections := rfl
    obtain ⟨conns, hcs, hnc⟩ : ∃ conns, sortConns (run A order empty ops).connections it = .ok conns ∧ n.connections = conns := by
      simp only [sortModules, hun, Bool.false_eq_true, if_false] at hs
      split at hs
      · cases hs
      · split at hs
        · cases hs
        · rename_i conns hcs
          cases hs
          exact ⟨conns, hcs, rfl⟩
    obtain ⟨conns', k1, -, k3, k4, k5, k6⟩ := sortConns_ok it (run A order empty ops).connections (fun m hm => hi0.keys m (hit.mem_iff.1 hm))
    have hcc : conns = conns' := Except.ok.inj (hcs.symm.trans k1)
    subst hcc
    rw [hnc]
    by_cases hm : m ∈ it
    · cases hd : dget conns m with
      | none => rw [(k3 m).1 hd]
      | some cs' =>
        obtain ⟨cs, hcs, hst⟩ := k4 m cs' hd
        rw [hcs, Option.getD_some, Option.getD_some]
        exact (sortedBy_unique (fun c : Conn V M X => c.name) cs cs' ((sortedBy_iff _ _ _).2 ⟨hst, k5 m hm cs' hd⟩) (hno m cs hcs)).symm
    · rw [k6 m hm]
  have hc2 : ∀ m, (allConns (converted A order recurrent n)).filter (fun c => c.inmod = m) = (allConns n).filter (fun c => c.inmod = m) := by
    intro m
    rw [filter_allConns A _ _ hic hkc]
    have := exact_run A order [] (convertOps recurrent (order n.modules) n) empty hnosort (fun m => by simp [empty, dget, own]) m
    rw [List.nil_append, own, conv_connOf] at this
    exact this
  have hfm : ∀ (l : List (Conn V M X)) (u : V), (l.map fun c => (c.inmod, c.outmod)).filter (fun e => decide (e.1 = u)) = (l.filter fun c => c.inmod = u).map fun c => (c.inmod, c.outmod) := by
    intro l u
    rw [List.filter_map]
    rfl
  have hnd : it.Nodup := hit.nodup_iff.2 (first_nodup hi0.modules)
  have hperm : it.Perm (order (converted A order recurrent n).modules) := by
    refine hit.trans ?_
    rw [← m1]
    refine hsame.modules.symm.trans ?_
    rw [m2]
    exact (ho _).symm
  have hcong := topologicalSort_congr it _ ((allConns (run A order empty ops)).map fun c => (c.inmod, c.outmod)) ((allConns (converted A order recurrent n)).map fun c => (c.inmod, c.outmod)) A.name
    hperm hnd
    (fun a ha b hb => hname a (by rw [m1]; exact hit.mem_iff.1 ha) b (by rw [m1]; exact hit.mem_iff.1 hb))
    (fun e he => by
      have h5 := (Verif.Props.C10_result_is_order _ _ _ _ t1).1
      obtain ⟨l1, l2, l3, hl⟩ := h5.2.2 e he
      exact ⟨(h5.2.1 e.1).1 (by simp [hl]), (h5.2.1 e.2).1 (by simp [hl])⟩)
    (fun u => by rw [hfm, hfm, hc1, hc2])
  rw [t1, t2] at hcong
  exact (Except.ok.inj hcong).symm

/-! ### owners -/

theorem setOwner_keep {N : Type} [DecidableEq X] (size : Part V M X → Nat) (me : N) (n : Net V M X) (own : Part V M X → N) (op : Op V M X) (p : Part V M X) (h : own p = me) :
    setOwner size me n own op p = me := by
  have key : ∀ (c : Prop) [Decidable c] (x : Part V M X), (if c then fun p => if p = x then me else own p else own) p = me := by
    intro c _ x
    split
    · dsimp only
      split
      · rfl
      · exact h
    · exact h
  have key' : ∀ (c : Prop) [Decidable c] (x : Part V M X), (if c then own else fun p => if p = x then me else own p) p = me := by
    intro c _ x
    split
    · exact h
    · dsimp only
      split
      · rfl
      · exact h
  cases op with
  | module m => exact key _ _
  | input m => exact key _ _
  | output m => exact key _ _
  | sort => exact h
  | connection c =>
    simp only [setOwner]
    cases c.mother with
    | some q => exact key' _ _
    | none => exact key _ _
  | recurrent c =>
    simp only [setOwner]
    cases c.mother with
    | some q => exact key' _ _
    | none => exact key _ _

theorem owners_keep {N : Type} [DecidableEq X] (A : Attr V M) (order : List V → List V) (size : Part V M X → Nat) (me : N) (n : Net V M X) (own : Part V M X → N) (ops : List (Op V M X))
    (p : Part V M X) (h : own p = me) : owners A order size me n own ops p = me := by
  induction ops generalizing n own with
  | nil => exact h
  | cons op ops ih => exact ih _ _ (setOwner_keep size me n own op p h)

/-- what a call adds -/
def adds (p : Part V M X) : Op V M X → Prop
  | .module m | .input m | .output m => p = .module m
  | .connection c => match c.mother with
    | some q => p = .mother q
    | none => p = .conn c
  | .recurrent c => match c.mother with
    | some q => p = .mother q
    | none => p = .recurrent c
  | .sort => False

theorem mem_addMother_keep (ms : List M) (o : Option M) (q : M) (h : q ∈ addMother ms o) : q ∈ ms ∨ o = some q := by
  cases o with
  | none => exact .inl h
  | some a =>
    simp only [addMother] at h
    split at h
    · exact .inl h
    · rcases List.mem_append.1 h with h | h
      · exact .inl h
      · rw [List.mem_singleton] at h; exact .inr (by rw [h])

theorem step_mothers (A : Attr V M) (order : List V → List V) (n : Net V M X) (op : Op V M X) (hs : op ≠ .sort) (q : M) (h : q ∈ (step A order n op).motherconnections) :
    q ∈ n.motherconnections ∨ adds (.mother q) op := by
  cases op with
  | module m => exact .inl h
  | input m => exact .inl h
  | output m => exact .inl h
  | sort => exact absurd rfl hs
  | connection c =>
    rcases mem_addMother_keep _ _ _ h with h | h
    · exact .inl h
    · exact .inr (by simp only [adds, h])
  | recurrent c =>
    rcases mem_addMother_keep _ _ _ h with h | h
    · exact .inl h
    · exact .inr (by simp only [adds, h])

theorem setOwner_adds {N : Type} [DecidableEq X] (size : Part V M X → Nat) (me : N) (n : Net V M X) (own : Part V M X → N) (op : Op V M X) (p : Part V M X) (h : adds p op) (h0 : (∀ q, p ≠ .mother q) → 0 < size p)
    (hm : ∀ q, q ∈ n.motherconnections → own (.mother q) = me) : setOwner size me n own op p = me := by
  cases op with
  | module m => simp only [adds] at h; subst h; simp [setOwner, h0 (by simp)]
  | input m => simp only [adds] at h; subst h; simp [setOwner, h0 (by simp)]
  | output m => simp only [adds] at h; subst h; simp [setOwner, h0 (by simp)]
  | sort => exact h.elim
  | connection c =>
    simp only [adds] at h
    simp only [setOwner]
    cases hc : c.mother with
    | none => rw [hc] at h; subst h; simp [h0 (by simp)]
    | some q =>
      rw [hc] at h
      subst h
      dsimp only
      split
      · rename_i hq; exact hm q hq
      · simp
  | recurrent c =>
    simp only [adds] at h
    simp only [setOwner]
    cases hc : c.mother with
    | none => rw [hc] at h; subst h; simp [h0 (by simp)]
    | some q =>
      rw [hc] at h
      subst h
      dsimp only
      split
      · rename_i hq; exact hm q hq
      · simp

theorem owners_adds {N : Type} [DecidableEq X] (A : Attr V M) (order : List V → List V) (size : Part V M X → Nat) (me : N) (n : Net V M X) (own : Part V M X → N) (ops : List (Op V M X))
    (hs : ∀ o ∈ ops, o ≠ .sort) (hm : ∀ q, q ∈ n.motherconnections → own (.mother q) = me) (p : Part V M X) (h0 : 0 < size p)
    (h : ∃ o ∈ ops, adds p o) : owners A order size me n own ops p = me := by
  induction ops generalizing n own with
  | nil => obtain ⟨o, ho, -⟩ := h; simp at ho
  | cons op ops ih =>
    by_cases hop : adds p op
    · exact owners_keep A order size me _ _ ops p (setOwner_adds size me n own op p hop (fun _ => h0) hm)
    · refine ih _ _ (fun o ho => hs o (by simp [ho])) (fun q hmem => ?_) ?_
      · rcases step_mothers A order n op (hs op (by simp)) q hmem with h1 | h1
        · exact setOwner_keep size me n own op _ (hm q h1)
        · exact setOwner_adds size me n own op _ h1 (fun h => absurd rfl (h q)) hm
      · obtain ⟨o, ho, ha⟩ := h
        rcases List.mem_cons.1 ho with rfl | ho
        · exact absurd ha hop
        · exact ⟨o, ho, ha⟩

end Verif.Builder

namespace Verif.Props

open Verif.Py Verif.Topo Verif.Topo.Spec Verif.Builder Verif.Builder.Spec

variable {V M X : Type} [DecidableEq V] [DecidableEq M]

/-- C183. Converting a network that was built by any calls and sorted: if all modules are layers of neurons, the result is the same network, ready for use, whatever the iteration orders of sets were; the components with parameters are the same ones, each once. -/
theorem C183_convert (A : Attr V M) (order : List V → List V) (ho : ∀ l, (order l).Perm l) (ops : List (Op V M X)) (it : List V) (n : Net V M X)
    (hit : it.Perm (run A order empty ops).modules) (hs : sortModules A it (run A order empty ops) = .ok n)
    (layer : V → Bool) (hl : ∀ m ∈ n.modules, layer m = true) (recurrent : Bool) (hrec : recurrent = false → n.recurrentConns = []) :
    ∃ n', convert A order layer recurrent n = .ok n' ∧ SameNet A n n' ∧ ∀ size : Part V M X → Nat, (containers size n').Perm (containers size n) := by
  have hr := ready A order ho ops it n hit hs
  obtain ⟨n', h1, h2⟩ := convert_main A order ho ops n hr recurrent hrec
  have hsub := mods_sub A ops n hr.inv
  have hall : (n.inmodules ++ n.outmodules ++ n.modules).all layer = true := by
    rw [List.all_eq_true]
    intro m hm
    simp only [List.mem_append] at hm
    rcases hm with (hm | hm) | hm
    · exact hl m (hsub.1 m hm)
    · exact hl m (hsub.2 m hm)
    · exact hl m hm
  have ho1 := hr.inv.order hr.sorted
  refine ⟨n', ?_, h2, fun size => containers_perm A n n' h2 ho1.1 (fun v => (ho1.2.1 v).trans (first_mem hr.inv.modules v).symm) size⟩
  rw [convert, if_pos hall]
  change (match sortModules A (order (converted A order recurrent n).modules) (converted A order recurrent n) with
    | .error e => Except.error (CErr.sort e)
    | .ok n' => .ok n') = _
  rw [h1]

/-- C183. A network with a module that is not a layer of neurons is refused. -/
theorem C183_refused (A : Attr V M) (order : List V → List V) (n : Net V M X) (layer : V → Bool) (m : V) (hm : m ∈ n.modules) (hl : layer m = false) (recurrent : Bool) :
    convert A order layer recurrent n = .error .assertion := by
  rw [convert, if_neg]
  rw [List.all_eq_true]
  intro h
  have := h m (by simp [hm])
  rw [hl] at this
  cases this

/-- C183, the order of the parameters: if modules and mothers have distinct names, and every module's connections were added in the order of their names, the converted network has its components, and therefore its parameters, in the
same order. -/
theorem C183_order_partial {K : Type} (A : Attr V M) (order : List V → List V) (ho : ∀ l, (order l).Perm l) (ops : List (Op V M X)) (it : List V) (n n' : Net V M X)
    (hit : it.Perm (run A order empty ops).modules) (hun : (run A order empty ops).sorted = false) (hs : sortModules A it (run A order empty ops) = .ok n)
    (hno : ∀ m cs, dget (run A order empty ops).connections m = some cs → cs.Pairwise (fun a b => a.name ≤ b.name))
    (hname : ∀ a ∈ n.modules, ∀ b ∈ n.modules, A.name a = A.name b → a = b) (hmoth : ∀ a ∈ n.motherconnections, ∀ b ∈ n.motherconnections, A.motherName a = A.motherName b → a = b)
    (layer : V → Bool) (recurrent : Bool) (hrec : recurrent = false → n.recurrentConns = []) (h : convert A order layer recurrent n = .ok n') (size : Part V M X → Nat) (values : Part V M X → List K) :
    n'.modulesSorted = n.modulesSorted ∧ containers size n' = containers size n ∧ vector size values n' = vector size values n := by
  have hr := ready A order ho ops it n hit hs
  obtain ⟨n2, h1, h2⟩ := convert_main A order ho ops n hr recurrent hrec
  have hn : n2 = n' := by
    rw [convert] at h
    split at h
    · change (match sortModules A (order (converted A order recurrent n).modules) (converted A order recurrent n) with
        | .error e => Except.error (CErr.sort e)
        | .ok n' => .ok n') = _ at h
      rw [h1] at h
      exact Except.ok.inj h
    · cases h
  subst hn
  have hord := order_main A order ho ops it n n2 hit hun hs hno hname recurrent h1 h2
  have hmo : n2.motherconnections = n.motherconnections := by
    have hinv := hr.inv.msorted hr.sorted
    refine List.Perm.eq_of_pairwise (le := fun a b => A.motherName a ≤ A.motherName b) (fun a b ha hb h3 h4 => ?_) h2.mothers.2 hinv h2.mothers.1
    exact hmoth a (h2.mothers.1.mem_iff.1 ha) b hb (String.le_antisymm h3 h4)
  have hc : containers size n2 = containers size n := by
    unfold containers
    rw [hord, h2.recs, hmo]
    congr 3
    refine List.flatMap_congr fun m hm => ?_
    have ho1 := hr.inv.order hr.sorted
    rw [ownParts, ownParts, h2.conns m ((first_mem hr.inv.modules m).2 ((ho1.2.1 m).1 hm))]
  exact ⟨hord, hc, by rw [vector, vector, hc]⟩

/-- The names of the negation: the tenth connection comes before the ninth one. -/
def Convert.exampleOps : List (Builder.Op Nat String Unit) :=
  [.input 0, .module 1, .module 2, .output 3, .connection ⟨0, 1, "FullConnection-9", none, ()⟩, .connection ⟨0, 2, "FullConnection-10", none, ()⟩,
    .connection ⟨1, 3, "FullConnection-11", none, ()⟩, .connection ⟨2, 3, "FullConnection-12", none, ()⟩]

/-- modules with names `0`, `1`, ... -/
def Convert.exampleAttr : Attr Nat String := ⟨fun n => toString n, fun n => n + 1, fun n => n + 1, id⟩

/-- the parts in the order of the parameters, as numbers: modules themselves, connections as ten times the source plus the target, plus 100 -/
def Convert.code : Part Nat String Unit → Nat
  | .module m => m
  | .conn c => 100 + 10 * c.inmod + c.outmod
  | _ => 0

/-- the network of the example -/
def Convert.exampleNet : Net Nat String Unit :=
  ⟨[0, 1, 2, 3], [0, 1, 2, 3], [(0, [⟨0, 2, "FullConnection-10", none, ()⟩, ⟨0, 1, "FullConnection-9", none, ()⟩]), (1, [⟨1, 3, "FullConnection-11", none, ()⟩]), (2, [⟨2, 3, "FullConnection-12", none, ()⟩]), (3, [])],
    [0], [3], [], [], 1, 4, true⟩

/-- the same network after the conversion -/
def Convert.exampleNew : Net Nat String Unit :=
  ⟨[0, 3, 1, 2], [0, 2, 1, 3], [(0, [⟨0, 2, "FullConnection-10", none, ()⟩, ⟨0, 1, "FullConnection-9", none, ()⟩]), (3, []), (1, [⟨1, 3, "FullConnection-11", none, ()⟩]), (2, [⟨2, 3, "FullConnection-12", none, ()⟩])],
    [0], [3], [], [], 1, 4, true⟩

theorem Convert.ok_of_toOption {ε α : Type} {e : Except ε α} {a : α} (h : e.toOption = some a) : e = .ok a := by
  cases e with
  | error _ => simp [Except.toOption] at h
  | ok b => simp only [Except.toOption, Option.some.injEq] at h; rw [h]

/-- **C183 fails for the order of the parameters**: the network is sorted in the order in which connections were added, the converted network in the order of their names, and "FullConnection-10" comes before "FullConnection-9". The same
values are then found at other places of the parameter vector. -/
theorem C183_negation_order :
    ∃ (ops : List (Builder.Op Nat String Unit)) (A : Attr Nat String) (n n' : Net Nat String Unit), sortModules A (run A id empty ops).modules (run A id empty ops) = .ok n ∧ convert A id (fun _ => true) false n = .ok n' ∧
      n.modulesSorted ≠ n'.modulesSorted ∧ (∀ a ∈ n.modules, ∀ b ∈ n.modules, A.name a = A.name b → a = b) ∧
      vector (fun _ => 1) (fun p => [Convert.code p]) n = [0, 102, 101, 1, 113, 2, 123, 3] ∧ vector (fun _ => 1) (fun p => [Convert.code p]) n' = [0, 102, 101, 2, 123, 1, 113, 3] := by
  have h1 : (sortModules Convert.exampleAttr (run Convert.exampleAttr id empty Convert.exampleOps).modules (run Convert.exampleAttr id empty Convert.exampleOps)) = .ok Convert.exampleNet := by
    apply Convert.ok_of_toOption
    decide +kernel
  have h2 : convert Convert.exampleAttr id (fun _ => true) false Convert.exampleNet = .ok Convert.exampleNew := by
    apply Convert.ok_of_toOption
    decide +kernel
  exact ⟨Convert.exampleOps, Convert.exampleAttr, _, _, h1, h2, by decide +kernel, by decide +kernel, by decide +kernel, by decide +kernel⟩

/-- **C183 fails for the original network**, in its values: after the conversion the components see a new array. Writing into the parameter vector of the original network is without effect on any component and on the new network, and
what is written into the new network is not seen in the vector of the original one. (The components of the new network may come in any order.) -/
theorem C183_negation_values {K : Type} [Zero K] (s : Params.PS K) (hv : s.netP.addr < s.heap.length) (compP compD : List Params.View) (dims : List Nat) (k : Nat) (x : K) (h : Params.Heap K) :
    let new := Params.sortModules { s with compP := compP, compD := compD, dims := dims }
    (Params.write new.heap s.netP k x = some h → new.compP.map (Params.read h) = new.compP.map (Params.read new.heap) ∧ Params.read h new.netP = Params.read new.heap new.netP) ∧
    (Params.write new.heap new.netP k x = some h → Params.read h s.netP = Params.read s.heap s.netP) := by
  intro new
  have e1 : new.netP.addr = s.heap.length := rfl
  have hread : ∀ (g g' : Params.Heap K) (v : Params.View), g.getD v.addr [] = g'.getD v.addr [] → Params.read g v = Params.read g' v := fun g g' v e => by rw [Params.read, Params.read, e]
  have hset : ∀ (v w : Params.View) (g g' : Params.Heap K), v.addr ≠ w.addr → Params.write g v k x = some g' → Params.read g' w = Params.read g w := by
    intro v w g g' hvw hw
    unfold Params.write at hw
    split at hw
    · cases hw
      exact hread _ _ _ (Params.getD_set_ne _ _ _ _ hvw)
    · cases hw
  refine ⟨fun hw => ⟨List.map_congr_left fun w hmem => ?_, ?_⟩, fun hw => ?_⟩
  · have : w.addr = s.heap.length := Params.handOut_addr _ _ _ w hmem
    exact hset _ _ _ _ (by omega) hw
  · exact hset _ _ _ _ (by omega) hw
  · rw [hset _ _ _ _ (by omega) hw]
    refine hread _ _ _ ?_
    have hh : ∀ d1 d2 : List K, ((s.heap ++ [d1]) ++ [d2]).getD s.netP.addr [] = s.heap.getD s.netP.addr [] := fun d1 d2 => by
      rw [Params.getD_append_left _ _ _ (by simp; omega), Params.getD_append_left _ _ _ hv]
    exact hh _ _

/-- **C183 fails for the original network**, in its interface: all components with parameters belong to the new network, so that setting the parameters of the original network raises an exception, if it has any. -/
theorem C183_negation_owner {N : Type} [DecidableEq N] [DecidableEq X] (A : Attr V M) (order : List V → List V) (ho : ∀ l, (order l).Perm l) (ops : List (Builder.Op V M X)) (it : List V) (n : Net V M X)
    (hit : it.Perm (run A order empty ops).modules) (hs : sortModules A it (run A order empty ops) = .ok n)
    (recurrent : Bool) (hrec : recurrent = false → n.recurrentConns = []) (size : Part V M X → Nat) (old new : N) (hne : new ≠ old) (own : Part V M X → N)
    (hp : containers size n ≠ []) :
    (∀ p ∈ containers size n, owners A order size new empty own (convertOps recurrent (order n.modules) n) p = new) ∧
      refusesParams old (owners A order size new empty own (convertOps recurrent (order n.modules) n)) (containers size n) = true := by
  have hr := ready A order ho ops it n hit hs
  have hcr : convRecs recurrent n = n.recurrentConns := by
    cases recurrent with
    | true => rfl
    | false => exact (hrec rfl).symm
  have hnosort : ∀ o ∈ convertOps recurrent (order n.modules) n, o ≠ .sort := by
    intro o hmem
    rw [convertOps_eq] at hmem
    simp only [List.mem_append, List.mem_map] at hmem
    rcases hmem with (((⟨_, _, rfl⟩ | ⟨_, _, rfl⟩) | ⟨_, _, rfl⟩) | ⟨_, _, rfl⟩) | ⟨_, _, rfl⟩ <;> simp
  have key : ∀ p ∈ containers size n, owners A order size new empty own (convertOps recurrent (order n.modules) n) p = new := by
    intro p hmem
    rw [containers, List.mem_filter] at hmem
    obtain ⟨hmem, h0⟩ := hmem
    refine owners_adds A order size new empty own _ hnosort (by simp [empty]) p (by simpa [Nat.pos_iff_ne_zero] using h0) ?_
    rw [convertOps_eq, hcr]
    have hconn : ∀ c, c ∈ allConns n → ∃ o ∈ n.recurrentConns.map .recurrent ++ n.inmodules.map .input ++ n.outmodules.map .output ++ (order n.modules).map .module ++ (allConns n).map .connection, o = Op.connection c :=
      fun c hc => ⟨_, by simp [hc], rfl⟩
    have hrecm : ∀ c, c ∈ n.recurrentConns → ∃ o ∈ n.recurrentConns.map .recurrent ++ n.inmodules.map .input ++ n.outmodules.map .output ++ (order n.modules).map .module ++ (allConns n).map .connection, o = Op.recurrent c :=
      fun c hc => ⟨_, by simp [hc], rfl⟩
    simp only [List.mem_append, List.mem_flatMap, List.mem_map, List.mem_filter] at hmem
    rcases hmem with (⟨m, hm, hp⟩ | ⟨q, hq, rfl⟩) | ⟨c, ⟨hc, hc2⟩, rfl⟩
    · have hm' : m ∈ n.modules := (first_mem hr.inv.modules m).2 (((hr.inv.order hr.sorted).2.1 m).1 hm)
      rw [ownParts, List.mem_cons] at hp
      rcases hp with rfl | hp
      · exact ⟨.module m, by simp [(ho n.modules).mem_iff, hm'], rfl⟩
      · rw [List.mem_map] at hp
        obtain ⟨c, hc, rfl⟩ := hp
        rw [List.mem_filter, ← filter_allConns A ops n hr.inv hr.keys, List.mem_filter] at hc
        obtain ⟨o, ho1, rfl⟩ := hconn c hc.1.1
        refine ⟨_, ho1, ?_⟩
        have : c.mother = none := by simpa using hc.2
        simp only [adds, this]
    · rw [hr.inv.mothers.1, mem_motherOf] at hq
      rcases hq with ⟨c, hc, hcm⟩ | ⟨c, hc, hcm⟩
      · obtain ⟨o, ho1, rfl⟩ := hconn c (hr.inv.all.mem_iff.2 hc)
        exact ⟨_, ho1, by simp only [adds, hcm]⟩
      · obtain ⟨o, ho1, rfl⟩ := hrecm c (hr.inv.recs.1.mem_iff.2 hc)
        exact ⟨_, ho1, by simp only [adds, hcm]⟩
    · obtain ⟨o, ho1, rfl⟩ := hrecm c hc
      have : c.mother = none := by simpa using hc2
      exact ⟨_, ho1, by simp only [adds, this]⟩
  refine ⟨key, ?_⟩
  obtain ⟨p, hpm⟩ := List.exists_mem_of_ne_nil _ hp
  rw [refusesParams, List.any_eq_true]
  exact ⟨p, hpm, by simpa [key p hpm] using hne⟩

/-- The hypotheses are met: a recurrent network of four modules with a shared connection whose connections were added in the order of their names. -/
example : let ops : List (Builder.Op Nat String Unit) := [.input 0, .module 1, .module 2, .output 3, .connection ⟨0, 1, "a", none, ()⟩, .connection ⟨0, 2, "b", some "M", ()⟩, .connection ⟨1, 3, "c", some "M", ()⟩,
      .connection ⟨2, 3, "d", none, ()⟩, .recurrent ⟨2, 2, "r", none, ()⟩]
    let n0 := run Convert.exampleAttr id empty ops
    n0.sorted = false ∧ (∀ p ∈ n0.connections, p.2.Pairwise fun a b => a.name ≤ b.name) ∧
      (((sortModules Convert.exampleAttr n0.modules n0).toOption.map fun n => (n.modulesSorted, n.motherconnections, n.recurrentConns.length, (containers (fun _ => 2) n).length)) = some ([0, 1, 2, 3], ["M"], 1, 8)) ∧
      (((sortModules Convert.exampleAttr n0.modules n0).toOption.bind fun n => (convert Convert.exampleAttr id (fun _ => true) true n).toOption.map fun n' => (n'.modulesSorted, n'.motherconnections, n'.recurrentConns.length))
        = some ([0, 1, 2, 3], ["M"], 1)) := by
  refine ⟨by decide +kernel, by decide +kernel, by decide +kernel, by decide +kernel⟩

end Verif.Props
