import Verif.Spec.Builder
import Verif.Props.TopoSort
/-
Lemmas about network construction.
-/
namespace Verif.Builder

open Verif.Py Verif.Topo Verif.Topo.Spec Verif.Builder.Spec

variable {V M X : Type} [DecidableEq V] [DecidableEq M]

section
variable {α κ : Type}

/-- Same elements, and those of equal name in the same order. -/
def Stable (name : α → String) (added l : List α) : Prop :=
  l.Perm added ∧ ∀ s, l.filter (fun a => name a = s) = added.filter (fun a => name a = s)

theorem Stable.refl (name : α → String) (l : List α) : Stable name l l := ⟨.refl _, fun _ => rfl⟩

theorem Stable.trans {name : α → String} {a b c : List α} (h : Stable name a b) (h' : Stable name b c) : Stable name a c :=
  ⟨h'.1.trans h.1, fun s => (h'.2 s).trans (h.2 s)⟩

theorem Stable.append {name : α → String} {a b : List α} (h : Stable name a b) (x : List α) : Stable name (a ++ x) (b ++ x) :=
  ⟨h.1.append_right x, fun s => by rw [List.filter_append, List.filter_append, h.2 s]⟩

theorem filter_orderedInsert (name : α → String) (a : α) (l : List α) (s : String) :
    (l.orderedInsert (fun a b => name a ≤ name b) a).filter (fun a => name a = s) = (a :: l).filter (fun a => name a = s) := by
  induction l with
  | nil => simp
  | cons b l ih =>
    rw [List.orderedInsert_cons]
    by_cases hab : name a ≤ name b
    · rw [if_pos hab]
    · rw [if_neg hab, List.filter_cons, ih]
      by_cases hb : name b = s
      · have ha : name a ≠ s := by intro h; apply hab; rw [h, hb]; exact String.le_refl _
        simp [hb, ha]
      · simp [List.filter_cons, hb]

theorem byName_stable (name : α → String) (l : List α) : Stable name l (byName name l) := by
  refine ⟨List.perm_insertionSort _ _, fun s => ?_⟩
  unfold byName
  induction l with
  | nil => rfl
  | cons a l ih => rw [List.insertionSort_cons, filter_orderedInsert, List.filter_cons, List.filter_cons, ih]

theorem byName_sorted (name : α → String) (l : List α) : (byName name l).Pairwise (fun a b => name a ≤ name b) := by
  have h1 : Std.Total (fun a b : α => name a ≤ name b) := ⟨fun a b => String.le_total _ _⟩
  have h2 : IsTrans α (fun a b : α => name a ≤ name b) := ⟨fun a b c h h2 => String.le_trans h h2⟩
  exact List.pairwise_insertionSort _ l

theorem byName_of_sorted (name : α → String) (l : List α) (h : l.Pairwise (fun a b => name a ≤ name b)) : byName name l = l :=
  List.Pairwise.insertionSort_eq h

theorem sortedBy_iff (name : α → String) (added l : List α) :
    SortedBy name added l ↔ Stable name added l ∧ l.Pairwise (fun a b => name a ≤ name b) :=
  ⟨fun h => ⟨⟨h.1, h.2.2⟩, h.2.1⟩, fun h => ⟨h.1.1, h.2, h.1.2⟩⟩

theorem dset_none [DecidableEq κ] (d : List (κ × α)) (k : κ) (v : α) (h : dget d k = none) : dset d k v = d ++ [(k, v)] := by
  induction d with
  | nil => rfl
  | cons p d ih =>
    obtain ⟨k', v'⟩ := p
    by_cases hk : k' = k
    · simp [dget, hk] at h
    · simp only [dget, hk, if_false] at h
      simp [dset, hk, ih h]

theorem flatMap_dset [DecidableEq κ] (d : List (κ × List α)) (k : κ) (l v : List α) (h : dget d k = some l) :
    ((dset d k v).flatMap Prod.snd ++ l).Perm (d.flatMap Prod.snd ++ v) := by
  induction d with
  | nil => simp [dget] at h
  | cons p d ih =>
    obtain ⟨k', v'⟩ := p
    by_cases hk : k' = k
    · subst hk
      simp only [dget, if_true, Option.some.injEq] at h
      subst h
      simp only [dset, if_true, List.flatMap_cons]
      exact (List.perm_append_comm).trans (by
        rw [List.append_assoc]
        exact List.Perm.append_left _ List.perm_append_comm)
    · simp only [dget, hk, if_false] at h
      simp only [dset, hk, if_false, List.flatMap_cons, List.append_assoc]
      exact List.Perm.append_left _ (ih h)

/-- appending an element that may occur already -/
theorem first_snoc [DecidableEq α] (added l : List α) (a : α) (h : FirstOccurrences added l) :
    FirstOccurrences (added ++ [a]) (if a ∈ l then l else l ++ [a]) := by
  unfold FirstOccurrences at *
  have hm : a ∈ l ↔ a ∈ added.reverse := by rw [h]; simp
  rw [List.reverse_append]
  simp only [List.reverse_cons, List.reverse_nil, List.nil_append, List.singleton_append]
  by_cases ha : a ∈ l
  · rw [if_pos ha, List.dedup_cons_of_mem (hm.1 ha)]; exact h
  · rw [if_neg ha, List.dedup_cons_of_notMem (fun h' => ha (hm.2 h')), List.reverse_cons, ← h]

theorem first_mem [DecidableEq α] {added l : List α} (h : FirstOccurrences added l) (a : α) : a ∈ l ↔ a ∈ added := by
  rw [h]; simp

theorem first_nodup [DecidableEq α] {added l : List α} (h : FirstOccurrences added l) : l.Nodup := by
  rw [h]; exact List.nodup_reverse.2 (List.nodup_dedup _)

end

/-- The connections of `m` added by a history. -/
def own (ops : List (Op V M X)) (m : V) : List (Conn V M X) := (ops.filterMap connOf).filter fun c => c.inmod = m

/-- The edges added by a history. -/
def edgesOf (ops : List (Op V M X)) : List (V × V) := (ops.filterMap connOf).map fun c => (c.inmod, c.outmod)

/-- The invariant of construction. -/
structure Inv (A : Attr V M) (ops : List (Op V M X)) (n : Net V M X) : Prop where
  modules : FirstOccurrences (ops.filterMap modOf) n.modules
  inputs : FirstOccurrences (ops.filterMap inputOf) n.inmodules
  outputs : FirstOccurrences (ops.filterMap outputOf) n.outmodules
  all : (allConns n).Perm (ops.filterMap connOf)
  keys : ∀ m ∈ n.modules, (dget n.connections m).isSome
  conns : ∀ m cs, dget n.connections m = some cs → Stable (fun c => c.name) (own ops m) cs
  nokey : ∀ m, dget n.connections m = none → own ops m = []
  recs : Stable (fun c => c.name) (ops.filterMap recOf) n.recurrentConns
  mothers : (∀ m, m ∈ n.motherconnections ↔ m ∈ ops.filterMap motherOf) ∧ n.motherconnections.Nodup
  order : n.sorted = true → IsTopoOrder (ops.filterMap modOf) (edgesOf ops) n.modulesSorted
  csorted : n.sorted = true → ∀ m ∈ n.modules, ∀ cs, dget n.connections m = some cs → cs.Pairwise (fun a b => a.name ≤ b.name)
  msorted : n.sorted = true → n.motherconnections.Pairwise (fun a b => A.motherName a ≤ A.motherName b)
  dims : n.sorted = true → n.indim = (n.inmodules.map A.indim).sum ∧ n.outdim = (n.outmodules.map A.outdim).sum

theorem inv_empty (A : Attr V M) : Inv A ([] : List (Op V M X)) empty where
  modules := by simp [FirstOccurrences, empty]
  inputs := by simp [FirstOccurrences, empty]
  outputs := by simp [FirstOccurrences, empty]
  all := by simp [allConns, empty]
  keys := by simp [empty]
  conns := by simp [empty, dget]
  nokey := by simp [own]
  recs := Stable.refl _ _
  mothers := by simp [empty]
  order := by simp [empty]
  csorted := by simp [empty]
  msorted := by simp [empty]
  dims := by simp [empty]

/-- `addModule` after the input or output list has been updated. -/
theorem inv_addModule (A : Attr V M) (ops : List (Op V M X)) (n : Net V M X) (h : Inv A ops n) (op : Op V M X) (m : V)
    (ins outs : List V) (hm : modOf op = some m) (hc : connOf op = none) (hr : recOf op = none) (hmo : motherOf op = none)
    (hi : FirstOccurrences ((ops ++ [op]).filterMap inputOf) ins) (ho : FirstOccurrences ((ops ++ [op]).filterMap outputOf) outs) :
    Inv A (ops ++ [op]) (addModule { n with inmodules := ins, outmodules := outs } m) := by
  have hown : ∀ v, own (ops ++ [op]) v = own ops v := fun v => by simp [own, List.filterMap_append, hc]
  have hdget : ∀ v, dget (addModule { n with inmodules := ins, outmodules := outs } m).connections v =
      if v = m ∧ dget n.connections m = none then some [] else dget n.connections v := by
    intro v
    simp only [addModule]
    cases hd : dget n.connections m with
    | none =>
      by_cases hv : v = m
      · subst hv; simp [dget_dset]
      · simp [dget_dset, hv, Ne.symm hv]
    | some cs => simp
  refine ⟨?_, hi, ho, ?_, ?_, ?_, ?_, ?_, ?_, ?_, ?_, ?_, ?_⟩
  · rw [List.filterMap_append]
    simp only [List.filterMap_cons, hm, List.filterMap_nil, addModule]
    exact first_snoc _ _ _ h.modules
  · have e : (allConns (addModule { n with inmodules := ins, outmodules := outs } m)) = allConns n := by
      simp only [allConns, addModule]
      cases hd : dget n.connections m with
      | none => simp [dset_none _ _ _ hd]
      | some cs => simp
    rw [e, List.filterMap_append]
    simpa [hc] using h.all
  · intro v hv
    rw [hdget]
    split
    · rfl
    · rename_i hn
      simp only [addModule] at hv
      have : v ∈ n.modules ∨ v = m := by
        split at hv
        · exact .inl hv
        · simpa using hv
      rcases this with hv | hv
      · exact h.keys v hv
      · subst hv
        cases hd : dget n.connections v with
        | none => exact absurd ⟨rfl, hd⟩ hn
        | some cs => rfl
  · intro v cs hcs
    rw [hdget] at hcs
    rw [hown]
    split at hcs
    · rename_i hn
      cases hcs
      rw [hn.1, h.nokey m hn.2]
      exact Stable.refl _ _
    · exact h.conns v cs hcs
  · intro v hv
    rw [hdget] at hv
    rw [hown]
    split at hv
    · cases hv
    · exact h.nokey v hv
  · rw [List.filterMap_append]
    simpa [hr, addModule] using h.recs
  · rw [List.filterMap_append]
    simpa [hmo, addModule] using h.mothers
  all_goals simp [addModule]

theorem mem_addMother (ms : List M) (o : Option M) (hn : ms.Nodup) :
    (∀ m, m ∈ addMother ms o ↔ m ∈ ms ∨ o = some m) ∧ (addMother ms o).Nodup := by
  cases o with
  | none => simpa [addMother] using hn
  | some a =>
    by_cases ha : a ∈ ms
    · simp only [addMother, ha, if_true, Option.some.injEq]
      refine ⟨fun m => ⟨.inl, ?_⟩, hn⟩
      rintro (h | rfl)
      · exact h
      · exact ha
    · simp only [addMother, ha, if_false, Option.some.injEq]
      refine ⟨fun m => by simp [eq_comm], ?_⟩
      rw [List.nodup_append]
      exact ⟨hn, by simp, fun x hx y hy => by
        rw [List.mem_singleton] at hy; subst hy; exact fun e => ha (e ▸ hx)⟩

theorem inv_mothers (ops : List (Op V M X)) (op : Op V M X) (ms : List M) (o : Option M) (ho : motherOf op = o)
    (h : (∀ m, m ∈ ms ↔ m ∈ ops.filterMap motherOf) ∧ ms.Nodup) :
    (∀ m, m ∈ addMother ms o ↔ m ∈ (ops ++ [op]).filterMap motherOf) ∧ (addMother ms o).Nodup := by
  obtain ⟨h1, h2⟩ := mem_addMother ms o h.2
  refine ⟨fun m => ?_, h2⟩
  rw [h1, h.1, List.filterMap_append, List.mem_append]
  subst ho
  cases hh : motherOf op <;> simp [hh, eq_comm]

theorem inv_addConnection (A : Attr V M) (ops : List (Op V M X)) (n : Net V M X) (h : Inv A ops n) (c : Conn V M X) :
    Inv A (ops ++ [.connection c]) (addConnection n c) := by
  have hown : ∀ v, own (ops ++ [.connection c]) v = own ops v ++ (if c.inmod = v then [c] else []) := fun v => by
    simp only [own, List.filterMap_append, List.filter_append, List.filterMap_cons, connOf, List.filterMap_nil]
    by_cases hv : c.inmod = v <;> simp [hv]
  have hcc : dget (addConnection n c).connections c.inmod = some ((dget n.connections c.inmod).getD [] ++ [c]) := by
    simp only [addConnection, dget_dset_self]
    cases hd : dget n.connections c.inmod with
    | none => simp [dget_dset]
    | some cs => simp [hd]
  have hne : ∀ v, c.inmod ≠ v → dget (addConnection n c).connections v = dget n.connections v := by
    intro v hv
    simp only [addConnection, dget_dset_ne _ _ _ _ hv]
    cases hd : dget n.connections c.inmod with
    | none => simp [dget_dset, hv]
    | some cs => simp
  refine ⟨?_, ?_, ?_, ?_, ?_, ?_, ?_, ?_, ?_, ?_, ?_, ?_, ?_⟩
  · simpa [List.filterMap_append, List.filterMap_cons, List.filterMap_nil, modOf, addConnection] using h.modules
  · simpa [List.filterMap_append, List.filterMap_cons, List.filterMap_nil, inputOf, addConnection] using h.inputs
  · simpa [List.filterMap_append, List.filterMap_cons, List.filterMap_nil, outputOf, addConnection] using h.outputs
  · have e : (allConns (addConnection n c)).Perm (allConns n ++ [c]) := by
      simp only [allConns, addConnection]
      cases hd : dget n.connections c.inmod with
      | none =>
        have := flatMap_dset (dset n.connections c.inmod []) c.inmod [] [c] (by simp [dget_dset])
        simp only [Option.isSome_none, Bool.false_eq_true, if_false, dget_dset_self, Option.getD_some, List.nil_append]
        simp only [List.append_nil] at this
        refine this.trans ?_
        simp [dset_none _ _ _ hd]
      | some cs =>
        simp only [Option.isSome_some, if_true, hd, Option.getD_some]
        have := flatMap_dset n.connections c.inmod cs (cs ++ [c]) hd
        have h2 : (n.connections.flatMap Prod.snd ++ (cs ++ [c])).Perm ((n.connections.flatMap Prod.snd ++ [c]) ++ cs) := by
          rw [List.append_assoc]
          exact List.Perm.append_left _ List.perm_append_comm
        exact (List.perm_append_right_iff cs).1 (this.trans h2)
    rw [List.filterMap_append]
    exact e.trans (h.all.append_right _)
  · intro v hv
    by_cases hcv : c.inmod = v
    · subst hcv; rw [hcc]; rfl
    · rw [hne v hcv]; exact h.keys v hv
  · intro v cs hcs
    rw [hown]
    by_cases hcv : c.inmod = v
    · subst hcv
      rw [hcc] at hcs
      cases hcs
      rw [if_pos rfl]
      refine Stable.append ?_ _
      cases hd : dget n.connections c.inmod with
      | none => rw [h.nokey _ hd]; exact Stable.refl _ _
      | some cs => exact h.conns _ _ hd
    · rw [hne v hcv] at hcs
      simpa [hcv] using h.conns v cs hcs
  · intro v hv
    rw [hown]
    by_cases hcv : c.inmod = v
    · subst hcv
      rw [hcc] at hv; cases hv
    · rw [hne v hcv] at hv
      simpa [hcv] using h.nokey v hv
  · simpa [List.filterMap_append, List.filterMap_cons, List.filterMap_nil, recOf, addConnection] using h.recs
  · exact inv_mothers ops _ _ _ rfl h.mothers
  all_goals simp [addConnection]

theorem inv_addRecurrent (A : Attr V M) (ops : List (Op V M X)) (n : Net V M X) (h : Inv A ops n) (c : Conn V M X) :
    Inv A (ops ++ [.recurrent c]) (addRecurrentConnection n c) := by
  have hown : ∀ v, own (ops ++ [.recurrent c]) v = own ops v := fun v => by simp [own, List.filterMap_append, List.filterMap_cons, List.filterMap_nil, connOf]
  refine ⟨?_, ?_, ?_, ?_, h.keys, ?_, ?_, ?_, ?_, ?_, ?_, ?_, ?_⟩
  · simpa [List.filterMap_append, List.filterMap_cons, List.filterMap_nil, modOf, addRecurrentConnection] using h.modules
  · simpa [List.filterMap_append, List.filterMap_cons, List.filterMap_nil, inputOf, addRecurrentConnection] using h.inputs
  · simpa [List.filterMap_append, List.filterMap_cons, List.filterMap_nil, outputOf, addRecurrentConnection] using h.outputs
  · simpa [List.filterMap_append, List.filterMap_cons, List.filterMap_nil, connOf, allConns, addRecurrentConnection] using h.all
  · intro v cs; rw [hown]; exact h.conns v cs
  · intro v; rw [hown]; exact h.nokey v
  · rw [List.filterMap_append]
    exact h.recs.append _
  · exact inv_mothers ops _ _ _ rfl h.mothers
  all_goals simp [addRecurrentConnection]

/-- Sorting the recurrent connections, with no other change. -/
theorem inv_recs (A : Attr V M) (ops : List (Op V M X)) (n : Net V M X) (h : Inv A ops n) :
    Inv A ops { n with recurrentConns := byName (fun c => c.name) n.recurrentConns } :=
  ⟨h.modules, h.inputs, h.outputs, h.all, h.keys, h.conns, h.nokey, h.recs.trans (byName_stable _ _), h.mothers, h.order, h.csorted,
    h.msorted, h.dims⟩

/-- `sort` adds nothing. -/
theorem inv_snoc_sort (A : Attr V M) (ops : List (Op V M X)) (n : Net V M X) (h : Inv A ops n) : Inv A (ops ++ [.sort]) n := by
  have hown : ∀ v, own (ops ++ [.sort]) v = own ops v := fun v => by simp [own, List.filterMap_append, List.filterMap_cons, List.filterMap_nil, connOf]
  have he : edgesOf (ops ++ [.sort]) = edgesOf ops := by simp [edgesOf, List.filterMap_append, List.filterMap_cons, List.filterMap_nil, connOf]
  refine ⟨?_, ?_, ?_, ?_, h.keys, ?_, ?_, ?_, ?_, ?_, h.csorted, h.msorted, h.dims⟩
  · simpa [List.filterMap_append, List.filterMap_cons, List.filterMap_nil, modOf] using h.modules
  · simpa [List.filterMap_append, List.filterMap_cons, List.filterMap_nil, inputOf] using h.inputs
  · simpa [List.filterMap_append, List.filterMap_cons, List.filterMap_nil, outputOf] using h.outputs
  · simpa [List.filterMap_append, List.filterMap_cons, List.filterMap_nil, connOf] using h.all
  · intro v cs; rw [hown]; exact h.conns v cs
  · intro v; rw [hown]; exact h.nokey v
  · simpa [List.filterMap_append, List.filterMap_cons, List.filterMap_nil, recOf] using h.recs
  · simpa [List.filterMap_append, List.filterMap_cons, List.filterMap_nil, motherOf] using h.mothers
  · rw [he]; simpa [List.filterMap_append, List.filterMap_cons, List.filterMap_nil, modOf] using h.order

/-- Sorting the lists of connections. -/
theorem sortConns_ok (ms : List V) (conns : List (V × List (Conn V M X))) (h : ∀ m ∈ ms, (dget conns m).isSome) :
    ∃ conns', sortConns conns ms = .ok conns' ∧ (conns'.flatMap Prod.snd).Perm (conns.flatMap Prod.snd) ∧
      (∀ v, (dget conns' v = none ↔ dget conns v = none)) ∧
      (∀ v cs', dget conns' v = some cs' → ∃ cs, dget conns v = some cs ∧ Stable (fun c => c.name) cs cs') ∧
      (∀ v ∈ ms, ∀ cs', dget conns' v = some cs' → cs'.Pairwise (fun a b => a.name ≤ b.name)) ∧
      (∀ v ∉ ms, dget conns' v = dget conns v) := by
  induction ms generalizing conns with
  | nil => exact ⟨conns, rfl, .refl _, fun _ => Iff.rfl, fun v cs' hcs => ⟨cs', hcs, Stable.refl _ _⟩, by simp, fun _ _ => rfl⟩
  | cons m ms ih =>
    obtain ⟨cs, hcs⟩ := Option.isSome_iff_exists.1 (h m (by simp))
    have hd : ∀ v, dget (dset conns m (byName (fun c => c.name) cs)) v = if m = v then some (byName (fun c => c.name) cs) else dget conns v :=
      fun v => dget_dset _ _ _ _
    obtain ⟨conns', h1, h2, h3, h4, h5, h6⟩ := ih (dset conns m (byName (fun c => c.name) cs)) (by
      intro v hv
      rw [hd]
      split
      · rfl
      · exact h v (by simp [hv]))
    refine ⟨conns', by simp [sortConns, hcs, h1], h2.trans ?_, fun v => ?_, fun v cs' hv => ?_, fun v hv cs' hcs' => ?_, fun v hv => ?_⟩
    · have h7 := flatMap_dset conns m cs (byName (fun c => c.name) cs) hcs
      have h8 := h7.trans (List.Perm.append_left _ (byName_stable (fun c : Conn V M X => c.name) cs).1)
      exact (List.perm_append_right_iff cs).1 h8
    · rw [h3, hd]
      split
      · rename_i e; subst e; simp [hcs]
      · rfl
    · obtain ⟨cs1, h9, h10⟩ := h4 v cs' hv
      rw [hd] at h9
      split at h9
      · rename_i e; subst e
        cases h9
        exact ⟨cs, hcs, (byName_stable _ _).trans h10⟩
      · exact ⟨cs1, h9, h10⟩
    · by_cases hvm : v ∈ ms
      · exact h5 v hvm cs' hcs'
      · have : v = m := by simpa [hvm] using hv
        subst this
        rw [h6 v hvm, hd, if_pos rfl] at hcs'
        cases hcs'
        exact byName_sorted _ _
    · have hv' : v ≠ m ∧ v ∉ ms := by simpa using hv
      rw [h6 v hv'.2, hd, if_neg (Ne.symm hv'.1)]

theorem topo_congr {ms ms' : List V} {es es' : List (V × V)} {l : List V} (hm : ∀ v, v ∈ ms ↔ v ∈ ms') (he : ∀ e, e ∈ es ↔ e ∈ es')
    (h : IsTopoOrder ms es l) : IsTopoOrder ms' es' l :=
  ⟨h.1, fun v => (h.2.1 v).trans (hm v), fun e hx => h.2.2 e ((he e).2 hx)⟩

theorem acyclic_congr {es es' : List (V × V)} (he : ∀ e, e ∈ es ↔ e ∈ es') (h : Acyclic es) : Acyclic es' := by
  intro v hv
  refine h v ?_
  exact Relation.TransGen.mono (fun a b hab => (he (a, b)).2 hab) v v hv

/-- The outcome of `sortModules`. -/
theorem sortModules_spec (A : Attr V M) (it : List V) (ops : List (Op V M X)) (n : Net V M X) (h : Inv A ops n) (hit : it.Perm n.modules) :
    ((∀ e ∈ edgesOf ops, e.1 ∈ ops.filterMap modOf ∧ e.2 ∈ ops.filterMap modOf) → Acyclic (edgesOf ops) →
      ∃ n', sortModules A it n = .ok n' ∧ n'.sorted = true ∧ Inv A ops n' ∧ n'.recurrentConns.Pairwise (fun a b => a.name ≤ b.name)) ∧
    ((∀ e ∈ edgesOf ops, e.1 ∈ ops.filterMap modOf ∧ e.2 ∈ ops.filterMap modOf) → ¬ Acyclic (edgesOf ops) →
      sortModules A it n = .error .loop) ∧
    ((∃ e ∈ edgesOf ops, e.1 ∉ ops.filterMap modOf ∨ e.2 ∉ ops.filterMap modOf) → sortModules A it n = .error .keyError) := by
  have hr := inv_recs A ops n h
  by_cases hs : n.sorted = true
  · have ho := h.order hs
    have hac : Acyclic (edgesOf ops) := acyclic_of_topo ho
    have hmem : ∀ e ∈ edgesOf ops, e.1 ∈ ops.filterMap modOf ∧ e.2 ∈ ops.filterMap modOf := by
      intro e he
      obtain ⟨l1, l2, l3, hl⟩ := ho.2.2 e he
      exact ⟨(ho.2.1 e.1).1 (by simp [hl]), (ho.2.1 e.2).1 (by simp [hl])⟩
    refine ⟨fun _ _ => ⟨{ n with recurrentConns := byName (fun c => c.name) n.recurrentConns },
      by simp only [sortModules, hs, if_true], hs, hr, byName_sorted _ _⟩, fun _ hna => absurd hac hna, ?_⟩
    rintro ⟨e, he, hne⟩
    rcases hne with hne | hne
    · exact absurd (hmem e he).1 hne
    · exact absurd (hmem e he).2 hne
  · have hs' : n.sorted = false := by simpa using hs
    have hedges : ∀ e, e ∈ (allConns n).map (fun c => (c.inmod, c.outmod)) ↔ e ∈ edgesOf ops :=
      fun e => (h.all.map _).mem_iff
    have hmods : ∀ v, v ∈ it ↔ v ∈ ops.filterMap modOf := fun v => (hit.mem_iff).trans (first_mem h.modules v)
    have hunf : sortModules A it n =
        match topologicalSort it ((allConns n).map (fun c => (c.inmod, c.outmod))) A.name with
        | .error e => .error e
        | .ok l =>
          match sortConns n.connections it with
          | .error e => .error e
          | .ok conns =>
            .ok { n with
              recurrentConns := byName (fun c => c.name) n.recurrentConns
              modulesSorted := l
              connections := conns
              motherconnections := byName A.motherName n.motherconnections
              indim := (n.inmodules.map A.indim).sum
              outdim := (n.outmodules.map A.outdim).sum
              sorted := true } := by
      simp only [sortModules, hs', Bool.false_eq_true, if_false]
      rfl
    refine ⟨fun hmem hac => ?_, fun hmem hna => ?_, ?_⟩
    · obtain ⟨l, hl, ho⟩ := (Verif.Props.C10_topological_sort it ((allConns n).map (fun c => (c.inmod, c.outmod))) A.name
        (fun e he => by rw [hmods, hmods]; exact hmem e ((hedges e).1 he))).1 (acyclic_congr (fun e => (hedges e).symm) hac)
      obtain ⟨conns', h1, h2, h3, h4, h5, h6⟩ := sortConns_ok it n.connections (fun m hm => h.keys m (hit.mem_iff.1 hm))
      rw [hunf, hl, h1]
      refine ⟨_, rfl, rfl, ⟨h.modules, h.inputs, h.outputs, h2.trans h.all, ?_, ?_, ?_, h.recs.trans (byName_stable _ _), ?_, ?_, ?_, ?_, ?_⟩, byName_sorted _ _⟩
      · intro m hm
        have := h.keys m hm
        cases hd : dget conns' m with
        | none => rw [(h3 m).1 hd] at this; cases this
        | some cs => rfl
      · intro m cs hcs
        obtain ⟨cs0, h9, h10⟩ := h4 m cs hcs
        exact (h.conns m cs0 h9).trans h10
      · intro m hm
        exact h.nokey m ((h3 m).1 hm)
      · refine ⟨fun m => ?_, ?_⟩
        · rw [← h.mothers.1 m]; exact (byName_stable A.motherName n.motherconnections).1.mem_iff
        · exact ((byName_stable A.motherName n.motherconnections).1.nodup_iff).2 h.mothers.2
      · exact fun _ => topo_congr hmods hedges ho
      · exact fun _ m hm cs hcs => h5 m (hit.mem_iff.2 hm) cs hcs
      · exact fun _ => byName_sorted _ _
      · exact fun _ => ⟨rfl, rfl⟩
    · rw [hunf, (Verif.Props.C10_topological_sort it ((allConns n).map (fun c => (c.inmod, c.outmod))) A.name
        (fun e he => by rw [hmods, hmods]; exact hmem e ((hedges e).1 he))).2 (fun hac => hna (acyclic_congr hedges hac))]
    · rintro ⟨e, he, hne⟩
      rw [hunf, Verif.Props.C10_dangling it ((allConns n).map (fun c => (c.inmod, c.outmod))) A.name
        ⟨e, (hedges e).2 he, by rw [hmods, hmods]; exact hne⟩]

theorem inv_step (A : Attr V M) (order : List V → List V) (ho : ∀ l, (order l).Perm l) (ops : List (Op V M X)) (n : Net V M X)
    (h : Inv A ops n) (op : Op V M X) : Inv A (ops ++ [op]) (step A order n op) := by
  cases op with
  | module m =>
    exact inv_addModule A ops n h (.module m) m n.inmodules n.outmodules rfl rfl rfl rfl
      (by simpa [List.filterMap_append, List.filterMap_cons, List.filterMap_nil, inputOf] using h.inputs) (by simpa [List.filterMap_append, List.filterMap_cons, List.filterMap_nil, outputOf] using h.outputs)
  | input m =>
    exact inv_addModule A ops n h (.input m) m _ n.outmodules rfl rfl rfl rfl
      (by rw [List.filterMap_append]; exact first_snoc _ _ _ h.inputs) (by simpa [List.filterMap_append, List.filterMap_cons, List.filterMap_nil, outputOf] using h.outputs)
  | output m =>
    exact inv_addModule A ops n h (.output m) m n.inmodules _ rfl rfl rfl rfl
      (by simpa [List.filterMap_append, List.filterMap_cons, List.filterMap_nil, inputOf] using h.inputs) (by rw [List.filterMap_append]; exact first_snoc _ _ _ h.outputs)
  | connection c => exact inv_addConnection A ops n h c
  | recurrent c => exact inv_addRecurrent A ops n h c
  | sort =>
    refine inv_snoc_sort A ops _ ?_
    have hs := sortModules_spec A (order n.modules) ops n h (ho n.modules)
    simp only [step]
    have herr : ∀ e, sortModules A (order n.modules) n = .error e → n.sorted = false := by
      intro e he
      by_contra hc
      have hc : n.sorted = true := by simpa using hc
      simp [sortModules, hc] at he
    by_cases hmem : ∀ e ∈ edgesOf ops, e.1 ∈ ops.filterMap modOf ∧ e.2 ∈ ops.filterMap modOf
    · by_cases hac : Acyclic (edgesOf ops)
      · obtain ⟨n', h1, _, h2, _⟩ := hs.1 hmem hac
        rw [h1]; exact h2
      · have h1 := hs.2.1 hmem hac
        rw [h1]
        have hf := herr _ h1
        have hr := inv_recs A ops n h
        exact ⟨hr.modules, hr.inputs, hr.outputs, hr.all, hr.keys, hr.conns, hr.nokey, hr.recs, hr.mothers,
          by simp [hf], hr.csorted, hr.msorted, hr.dims⟩
    · have h1 := hs.2.2 (by push Not at hmem; obtain ⟨e, he, h'⟩ := hmem; exact ⟨e, he, by tauto⟩)
      rw [h1]
      have hf := herr _ h1
      have hr := inv_recs A ops n h
      exact ⟨hr.modules, hr.inputs, hr.outputs, hr.all, hr.keys, hr.conns, hr.nokey, hr.recs, hr.mothers,
        by simp [hf], hr.csorted, hr.msorted, hr.dims⟩

theorem inv_run (A : Attr V M) (order : List V → List V) (ho : ∀ l, (order l).Perm l) (ops0 ops : List (Op V M X)) (n : Net V M X)
    (h : Inv A ops0 n) : Inv A (ops0 ++ ops) (run A order n ops) := by
  induction ops generalizing ops0 n with
  | nil => simpa [run] using h
  | cons op ops ih =>
    have := ih (ops0 ++ [op]) (step A order n op) (inv_step A order ho ops0 n h op)
    simpa [run] using this

end Verif.Builder
