import Verif.Lemmas.XmlNet2
import Verif.Lemmas.Builder
import Mathlib.Data.List.Nodup
import Mathlib.Data.List.Pairwise
import Mathlib.Data.List.Perm.Lattice
/-
Lemmas about saving and reading networks: a network that is built again from what was written.
-/
namespace Verif.XmlNet

open Verif.Py Verif.Builder Verif.Builder.Spec Verif.XmlNet.Spec Verif.Topo Verif.Topo.Spec

variable {K : Type}

/-- the connections that are written -/
def connsOf (n : Builder.Net Nat Nat (Ext K)) : List (NConn K) := n.modulesSorted.flatMap (fun m => (dget n.connections m).getD [])

def opOf (f : Nat → Nat) (p : Nat × Bool × Bool) : Op Nat Nat (Ext K) :=
  if p.2.1 then .input (f p.1) else if (!p.2.1 && p.2.2) then .output (f p.1) else .module (f p.1)

def opsOf (f g : Nat → Nat) (n : Builder.Net Nat Nat (Ext K)) : List (Op Nat Nat (Ext K)) :=
  (writeOrder n).map (opOf f) ++ (connsOf n).map (fun c => .connection (mapConn f g c)) ++
    n.recurrentConns.map (fun c => .recurrent (mapConn f g c))

/-- The network before it is sorted. -/
def rebuilt (f g : Nat → Nat) (n : Builder.Net Nat Nat (Ext K)) : Builder.Net Nat Nat (Ext K) :=
  n.recurrentConns.foldl (fun n c => addRecurrentConnection n (mapConn f g c))
    ((connsOf n).foldl (fun n c => addConnection n (mapConn f g c)) (addAll f empty (writeOrder n)))

theorem run_opsOf (A : Attr Nat Nat) (order : List Nat → List Nat) (f g : Nat → Nat) (n : Builder.Net Nat Nat (Ext K)) :
    run A order empty (opsOf f g n) = rebuilt f g n := by
  simp only [run, opsOf, rebuilt, List.foldl_append, List.foldl_map]
  congr 2
  unfold addAll
  congr 1
  funext m p
  obtain ⟨a, i, o⟩ := p
  cases i <;> cases o <;> simp [opOf, addAs, step]

theorem mods_opsOf (f g : Nat → Nat) (n : Builder.Net Nat Nat (Ext K)) :
    (opsOf f g n).filterMap modOf = (writeOrder n).map (fun p => f p.1) := by
  simp only [opsOf, List.filterMap_append, List.filterMap_map]
  have h1 : (modOf ∘ fun c : NConn K => (Op.connection (mapConn f g c) : Op Nat Nat (Ext K))) = fun _ => none := by funext c; rfl
  have h2 : (modOf ∘ fun c : NConn K => (Op.recurrent (mapConn f g c) : Op Nat Nat (Ext K))) = fun _ => none := by funext c; rfl
  have h3 : (modOf ∘ (opOf f : _ → Op Nat Nat (Ext K))) = fun p => some (f p.1) := by
    funext p
    obtain ⟨a, i, o⟩ := p
    cases i <;> cases o <;> rfl
  rw [h1, h2, h3]
  simp

theorem ins_opsOf (f g : Nat → Nat) (n : Builder.Net Nat Nat (Ext K)) : (opsOf f g n).filterMap inputOf = n.inmodules.map f := by
  simp only [opsOf, List.filterMap_append, List.filterMap_map, writeOrder, List.map_append, List.map_map]
  have h1 : (inputOf ∘ fun c : NConn K => (Op.connection (mapConn f g c) : Op Nat Nat (Ext K))) = fun _ => none := by funext c; rfl
  have h2 : (inputOf ∘ fun c : NConn K => (Op.recurrent (mapConn f g c) : Op Nat Nat (Ext K))) = fun _ => none := by funext c; rfl
  have h3 : (inputOf ∘ ((opOf f : _ → Op Nat Nat (Ext K)) ∘ fun a => (a, true, decide (a ∈ n.outmodules)))) = fun a => some (f a) := by
    funext p; rfl
  have h4 : (inputOf ∘ ((opOf f : _ → Op Nat Nat (Ext K)) ∘ fun a => (a, false, true))) = fun _ => none := by funext p; rfl
  have h5 : (inputOf ∘ ((opOf f : _ → Op Nat Nat (Ext K)) ∘ fun a => (a, false, false))) = fun _ => none := by funext p; rfl
  rw [h1, h2, h3, h4, h5]
  simp

theorem outs_opsOf (f g : Nat → Nat) (n : Builder.Net Nat Nat (Ext K)) (hr : ∀ m ∈ n.inmodules, m ∉ n.outmodules) :
    (opsOf f g n).filterMap outputOf = n.outmodules.map f := by
  simp only [opsOf, List.filterMap_append, List.filterMap_map, writeOrder, List.map_append, List.map_map]
  have h1 : (outputOf ∘ fun c : NConn K => (Op.connection (mapConn f g c) : Op Nat Nat (Ext K))) = fun _ => none := by funext c; rfl
  have h2 : (outputOf ∘ fun c : NConn K => (Op.recurrent (mapConn f g c) : Op Nat Nat (Ext K))) = fun _ => none := by funext c; rfl
  have h3 : (outputOf ∘ ((opOf f : _ → Op Nat Nat (Ext K)) ∘ fun a => (a, true, decide (a ∈ n.outmodules)))) = fun _ => none := by
    funext p; rfl
  have h4 : (outputOf ∘ ((opOf f : _ → Op Nat Nat (Ext K)) ∘ fun a => (a, false, true))) = fun a => some (f a) := by funext p; rfl
  have h5 : (outputOf ∘ ((opOf f : _ → Op Nat Nat (Ext K)) ∘ fun a => (a, false, false))) = fun _ => none := by funext p; rfl
  rw [h1, h2, h3, h4, h5]
  have h6 : n.outmodules.filter (fun a => decide (a ∉ n.inmodules)) = n.outmodules := by
    rw [List.filter_eq_self]
    intro a ha
    exact decide_eq_true (fun hi => hr a hi ha)
  rw [h6]
  simp

theorem conns_opsOf (f g : Nat → Nat) (n : Builder.Net Nat Nat (Ext K)) :
    (opsOf f g n).filterMap connOf = (connsOf n).map (mapConn f g) := by
  simp only [opsOf, List.filterMap_append, List.filterMap_map]
  have h1 : (connOf ∘ fun c : NConn K => (Op.connection (mapConn f g c) : Op Nat Nat (Ext K))) = fun c => some (mapConn f g c) := by funext c; rfl
  have h2 : (connOf ∘ fun c : NConn K => (Op.recurrent (mapConn f g c) : Op Nat Nat (Ext K))) = fun _ => none := by funext c; rfl
  have h3 : (connOf ∘ (opOf f : _ → Op Nat Nat (Ext K))) = fun p => none := by
    funext p
    obtain ⟨a, i, o⟩ := p
    cases i <;> cases o <;> rfl
  rw [h1, h2, h3]
  simp

theorem recs_opsOf (f g : Nat → Nat) (n : Builder.Net Nat Nat (Ext K)) :
    (opsOf f g n).filterMap recOf = n.recurrentConns.map (mapConn f g) := by
  simp only [opsOf, List.filterMap_append, List.filterMap_map]
  have h1 : (recOf ∘ fun c : NConn K => (Op.connection (mapConn f g c) : Op Nat Nat (Ext K))) = fun _ => none := by funext c; rfl
  have h2 : (recOf ∘ fun c : NConn K => (Op.recurrent (mapConn f g c) : Op Nat Nat (Ext K))) = fun c => some (mapConn f g c) := by funext c; rfl
  have h3 : (recOf ∘ (opOf f : _ → Op Nat Nat (Ext K))) = fun p => none := by
    funext p
    obtain ⟨a, i, o⟩ := p
    cases i <;> cases o <;> rfl
  rw [h1, h2, h3]
  simp

/-- The mothers of a history are those of its connections. -/
theorem mem_mothers (ops : List (Op Nat Nat (Ext K))) (m : Nat) :
    m ∈ ops.filterMap motherOf ↔ (∃ c ∈ ops.filterMap connOf, c.mother = some m) ∨ ∃ c ∈ ops.filterMap recOf, c.mother = some m := by
  simp only [List.mem_filterMap]
  constructor
  · rintro ⟨op, ho, hm⟩
    cases op with
    | connection c => exact .inl ⟨c, ⟨_, ho, rfl⟩, hm⟩
    | recurrent c => exact .inr ⟨c, ⟨_, ho, rfl⟩, hm⟩
    | _ => cases hm
  · rintro (⟨c, ⟨op, ho, hc⟩, hm⟩ | ⟨c, ⟨op, ho, hc⟩, hm⟩)
    · cases op <;> cases hc
      exact ⟨_, ho, hm⟩
    · cases op <;> cases hc
      exact ⟨_, ho, hm⟩

section
variable {A : Attr Nat Nat} {ops : List (Op Nat Nat (Ext K))} {n : Builder.Net Nat Nat (Ext K)}

theorem built_mem (hb : Built A ops n) (m : Nat) : m ∈ n.modulesSorted ↔ m ∈ n.modules :=
  (hb.order.2.1 m).trans (first_mem hb.modules m).symm

theorem built_ins (hb : Built A ops n) (m : Nat) (hm : m ∈ n.inmodules) : m ∈ n.modules := by
  rw [first_mem hb.inputs, List.mem_filterMap] at hm
  obtain ⟨op, ho, hm⟩ := hm
  rw [first_mem hb.modules, List.mem_filterMap]
  refine ⟨op, ho, ?_⟩
  cases op <;> first | exact hm | cases hm

theorem built_outs (hb : Built A ops n) (m : Nat) (hm : m ∈ n.outmodules) : m ∈ n.modules := by
  rw [first_mem hb.outputs, List.mem_filterMap] at hm
  obtain ⟨op, ho, hm⟩ := hm
  rw [first_mem hb.modules, List.mem_filterMap]
  refine ⟨op, ho, ?_⟩
  cases op <;> first | exact hm | cases hm

theorem writeOrder_mem (hb : Built A ops n) (m : Nat) : m ∈ (writeOrder n).map Prod.fst ↔ m ∈ n.modules := by
  simp only [writeOrder, List.map_append, List.map_map, List.mem_append, List.mem_map, List.mem_filter, Function.comp, decide_eq_true_eq,
    Bool.and_eq_true]
  constructor
  · rintro ((⟨a, ha, rfl⟩ | ⟨a, ha, rfl⟩) | ⟨a, ha, rfl⟩)
    · exact built_ins hb _ ha
    · exact built_outs hb _ ha.1
    · exact (built_mem hb _).1 ha.1
  · intro hm
    by_cases hi : m ∈ n.inmodules
    · exact .inl (.inl ⟨m, hi, rfl⟩)
    · by_cases ho : m ∈ n.outmodules
      · exact .inl (.inr ⟨m, ⟨ho, hi⟩, rfl⟩)
      · exact .inr ⟨m, ⟨(built_mem hb _).2 hm, hi, ho⟩, rfl⟩

theorem writeOrder_nodup (hb : Built A ops n) : ((writeOrder n).map Prod.fst).Nodup := by
  have hid : ∀ (l : List Nat) (g : Nat → Bool × Bool), (l.map (fun a => (a, g a))).map Prod.fst = l := by
    intro l g; simp [List.map_map, Function.comp_def]
  have h1 := hid n.inmodules (fun a => (true, decide (a ∈ n.outmodules)))
  have h2 := hid (n.outmodules.filter (fun a => decide (a ∉ n.inmodules))) (fun _ => (false, true))
  have h3 := hid (n.modulesSorted.filter (fun a => decide (a ∉ n.inmodules) && decide (a ∉ n.outmodules))) (fun _ => (false, false))
  unfold writeOrder
  rw [List.map_append, List.map_append, h1, h2, h3]
  rw [List.nodup_append, List.nodup_append]
  refine ⟨⟨first_nodup hb.inputs, (first_nodup hb.outputs).filter _, ?_⟩, hb.order.1.filter _, ?_⟩
  · intro a ha b hb' hab
    rw [List.mem_filter] at hb'
    exact of_decide_eq_true hb'.2 (hab ▸ ha)
  · intro a ha b hb' hab
    rw [List.mem_filter, Bool.and_eq_true] at hb'
    rw [List.mem_append, List.mem_filter] at ha
    rcases ha with ha | ha
    · exact of_decide_eq_true hb'.2.1 (hab ▸ ha)
    · exact of_decide_eq_true hb'.2.2 (hab ▸ ha.1)

/-- The connections of the module `m` among those written. -/
theorem connsOf_filter (hb : Built A ops n) (m : Nat) (hm : m ∈ n.modules) :
    (connsOf n).filter (fun c => c.inmod = m) = (dget n.connections m).getD [] := by
  have hin : ∀ v ∈ n.modulesSorted, ∀ c ∈ (dget n.connections v).getD [], c.inmod = v := by
    intro v hv c hc
    obtain ⟨cs, h1, h2⟩ := hb.conns v hv
    rw [h1] at hc
    have := h2.1.mem_iff.1 hc
    rw [List.mem_filter] at this
    exact of_decide_eq_true this.2
  have key : ∀ l : List Nat, l.Nodup → (∀ v ∈ l, v ∈ n.modulesSorted) →
      (l.flatMap (fun m => (dget n.connections m).getD [])).filter (fun c => c.inmod = m) =
        if m ∈ l then (dget n.connections m).getD [] else [] := by
    intro l
    induction l with
    | nil => intro _ _; rfl
    | cons v l ih =>
      intro hnd hl
      rw [List.nodup_cons] at hnd
      rw [List.flatMap_cons, List.filter_append, ih hnd.2 (fun w hw => hl w (List.mem_cons_of_mem _ hw))]
      by_cases hv : v = m
      · subst hv
        rw [if_neg hnd.1, if_pos List.mem_cons_self, List.append_nil, List.filter_eq_self]
        intro c hc
        exact decide_eq_true (hin v (hl v List.mem_cons_self) c hc)
      · have : ((dget n.connections v).getD []).filter (fun c => decide (c.inmod = m)) = [] := by
          rw [List.filter_eq_nil_iff]
          intro c hc
          rw [hin v (hl v List.mem_cons_self) c hc]
          simpa using hv
        rw [this, List.nil_append]
        simp [Ne.symm hv]
  unfold connsOf
  rw [key _ hb.order.1 (fun v hv => hv), if_pos ((built_mem hb m).2 hm)]

/-- The connections written are those added. -/
theorem connsOf_mem (hb : Built A ops n) (c : NConn K) : c ∈ connsOf n ↔ c ∈ ops.filterMap connOf := by
  unfold connsOf
  rw [List.mem_flatMap]
  constructor
  · rintro ⟨m, hm, hc⟩
    obtain ⟨cs, h1, h2⟩ := hb.conns m hm
    rw [h1] at hc
    exact (List.mem_filter.1 (h2.1.mem_iff.1 hc)).1
  · intro hc
    obtain ⟨l1, l2, l3, hl⟩ := hb.order.2.2 (c.inmod, c.outmod) (List.mem_map.2 ⟨c, hc, rfl⟩)
    have hm : c.inmod ∈ n.modulesSorted := by rw [hl]; simp
    obtain ⟨cs, h1, h2⟩ := hb.conns _ hm
    refine ⟨_, hm, ?_⟩
    rw [h1]
    exact h2.1.mem_iff.2 (List.mem_filter.2 ⟨hc, by simp⟩)

theorem connsOf_ends (hb : Built A ops n) (c : NConn K) (hc : c ∈ connsOf n) : c.inmod ∈ n.modules ∧ c.outmod ∈ n.modules := by
  rw [connsOf_mem hb] at hc
  obtain ⟨l1, l2, l3, hl⟩ := hb.order.2.2 (c.inmod, c.outmod) (List.mem_map.2 ⟨c, hc, rfl⟩)
  rw [← built_mem hb, ← built_mem hb, hl]
  simp

theorem mothers_mem (hb : Built A ops n) (m : Nat) :
    m ∈ n.motherconnections ↔ (∃ c ∈ connsOf n, c.mother = some m) ∨ ∃ c ∈ n.recurrentConns, c.mother = some m := by
  rw [hb.mothers.1, mem_mothers]
  simp only [connsOf_mem hb, hb.recs.1.mem_iff]

theorem nodup_map_on (f : Nat → Nat) (l l0 : List Nat) (hl : l.Nodup) (hs : ∀ x ∈ l, x ∈ l0) (hf : ∀ x ∈ l0, ∀ y ∈ l0, f x = f y → x = y) :
    (l.map f).Nodup := hl.map_on (fun x hx y hy h => hf x (hs x hx) y (hs y hy) h)

/-- The network that is built again is sorted to a copy of the one that was written. -/
theorem rebuilt_ok (hb : Built A ops n) (hroles : ∀ m ∈ n.inmodules, m ∉ n.outmodules)
    (hmn : ∀ x ∈ n.motherconnections, ∀ y ∈ n.motherconnections, A.motherName x = A.motherName y → x = y)
    (A' : Attr Nat Nat) (order : List Nat → List Nat) (ho : ∀ l, (order l).Perm l) (f g : Nat → Nat)
    (hf : ∀ x ∈ n.modules, ∀ y ∈ n.modules, f x = f y → x = y)
    (hg : ∀ x ∈ n.motherconnections, ∀ y ∈ n.motherconnections, g x = g y → x = y)
    (hA : ∀ x ∈ n.modules, A'.indim (f x) = A.indim x ∧ A'.outdim (f x) = A.outdim x)
    (hM : ∀ x ∈ n.motherconnections, A'.motherName (g x) = A.motherName x) :
    ∃ n3, sortModules A' (order (rebuilt f g n).modules) (rebuilt f g n) = .ok n3 ∧
      n3.modules.Perm (n.modules.map f) ∧ n3.inmodules = n.inmodules.map f ∧ n3.outmodules = n.outmodules.map f ∧
      n3.motherconnections = n.motherconnections.map g ∧
      (∀ x ∈ n.modules, (dget n3.connections (f x)) = (dget n.connections x).map (List.map (mapConn f g))) ∧
      n3.recurrentConns = n.recurrentConns.map (mapConn f g) ∧
      IsTopoOrder n3.modules ((allConns n3).map fun c => (c.inmod, c.outmod)) n3.modulesSorted ∧
      n3.indim = n.indim ∧ n3.outdim = n.outdim ∧ n3.sorted = true := by
  have hinv : Inv A' (opsOf f g n) (rebuilt f g n) := by
    have := inv_run A' order ho [] (opsOf f g n) empty (inv_empty A')
    rwa [run_opsOf, List.nil_append] at this
  have hmods := mods_opsOf f g n
  have hconns := conns_opsOf f g n
  have hmm : ∀ x ∈ n.modules, f x ∈ (opsOf f g n).filterMap modOf := by
    intro x hx
    rw [hmods, List.mem_map]
    have := (writeOrder_mem hb x).2 hx
    rw [List.mem_map] at this
    obtain ⟨p, h1, h2⟩ := this
    exact ⟨p, h1, by rw [h2]⟩
  have hedge : ∀ e ∈ edgesOf (opsOf f g n), ∃ c ∈ connsOf n, e = (f c.inmod, f c.outmod) := by
    intro e he
    unfold edgesOf at he
    rw [hconns, List.map_map, List.mem_map] at he
    obtain ⟨c, h1, h2⟩ := he
    exact ⟨c, h1, h2.symm⟩
  have hmem : ∀ e ∈ edgesOf (opsOf f g n), e.1 ∈ (opsOf f g n).filterMap modOf ∧ e.2 ∈ (opsOf f g n).filterMap modOf := by
    intro e he
    obtain ⟨c, h1, rfl⟩ := hedge e he
    obtain ⟨h2, h3⟩ := connsOf_ends hb c h1
    exact ⟨hmm _ h2, hmm _ h3⟩
  have hac : Acyclic (edgesOf (opsOf f g n)) := by
    refine acyclic_of_topo (nodes := n.modulesSorted.map f) (l := n.modulesSorted.map f) ⟨?_, fun v => Iff.rfl, ?_⟩
    · exact nodup_map_on f _ n.modules hb.order.1 (fun x hx => (built_mem hb x).1 hx) hf
    · intro e he
      obtain ⟨c, h1, rfl⟩ := hedge e he
      obtain ⟨l1, l2, l3, hl⟩ := hb.order.2.2 (c.inmod, c.outmod) (List.mem_map.2 ⟨c, (connsOf_mem hb c).1 h1, rfl⟩)
      refine ⟨l1.map f, l2.map f, l3.map f, ?_⟩
      rw [hl]
      simp
  obtain ⟨n3, s1, s2, s3, s4⟩ := (sortModules_spec A' (order (rebuilt f g n).modules) (opsOf f g n) (rebuilt f g n) hinv (ho _)).1 hmem hac
  have hnd : ((writeOrder n).map (fun p => f p.1)).Nodup := by
    have h1 := nodup_map_on f _ n.modules (writeOrder_nodup hb) (fun x hx => (writeOrder_mem hb x).1 hx) hf
    rwa [List.map_map] at h1
  have e1 : n3.modules = (writeOrder n).map (fun p => f p.1) := by
    have := s3.modules
    rw [hmods] at this
    exact first_eq this hnd
  have e2 : n3.inmodules = n.inmodules.map f := by
    have := s3.inputs
    rw [ins_opsOf] at this
    exact first_eq this (nodup_map_on f _ n.modules (first_nodup hb.inputs) (built_ins hb) hf)
  have e3 : n3.outmodules = n.outmodules.map f := by
    have := s3.outputs
    rw [outs_opsOf f g n hroles] at this
    exact first_eq this (nodup_map_on f _ n.modules (first_nodup hb.outputs) (built_outs hb) hf)
  have e4 : n3.modules.Perm (n.modules.map f) := by
    rw [e1]
    have h1 : ((writeOrder n).map Prod.fst).Perm n.modules :=
      (List.perm_ext_iff_of_nodup (writeOrder_nodup hb) (first_nodup hb.modules)).2 (writeOrder_mem hb)
    have h2 := h1.map f
    rwa [List.map_map] at h2
  have e5 : n3.motherconnections = n.motherconnections.map g := by
    have hmemg : ∀ m, m ∈ n3.motherconnections ↔ m ∈ n.motherconnections.map g := by
      intro m
      rw [s3.mothers.1 m, mem_mothers, hconns, recs_opsOf, List.mem_map]
      simp only [List.mem_map]
      constructor
      · rintro (⟨c', ⟨c, hc, rfl⟩, hm⟩ | ⟨c', ⟨c, hc, rfl⟩, hm⟩)
        · simp only [mapConn, Option.map_eq_some_iff] at hm
          obtain ⟨m0, h1, h2⟩ := hm
          exact ⟨m0, (mothers_mem hb m0).2 (.inl ⟨c, hc, h1⟩), h2⟩
        · simp only [mapConn, Option.map_eq_some_iff] at hm
          obtain ⟨m0, h1, h2⟩ := hm
          exact ⟨m0, (mothers_mem hb m0).2 (.inr ⟨c, hc, h1⟩), h2⟩
      · rintro ⟨m0, h1, rfl⟩
        rcases (mothers_mem hb m0).1 h1 with ⟨c, hc, hm⟩ | ⟨c, hc, hm⟩
        · exact .inl ⟨_, ⟨c, hc, rfl⟩, by simp [mapConn, hm]⟩
        · exact .inr ⟨_, ⟨c, hc, rfl⟩, by simp [mapConn, hm]⟩
    have hp : n3.motherconnections.Perm (n.motherconnections.map g) :=
      (List.perm_ext_iff_of_nodup s3.mothers.2 (nodup_map_on g _ _ hb.mothers.2.1 (fun _ h => h) hg)).2 hmemg
    refine List.Perm.eq_of_pairwise (le := fun a b => A'.motherName a ≤ A'.motherName b) ?_ (s3.msorted s2) ?_ hp
    · intro a b ha hb' hab hba
      obtain ⟨x, hx, rfl⟩ := List.mem_map.1 ((hmemg a).1 ha)
      obtain ⟨y, hy, rfl⟩ := List.mem_map.1 hb'
      rw [hM x hx, hM y hy] at hab hba
      rw [hmn x hx y hy (String.le_antisymm hab hba)]
    · rw [List.pairwise_map]
      refine List.Pairwise.imp_of_mem ?_ hb.mothers.2.2
      intro x y hx hy hxy
      rw [hM x hx, hM y hy]
      exact hxy
  have e6 : ∀ x ∈ n.modules, (dget n3.connections (f x)) = (dget n.connections x).map (List.map (mapConn f g)) := by
    intro x hx
    have hx3 : f x ∈ n3.modules := e4.mem_iff.2 (List.mem_map.2 ⟨x, hx, rfl⟩)
    have h1 := s3.keys (f x) hx3
    obtain ⟨cs', hcs'⟩ := Option.isSome_iff_exists.1 h1
    obtain ⟨cs, hcs, hs1⟩ := hb.conns x ((built_mem hb x).2 hx)
    have h2 := s3.conns (f x) cs' hcs'
    have h3 := s3.csorted s2 (f x) hx3 cs' hcs'
    have hown : own (opsOf f g n) (f x) = cs.map (mapConn f g) := by
      unfold own
      rw [hconns, List.filter_map]
      have h4 : (connsOf n).filter ((fun c => decide (c.inmod = f x)) ∘ mapConn f g) = (connsOf n).filter (fun c => decide (c.inmod = x)) := by
        refine List.filter_congr ?_
        intro c hc
        have h5 := (connsOf_ends hb c hc).1
        exact decide_eq_decide.2 ⟨fun h => hf _ h5 _ hx h, fun h => congrArg f h⟩
      rw [h4, connsOf_filter hb x hx, hcs]
      rfl
    rw [hown] at h2
    rw [hcs', hcs, Option.map_some]
    congr 1
    refine sorted_ext (fun c : NConn K => c.name) _ _ h3 ?_ h2.1 h2.2
    rw [List.pairwise_map]
    exact hs1.2.1
  have e7 : n3.recurrentConns = n.recurrentConns.map (mapConn f g) := by
    have h2 := s3.recs
    rw [recs_opsOf] at h2
    refine sorted_ext (fun c : NConn K => c.name) _ _ s4 ?_ h2.1 h2.2
    rw [List.pairwise_map]
    exact hb.recs.2.1
  refine ⟨n3, s1, e4, e2, e3, e5, e6, e7, ?_, ?_, ?_, s2⟩
  · refine topo_congr (fun v => (first_mem s3.modules v).symm) ?_ (s3.order s2)
    intro e
    exact ((s3.all.map _).mem_iff).symm
  · rw [(s3.dims s2).1, e2, hb.indim, List.map_map]
    congr 1
    refine List.map_congr_left ?_
    intro a ha
    exact (hA a (built_ins hb a ha)).1
  · rw [(s3.dims s2).2, e3, hb.outdim, List.map_map]
    congr 1
    refine List.map_congr_left ?_
    intro a ha
    exact (hA a (built_outs hb a ha)).2

end

/-- Reading back what was written, by induction on the depth. -/
theorem module_ok (h : Heap K) (N Mo : List String) (hN : "" ∉ N) (hMo : "" ∉ Mo) (init : Nat → K) (order : List Nat → List Nat)
    (ho : ∀ l, (order l).Perm l) : ∀ d, ModuleOK h N Mo init order d := by
  intro d
  induction d with
  | zero => intro a inm outm r hs; exact hs.elim
  | succ d IH =>
    intro a inm outm r hs hc hk hmk
    have noneN : ∀ (r : Reader K), (∀ s, (dget r.modules s).isSome → s ∈ N) → ∀ s, s ∉ N → dget r.modules s = none := by
      intro r hk s hs
      cases hd : dget r.modules s with
      | none => rfl
      | some v => exact absurd (hk s (by simp [hd])) hs
    have noneM : ∀ (r : Reader K), (∀ s, (dget r.mothers s).isSome → s ∈ Mo) → ∀ s, s ∉ Mo → dget r.mothers s = none := by
      intro r hk s hs
      cases hd : dget r.mothers s with
      | none => rfl
      | some v => exact absurd (hk s (by simp [hd])) hs
    unfold Savable at hs
    cases ha : h.objs[a]? with
    | none => rw [ha] at hs; exact hs.elim
    | some x =>
      rw [ha] at hs
      have htexts : ∀ t ∈ textsIn h (d + 1) a, t ∉ N ∧ t ∉ Mo := hc.texts
      have hmoth := hc.mothers
      have hnam := hc.names
      unfold textsIn at htexts
      unfold mothersIn at hmoth
      unfold namesIn at hnam
      rw [ha] at htexts hmoth hnam
      have haname : (attr h).name a = x.name := by simp [attr, ha]
      cases x with
      | leaf l =>
        simp only at hs htexts
        have hread := readLeaf_ok r l hs.1 hs.2 init
          (fun p hp => by
            have := htexts p.2.repr (List.mem_map.2 ⟨p, hp, rfl⟩)
            exact ⟨noneN r hk _ this.1, noneM r hmk _ this.2⟩)
          ⟨noneN r hk _ hN, noneM r hmk _ hMo⟩
        refine ⟨.leaf (writeLeaf l) inm (!inm && outm), { r with heap := { r.heap with objs := r.heap.objs ++ [.leaf l] } }, r.heap.objs.length,
          ?_, ?_, rfl, rfl, ?_, ?_⟩
        · simp only [writeModule, ha]
        · rw [haname]; rfl
        · rw [readObject, hread]
        · refine ⟨⟨List.prefix_append _ _, List.prefix_refl _⟩, le_rfl, by simp, ?_, fun _ _ => rfl, hk, hmk⟩
          unfold Same
          rw [ha]
          simp
      | net hd n =>
        simp only at hs htexts hmoth hnam
        obtain ⟨hsn, hsm⟩ := hs
        obtain ⟨ops, hb⟩ := hsn.built
        have hclean : ∀ m ∈ n.modules, Clean h N Mo d m := by
          intro m hm
          refine ⟨fun t ht => htexts t ?_, fun s hs => hmoth s ?_, fun s hs => hnam s ?_⟩
          · simp only [List.mem_append, List.mem_flatMap]
            exact .inl (.inl ⟨m, hm, ht⟩)
          · simp only [List.mem_append, List.mem_flatMap]
            exact .inr ⟨m, hm, hs⟩
          · rw [List.mem_flatMap]
            exact ⟨m, hm, List.mem_cons_of_mem _ hs⟩
        have hmemL : ∀ p ∈ writeOrder n, p.1 ∈ n.modules := fun p hp =>
          (writeOrder_mem hb p.1).1 (List.mem_map.2 ⟨p, hp, rfl⟩)
        have hnd := writeOrder_nodup hb
        unfold List.Nodup at hnd
        rw [List.pairwise_map] at hnd
        obtain ⟨nodes, r1, v1, v2, v3, v4, v5, v6, v7, v8⟩ := modules_ok h N Mo init order d IH (writeOrder n) r empty
          (fun p hp => ⟨(hsm _ (hmemL p hp)).1, hclean _ (hmemL p hp), hnam _ (List.mem_flatMap.2 ⟨p.1, hmemL p hp, List.mem_cons_self⟩)⟩)
          (List.Pairwise.imp_of_mem (fun hp hq hne he => hne (hsn.names _ (hmemL _ hp) _ (hmemL _ hq) he)) hnd)
          (fun p hp q hq hin => (hsm _ (hmemL q hq)).2 _ hin (List.mem_map.2 ⟨p.1, hmemL p hp, rfl⟩))
          hk hmk
        have hmmem : ∀ x ∈ n.motherconnections, (attr h).motherName x ∉ N ∧ (attr h).motherName x ∈ Mo := fun x hx =>
          hmoth _ (List.mem_append_left _ (List.mem_map.2 ⟨x, hx, rfl⟩))
        obtain ⟨bs, r2, u1, u2, u3, u4, u5, u6, u7, u8, u9⟩ := mothers_ok h Mo init n.motherconnections r1
          (fun x hx => by
            obtain ⟨m, h1, h2⟩ := hsn.mothers x hx
            have h3 := htexts (Lit.int m.params.length).repr (by
              simp only [List.mem_append, List.mem_map]
              exact .inl (.inr ⟨x, hx, by simp [h1]⟩))
            exact ⟨m, h1, h2, noneN r1 v7 _ h3.1, h3.2, (hmmem x hx).2⟩)
          (List.Pairwise.imp_of_mem (fun hp hq hne he => hne (hsn.mnames _ hp _ hq he)) hb.mothers.2.1)
          (noneN r1 v7 _ hN) hMo v8
        have hk2 : ∀ s, (dget r2.modules s).isSome → s ∈ N := by rw [u3]; exact v7
        have hext12 : HeapExt r1.heap r2.heap := ⟨by rw [u4], u5⟩
        -- the addresses of the copies
        let f := newOf h r1
        let g := newMother h r2
        have hfx : ∀ x ∈ n.modules, dget r2.modules ((attr h).name x) = some (f x) ∧ r.heap.objs.length ≤ f x ∧
            f x < r1.heap.objs.length ∧ Same h r2.heap d x (f x) := by
          intro x hx
          have := (writeOrder_mem hb x).2 hx
          rw [List.mem_map] at this
          obtain ⟨p, hp, rfl⟩ := this
          obtain ⟨a', b1, b2, b3, b4⟩ := v4 p hp
          have he : f p.1 = a' := by simp [f, newOf, b1]
          rw [he, u3]
          exact ⟨b1, b2, b3, same_mono hext12 _ _ _ b4⟩
        have hgx : ∀ x ∈ n.motherconnections, dget r2.mothers ((attr h).motherName x) = some (g x) ∧
            ∃ m, h.mothers[x]? = some m ∧ r2.heap.mothers[g x]? = some m := by
          intro x hx
          obtain ⟨b, m, b1, b2, b3, b4⟩ := u6 x hx
          have he : g x = b := by simp [g, newMother, b1]
          rw [he]
          exact ⟨b1, m, b2, b3⟩
        have hfinj : ∀ x ∈ n.modules, ∀ y ∈ n.modules, f x = f y → x = y := by
          intro x hx y hy hxy
          by_contra hne
          have hx' := (writeOrder_mem hb x).2 hx
          have hy' := (writeOrder_mem hb y).2 hy
          rw [List.mem_map] at hx' hy'
          obtain ⟨p, hp, rfl⟩ := hx'
          obtain ⟨q, hq, rfl⟩ := hy'
          have hsym : Std.Symm (fun p q : Nat × Bool × Bool => newOf h r1 p.1 ≠ newOf h r1 q.1) := ⟨fun _ _ hh => hh.symm⟩
          exact v5.forall hp hq (fun hh => hne (by rw [hh])) hxy
        have hginj : ∀ x ∈ n.motherconnections, ∀ y ∈ n.motherconnections, g x = g y → x = y := by
          intro x hx y hy hxy
          by_contra hne
          have hsym : Std.Symm (fun x y : Nat => newMother h r2 x ≠ newMother h r2 y) := ⟨fun _ _ hh => hh.symm⟩
          exact u7.forall hx hy hne hxy
        have hreadc : ∀ c : NConn K, c.inmod ∈ n.modules → c.outmod ∈ n.modules → (∀ m, c.mother = some m → m ∈ n.motherconnections) →
            MadeConn h c → c.ext.cls ≠ .permutation →
            (∀ i ∈ [c.ext.inFrom, c.ext.inTo, c.ext.outFrom, c.ext.outTo], (Lit.int (i : Nat)).repr ∉ N ∧ (Lit.int (i : Nat)).repr ∉ Mo) →
            readConn r2 init (writeConn h c) = .ok (mapConn f g c) := by
          intro c h1 h2 h3 h4 h5 h6
          obtain ⟨a1, -, -, a4⟩ := hfx _ h1
          obtain ⟨b1, -, -, b4⟩ := hfx _ h2
          obtain ⟨x, x', x1, x2, -, -, x5⟩ := same_attr a4
          obtain ⟨y, y', y1, y2, -, y4, -⟩ := same_attr b4
          exact readConn_ok h r2 c h4 h5 f g a1 b1
            (fun m hm => ⟨noneN r2 hk2 _ (hmmem m (h3 m hm)).1, (hgx m (h3 m hm)).1⟩) x' y' x2 y2
            (by rw [x5]; simp [attr, x1]) (by rw [y4]; simp [attr, y1])
            (fun i hi => ⟨noneN r2 hk2 _ (h6 i hi).1, noneM r2 u9 _ (h6 i hi).2⟩)
            ⟨noneN r2 hk2 _ hN, noneM r2 u9 _ hMo⟩ init
        have hct : ∀ c : NConn K, (c ∈ connsOf n ∨ c ∈ n.recurrentConns) →
            (∀ i ∈ [c.ext.inFrom, c.ext.inTo, c.ext.outFrom, c.ext.outTo], (Lit.int (i : Nat)).repr ∉ N ∧ (Lit.int (i : Nat)).repr ∉ Mo) := by
          intro c hcc i hi
          refine htexts _ (List.mem_append_right _ (List.mem_flatMap.2 ⟨c, ?_, List.mem_map.2 ⟨i, hi, rfl⟩⟩))
          rw [List.mem_append]
          refine hcc.imp_left fun hh => ?_
          unfold connsOf at hh
          rw [List.mem_flatMap] at hh ⊢
          obtain ⟨m, hm, hcm⟩ := hh
          exact ⟨m, (built_mem hb m).1 hm, hcm⟩
        have hc1 : ∀ c ∈ connsOf n, readConn r2 init (writeConn h c) = .ok (mapConn f g c) := by
          intro c hcc
          obtain ⟨e1, e2⟩ := connsOf_ends hb c hcc
          have hcc' := hcc
          unfold connsOf at hcc'
          rw [List.mem_flatMap] at hcc'
          obtain ⟨m, hm, hcm⟩ := hcc'
          obtain ⟨m1, m2⟩ := hsn.conns m ((built_mem hb m).1 hm) c hcm
          exact hreadc c e1 e2 (fun m hm => (mothers_mem hb m).2 (.inl ⟨c, hcc, hm⟩)) m1 m2 (hct c (.inl hcc))
        have hc2 : ∀ c ∈ n.recurrentConns, readConn r2 init (writeConn h c) = .ok (mapConn f g c) := by
          intro c hcc
          obtain ⟨e1, e2⟩ := hsn.recends c hcc
          obtain ⟨m1, m2⟩ := hsn.rconns c hcc
          exact hreadc c e1 e2 (fun m hm => (mothers_mem hb m).2 (.inr ⟨c, hcc, hm⟩)) m1 m2 (hct c (.inr hcc))
        have hconns : readConns r2 init hd.recurrent (addAll f empty (writeOrder n)) (writeConns h hd n) = .ok (rebuilt f g n) := by
          unfold writeConns
          have e1 := conns_ok h r2 init f g hd.recurrent (connsOf n) (addAll f empty (writeOrder n)) hc1
            (if hd.recurrent then n.recurrentConns.map (fun c => (writeConn h c, true)) else [])
          unfold connsOf at e1
          rw [e1]
          cases hr : hd.recurrent with
          | true => exact rconns_ok h r2 init f g n.recurrentConns _ hc2
          | false =>
            have h0 := hsn.plain hr
            unfold rebuilt connsOf
            rw [h0]
            rfl
        obtain ⟨n3, t1, t2, t3, t4, t5, t6, t7, t8, t9, t10, t11⟩ := rebuilt_ok hb hsn.roles hsn.mnames (attr r2.heap) order ho f g hfinj hginj
          (fun x hx => by
            obtain ⟨-, q2, q3⟩ := same_attrs (hfx x hx).2.2.2
            exact ⟨q2, q3⟩)
          (fun x hx => by
            obtain ⟨-, m, q1, q2⟩ := hgx x hx
            simp [attr, q1, q2])
        have hlen : r.heap.objs.length ≤ r2.heap.objs.length := by
          rw [u4]; exact v3.1.length_le
        let r3 : Reader K := { r2 with heap := { r2.heap with objs := r2.heap.objs ++ [.net ⟨hd.recurrent, hd.name, false⟩ n3] } }
        have hext23 : HeapExt r2.heap r3.heap := ⟨List.prefix_append _ _, List.prefix_refl _⟩
        refine ⟨.net hd.recurrent hd.name nodes bs (writeConns h hd n) inm (!inm && outm), r3, r2.heap.objs.length, ?_, ?_, rfl, rfl, ?_, ?_⟩
        · simp only [writeModule, ha, v1, u1]
        · rw [haname]; rfl
        · rw [readObject, v2]
          simp only
          rw [u2]
          simp only
          rw [show addAll (newOf h r1) empty (writeOrder n) = addAll f empty (writeOrder n) from rfl, hconns]
          simp only
          rw [t1]
        · refine ⟨(v3.trans hext12).trans hext23, hlen, by simp [r3], ?_, ?_, hk2, u9⟩
          · unfold Same
            have hget : r3.heap.objs[r2.heap.objs.length]? = some (.net ⟨hd.recurrent, hd.name, false⟩ n3) := by simp [r3]
            rw [ha, hget]
            simp only
            refine ⟨?_, f, g, ⟨hfinj, fun x hx => same_mono hext23 _ _ _ (hfx x hx).2.2.2, t2, t3, t4, hginj, fun x hx => (hgx x hx).2, t5, t6, t7, t8, t9,
              t10, t11⟩⟩
            obtain ⟨rc, nm, fg⟩ := hd
            have := hsn.forget
            simp only at this
            rw [this]
          · intro s hs
            show dget r2.modules s = dget r.modules s
            rw [u3]
            refine v6 s fun hh => hs ?_
            unfold namesIn
            rw [ha]
            rw [List.mem_flatMap] at hh ⊢
            obtain ⟨p, hp, hps⟩ := hh
            exact ⟨p.1, hmemL p hp, hps⟩

end Verif.XmlNet
