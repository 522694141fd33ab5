import Verif.Lemmas.Builder
import Verif.Spec.Network
/-
C75: networks built by any sequence of calls.
-/
namespace Verif.Builder

open Verif.Py Verif.Topo Verif.Topo.Spec Verif.Builder.Spec

variable {V M X : Type} [DecidableEq V] [DecidableEq M]

theorem built_of_inv (A : Attr V M) (ops : List (Op V M X)) (n : Net V M X) (h : Inv A ops n) (hs : n.sorted = true)
    (hr : n.recurrentConns.Pairwise (fun a b => a.name ≤ b.name)) : Built A ops n where
  sorted := hs
  order := h.order hs
  modules := h.modules
  inputs := h.inputs
  outputs := h.outputs
  conns := fun m hm => by
    have hm' : m ∈ n.modules := (first_mem h.modules m).2 (((h.order hs).2.1 m).1 hm)
    obtain ⟨cs, hcs⟩ := Option.isSome_iff_exists.1 (h.keys m hm')
    exact ⟨cs, hcs, (sortedBy_iff _ _ _).2 ⟨h.conns m cs hcs, h.csorted hs m hm' cs hcs⟩⟩
  recs := (sortedBy_iff _ _ _).2 ⟨h.recs, hr⟩
  mothers := ⟨h.mothers.1, h.mothers.2, h.msorted hs⟩
  indim := (h.dims hs).1
  outdim := (h.dims hs).2

/-- The built network as an object of the activation model: `mod` and `conn` give the implementations. -/
def toNet {P K : Type} (mod : V → Verif.Net.Mod P K) (conn : Conn V M X → Verif.Net.Conn V P K) (n : Net V M X) : Verif.Net.Net V P K where
  mod := mod
  sorted := n.modulesSorted
  inmods := n.inmodules
  outmods := n.outmodules
  conns := fun m => ((dget n.connections m).getD []).map conn

end Verif.Builder

namespace Verif.Props

open Verif.Py Verif.Topo Verif.Topo.Spec Verif.Builder Verif.Builder.Spec

variable {V M X : Type} [DecidableEq V] [DecidableEq M]

/-- C75: after any sequence of calls of the construction interface, sorted in between or not, and for every iteration
order of the set of modules, `sortModules` succeeds exactly when all end points of connections have been added and the
graph has no cycle, and then gives the network the calls describe. -/
theorem C75_build (A : Attr V M) (order : List V → List V) (ho : ∀ l, (order l).Perm l) (ops : List (Op V M X)) :
    let n := run A order empty ops
    let edges := (ops.filterMap connOf).map fun c => (c.inmod, c.outmod)
    let added := ops.filterMap modOf
    ((∀ e ∈ edges, e.1 ∈ added ∧ e.2 ∈ added) → Acyclic edges → ∃ n', sortModules A (order n.modules) n = .ok n' ∧ Built A ops n') ∧
    ((∀ e ∈ edges, e.1 ∈ added ∧ e.2 ∈ added) → ¬ Acyclic edges → sortModules A (order n.modules) n = .error .loop) ∧
    ((∃ e ∈ edges, e.1 ∉ added ∨ e.2 ∉ added) → sortModules A (order n.modules) n = .error .keyError) := by
  intro n edges added
  have h : Inv A ops n := by simpa using inv_run A order ho [] ops empty (inv_empty A)
  have hs := sortModules_spec A (order n.modules) ops n h (ho _)
  refine ⟨fun h1 h2 => ?_, hs.2.1, hs.2.2⟩
  obtain ⟨n', h3, h4, h5, h6⟩ := hs.1 h1 h2
  exact ⟨n', h3, built_of_inv A ops n' h5 h4 h6⟩

/-- C75: sorting a sorted network changes nothing. -/
theorem C75_idempotent (A : Attr V M) (order : List V → List V) (ho : ∀ l, (order l).Perm l) (ops : List (Op V M X)) (it it' : List V)
    (n' : Net V M X) (hit : it.Perm (run A order empty ops).modules) (h : sortModules A it (run A order empty ops) = .ok n') :
    sortModules A it' n' = .ok n' := by
  have hi : Inv A ops (run A order empty ops) := by simpa using inv_run A order ho [] ops empty (inv_empty A)
  have hs := sortModules_spec A it ops _ hi hit
  have key : n'.sorted = true ∧ n'.recurrentConns.Pairwise (fun a b => a.name ≤ b.name) := by
    by_cases hmem : ∀ e ∈ edgesOf ops, e.1 ∈ ops.filterMap modOf ∧ e.2 ∈ ops.filterMap modOf
    · by_cases hac : Acyclic (edgesOf ops)
      · obtain ⟨n2, h1, h2, _, h4⟩ := hs.1 hmem hac
        rw [h1] at h; cases h
        exact ⟨h2, h4⟩
      · rw [hs.2.1 hmem hac] at h; cases h
    · rw [hs.2.2 (by push Not at hmem; obtain ⟨e, he, h'⟩ := hmem; exact ⟨e, he, by tauto⟩)] at h; cases h
  unfold sortModules
  simp only [key.1, if_true, byName_of_sorted _ _ key.2]
  obtain ⟨k1, -⟩ := key
  cases n'
  cases k1
  rfl

/-- C75: a network so built, whose connections fit their modules, is well-formed in the sense of the activation and
back-propagation properties (C12, C13). -/
theorem C75_well_formed {P K : Type} (A : Attr V M) (ops : List (Op V M X)) (n : Net V M X) (h : Built A ops n)
    (mod : V → Verif.Net.Mod P K) (conn : Conn V M X → Verif.Net.Conn V P K) (hout : ∀ c, (conn c).outmod = c.outmod)
    (hin : ∀ c ∈ ops.filterMap connOf, (conn c).inFrom ≤ (conn c).inTo ∧ (conn c).inTo ≤ (mod c.inmod).outdim)
    (hou : ∀ c ∈ ops.filterMap connOf, (conn c).outFrom ≤ (conn c).outTo ∧ (conn c).outTo ≤ (mod c.outmod).indim) :
    Verif.Net.Spec.WF (toNet mod conn n) := by
  have hc : ∀ m ∈ n.modulesSorted, ∀ c ∈ (toNet mod conn n).conns m, ∃ c', c = conn c' ∧ c' ∈ ops.filterMap connOf ∧ c'.inmod = m := by
    intro m hm c hcm
    obtain ⟨cs, h1, h2⟩ := h.conns m hm
    simp only [toNet, h1, Option.getD_some, List.mem_map] at hcm
    obtain ⟨c', hc', rfl⟩ := hcm
    have := h2.1.mem_iff.1 hc'
    rw [List.mem_filter] at this
    exact ⟨c', rfl, this.1, by simpa using this.2⟩
  have hmodOf : ∀ (f : Op V M X → Option V), (∀ op v, f op = some v → modOf op = some v) → ∀ v ∈ ops.filterMap f, v ∈ n.modulesSorted := by
    intro f hf v hv
    rw [List.mem_filterMap] at hv
    obtain ⟨op, hop, hv⟩ := hv
    exact (h.order.2.1 v).2 (List.mem_filterMap.2 ⟨op, hop, hf op v hv⟩)
  refine ⟨h.order.1, first_nodup h.inputs, first_nodup h.outputs, fun m hm => ?_, fun m hm => ?_, fun m hm c hcm => ?_, fun m hm c hcm => ?_, fun m hm c hcm => ?_⟩
  · exact hmodOf inputOf (fun op v hv => by cases op <;> simp_all [inputOf, modOf]) m ((first_mem h.inputs m).1 hm)
  · exact hmodOf outputOf (fun op v hv => by cases op <;> simp_all [outputOf, modOf]) m ((first_mem h.outputs m).1 hm)
  · obtain ⟨c', rfl, h1, rfl⟩ := hc m hm c hcm
    have := h.order.2.2 (c'.inmod, c'.outmod) (List.mem_map.2 ⟨c', h1, rfl⟩)
    rw [hout]
    exact this
  · obtain ⟨c', rfl, h1, rfl⟩ := hc m hm c hcm
    exact hin c' h1
  · obtain ⟨c', rfl, h1, rfl⟩ := hc m hm c hcm
    rw [hout]
    exact hou c' h1

/-- A network of three modules with a shared connection, a repeated module and a sort in between. -/
def Builder.exampleOps : List (Op Nat String Unit) :=
  [.input 0, .module 1, .connection ⟨0, 1, "b", some "M", ()⟩, .sort, .output 2, .module 1, .connection ⟨1, 2, "z", none, ()⟩,
    .connection ⟨0, 2, "a", some "M", ()⟩, .recurrent ⟨2, 1, "r", none, ()⟩]

def Builder.exampleAttr : Attr Nat String := ⟨fun n => toString n, fun n => n + 1, fun n => n + 2, id⟩

example : (sortModules Builder.exampleAttr [2, 0, 1] (run Builder.exampleAttr List.reverse empty Builder.exampleOps)).map
    (fun n => (n.modulesSorted, n.motherconnections, n.inmodules, n.outmodules, n.indim, n.outdim)) =
    .ok ([0, 1, 2], ["M"], [0], [2], 1, 4) := by decide +kernel

example : sortModules Builder.exampleAttr [0, 1] (run Builder.exampleAttr id empty
    [.input 0, .module 1, .connection ⟨0, 1, "b", none, ()⟩, .connection ⟨1, 0, "c", (none : Option String), ()⟩]) = .error .loop := by
  decide +kernel

example : (∀ e ∈ (Builder.exampleOps.filterMap connOf).map (fun c => (c.inmod, c.outmod)),
    e.1 ∈ Builder.exampleOps.filterMap modOf ∧ e.2 ∈ Builder.exampleOps.filterMap modOf) ∧ ∀ l : List Nat, l.reverse.Perm l :=
  ⟨by decide, fun l => List.reverse_perm l⟩

end Verif.Props
