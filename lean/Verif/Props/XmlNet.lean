import Verif.Lemmas.XmlNet3
import Verif.Props.Builder
/-
C49: saving a network to an XML file and reading it back.
-/
namespace Verif.XmlNet

open Verif.Py Verif.Builder

theorem key_of_dget {α : Type} (d : List (String × α)) (s : String) (h : (dget d s).isSome) : s ∈ d.map Prod.fst := by
  induction d with
  | nil => simp [dget] at h
  | cons p d ih =>
    obtain ⟨k, v⟩ := p
    by_cases hk : k = s
    · simp [hk]
    · simp only [dget, hk, if_false] at h
      simp [ih h]

/-- Writing the object `a` and reading the file. -/
def saveLoad {K : Type} (init : Nat → K) (order : List Nat → List Nat) (r : Reader K) (h : Heap K) (d a : Nat) :
    Option (Except RErr (Reader K × Nat)) := (writeNetwork h d a).map (readFrom init order r)

/-- The network at an address. -/
def netAt {K : Type} (h : Heap K) (a : Nat) : Option (Head × Builder.Net Nat Nat (Ext K)) :=
  match h.objs[a]? with
  | some (.net hd n) => some (hd, n)
  | _ => none

/-- The network that is read back, if reading succeeds. -/
def copyOf {K : Type} (init : Nat → K) (order : List Nat → List Nat) (r : Reader K) (h : Heap K) (d a : Nat) :
    Option (Head × Builder.Net Nat Nat (Ext K)) :=
  match saveLoad init order r h d a with
  | some (.ok (r', a')) => netAt r'.heap a'
  | _ => none

/-- The parameters of the connections in the order in which they appear in `net.params` (network.py:80-93). -/
def connParams {K : Type} (n : Builder.Net Nat Nat (Ext K)) : List K :=
  n.modulesSorted.flatMap (fun m => ((dget n.connections m).getD []).flatMap (fun c => c.ext.params))

end Verif.XmlNet

namespace Verif.Props

open Verif.Py Verif.Topo Verif.Topo.Spec Verif.Builder Verif.Builder.Spec Verif.XmlNet Verif.XmlNet.Spec

variable {K : Type}

/-- C49, the part that holds: for every network made of layers and connections of the supported classes, built by any
sequence of calls, sorted, nested to any depth, and without clashes of names, writing succeeds; reading in any process
(whatever its heap `r.heap`, whatever earlier reads left in the reader, whatever order sets are iterated in) succeeds; the
objects that existed are left alone; and the new network has the same modules, roles, connections and parameters. -/
theorem C49_roundtrip_partial (h : Heap K) (d a : Nat) (hs : Savable h d a) (init : Nat → K) (order : List Nat → List Nat)
    (ho : ∀ l, (order l).Perm l) (r : Reader K) (hc : NoClash h d a r) :
    ∃ node r' a', writeNetwork h d a = some node ∧ readFrom init order r node = .ok (r', a') ∧
      r.heap.objs <+: r'.heap.objs ∧ r.heap.mothers <+: r'.heap.mothers ∧ r.heap.objs.length ≤ a' ∧ Same h r'.heap d a a' := by
  obtain ⟨node, r', a', w1, -, -, -, w5, w6⟩ := module_ok h (r.modules.map Prod.fst ++ namesIn h d a) (r.mothers.map Prod.fst ++ mothersIn h d a)
    hc.nonempty.1 hc.nonempty.2 init order ho d a false false r hs
    ⟨hc.texts, fun s hs => ⟨hc.mothers s hs, List.mem_append_right _ hs⟩, fun s hs => List.mem_append_right _ hs⟩
    (fun s hs => List.mem_append_left _ (key_of_dget _ _ hs))
    (fun s hs => List.mem_append_left _ (key_of_dget _ _ hs))
  exact ⟨node, r', a', w1, w5, w6.ext.1, w6.ext.2, w6.low, w6.same⟩

/-! ### Concrete networks -/

namespace XmlNet

def layer (name : String) (d : Nat) : Content Int := .leaf ⟨.plain 0, name, [("name", .str name), ("dim", .int d)], d, d, [], []⟩

def full (a b : Nat) (name : String) (i o : Nat) (ps : List Int) : NConn Int := ⟨a, b, name, none, ⟨.full, 0, i, 0, o, ps, []⟩⟩

/-- the network built by the calls -/
def netOf (objs : List (Content Int)) (ms : List (Mother Int)) (ops : List (Op Nat Nat (Ext Int))) : Builder.Net Nat Nat (Ext Int) :=
  let A := attr ⟨objs, ms⟩
  match sortModules A (run A id empty ops).modules (run A id empty ops) with
  | .ok n => n
  | .error _ => empty

def blank : Reader Int := ⟨⟨[], []⟩, [], []⟩

/-- A recurrent network: an input layer 'in', a network 'sub' with the layers 'x' and 'y' nested in it, an LSTM layer with
peepholes, a bias unit and an output layer; sliced, shared and recurrent connections. -/
def subObjs : List (Content Int) := [layer "x" 2, layer "y" 1]

def subOps : List (Op Nat Nat (Ext Int)) := [.input 0, .output 1, .connection (full 0 1 "c" 2 1 [7, 8])]

def bigObjs : List (Content Int) := subObjs ++ [.net ⟨false, "sub", false⟩ (netOf subObjs [] subOps), layer "in" 4,
  .leaf ⟨.lstm, "mem", [("dim", .int 1), ("peepholes", .bool true)], 4, 1, [], [1, 2, 3]⟩, .leaf ⟨.bias, "bias", [("name", .str "bias")], 0, 1, [], []⟩,
  layer "out" 2]

def bigMothers : List (Mother Int) := [⟨"M", [5, 6]⟩]

def bigConns : List (NConn Int) := [⟨3, 2, "a", some 0, ⟨.sharedFull, 1, 2, 0, 2, [], []⟩⟩, ⟨3, 4, "b", none, ⟨.identity, 0, 4, 0, 4, [], []⟩⟩,
  ⟨2, 6, "e", some 0, ⟨.sharedFull, 0, 1, 0, 2, [], []⟩⟩, full 4 6 "d" 1 2 [10, 11], ⟨5, 6, "c", none, ⟨.linear, 0, 1, 1, 2, [12], []⟩⟩]

def bigRecs : List (NConn Int) := [full 4 4 "r" 1 4 [1, 1, 2, 2]]

def bigOps : List (Op Nat Nat (Ext Int)) := [.input 3, .output 6, .module 2, .module 4, .module 5] ++ bigConns.map .connection ++ bigRecs.map .recurrent

def big : Heap Int := ⟨bigObjs ++ [.net ⟨true, "N", false⟩ (netOf bigObjs bigMothers bigOps)], bigMothers⟩

/-- the diamond: two hidden layers between 'in' and 'out'; the connections are not added in the order of their names -/
def diaObjs : List (Content Int) := [layer "in" 1, layer "h1" 1, layer "h2" 1, layer "out" 1]

def diaOps : List (Op Nat Nat (Ext Int)) := [.input 0, .output 3, .module 1, .module 2, .connection (full 0 1 "z" 1 1 [1]),
  .connection (full 0 2 "a" 1 1 [2]), .connection (full 1 3 "c" 1 1 [3]), .connection (full 2 3 "d" 1 1 [4])]

def single (objs : List (Content Int)) (ops : List (Op Nat Nat (Ext Int))) : Heap Int :=
  ⟨objs ++ [.net ⟨false, "N", false⟩ (netOf objs [] ops)], []⟩

theorem big_built : Built (attr big) bigOps (netOf bigObjs bigMothers bigOps) := by
  have h := (C75_build (attr big) id (fun _ => List.Perm.refl _) bigOps).1 (by decide) (by
    refine acyclic_of_topo (nodes := [3, 5, 2, 4, 6]) (l := [3, 5, 2, 4, 6]) ⟨by decide, fun _ => Iff.rfl, ?_⟩
    intro e he
    have : e ∈ [(3, 2), (3, 4), (2, 6), (4, 6), (5, 6)] := he
    simp only [List.mem_cons, List.not_mem_nil, or_false] at this
    rcases this with rfl | rfl | rfl | rfl | rfl
    · exact ⟨[], [5], [4, 6], rfl⟩
    · exact ⟨[], [5, 2], [6], rfl⟩
    · exact ⟨[3, 5], [4], [], rfl⟩
    · exact ⟨[3, 5, 2], [], [], rfl⟩
    · exact ⟨[3], [2, 4], [], rfl⟩)
  obtain ⟨n, h1, h2⟩ := h
  have h3 : sortModules (attr big) (id (run (attr big) id empty bigOps).modules) (run (attr big) id empty bigOps) =
      .ok (netOf bigObjs bigMothers bigOps) := by decide +kernel
  rw [h3] at h1
  cases h1
  exact h2

theorem sub_built : Built (attr big) subOps (netOf subObjs [] subOps) := by
  have h := (C75_build (attr big) id (fun _ => List.Perm.refl _) subOps).1 (by decide) (by
    refine acyclic_of_topo (nodes := [0, 1]) (l := [0, 1]) ⟨by decide, fun _ => Iff.rfl, ?_⟩
    intro e he
    have : e ∈ [(0, 1)] := he
    simp only [List.mem_cons, List.not_mem_nil, or_false] at this
    subst this
    exact ⟨[], [], [], rfl⟩)
  obtain ⟨n, h1, h2⟩ := h
  have h3 : sortModules (attr big) (id (run (attr big) id empty subOps).modules) (run (attr big) id empty subOps) =
      .ok (netOf subObjs [] subOps) := by decide +kernel
  rw [h3] at h1
  cases h1
  exact h2

theorem layer_made (name : String) (d : Nat) : MadeLeaf (K := Int) ⟨.plain 0, name, [("name", .str name), ("dim", .int d)], d, d, [], []⟩ :=
  ⟨fun _ => 0, "", [("name", .lit (.str name)), ("dim", .lit (.int d))], _, by simp, by
    simp [mkLeaf, callable, LeafClass.required, LeafClass.optional, kwNat, dget, nameOr, nameArg], rfl, rfl⟩

/-- a connection that results from a call of its constructor is made -/
theorem made_of (h : Heap Int) (c : NConn Int) (kw : List (String × PV)) (hn : (kw.map Prod.fst).Nodup) (c0 : NConn Int)
    (h1 : mkConn h (fun _ => 0) "" c.ext.cls kw = some c0) (h2 : c0.ext.params.length = c.ext.params.length)
    (h3 : c = { c0 with name := c.name, ext := { c0.ext with params := c.ext.params } })
    (h4 : c.ext.inTo ≤ (attr h).outdim c.inmod ∧ c.ext.outTo ≤ (attr h).indim c.outmod) : MadeConn h c :=
  ⟨⟨_, _, kw, c0, hn, h1, h2, h3⟩, h4.1, h4.2⟩

theorem big_conns (c : NConn Int) (hc : c ∈ bigConns ++ bigRecs) : MadeConn big c ∧ c.ext.cls ≠ .permutation := by
  simp only [bigConns, bigRecs, List.cons_append, List.nil_append, List.mem_cons, List.not_mem_nil, or_false] at hc
  rcases hc with rfl | rfl | rfl | rfl | rfl | rfl
  · exact ⟨made_of big _ [("mother", .mother 0), ("inmod", .mod 3), ("outmod", .mod 2), ("inSliceFrom", .lit (.int 1)), ("inSliceTo", .lit (.int 2))]
      (by decide) ⟨3, 2, "", some 0, ⟨.sharedFull, 1, 2, 0, 2, [], []⟩⟩ (by decide +kernel) rfl rfl (by decide +kernel), by decide⟩
  · exact ⟨made_of big _ [("inmod", .mod 3), ("outmod", .mod 4)]
      (by decide) ⟨3, 4, "", none, ⟨.identity, 0, 4, 0, 4, [], []⟩⟩ (by decide +kernel) rfl rfl (by decide +kernel), by decide⟩
  · exact ⟨made_of big _ [("mother", .mother 0), ("inmod", .mod 2), ("outmod", .mod 6)]
      (by decide) ⟨2, 6, "", some 0, ⟨.sharedFull, 0, 1, 0, 2, [], []⟩⟩ (by decide +kernel) rfl rfl (by decide +kernel), by decide⟩
  · exact ⟨made_of big _ [("inmod", .mod 4), ("outmod", .mod 6)]
      (by decide) ⟨4, 6, "", none, ⟨.full, 0, 1, 0, 2, [0, 0], []⟩⟩ (by decide +kernel) rfl rfl (by decide +kernel), by decide⟩
  · exact ⟨made_of big _ [("inmod", .mod 5), ("outmod", .mod 6), ("outSliceFrom", .lit (.int 1))]
      (by decide) ⟨5, 6, "", none, ⟨.linear, 0, 1, 1, 2, [0], []⟩⟩ (by decide +kernel) rfl rfl (by decide +kernel), by decide⟩
  · exact ⟨made_of big _ [("inmod", .mod 4), ("outmod", .mod 4)]
      (by decide) ⟨4, 4, "", none, ⟨.full, 0, 1, 0, 4, [0, 0, 0, 0], []⟩⟩ (by decide +kernel) rfl rfl (by decide +kernel), by decide⟩

theorem sub_savable : SavableNet big ⟨false, "sub", false⟩ (netOf subObjs [] subOps) where
  built := ⟨_, sub_built⟩
  forget := rfl
  plain := fun _ => by decide +kernel
  recends := by decide +kernel
  roles := by decide +kernel
  names := by decide +kernel
  mothers := fun x hx => by
    have : (netOf subObjs [] subOps).motherconnections = [] := by decide +kernel
    rw [this] at hx; cases hx
  mnames := by decide +kernel
  conns := fun m hm c hc => by
    have h1 : ∀ m ∈ (netOf subObjs [] subOps).modules, ∀ c ∈ (dget (netOf subObjs [] subOps).connections m).getD [], c = full 0 1 "c" 2 1 [7, 8] := by
      decide +kernel
    rw [h1 m hm c hc]
    exact ⟨made_of big _ [("inmod", .mod 0), ("outmod", .mod 1)]
      (by decide) ⟨0, 1, "", none, ⟨.full, 0, 2, 0, 1, [0, 0], []⟩⟩ (by decide +kernel) rfl rfl (by decide +kernel), by decide⟩
  rconns := fun c hc => by
    have : (netOf subObjs [] subOps).recurrentConns = [] := by decide +kernel
    rw [this] at hc; cases hc

theorem big_savableNet : SavableNet big ⟨true, "N", false⟩ (netOf bigObjs bigMothers bigOps) where
  built := ⟨_, big_built⟩
  forget := rfl
  plain := fun h => by cases h
  recends := by decide +kernel
  roles := by decide +kernel
  names := by decide +kernel
  mothers := fun x hx => by
    have : (netOf bigObjs bigMothers bigOps).motherconnections = [0] := by decide +kernel
    rw [this, List.mem_singleton] at hx
    subst hx
    exact ⟨_, rfl, by decide⟩
  mnames := by decide +kernel
  conns := fun m hm c hc => by
    have h1 : ∀ m ∈ (netOf bigObjs bigMothers bigOps).modules, ∀ c ∈ (dget (netOf bigObjs bigMothers bigOps).connections m).getD [],
        c ∈ bigConns ++ bigRecs := by decide +kernel
    exact big_conns c (h1 m hm c hc)
  rconns := fun c hc => by
    have : (netOf bigObjs bigMothers bigOps).recurrentConns = bigRecs := by decide +kernel
    rw [this] at hc
    exact big_conns c (List.mem_append_right _ hc)

theorem big_savable : Savable big 3 7 := by
  have hm : (netOf bigObjs bigMothers bigOps).modules = [3, 6, 2, 4, 5] := by decide +kernel
  have hm2 : (netOf subObjs [] subOps).modules = [0, 1] := by decide +kernel
  have lay : ∀ d m nm k, big.objs[m]? = some (layer nm k) → Savable big (d + 1) m := by
    intro d m nm k hl
    unfold Savable
    rw [hl]
    exact ⟨layer_made nm k, rfl⟩
  show SavableNet big ⟨true, "N", false⟩ (netOf bigObjs bigMothers bigOps) ∧ _
  refine ⟨big_savableNet, ?_⟩
  rw [hm]
  intro m hmm
  refine ⟨?_, ?_⟩
  · simp only [List.mem_cons, List.not_mem_nil, or_false] at hmm
    rcases hmm with rfl | rfl | rfl | rfl | rfl
    · exact lay 1 3 "in" 4 rfl
    · exact lay 1 6 "out" 2 rfl
    · show SavableNet big ⟨false, "sub", false⟩ (netOf subObjs [] subOps) ∧ _
      refine ⟨sub_savable, ?_⟩
      rw [hm2]
      intro m' hm'
      refine ⟨?_, ?_⟩
      · simp only [List.mem_cons, List.not_mem_nil, or_false] at hm'
        rcases hm' with rfl | rfl
        · exact lay 0 0 "x" 2 rfl
        · exact lay 0 1 "y" 1 rfl
      · revert m'; decide +kernel
    · refine ⟨⟨fun _ => 0, "", [("dim", .lit (.int 1)), ("peepholes", .lit (.bool true))], _, by decide, rfl, by decide +kernel, by decide +kernel⟩, rfl⟩
    · refine ⟨⟨fun _ => 0, "", [("name", .lit (.str "bias"))], _, by decide, rfl, by decide +kernel, by decide +kernel⟩, rfl⟩
  · revert m; decide +kernel

/-- The reader has read another network before. -/
def used : Reader Int := ⟨⟨[layer "in" 3, layer "old" 1], []⟩, [("in", 0), ("old", 1)], []⟩

end XmlNet

open XmlNet in
example : Savable big 3 7 ∧ NoClash big 3 7 used ∧ ∀ l : List Nat, l.reverse.Perm l :=
  ⟨big_savable, ⟨by decide +kernel, by decide +kernel, by decide +kernel⟩, fun l => List.reverse_perm l⟩

open XmlNet in
/-- what is read back -/
example : (copyOf (fun _ => 0) List.reverse used big 3 7).map (fun p => (p.1, p.2.inmodules, p.2.outmodules, connParams p.2)) =
    some (⟨true, "N", false⟩, [2], [3], [12, 10, 11]) := by decide +kernel

/-! ### What goes wrong -/

open XmlNet in
/-- C49 fails: a module that is both an input and an output module is only an input module in the copy. -/
theorem C49_negation_roles : ∃ (h : Heap Int) (a : Nat) (hd : Head) (n n' : Builder.Net Nat Nat (Ext Int)), netAt h a = some (hd, n) ∧
    n.sorted = true ∧ n.outmodules ≠ [] ∧ copyOf (fun _ => 0) id blank h 2 a = some (hd, n') ∧ n'.outmodules = [] ∧ n'.outdim ≠ n.outdim :=
  ⟨single [layer "l" 2] [.input 0, .output 0], 1, ⟨false, "N", false⟩, netOf [layer "l" 2] [] [.input 0, .output 0],
    ⟨[0], [0], [(0, [])], [0], [], [], [], 2, 0, true⟩, by decide +kernel, by decide +kernel, by decide +kernel, by decide +kernel, rfl, by decide +kernel⟩

open XmlNet in
/-- C49 fails: a network written before `sortModules` has been called is written without its connections and hidden
modules, without an error. -/
theorem C49_negation_unsorted : ∃ (h : Heap Int) (a : Nat) (hd : Head) (n n' : Builder.Net Nat Nat (Ext Int)), netAt h a = some (hd, n) ∧
    n = run (attr h) id empty diaOps ∧ copyOf (fun _ => 0) id blank h 2 a = some (hd, n') ∧ n.modules.length = 4 ∧ n'.modules.length = 2 ∧
    (allConns n).length = 4 ∧ allConns n' = [] :=
  ⟨⟨diaObjs ++ [.net ⟨false, "N", false⟩ (run (attr ⟨diaObjs, []⟩) id empty diaOps)], []⟩, 4, ⟨false, "N", false⟩,
    run (attr ⟨diaObjs, []⟩) id empty diaOps,
    ⟨[0, 1], [0, 1], [(0, []), (1, [])], [0], [1], [], [], 1, 1, true⟩, by decide +kernel, by decide +kernel, by decide +kernel, by decide +kernel, rfl,
    by decide +kernel, rfl⟩

open XmlNet in
/-- C49 fails: the copy may have its modules, and hence its vector of parameters, in another order. -/
theorem C49_negation_order : ∃ (h : Heap Int) (a : Nat) (hd : Head) (n n' : Builder.Net Nat Nat (Ext Int)), netAt h a = some (hd, n) ∧
    n.sorted = true ∧ copyOf (fun _ => 0) id blank h 2 a = some (hd, n') ∧ connParams n = [2, 1, 3, 4] ∧ connParams n' = [2, 1, 4, 3] :=
  ⟨single diaObjs diaOps, 4, ⟨false, "N", false⟩, netOf diaObjs [] diaOps,
    ⟨[0, 1, 2, 3], [0, 3, 2, 1], [(0, [full 0 3 "a" 1 1 [2], full 0 2 "z" 1 1 [1]]), (1, []), (2, [full 2 1 "c" 1 1 [3]]), (3, [full 3 1 "d" 1 1 [4]])],
      [0], [1], [], [], 1, 1, true⟩, by decide +kernel, by decide +kernel, by decide +kernel, by decide +kernel, by decide +kernel⟩

namespace XmlNet

/-- a network nested in another one, whose layers have the same names -/
def nestObjs : List (Content Int) := [layer "in" 1, layer "out" 1,
  .net ⟨false, "sub", false⟩ (netOf [layer "in" 1, layer "out" 1] [] [.input 0, .output 1, .connection (full 0 1 "c" 1 1 [7])]), layer "in" 1]

def nestOps : List (Op Nat Nat (Ext Int)) := [.input 3, .output 2, .connection (full 3 2 "c" 1 1 [1])]

end XmlNet

open XmlNet in
/-- C49 fails: if a nested network has a module with the name of one further up (as with two networks made by
`buildNetwork`), the connection is attached to the wrong module and reading fails, although all modules of each network have
different names. -/
theorem C49_negation_nested : ∃ (h : Heap Int) (a : Nat) (hd : Head) (n : Builder.Net Nat Nat (Ext Int)), netAt h a = some (hd, n) ∧ n.sorted = true ∧
    (∀ x ∈ n.modules, ∀ y ∈ n.modules, (attr h).name x = (attr h).name y → x = y) ∧
    saveLoad (fun _ => 0) id blank h 3 a = some (.error (.sort .keyError)) :=
  ⟨single nestObjs nestOps, 4, ⟨false, "N", false⟩, netOf nestObjs [] nestOps, by decide +kernel, by decide +kernel, by decide +kernel, by decide +kernel⟩

open XmlNet in
/-- C49 fails: names that an earlier read has left in the class attribute `modules` are taken for arguments: after a module
named `1` has been read, no layer of size 1 can be read. -/
theorem C49_negation_stale : ∃ (h : Heap Int) (a : Nat) (r : Reader Int), (∃ p, copyOf (fun _ => 0) id blank h 2 a = some p) ∧
    (∃ h0 a0 x, saveLoad (fun _ => 0) id blank h0 2 a0 = some (.ok (r, x))) ∧
    saveLoad (fun _ => 0) id r h 2 a = some (.error .attributeError) :=
  ⟨single diaObjs diaOps, 4, ⟨⟨[layer "1" 2, .net ⟨false, "N", false⟩ ⟨[0], [0], [(0, [])], [0], [], [], [], 2, 0, true⟩], []⟩, [("1", 0)], []⟩,
    ⟨_, rfl⟩, ⟨single [layer "1" 2] [.input 0], 1, 1, by decide +kernel⟩, by decide +kernel⟩

open XmlNet in
/-- C49 fails: networks with a Gaussian layer, a table, a partial softmax layer or a Kohonen map can be written but not read. -/
theorem C49_negation_classes : ∀ c ∈ [LeafClass.gaussian, .table, .partialSoftmax, .kohonen], ∃ (kw : List (String × PV)) (l : Leaf Int) (n : Builder.Net Nat Nat (Ext Int)),
    mkLeaf (fun _ => 0) "l" c kw = some l ∧ n = netOf [.leaf l] [] [.input 0] ∧
    saveLoad (fun _ => 0) id blank ⟨[.leaf l, .net ⟨false, "N", false⟩ n], []⟩ 2 1 = some (.error .attributeError) := by
  intro c hc
  simp only [List.mem_cons, List.not_mem_nil, or_false] at hc
  rcases hc with rfl | rfl | rfl | rfl
  · exact ⟨[("dim", .lit (.int 2))], _, _, rfl, rfl, by decide +kernel⟩
  · exact ⟨[("numRows", .lit (.int 2)), ("numColumns", .lit (.int 2))], _, _, rfl, rfl, by decide +kernel⟩
  · exact ⟨[("size", .lit (.int 4)), ("slicelength", .lit (.int 2))], _, _, rfl, rfl, by decide +kernel⟩
  · exact ⟨[("dim", .lit (.int 2)), ("nNeurons", .lit (.int 2))], _, _, rfl, rfl, by decide +kernel⟩

open XmlNet in
/-- C49 fails: a mixture density layer is read back with another size. -/
theorem C49_negation_mixture : ∃ (kw : List (String × PV)) (l : Leaf Int) (n n' : Builder.Net Nat Nat (Ext Int)) (hd : Head),
    mkLeaf (fun _ => 0) "l" .mixtureDensity kw = some l ∧ n = netOf [.leaf l] [] [.input 0] ∧
    copyOf (fun _ => 0) id blank ⟨[.leaf l, .net hd n], []⟩ 2 1 = some (hd, n') ∧ n.indim = 6 ∧ n'.indim = 40 :=
  ⟨[("dim", .lit (.int 1)), ("mix", .lit (.int 2))], _, _, ⟨[0], [0], [(0, [])], [0], [], [], [], 40, 0, true⟩, ⟨false, "N", false⟩, rfl, rfl,
    by decide +kernel, by decide +kernel, rfl⟩

open XmlNet in
/-- C49 fails: a network with a permutation connection can be written but not read. -/
theorem C49_negation_permutation : ∃ (c : NConn Int) (kw : List (String × PV)) (n : Builder.Net Nat Nat (Ext Int)),
    mkConn ⟨[layer "in" 2, layer "out" 2], []⟩ (fun _ => 0) "c" .permutation kw = some c ∧
    n = netOf [layer "in" 2, layer "out" 2] [] [.input 0, .output 1, .connection c] ∧ n.sorted = true ∧
    saveLoad (fun _ => 0) id blank ⟨[layer "in" 2, layer "out" 2, .net ⟨false, "N", false⟩ n], []⟩ 2 2 = some (.error .attributeError) :=
  ⟨⟨0, 1, "c", none, ⟨.permutation, 0, 2, 0, 2, [], [1, 1, 0]⟩⟩,
    [("inmod", .mod 0), ("outmod", .mod 1), ("permutation", .nats [1, 0]), ("blocksize", .lit (.int 1))], _, by decide +kernel, rfl, by decide +kernel,
    by decide +kernel⟩

open XmlNet in
/-- C49 fails: the flag `forget` of a recurrent network is lost. -/
theorem C49_negation_forget : ∃ (h : Heap Int) (a : Nat) (hd hd' : Head) (n n' : Builder.Net Nat Nat (Ext Int)), netAt h a = some (hd, n) ∧ hd.forget = true ∧
    copyOf (fun _ => 0) id blank h 2 a = some (hd', n') ∧ hd'.forget = false :=
  ⟨⟨diaObjs ++ [.net ⟨true, "N", true⟩ (netOf diaObjs [] diaOps)], []⟩, 4, ⟨true, "N", true⟩, ⟨true, "N", false⟩, netOf diaObjs [] diaOps,
    ⟨[0, 1, 2, 3], [0, 3, 2, 1], [(0, [full 0 3 "a" 1 1 [2], full 0 2 "z" 1 1 [1]]), (1, []), (2, [full 2 1 "c" 1 1 [3]]), (3, [full 3 1 "d" 1 1 [4]])],
      [0], [1], [], [], 1, 1, true⟩, by decide +kernel, rfl, by decide +kernel, rfl⟩

end Verif.Props
