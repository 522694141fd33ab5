import Verif.Model.XmlNet
import Verif.Spec.Builder
/-
Specification of saving and reading networks: when two networks are the same, and which networks can be saved.
-/
namespace Verif.XmlNet.Spec

open Verif.Py Verif.Builder Verif.Builder.Spec Verif.XmlNet

variable {K : Type}

/-- A connection between the images of the modules, with the image of the mother, otherwise the same. -/
def mapConn (f g : Nat → Nat) (c : NConn K) : NConn K := ⟨f c.inmod, f c.outmod, c.name, c.mother.map g, c.ext⟩

/-- `n'` (in the heap `h'`) is a copy of `n` (in `h`): its modules correspond one-to-one and are the same in the sense of `R`;
inputs and outputs are the same in the same order; the connections of every module are the same in the same order, with the
same slices and parameters, sharing the same mothers; and it is sorted. -/
structure SameNet (h h' : Heap K) (R : Nat → Nat → Prop) (n n' : Builder.Net Nat Nat (Ext K)) (f g : Nat → Nat) : Prop where
  inj : ∀ x ∈ n.modules, ∀ y ∈ n.modules, f x = f y → x = y
  same : ∀ x ∈ n.modules, R x (f x)
  modules : n'.modules.Perm (n.modules.map f)
  inputs : n'.inmodules = n.inmodules.map f
  outputs : n'.outmodules = n.outmodules.map f
  minj : ∀ x ∈ n.motherconnections, ∀ y ∈ n.motherconnections, g x = g y → x = y
  msame : ∀ x ∈ n.motherconnections, ∃ m, h.mothers[x]? = some m ∧ h'.mothers[g x]? = some m
  mothers : n'.motherconnections = n.motherconnections.map g
  conns : ∀ x ∈ n.modules, (dget n'.connections (f x)) = (dget n.connections x).map (List.map (mapConn f g))
  recs : n'.recurrentConns = n.recurrentConns.map (mapConn f g)
  order : Topo.Spec.IsTopoOrder n'.modules ((allConns n').map fun c => (c.inmod, c.outmod)) n'.modulesSorted
  indim : n'.indim = n.indim
  outdim : n'.outdim = n.outdim
  sorted : n'.sorted = true

/-- The object at `a'` in `h'` is a copy of the one at `a` in `h`, to depth `d` of nesting. -/
def Same (h h' : Heap K) : Nat → Nat → Nat → Prop
  | 0, _, _ => False
  | d + 1, a, a' =>
    match h.objs[a]?, h'.objs[a']? with
    | some (.leaf l), some (.leaf l') => l' = l
    | some (.net hd n), some (.net hd' n') => hd' = hd ∧ ∃ f g, SameNet h h' (Same h h' d) n n' f g
    | _, _ => False

/-- The module was made by a constructor; afterwards it may have been renamed and its parameters changed. -/
def MadeLeaf (l : Leaf K) : Prop :=
  ∃ (init : Nat → K) (gen : String) (kw : List (String × PV)) (l0 : Leaf K), (kw.map Prod.fst).Nodup ∧
    mkLeaf init gen l.cls kw = some l0 ∧ l0.params.length = l.params.length ∧
    l = { l0 with name := l.name, params := l.params }

/-- The classes that can be read again. -/
def goodClass : LeafClass → Bool
  | .plain _ | .bias | .multiplication | .gate | .doubleGate | .switch | .lstm => true
  | _ => false

/-- The connection was made by a constructor, and its slices are within the buffers. -/
def MadeConn (h : Heap K) (c : NConn K) : Prop :=
  (∃ (init : Nat → K) (gen : String) (kw : List (String × PV)) (c0 : NConn K), (kw.map Prod.fst).Nodup ∧
    mkConn h init gen c.ext.cls kw = some c0 ∧ c0.ext.params.length = c.ext.params.length ∧
    c = { c0 with name := c.name, ext := { c0.ext with params := c.ext.params } }) ∧
  c.ext.inTo ≤ (attr h).outdim c.inmod ∧ c.ext.outTo ≤ (attr h).indim c.outmod

/-- A network that can be saved, apart from the modules in it: it was built by some calls and is sorted; no module is both
input and output; modules have different names; connections are not permutations. -/
structure SavableNet (h : Heap K) (hd : Head) (n : Builder.Net Nat Nat (Ext K)) : Prop where
  built : ∃ ops, Built (attr h) ops n
  forget : hd.forget = false
  plain : hd.recurrent = false → n.recurrentConns = []
  recends : ∀ c ∈ n.recurrentConns, c.inmod ∈ n.modules ∧ c.outmod ∈ n.modules
  roles : ∀ m ∈ n.inmodules, m ∉ n.outmodules
  names : ∀ x ∈ n.modules, ∀ y ∈ n.modules, (attr h).name x = (attr h).name y → x = y
  mothers : ∀ x ∈ n.motherconnections, ∃ m, h.mothers[x]? = some m ∧ m.params ≠ []
  mnames : ∀ x ∈ n.motherconnections, ∀ y ∈ n.motherconnections, (attr h).motherName x = (attr h).motherName y → x = y
  conns : ∀ m ∈ n.modules, ∀ c ∈ (dget n.connections m).getD [], MadeConn h c ∧ c.ext.cls ≠ .permutation
  rconns : ∀ c ∈ n.recurrentConns, MadeConn h c ∧ c.ext.cls ≠ .permutation

/-- The names of all modules inside `a`. -/
def namesIn (h : Heap K) : Nat → Nat → List String
  | 0, _ => []
  | d + 1, a =>
    match h.objs[a]? with
    | some (.net _ n) => n.modules.flatMap (fun m => (attr h).name m :: namesIn h d m)
    | _ => []

/-- The names of all mother connections inside `a`. -/
def mothersIn (h : Heap K) : Nat → Nat → List String
  | 0, _ => []
  | d + 1, a =>
    match h.objs[a]? with
    | some (.net _ n) => n.motherconnections.map (attr h).motherName ++ n.modules.flatMap (mothersIn h d)
    | _ => []

/-- The texts of all arguments that are written for objects inside `a`, or `a` itself. -/
def textsIn (h : Heap K) : Nat → Nat → List String
  | 0, _ => []
  | d + 1, a =>
    match h.objs[a]? with
    | some (.net _ n) => n.modules.flatMap (textsIn h d) ++
        n.motherconnections.map (fun m => (Lit.int (((h.mothers[m]?).map (fun x => x.params.length)).getD 0)).repr) ++
        ((n.modules.flatMap (fun m => (dget n.connections m).getD [])) ++ n.recurrentConns).flatMap
          (fun c => [c.ext.inFrom, c.ext.inTo, c.ext.outFrom, c.ext.outTo].map (fun (i : Nat) => (Lit.int i).repr))
    | some (.leaf l) => l.args.map (fun p => p.2.repr)
    | none => []

/-- A module or network that can be saved: made of modules of the good classes, nested at most `d` deep, and no module
nested deeper has the name of a module further up. -/
def Savable (h : Heap K) : Nat → Nat → Prop
  | 0, _ => False
  | d + 1, a =>
    match h.objs[a]? with
    | some (.leaf l) => MadeLeaf l ∧ goodClass l.cls = true
    | some (.net hd n) => SavableNet h hd n ∧
        ∀ m ∈ n.modules, Savable h d m ∧ ∀ s ∈ namesIn h d m, s ∉ n.modules.map (attr h).name
    | none => False

/-- The names and texts in the file do not clash with each other or with names that earlier reads have left behind. -/
structure NoClash (h : Heap K) (d a : Nat) (r : Reader K) : Prop where
  texts : ∀ t ∈ textsIn h d a, t ∉ r.modules.map Prod.fst ++ namesIn h d a ∧ t ∉ r.mothers.map Prod.fst ++ mothersIn h d a
  mothers : ∀ s ∈ mothersIn h d a, s ∉ r.modules.map Prod.fst ++ namesIn h d a
  nonempty : "" ∉ r.modules.map Prod.fst ++ namesIn h d a ∧ "" ∉ r.mothers.map Prod.fst ++ mothersIn h d a

end Verif.XmlNet.Spec
