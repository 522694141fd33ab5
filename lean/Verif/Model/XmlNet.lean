import Verif.Model.Builder
/-
Model of saving networks to and reading them from XML files:
  pybrain/tools/customxml/networkwriter.py, networkreader.py, handling.py
  pybrain/utilities.py:90-106, 134-143 (setAllArgs, XMLBuildable)
  and of the constructors that the reader calls (pybrain/structure/modules, pybrain/structure/connections).

Objects live in a heap and are identified by their address, as in Python. The XML document is modelled by its tree; that
`toprettyxml` and `parse` reproduce the tree (names without line breaks), that `eval(repr(v)) = v` for argument values,
`eval(str(list(params))) = params`, and that the canonical class name evaluates to the class, is assumed.
`K` is the type of parameter values. Classes with further behaviour of their own (custom networks, subclasses defined by
users) are not modelled.
-/
namespace Verif.XmlNet

open Verif.Py Verif.Builder Verif.Topo

/-- Values of constructor arguments that are not objects. `None` is not written (networkwriter.py:100). -/
inductive Lit where
  | int (n : Int) | bool (b : Bool) | str (s : String)
deriving DecidableEq, Repr

/-- `repr` (strings without quotes or escapes in them) -/
def Lit.repr : Lit → String
  | .int n => Int.repr n
  | .bool b => if b then "True" else "False"
  | .str s => "'" ++ s ++ "'"

/-- The text of a `val` attribute (networkwriter.py:99-106): the name of an object, or the `repr` of a value. -/
inductive Txt where
  | name (s : String) | value (v : Lit)
deriving DecidableEq, Repr

def Txt.text : Txt → String
  | .name s => s
  | .value v => v.repr

/-- Keyword arguments handed to a constructor: values, lists of numbers, modules or mother connections (by address). -/
inductive PV where
  | lit (v : Lit) | nats (l : List Nat) | mod (a : Nat) | mother (a : Nat)
deriving DecidableEq, Repr

/-- Modules that are not networks. `plain` stands for the layers that inherit `NeuronLayer.__init__` (linear, sigmoid,
tanh, softmax, relu, softsign, ...), distinguished by a number. -/
inductive LeafClass where
  | plain (which : Nat) | bias | multiplication | gate | doubleGate | switch | lstm | gaussian | mixtureDensity
  | partialSoftmax | table | kohonen | stateDependent
deriving DecidableEq, Repr

/-- A module: class, name, `argdict` (without `None`), dimensions, other constants fixed by the constructor, parameters. -/
structure Leaf (K : Type) where
  cls : LeafClass
  name : String
  args : List (String × Lit)
  indim : Nat
  outdim : Nat
  consts : List Nat
  params : List K
deriving DecidableEq, Repr

/-- The parameters of the constructors: required ones and optional ones. -/
def LeafClass.required : LeafClass → List String
  | .plain _ | .multiplication | .gate | .doubleGate | .switch | .lstm | .gaussian | .mixtureDensity => ["dim"]
  | .bias => []
  | .partialSoftmax => ["size", "slicelength"]
  | .table => ["numRows", "numColumns"]
  | .kohonen => ["dim", "nNeurons"]
  | .stateDependent => ["dim", "module"]

def LeafClass.optional : LeafClass → List String
  | .plain _ | .multiplication | .gate | .doubleGate | .switch | .gaussian | .bias | .table => ["name"]
  | .lstm => ["peepholes", "name"]
  | .mixtureDensity => ["name", "mix"]
  | .partialSoftmax => []
  | .kohonen => ["name", "outputFullMap"]
  | .stateDependent => ["name", "onesigma"]

/-- Calling with keyword arguments: all required ones there, no unknown ones (otherwise `TypeError`). -/
def callable (required optional : List String) (keys : List String) : Bool :=
  required.all (fun k => decide (k ∈ keys)) && keys.all (fun k => decide (k ∈ required ++ optional))

/-- a size argument: a non-negative integer (others make `zeros` fail) -/
def kwNat (kw : List (String × PV)) (k : String) : Option Nat :=
  match dget kw k with
  | some (.lit (.int n)) => if 0 ≤ n then some n.toNat else none
  | _ => none

/-- an optional size argument -/
def kwNatOr (kw : List (String × PV)) (k : String) (dflt : Nat) : Option Nat :=
  match dget kw k with
  | none => some dflt
  | some _ => kwNat kw k

/-- an optional flag -/
def kwFlag (kw : List (String × PV)) (k : String) (dflt : Bool) : Option Bool :=
  match dget kw k with
  | none => some dflt
  | some (.lit (.bool b)) => some b
  | some _ => none

/-- The entry that `Module.__init__` makes for the name (module.py:36): nothing is written for `None`. -/
def nameArg (kw : List (String × PV)) : List (String × Lit) :=
  match dget kw "name" with
  | some (.lit (.str s)) => [("name", .str s)]
  | _ => []

/-- The name given, or a generated one (utilities.py:213-217). -/
def nameOr (kw : List (String × PV)) (gen : String) : String :=
  match dget kw "name" with
  | some (.lit (.str s)) => s
  | _ => gen

section
variable {K : Type}

/-- new parameters, random -/
def fresh (init : Nat → K) (n : Nat) : List K := (List.range n).map init

/-- The constructors of the modules: neuronlayer.py:13-16, biasunit.py:12-13, gate.py:16-18, 36-38, 59-61, 85-87,
lstm.py:35-60, gaussianlayer.py:13-19, mixturedensity.py:16-22, softmax.py:27-29, table.py:12-20, kohonen.py:18-40,
statedependentlayer.py:12-30. `gen` is the name that is generated if none is given. `none` stands for an exception.
`argdict` collects the arguments of `setArgs` calls; note `stdParams` in the one of Gaussian layers. Sizes have to be
integers, names strings (an integer or boolean as a name is not modelled). The module of a state-dependent layer is
not modelled: its constructor is only called here without one. -/
def mkLeaf (init : Nat → K) (gen : String) (c : LeafClass) (kw : List (String × PV)) : Option (Leaf K) :=
  if callable c.required c.optional (kw.map Prod.fst) then
    match c with
    | .plain w => (kwNat kw "dim").map fun (d : Nat) => ⟨.plain w, nameOr kw gen, nameArg kw ++ [("dim", .int d)], d, d, [], []⟩
    | .bias => some ⟨.bias, nameOr kw gen, nameArg kw, 0, 1, [], []⟩
    | .multiplication => (kwNat kw "dim").map fun (d : Nat) =>
        ⟨.multiplication, nameOr kw gen, [("name", .str (nameOr kw gen)), ("dim", .int d)], 2 * d, d, [], []⟩
    | .gate => (kwNat kw "dim").map fun (d : Nat) =>
        ⟨.gate, nameOr kw gen, [("name", .str (nameOr kw gen)), ("dim", .int d)], 2 * d, d, [], []⟩
    | .doubleGate => (kwNat kw "dim").map fun (d : Nat) =>
        ⟨.doubleGate, nameOr kw gen, [("name", .str (nameOr kw gen)), ("dim", .int d)], 2 * d, 2 * d, [], []⟩
    | .switch => (kwNat kw "dim").map fun (d : Nat) =>
        ⟨.switch, nameOr kw gen, [("name", .str (nameOr kw gen)), ("dim", .int d)], d, d * 2, [], []⟩
    | .lstm =>
      match kwNat kw "dim", kwFlag kw "peepholes" false with
      | some d, some p => some ⟨.lstm, nameOr kw gen, [("dim", .int d), ("peepholes", .bool p)] ++ nameArg kw, 4 * d, d, [],
          if p then fresh init (d * 3) else []⟩
      | _, _ => none
    | .gaussian => (kwNat kw "dim").map fun (d : Nat) =>
        ⟨.gaussian, nameOr kw gen, nameArg kw ++ [("dim", .int d), ("stdParams", .int 0)], d, d, [], fresh init d⟩
    | .mixtureDensity =>
      match kwNat kw "dim", kwNatOr kw "mix" 5 with
      | some d, some mix => some ⟨.mixtureDensity, nameOr kw gen, nameArg kw ++ [("dim", .int ((mix * (d + 2) : Nat)))],
          mix * (d + 2), mix * (d + 2), [mix, d], []⟩
      | _, _ => none
    | .partialSoftmax =>
      match kwNat kw "size", kwNat kw "slicelength" with
      | some d, some s => some ⟨.partialSoftmax, gen, [("dim", .int d)], d, d, [s], []⟩
      | _, _ => none
    | .table =>
      match kwNat kw "numRows", kwNat kw "numColumns" with
      | some r, some s => some ⟨.table, nameOr kw gen, nameArg kw, 2, 1, [r, s], fresh init (r * s)⟩
      | _, _ => none
    | .kohonen =>
      match kwNat kw "dim", kwNat kw "nNeurons", kwFlag kw "outputFullMap" false with
      | some d, some n, some b => some ⟨.kohonen, nameOr kw gen, nameArg kw, d, if b then n ^ 2 else 2, [n], []⟩
      | _, _, _ => none
    | .stateDependent => none
  else none

/-- Connection classes. -/
inductive ConnClass where
  | full | fullNotSelf | identity | linear | permutation | subsampling | sharedFull | sharedSubsampling
deriving DecidableEq, Repr

def ConnClass.shared : ConnClass → Bool
  | .sharedFull | .sharedSubsampling => true
  | _ => false

/-- What a connection carries besides its ends, its name and its mother: class, slices, own parameters, and the block
size and permutation of permutation connections. -/
structure Ext (K : Type) where
  cls : ConnClass
  inFrom : Nat
  inTo : Nat
  outFrom : Nat
  outTo : Nat
  params : List K
  perm : List Nat
deriving DecidableEq, Repr

abbrev NConn (K : Type) := Conn Nat Nat (Ext K)

/-- A network: whether it is a recurrent one, its name, and the `forget` flag (recurrent.py:21, set as an attribute). -/
structure Head where
  recurrent : Bool
  name : String
  forget : Bool
deriving DecidableEq, Repr

/-- an object -/
inductive Content (K : Type) where
  | leaf (l : Leaf K)
  | net (hd : Head) (n : Builder.Net Nat Nat (Ext K))
deriving DecidableEq

/-- a mother connection (shared.py:15-25) -/
structure Mother (K : Type) where
  name : String
  params : List K
deriving DecidableEq, Repr

structure Heap (K : Type) where
  objs : List (Content K)
  mothers : List (Mother K)
deriving DecidableEq

def Content.name : Content K → String
  | .leaf l => l.name
  | .net hd _ => hd.name

def Content.indim : Content K → Nat
  | .leaf l => l.indim
  | .net _ n => n.indim

def Content.outdim : Content K → Nat
  | .leaf l => l.outdim
  | .net _ n => n.outdim

/-- The attributes of the objects in a heap. -/
def attr (h : Heap K) : Attr Nat Nat where
  name a := ((h.objs[a]?).map Content.name).getD ""
  indim a := ((h.objs[a]?).map Content.indim).getD 0
  outdim a := ((h.objs[a]?).map Content.outdim).getD 0
  motherName a := ((h.mothers[a]?).map Mother.name).getD ""

def sliceKeys : List String := ["name", "inSliceFrom", "inSliceTo", "outSliceFrom", "outSliceTo"]

def ConnClass.required : ConnClass → List String
  | .permutation => ["inmod", "outmod", "permutation", "blocksize"]
  | .sharedFull | .sharedSubsampling => ["mother", "inmod", "outmod"]
  | _ => ["inmod", "outmod"]

/-- The number of own parameters (full.py:16, linear.py:16-19, subsampling.py:16-19); shared connections use the
mother's. -/
def ConnClass.paramdim (c : ConnClass) (inn out : Nat) : Nat :=
  match c with
  | .full | .fullNotSelf => inn * out
  | .linear => inn
  | .subsampling => out
  | _ => 0

/-- The constructors of connections (connection.py:16-65, full.py:14-16, fullnotself.py:15-19, identity.py:10-14,
linear.py:12-19, permutation.py:16-28, subsampling.py:12-19, shared.py:35-41, 72-74). Slices are natural numbers with
`from ≤ to`. A module in the place of a mother is
taken to be an error. -/
def mkConn (h : Heap K) (init : Nat → K) (gen : String) (c : ConnClass) (kw : List (String × PV)) : Option (NConn K) :=
  if callable c.required sliceKeys (kw.map Prod.fst) then
    match dget kw "inmod", dget kw "outmod" with
    | some (.mod a), some (.mod b) =>
      match h.objs[a]?, h.objs[b]? with
      | some x, some y =>
        match kwNatOr kw "inSliceFrom" 0, kwNatOr kw "inSliceTo" x.outdim, kwNatOr kw "outSliceFrom" 0, kwNatOr kw "outSliceTo" y.indim with
        | some i, some j, some k, some l =>
          if i ≤ j ∧ k ≤ l then
            if (c = .identity ∨ c = .fullNotSelf) ∧ j - i ≠ l - k then none
            else if c = .permutation then
              match dget kw "permutation", kwNat kw "blocksize" with
              | some (.nats p), some s =>
                if j - i = l - k ∧ p.length * s = j - i then some ⟨a, b, nameOr kw gen, none, ⟨c, i, j, k, l, [], s :: p⟩⟩ else none
              | _, _ => none
            else if c.shared then
              match dget kw "mother" with
              | some (.mother m) => some ⟨a, b, nameOr kw gen, some m, ⟨c, i, j, k, l, [], []⟩⟩
              | _ => none
            else some ⟨a, b, nameOr kw gen, none, ⟨c, i, j, k, l, fresh init (c.paramdim (j - i) (l - k)), []⟩⟩
          else none
        | _, _, _, _ => none
      | _, _ => none
    | _, _ => none
  else none

/-! ### Writing -/

/-- the element of a buildable object: class, name, arguments, parameters -/
structure BNode (C K : Type) where
  cls : C
  name : String
  args : List (String × Txt)
  params : Option (List K)
deriving DecidableEq, Repr

/-- the element of a module -/
inductive Node (K : Type) where
  | leaf (b : BNode LeafClass K) (inmodule outmodule : Bool)
  | net (recurrent : Bool) (name : String) (mods : List (Node K)) (mothers : List (BNode Unit K))
      (conns : List (BNode ConnClass K × Bool)) (inmodule outmodule : Bool)

/-- `if m.paramdim > 0 and not isinstance(m, SharedConnection)` (networkwriter.py:93-94) -/
def writeParams (ps : List K) : Option (List K) := if ps.length > 0 then some ps else none

/-- `writeBuildable` for modules (networkwriter.py:85-106). -/
def writeLeaf (l : Leaf K) : BNode LeafClass K :=
  ⟨l.cls, l.name, l.args.map (fun p => (p.1, .value p.2)), writeParams l.params⟩

/-- The arguments of a connection (connection.py:57-65, shared.py:40), written. -/
def connArgs (h : Heap K) (c : NConn K) : List (String × Txt) :=
  let A := attr h
  [("inmod", .name (A.name c.inmod)), ("outmod", .name (A.name c.outmod))] ++
  (if c.ext.inFrom > 0 then [("inSliceFrom", .value (.int c.ext.inFrom))] else []) ++
  (if c.ext.outFrom > 0 then [("outSliceFrom", .value (.int c.ext.outFrom))] else []) ++
  (if c.ext.inTo < A.outdim c.inmod then [("inSliceTo", .value (.int c.ext.inTo))] else []) ++
  (if c.ext.outTo < A.indim c.outmod then [("outSliceTo", .value (.int c.ext.outTo))] else []) ++
  (match c.mother with
    | some m => [("mother", .name (A.motherName m))]
    | none => [])

/-- `writeBuildable` for connections -/
def writeConn (h : Heap K) (c : NConn K) : BNode ConnClass K :=
  ⟨c.ext.cls, c.name, connArgs h c, if c.ext.cls.shared then none else writeParams c.ext.params⟩

/-- `writeBuildable` for mother connections -/
def writeMother (m : Mother K) : BNode Unit K :=
  ⟨(), m.name, [("nbparams", .value (.int m.params.length))], writeParams m.params⟩

/-- `for x in l: w(x)` in the exception monad -/
def mapAll {α β : Type} (f : α → Option β) : List α → Option (List β)
  | [] => some []
  | a :: l =>
    match f a with
    | none => none
    | some b =>
      match mapAll f l with
      | none => none
      | some bs => some (b :: bs)

/-- the modules in the order in which they are written, with their roles (networkwriter.py:42-52) -/
def writeOrder (n : Builder.Net Nat Nat (Ext K)) : List (Nat × Bool × Bool) :=
  n.inmodules.map (fun a => (a, true, decide (a ∈ n.outmodules))) ++
  (n.outmodules.filter (fun a => decide (a ∉ n.inmodules))).map (fun a => (a, false, true)) ++
  (n.modulesSorted.filter (fun a => decide (a ∉ n.inmodules) && decide (a ∉ n.outmodules))).map (fun a => (a, false, false))

/-- the connections in the order in which they are written (networkwriter.py:62-67) -/
def writeConns (h : Heap K) (hd : Head) (n : Builder.Net Nat Nat (Ext K)) : List (BNode ConnClass K × Bool) :=
  (n.modulesSorted.flatMap (fun m => (dget n.connections m).getD [])).map (fun c => (writeConn h c, false)) ++
  (if hd.recurrent then n.recurrentConns.map (fun c => (writeConn h c, true)) else [])

/-- `writeModule` and `writeNetwork` (networkwriter.py:33-78). The first argument bounds the depth of nesting (a network
that contains itself would be written for ever). The flag for outputs is only set if the one for inputs is not. -/
def writeModule (h : Heap K) : Nat → Nat × Bool × Bool → Option (Node K)
  | 0, _ => none
  | d + 1, (a, inm, outm) =>
    match h.objs[a]? with
    | none => none
    | some (.leaf l) => some (.leaf (writeLeaf l) inm (!inm && outm))
    | some (.net hd n) =>
      match mapAll (writeModule h d) (writeOrder n), mapAll (fun m => (h.mothers[m]?).map writeMother) n.motherconnections with
      | some mods, some mothers => some (.net hd.recurrent hd.name mods mothers (writeConns h hd n) inm (!inm && outm))
      | _, _ => none

/-- `NetworkWriter.writeToFile` (networkwriter.py:26-31) -/
def writeNetwork (h : Heap K) (d : Nat) (a : Nat) : Option (Node K) := writeModule h d (a, false, false)

/-! ### Reading -/

/-- The reader: the heap, and the class attributes `modules` and `mothers` (networkreader.py:22-23), which all readers
of a process share. -/
structure Reader (K : Type) where
  heap : Heap K
  modules : List (String × Nat)
  mothers : List (String × Nat)
deriving DecidableEq

/-- `AttributeError` (an object could not be constructed, or `addRecurrentConnection` does not exist), an error of `eval`,
an error of `sortModules`. -/
inductive RErr where
  | attributeError | evalError | sort (e : TErr)
deriving DecidableEq, Repr

/-- `readArgs` (networkreader.py:101-111): names of modules first, then names of mothers, then expressions. Names that are
not known are taken to be no valid expressions; only the name of an object can be empty. -/
def readArgs (r : Reader K) : List (String × Txt) → Except RErr (List (String × PV))
  | [] => .ok []
  | (k, t) :: rest =>
    match readArgs r rest with
    | .error e => .error e
    | .ok kw =>
      match dget r.modules t.text with
      | some a => .ok ((k, .mod a) :: kw)
      | none =>
        match dget r.mothers t.text with
        | some a => .ok ((k, .mother a) :: kw)
        | none =>
          match t with
          | .value v => .ok ((k, .lit v) :: kw)
          | .name s => if s = "" then .ok kw else .error .evalError

/-- The children of the element of a buildable object, as `readArgs` sees them: the `Parameters` element has no `val`. -/
def BNode.children {C : Type} (b : BNode C K) : List (String × Txt) :=
  b.args ++ (if b.params.isSome then [("Parameters", .name "")] else [])

/-- `readBuildable` for modules (networkreader.py:88-99); the parameters are replaced by the ones in the file, if there
are any (networkreader.py:113-117). -/
def readLeaf (r : Reader K) (init : Nat → K) (b : BNode LeafClass K) : Except RErr (Leaf K) :=
  match readArgs r b.children with
  | .error e => .error e
  | .ok kw =>
    match mkLeaf init b.name b.cls kw with
    | none => .error .attributeError
    | some l => .ok { l with name := b.name, params := b.params.getD l.params }

/-- `readBuildable` for connections (networkreader.py:88-99). -/
def readConn (r : Reader K) (init : Nat → K) (b : BNode ConnClass K) : Except RErr (NConn K) :=
  match readArgs r b.children with
  | .error e => .error e
  | .ok kw =>
    match mkConn r.heap init b.name b.cls kw with
    | none => .error .attributeError
    | some c => .ok { c with name := b.name, ext := { c.ext with params := b.params.getD c.ext.params } }

/-- `readBuildable` for mothers; the constructor asserts that there are parameters (shared.py:22-25). -/
def readMother (r : Reader K) (init : Nat → K) (b : BNode Unit K) : Except RErr (Mother K) :=
  match readArgs r b.children with
  | .error e => .error e
  | .ok kw =>
    if callable ["nbparams"] [] (kw.map Prod.fst) then
      match kwNat kw "nbparams" with
      | some n => if n > 0 then .ok ⟨b.name, b.params.getD (fresh init n)⟩ else .error .attributeError
      | none => .error .attributeError
    else .error .attributeError

/-- networkreader.py:57-61 -/
def readMothers (init : Nat → K) : Reader K → List (BNode Unit K) → Except RErr (Reader K)
  | r, [] => .ok r
  | r, b :: bs =>
    match readMother r init b with
    | .error e => .error e
    | .ok m => readMothers init
        ⟨{ r.heap with mothers := r.heap.mothers ++ [m] }, r.modules, dset r.mothers m.name r.heap.mothers.length⟩ bs

/-- networkreader.py:63-68 -/
def readConns (r : Reader K) (init : Nat → K) (recurrent : Bool) :
    Builder.Net Nat Nat (Ext K) → List (BNode ConnClass K × Bool) → Except RErr (Builder.Net Nat Nat (Ext K))
  | n, [] => .ok n
  | n, (b, rc) :: bs =>
    match readConn r init b with
    | .error e => .error e
    | .ok c =>
      if rc then
        if recurrent then readConns r init recurrent (addRecurrentConnection n c) bs else .error .attributeError
      else readConns r init recurrent (addConnection n c) bs

/-- `n.addInputModule(m)`, `addOutputModule` or `addModule` (networkreader.py:50-55) -/
def addAs (inm outm : Bool) (n : Builder.Net Nat Nat (Ext K)) (a : Nat) : Builder.Net Nat Nat (Ext K) :=
  if inm then addInputModule n a else if outm then addOutputModule n a else addModule n a

def Node.inm : Node K → Bool
  | .leaf _ i _ => i
  | .net _ _ _ _ _ i _ => i

def Node.outm : Node K → Bool
  | .leaf _ _ o => o
  | .net _ _ _ _ _ _ o => o

def Node.name : Node K → String
  | .leaf b _ _ => b.name
  | .net _ name _ _ _ _ _ => name

mutual
/-- `readBuildable` for a module or `readNetwork` (networkreader.py:40-71, 88-99): the new state and the address of the
new object. `order` is the iteration order of sets. `forget` is not in the file. -/
def readObject (init : Nat → K) (order : List Nat → List Nat) : Reader K → Node K → Except RErr (Reader K × Nat)
  | r, .leaf b _ _ =>
    match readLeaf r init b with
    | .error e => .error e
    | .ok l => .ok ({ r with heap := { r.heap with objs := r.heap.objs ++ [.leaf l] } }, r.heap.objs.length)
  | r, .net recurrent name mods mothers conns _ _ =>
    match readModules init order r empty mods with
    | .error e => .error e
    | .ok (r1, n1) =>
      match readMothers init r1 mothers with
      | .error e => .error e
      | .ok r2 =>
        match readConns r2 init recurrent n1 conns with
        | .error e => .error e
        | .ok n2 =>
          match sortModules (attr r2.heap) (order n2.modules) n2 with
          | .error e => .error (.sort e)
          | .ok n3 => .ok ({ r2 with heap := { r2.heap with objs := r2.heap.objs ++ [.net ⟨recurrent, name, false⟩ n3] } },
              r2.heap.objs.length)

/-- the loop over the modules, with `readModule` (networkreader.py:48-55, 73-81): a module is registered under its name
after it has been read completely -/
def readModules (init : Nat → K) (order : List Nat → List Nat) :
    Reader K → Builder.Net Nat Nat (Ext K) → List (Node K) → Except RErr (Reader K × Builder.Net Nat Nat (Ext K))
  | r, n, [] => .ok (r, n)
  | r, n, m :: ms =>
    match readObject init order r m with
    | .error e => .error e
    | .ok (r1, a) => readModules init order { r1 with modules := dset r1.modules m.name a } (addAs m.inm m.outm n a) ms
end

/-- `NetworkReader.readFrom` (networkreader.py:25-38) for the first network of a file. -/
def readFrom (init : Nat → K) (order : List Nat → List Nat) (r : Reader K) (node : Node K) : Except RErr (Reader K × Nat) :=
  readObject init order r node

end

end Verif.XmlNet
