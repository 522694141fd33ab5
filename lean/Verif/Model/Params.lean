import Verif.Model.Py
/-
Model of parameter storage:
  pybrain/structure/parametercontainer.py   (ParameterContainer)
  pybrain/structure/networks/network.py     (_containerIterator, _setParameters, _setDerivatives, sortModules, copy)

numpy slices are views: writing through a slice changes the base array. The model therefore has a heap of arrays, and a
parameter array is a view (base array, offset, length). A network is its own two views and the two views of each of
the containers yielded by `_containerIterator` (those with `paramdim > 0`), in that order.
-/
namespace Verif.Params

structure View where
  addr : Nat
  off : Nat
  len : Nat
deriving DecidableEq, Repr

abbrev Heap (K : Type) := List (List K)

variable {K : Type}

/-- the values seen through a view -/
def read (h : Heap K) (v : View) : List K := ((h.getD v.addr []).drop v.off).take v.len

/-- a new array -/
def alloc (h : Heap K) (data : List K) : Heap K × View := (h ++ [data], ⟨h.length, 0, data.length⟩)

/-- numpy basic slicing `v[a:b]` with `0 ≤ a ≤ b` -/
def subview (v : View) (a b : Nat) : View := ⟨v.addr, v.off + min a v.len, min b v.len - min a v.len⟩

/-- `v[k] = x`; outside the view it is IndexError -/
def write (h : Heap K) (v : View) (k : Nat) (x : K) : Option (Heap K) :=
  if k < v.len then some (h.set v.addr ((h.getD v.addr []).set (v.off + k) x)) else none

/-- A network's parameter storage. `user` is the array the caller last passed to `_setParameters`. -/
structure PS (K : Type) where
  heap : Heap K
  netP : View
  netD : View
  compP : List View
  compD : List View
  dims : List Nat
  user : View

/-- network.py:155-158 / 163-166: consecutive slices for the containers. -/
def handOut (v : View) : Nat → List Nat → List View
  | _, [] => []
  | index, d :: ds => subview v index (index + d) :: handOut v (index + d) ds

/-- `net._setParameters(p)` for a network without owner, network.py:152-158 with parametercontainer.py:51-66: the array
itself is taken over, the containers get slices, and every `paramdim` becomes the size of what it got. -/
def setParams (s : PS K) (p : List K) : PS K :=
  let (h, v) := alloc s.heap p
  let cs := handOut v 0 s.dims
  { s with heap := h, netP := v, compP := cs, dims := cs.map (·.len), user := v }

/-- network.py:226-242, the parameter part of `sortModules` (when there are parameters at all): concatenate what the
containers hold into new arrays and hand out slices of those. -/
def sortModules (s : PS K) : PS K :=
  let ps := (s.compP.map (read s.heap)).flatten
  let ds := (s.compD.map (read s.heap)).flatten
  let (h1, vp) := alloc s.heap ps
  let (h2, vd) := alloc h1 ds
  let cs := handOut vp 0 s.dims
  { s with heap := h2, netP := vp, netD := vd, compP := cs, compD := handOut vd 0 (cs.map (·.len)), dims := cs.map (·.len) }

/-- `copy.deepcopy` gives every array object (each view too) an array of its own; then network.py:266-272:
`cp._setParameters(self.params.copy())`. Returns the copy; the heap now contains both networks. -/
def deepcopyViews (h : Heap K) : List View → Heap K × List View
  | [] => (h, [])
  | v :: vs =>
    let (h1, v1) := alloc h (read h v)
    let (h2, vs2) := deepcopyViews h1 vs
    (h2, v1 :: vs2)

def copy (s : PS K) : PS K :=
  let (h1, vp) := alloc s.heap (read s.heap s.netP)
  let (h2, vd) := alloc h1 (read h1 s.netD)
  let (h3, cp) := deepcopyViews h2 s.compP
  let (h4, cd) := deepcopyViews h3 s.compD
  setParams { s with heap := h4, netP := vp, netD := vd, compP := cp, compD := cd } (read h4 s.netP)

/-- What a program can do with a sorted network's parameters. -/
inductive Op (K : Type) where
  | setParams (p : List K)          -- net._setParameters(p)
  | writeNet (k : Nat) (x : K)      -- net.params[k] = x
  | writeComp (i k : Nat) (x : K)   -- component i: params[k] = x
  | writeUser (k : Nat) (x : K)     -- p[k] = x on the array last passed to _setParameters
  | writeDeriv (i k : Nat) (x : K)  -- component i: derivs[k] = x (as the backward passes do, `derivs[k] += ...`)
  | resetDerivs                     -- net.resetDerivatives()
  | sort                            -- net.sorted = False; net.sortModules()

/-- `net.resetDerivatives()`, parametercontainer.py:79-82 (`_derivs *= 0`) -/
def resetDerivs [Zero K] (s : PS K) : PS K :=
  let a := s.heap.getD s.netD.addr []
  let new := a.take s.netD.off ++ ((a.drop s.netD.off).take s.netD.len).map (fun _ => 0) ++ a.drop (s.netD.off + s.netD.len)
  { s with heap := s.heap.set s.netD.addr new }

/-- One operation; `none` is an exception. -/
def step [Zero K] (s : PS K) : Op K → Option (PS K)
  | .setParams p => some (setParams s p)
  | .writeNet k x => (write s.heap s.netP k x).map fun h => { s with heap := h }
  | .writeComp i k x =>
    match s.compP[i]? with
    | none => none
    | some v => (write s.heap v k x).map fun h => { s with heap := h }
  | .writeUser k x => (write s.heap s.user k x).map fun h => { s with heap := h }
  | .writeDeriv i k x =>
    match s.compD[i]? with
    | none => none
    | some v => (write s.heap v k x).map fun h => { s with heap := h }
  | .resetDerivs => some (resetDerivs s)
  | .sort => some (sortModules s)

end Verif.Params
