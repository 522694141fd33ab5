import Verif.Spec.XmlNet
import Verif.Lemmas.Builder
/-
Lemmas about saving and reading networks: constructors.
-/
namespace Verif.XmlNet

open Verif.Py Verif.Builder Verif.Builder.Spec Verif.XmlNet.Spec

variable {K : Type}

theorem readArgs_value (r : Reader K) (k : String) (v : Lit) (rest : List (String × Txt)) (kw : List (String × PV))
    (h1 : dget r.modules v.repr = none) (h2 : dget r.mothers v.repr = none) (h : readArgs r rest = .ok kw) :
    readArgs r ((k, .value v) :: rest) = .ok ((k, .lit v) :: kw) := by
  simp [readArgs, h, Txt.text, h1, h2]

theorem readArgs_mod (r : Reader K) (k : String) (s : String) (a : Nat) (rest : List (String × Txt)) (kw : List (String × PV))
    (h1 : dget r.modules s = some a) (h : readArgs r rest = .ok kw) :
    readArgs r ((k, .name s) :: rest) = .ok ((k, .mod a) :: kw) := by
  simp [readArgs, h, Txt.text, h1]

theorem readArgs_mother (r : Reader K) (k : String) (s : String) (a : Nat) (rest : List (String × Txt)) (kw : List (String × PV))
    (h1 : dget r.modules s = none) (h2 : dget r.mothers s = some a) (h : readArgs r rest = .ok kw) :
    readArgs r ((k, .name s) :: rest) = .ok ((k, .mother a) :: kw) := by
  simp [readArgs, h, Txt.text, h1, h2]

theorem readArgs_params (r : Reader K) (ps : Option (List K)) (h1 : dget r.modules "" = none) (h2 : dget r.mothers "" = none) :
    readArgs r (if ps.isSome then [("Parameters", .name "")] else []) = .ok [] := by
  cases ps <;> simp [readArgs, Txt.text, h1, h2]

theorem readArgs_values (r : Reader K) (l : List (String × Lit)) (rest : List (String × Txt)) (kw : List (String × PV))
    (h1 : ∀ p ∈ l, dget r.modules p.2.repr = none) (h2 : ∀ p ∈ l, dget r.mothers p.2.repr = none) (h : readArgs r rest = .ok kw) :
    readArgs r (l.map (fun p => (p.1, .value p.2)) ++ rest) = .ok (l.map (fun p => (p.1, .lit p.2)) ++ kw) := by
  induction l with
  | nil => simpa using h
  | cons p l ih =>
    simp only [List.map_cons, List.cons_append]
    refine readArgs_value r _ _ _ _ (h1 p List.mem_cons_self) (h2 p List.mem_cons_self) ?_
    exact ih (fun q hq => h1 q (List.mem_cons_of_mem _ hq)) (fun q hq => h2 q (List.mem_cons_of_mem _ hq))

theorem length_fresh (init : Nat → K) (n : Nat) : (fresh init n).length = n := by simp [fresh]

theorem kwNat_lit (kw : List (String × PV)) (k : String) (d : Nat) (h : dget kw k = some (.lit (.int d))) : kwNat kw k = some d := by
  simp [kwNat, h]

theorem nameArg_cases (kw : List (String × PV)) : nameArg kw = [] ∨ ∃ s, nameArg kw = [("name", .str s)] := by
  unfold nameArg
  split
  · exact .inr ⟨_, rfl⟩
  · exact .inl rfl

/-- A module of a good class can be made again from its arguments. -/
theorem leaf_again (l : Leaf K) (hm : MadeLeaf l) (hg : goodClass l.cls = true) (init : Nat → K) (gen : String) :
    ∃ l1, mkLeaf init gen l.cls (l.args.map (fun p => (p.1, .lit p.2))) = some l1 ∧ l1.params.length = l.params.length ∧
      l = { l1 with name := l.name, params := l.params } := by
  obtain ⟨init0, gen0, kw, l0, -, h1, h2, h3⟩ := hm
  have hargs : l.args = l0.args := by rw [h3]
  rw [hargs]
  rw [← h2]
  rw [h3]
  clear h3 hargs
  generalize l.name = nm at *
  generalize l.params = ps at *
  generalize l.cls = cls at *
  cases cls <;> simp only [goodClass, Bool.false_eq_true] at hg
  all_goals
    unfold mkLeaf at h1
    split at h1
    case isFalse => cases h1
  case plain w =>
    obtain ⟨d, _, rfl⟩ := Option.map_eq_some_iff.1 h1
    rcases nameArg_cases kw with h | ⟨s, h⟩ <;> rw [h] <;> simp [mkLeaf, callable, LeafClass.required, LeafClass.optional, kwNat, dget, nameArg]
  case bias =>
    cases h1
    rcases nameArg_cases kw with h | ⟨s, h⟩ <;> rw [h] <;> simp [mkLeaf, callable, LeafClass.required, LeafClass.optional, kwNat, dget, nameArg]
  case multiplication =>
    obtain ⟨d, _, rfl⟩ := Option.map_eq_some_iff.1 h1
    simp [mkLeaf, callable, LeafClass.required, LeafClass.optional, kwNat, dget, nameOr]
  case gate =>
    obtain ⟨d, _, rfl⟩ := Option.map_eq_some_iff.1 h1
    simp [mkLeaf, callable, LeafClass.required, LeafClass.optional, kwNat, dget, nameOr]
  case doubleGate =>
    obtain ⟨d, _, rfl⟩ := Option.map_eq_some_iff.1 h1
    simp [mkLeaf, callable, LeafClass.required, LeafClass.optional, kwNat, dget, nameOr]
  case switch =>
    obtain ⟨d, _, rfl⟩ := Option.map_eq_some_iff.1 h1
    simp [mkLeaf, callable, LeafClass.required, LeafClass.optional, kwNat, dget, nameOr]
  case lstm =>
    revert h1
    cases h4 : kwNat kw "dim" <;> cases h5 : kwFlag kw "peepholes" false <;> simp only [reduceCtorEq, false_implies, Option.some.injEq]
    rename_i d p
    rintro rfl
    rcases nameArg_cases kw with h | ⟨s, h⟩ <;> cases p <;> rw [h] <;>
      simp [mkLeaf, callable, LeafClass.required, LeafClass.optional, kwNat, kwFlag, dget, nameArg, length_fresh]

/-- What the constructor of a connection guarantees. -/
theorem mkConn_facts (h : Heap K) (init : Nat → K) (gen : String) (cls : ConnClass) (kw : List (String × PV)) (c : NConn K)
    (hc : mkConn h init gen cls kw = some c) (hp : cls ≠ .permutation) :
    c.ext.cls = cls ∧ c.ext.inFrom ≤ c.ext.inTo ∧ c.ext.outFrom ≤ c.ext.outTo ∧
    (cls = .identity ∨ cls = .fullNotSelf → c.ext.inTo - c.ext.inFrom = c.ext.outTo - c.ext.outFrom) ∧
    (cls.shared = true → (∃ m, c.mother = some m) ∧ c.ext.params = []) ∧
    (cls.shared = false → c.mother = none ∧ c.ext.params.length = cls.paramdim (c.ext.inTo - c.ext.inFrom) (c.ext.outTo - c.ext.outFrom)) ∧
    c.ext.perm = [] := by
  unfold mkConn at hc
  split at hc
  case isFalse => cases hc
  split at hc <;> try (cases hc; done)
  split at hc <;> try (cases hc; done)
  split at hc <;> try (cases hc; done)
  rename_i i j k l _ _ _ _
  by_cases h1 : i ≤ j ∧ k ≤ l
  · rw [if_pos h1] at hc
    by_cases h2 : (cls = .identity ∨ cls = .fullNotSelf) ∧ j - i ≠ l - k
    · rw [if_pos h2] at hc; cases hc
    · rw [if_neg h2] at hc
      have h2' : cls = .identity ∨ cls = .fullNotSelf → j - i = l - k := by
        intro h; by_contra h'; exact h2 ⟨h, h'⟩
      by_cases h3 : cls.shared = true
      · rw [if_pos h3] at hc
        split at hc
        · cases hc
          refine ⟨rfl, h1.1, h1.2, h2', fun _ => ⟨⟨_, rfl⟩, rfl⟩, fun h => absurd h (by simp [h3]), rfl⟩
        · cases hc
      · rw [if_neg h3] at hc
        cases hc
        exact ⟨rfl, h1.1, h1.2, h2', fun h => absurd h h3, fun _ => ⟨rfl, length_fresh _ _⟩, rfl⟩
  · rw [if_neg h1] at hc; cases hc

/-- The arguments that the reader passes to the constructor of a connection. -/
def kwOf (A : Attr Nat Nat) (a b : Nat) (g : Nat → Nat) (c : NConn K) : List (String × PV) :=
  [("inmod", .mod a), ("outmod", .mod b)] ++
  (if c.ext.inFrom > 0 then [("inSliceFrom", .lit (.int c.ext.inFrom))] else []) ++
  (if c.ext.outFrom > 0 then [("outSliceFrom", .lit (.int c.ext.outFrom))] else []) ++
  (if c.ext.inTo < A.outdim c.inmod then [("inSliceTo", .lit (.int c.ext.inTo))] else []) ++
  (if c.ext.outTo < A.indim c.outmod then [("outSliceTo", .lit (.int c.ext.outTo))] else []) ++
  (match c.mother with
    | some m => [("mother", .mother (g m))]
    | none => [])

/-- A connection can be made again from its arguments. -/
theorem conn_again (h h' : Heap K) (c : NConn K) (hm : MadeConn h c) (hp : c.ext.cls ≠ .permutation) (a b : Nat) (g : Nat → Nat)
    (x y : Content K) (ha : h'.objs[a]? = some x) (hb : h'.objs[b]? = some y) (hx : x.outdim = (attr h).outdim c.inmod)
    (hy : y.indim = (attr h).indim c.outmod) (init : Nat → K) (gen : String) :
    ∃ c1, mkConn h' init gen c.ext.cls (kwOf (attr h) a b g c) = some c1 ∧ c1.inmod = a ∧ c1.outmod = b ∧ c1.mother = c.mother.map g ∧
      c1.ext.params.length = c.ext.params.length ∧ { c1.ext with params := c.ext.params } = c.ext := by
  obtain ⟨⟨init0, gen0, kw0, c0, -, h1, h2, h3⟩, hin, hout⟩ := hm
  obtain ⟨f1, f2, f3, f4, f5, f6, f7⟩ := mkConn_facts h init0 gen0 _ kw0 c0 h1 hp
  have e1 : c.ext.inFrom = c0.ext.inFrom := by rw [h3]
  have e2 : c.ext.inTo = c0.ext.inTo := by rw [h3]
  have e3 : c.ext.outFrom = c0.ext.outFrom := by rw [h3]
  have e4 : c.ext.outTo = c0.ext.outTo := by rw [h3]
  have e5 : c.mother = c0.mother := by rw [h3]
  have e6 : c.ext.perm = c0.ext.perm := by rw [h3]
  rw [← e1, ← e2] at f2
  rw [← e3, ← e4] at f3
  rw [← e1, ← e2, ← e3, ← e4] at f4 f6
  rw [← e5, h2] at f6
  rw [← e5] at f5
  rw [← e6] at f7
  have hpar : c.ext.cls.shared = true → c.ext.params = [] := by
    intro hs
    have := (f5 hs).2
    rw [this] at h2
    exact List.length_eq_zero_iff.1 h2.symm
  clear f1 e1 e2 e3 e4 e5 e6 h1 h2 h3
  obtain ⟨cin, cout, cname, cmother, ⟨cls, i, j, k, l, ps, perm⟩⟩ := c
  simp only at *
  subst f7
  have d1 : dget (kwOf (attr h) a b g ⟨cin, cout, cname, cmother, ⟨cls, i, j, k, l, ps, []⟩⟩) "inmod" = some (.mod a) := by
    simp [kwOf, dget]
  have d2 : dget (kwOf (attr h) a b g ⟨cin, cout, cname, cmother, ⟨cls, i, j, k, l, ps, []⟩⟩) "outmod" = some (.mod b) := by
    simp [kwOf, dget]
  have d3 : kwNatOr (kwOf (attr h) a b g ⟨cin, cout, cname, cmother, ⟨cls, i, j, k, l, ps, []⟩⟩) "inSliceFrom" 0 = some i := by
    unfold kwOf
    cases cmother <;> (dsimp only; split_ifs <;> simp [kwNatOr, kwNat, dget] <;> (try omega))
  have d4 : kwNatOr (kwOf (attr h) a b g ⟨cin, cout, cname, cmother, ⟨cls, i, j, k, l, ps, []⟩⟩) "inSliceTo" x.outdim = some j := by
    unfold kwOf
    rw [hx]
    cases cmother <;> (dsimp only; split_ifs <;> simp [kwNatOr, kwNat, dget] <;> (try omega))
  have d5 : kwNatOr (kwOf (attr h) a b g ⟨cin, cout, cname, cmother, ⟨cls, i, j, k, l, ps, []⟩⟩) "outSliceFrom" 0 = some k := by
    unfold kwOf
    cases cmother <;> (dsimp only; split_ifs <;> simp [kwNatOr, kwNat, dget] <;> (try omega))
  have d6 : kwNatOr (kwOf (attr h) a b g ⟨cin, cout, cname, cmother, ⟨cls, i, j, k, l, ps, []⟩⟩) "outSliceTo" y.indim = some l := by
    unfold kwOf
    rw [hy]
    cases cmother <;> (dsimp only; split_ifs <;> simp [kwNatOr, kwNat, dget] <;> (try omega))
  have d7 : dget (kwOf (attr h) a b g ⟨cin, cout, cname, cmother, ⟨cls, i, j, k, l, ps, []⟩⟩) "mother" = cmother.map (fun m => .mother (g m)) := by
    unfold kwOf
    cases cmother <;> (split_ifs <;> simp [dget])
  have d8 : callable cls.required sliceKeys ((kwOf (attr h) a b g ⟨cin, cout, cname, cmother, ⟨cls, i, j, k, l, ps, []⟩⟩).map Prod.fst) = true := by
    unfold kwOf
    by_cases hs : cls.shared = true
    · obtain ⟨⟨m, rfl⟩, -⟩ := f5 hs
      have hr : cls.required = ["mother", "inmod", "outmod"] := by cases cls <;> simp_all [ConnClass.shared, ConnClass.required]
      rw [hr]
      split_ifs <;> simp [callable, sliceKeys]
    · obtain ⟨rfl, -⟩ := f6 (by simpa using hs)
      have hr : cls.required = ["inmod", "outmod"] := by cases cls <;> simp_all [ConnClass.shared, ConnClass.required]
      rw [hr]
      split_ifs <;> simp [callable, sliceKeys]
  unfold mkConn
  rw [if_pos d8, d1, d2]
  simp only [ha, hb, d3, d4, d5, d6]
  rw [if_pos ⟨f2, f3⟩, if_neg (by rintro ⟨h1, h2⟩; exact h2 (f4 h1)), if_neg hp]
  by_cases hs : cls.shared = true
  · obtain ⟨⟨m, rfl⟩, -⟩ := f5 hs
    rw [if_pos hs, d7]
    exact ⟨_, rfl, rfl, rfl, rfl, by rw [hpar hs], rfl⟩
  · obtain ⟨rfl, hl⟩ := f6 (by simpa using hs)
    rw [if_neg hs]
    exact ⟨_, rfl, rfl, rfl, rfl, by rw [hl, length_fresh], rfl⟩

/-- What the reader gets from the element of a connection. -/
theorem readConn_ok (h : Heap K) (r : Reader K) (c : NConn K) (hm : MadeConn h c) (hp : c.ext.cls ≠ .permutation) (f g : Nat → Nat)
    (hf1 : dget r.modules ((attr h).name c.inmod) = some (f c.inmod)) (hf2 : dget r.modules ((attr h).name c.outmod) = some (f c.outmod))
    (hg : ∀ m, c.mother = some m → dget r.modules ((attr h).motherName m) = none ∧ dget r.mothers ((attr h).motherName m) = some (g m))
    (x y : Content K) (ha : r.heap.objs[f c.inmod]? = some x) (hb : r.heap.objs[f c.outmod]? = some y) (hx : x.outdim = (attr h).outdim c.inmod)
    (hy : y.indim = (attr h).indim c.outmod)
    (ht : ∀ i ∈ [c.ext.inFrom, c.ext.inTo, c.ext.outFrom, c.ext.outTo], dget r.modules (Lit.int (i : Nat)).repr = none ∧
      dget r.mothers (Lit.int (i : Nat)).repr = none)
    (he : dget r.modules "" = none ∧ dget r.mothers "" = none) (init : Nat → K) :
    readConn r init (writeConn h c) = .ok (mapConn f g c) := by
  have hkw : readArgs r (writeConn h c).children = .ok (kwOf (attr h) (f c.inmod) (f c.outmod) g c) := by
    have base : readArgs r ((match c.mother with
        | some m => [("mother", Txt.name ((attr h).motherName m))]
        | none => []) ++ (if (writeConn h c).params.isSome then [("Parameters", .name "")] else [])) =
        .ok ((match c.mother with
          | some m => [("mother", PV.mother (g m))]
          | none => [])) := by
      have hpz : readArgs r (if (writeConn h c).params.isSome then [("Parameters", .name "")] else []) = .ok [] :=
        readArgs_params r _ he.1 he.2
      cases hcm : c.mother with
      | none => exact hpz
      | some m => exact readArgs_mother r _ _ _ _ _ (hg m hcm).1 (hg m hcm).2 hpz
    have opt : ∀ (P : Prop) [Decidable P] (k : String) (i : Nat) (rest : List (String × Txt)) (kw : List (String × PV)),
        (dget r.modules (Lit.int (i : Nat)).repr = none ∧ dget r.mothers (Lit.int (i : Nat)).repr = none) →
        readArgs r rest = .ok kw → readArgs r ((if P then [(k, .value (.int i))] else []) ++ rest) =
          .ok ((if P then [(k, .lit (.int i))] else []) ++ kw) := by
      intro P _ k i rest kw hi hr
      by_cases hP : P
      · rw [if_pos hP, if_pos hP]
        exact readArgs_value r _ _ _ _ hi.1 hi.2 hr
      · rw [if_neg hP, if_neg hP]
        exact hr
    unfold BNode.children kwOf
    simp only [writeConn, connArgs, List.append_assoc] at base ⊢
    refine readArgs_mod r _ _ _ _ _ hf1 (readArgs_mod r _ _ _ _ _ hf2 ?_)
    exact opt _ _ _ _ _ (ht _ (by simp)) (opt _ _ _ _ _ (ht _ (by simp)) (opt _ _ _ _ _ (ht _ (by simp)) (opt _ _ _ _ _ (ht _ (by simp)) base)))
  obtain ⟨c1, h1, h2, h3, h4, h5, h6⟩ := conn_again h r.heap c hm hp (f c.inmod) (f c.outmod) g x y ha hb hx hy init (writeConn h c).name
  unfold readConn
  rw [hkw]
  simp only [show (writeConn h c).cls = c.ext.cls from rfl, h1]
  have hparams : (writeConn h c).params.getD c1.ext.params = c.ext.params := by
    have hl0 : c.ext.params.length = 0 → c1.ext.params = c.ext.params := by
      intro h0
      rw [h0] at h5
      rw [List.length_eq_zero_iff.1 h5, List.length_eq_zero_iff.1 h0]
    simp only [writeConn]
    split
    · rename_i hs
      obtain ⟨⟨init0, gen0, kw0, c0, -, g1, g2, g3⟩, -, -⟩ := hm
      have := ((mkConn_facts h init0 gen0 _ kw0 c0 g1 hp).2.2.2.2.1 hs).2
      rw [this] at g2
      simpa using hl0 g2.symm
    · unfold writeParams
      split
      · rfl
      · simpa using hl0 (by omega)
  rw [hparams, h6]
  congr 1
  cases c1
  simp only [mapConn] at *
  subst h2 h3 h4
  rfl

/-- What the reader gets from the element of a module. -/
theorem readLeaf_ok (r : Reader K) (l : Leaf K) (hm : MadeLeaf l) (hg : goodClass l.cls = true) (init : Nat → K)
    (ht : ∀ p ∈ l.args, dget r.modules p.2.repr = none ∧ dget r.mothers p.2.repr = none)
    (he : dget r.modules "" = none ∧ dget r.mothers "" = none) : readLeaf r init (writeLeaf l) = .ok l := by
  have hkw : readArgs r (writeLeaf l).children = .ok (l.args.map (fun p => (p.1, .lit p.2))) := by
    have := readArgs_values r l.args _ _ (fun p hp => (ht p hp).1) (fun p hp => (ht p hp).2) (readArgs_params r (writeLeaf l).params he.1 he.2)
    simpa [BNode.children, writeLeaf] using this
  obtain ⟨l1, h1, h2, h3⟩ := leaf_again l hm hg init (writeLeaf l).name
  unfold readLeaf
  rw [hkw]
  simp only [show (writeLeaf l).cls = l.cls from rfl, h1]
  congr 1
  have hp : (writeLeaf l).params.getD l1.params = l.params := by
    simp only [writeLeaf, writeParams]
    split
    · rfl
    · have h0 : l.params.length = 0 := by omega
      rw [h0] at h2
      rw [Option.getD_none, List.length_eq_zero_iff.1 h2, List.length_eq_zero_iff.1 h0]
  rw [hp]
  exact h3.symm

end Verif.XmlNet
