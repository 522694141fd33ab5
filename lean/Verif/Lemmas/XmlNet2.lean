import Verif.Lemmas.XmlNet
/-
Lemmas about saving and reading networks: lists of modules, mothers and connections.
-/
namespace Verif.XmlNet

open Verif.Py Verif.Builder Verif.Builder.Spec Verif.XmlNet.Spec

variable {K : Type}

/-- The heap has only grown. -/
def HeapExt (h h' : Heap K) : Prop := h.objs <+: h'.objs ∧ h.mothers <+: h'.mothers

theorem HeapExt.refl (h : Heap K) : HeapExt h h := ⟨List.prefix_refl _, List.prefix_refl _⟩

theorem HeapExt.trans {h h' h'' : Heap K} (a : HeapExt h h') (b : HeapExt h' h'') : HeapExt h h'' := ⟨a.1.trans b.1, a.2.trans b.2⟩

theorem get_prefix {α : Type} {l l' : List α} (h : l <+: l') {i : Nat} {x : α} (hi : l[i]? = some x) : l'[i]? = some x := by
  obtain ⟨t, rfl⟩ := h
  rw [List.getElem?_append_left]
  · exact hi
  · exact (List.getElem?_eq_some_iff.1 hi).1

theorem same_mono {h h1 h2 : Heap K} (he : HeapExt h1 h2) : ∀ d a a', Same h h1 d a a' → Same h h2 d a a' := by
  intro d
  induction d with
  | zero => intro a a' hs; exact hs
  | succ d ih =>
    intro a a' hs
    unfold Same at hs ⊢
    cases ha : h.objs[a]? with
    | none => rw [ha] at hs; exact hs
    | some x =>
      rw [ha] at hs
      cases ha' : h1.objs[a']? with
      | none => rw [ha'] at hs; cases x <;> exact hs.elim
      | some x' =>
        rw [ha'] at hs
        rw [get_prefix he.1 ha']
        cases x <;> cases x' <;> simp only at hs ⊢
        · exact hs
        · obtain ⟨h3, f, g, h4⟩ := hs
          exact ⟨h3, f, g, ⟨h4.inj, fun x hx => ih _ _ (h4.same x hx), h4.modules, h4.inputs, h4.outputs, h4.minj,
            fun x hx => by obtain ⟨m, h5, h6⟩ := h4.msame x hx; exact ⟨m, h5, get_prefix he.2 h6⟩, h4.mothers, h4.conns, h4.recs, h4.order,
            h4.indim, h4.outdim, h4.sorted⟩⟩

theorem same_attr {h h' : Heap K} {d a a' : Nat} (hs : Same h h' d a a') :
    ∃ x x', h.objs[a]? = some x ∧ h'.objs[a']? = some x' ∧ x'.name = x.name ∧ x'.indim = x.indim ∧ x'.outdim = x.outdim := by
  cases d with
  | zero => exact hs.elim
  | succ d =>
    unfold Same at hs
    cases ha : h.objs[a]? with
    | none => rw [ha] at hs; exact hs.elim
    | some x =>
      rw [ha] at hs
      cases ha' : h'.objs[a']? with
      | none => rw [ha'] at hs; cases x <;> exact hs.elim
      | some x' =>
        rw [ha'] at hs
        refine ⟨x, x', rfl, rfl, ?_⟩
        cases x <;> cases x' <;> simp only at hs
        · subst hs; exact ⟨rfl, rfl, rfl⟩
        · obtain ⟨rfl, f, g, h4⟩ := hs
          exact ⟨rfl, h4.indim, h4.outdim⟩

theorem same_attrs {h h' : Heap K} {d a a' : Nat} (hs : Same h h' d a a') :
    (attr h').name a' = (attr h).name a ∧ (attr h').indim a' = (attr h).indim a ∧ (attr h').outdim a' = (attr h).outdim a := by
  obtain ⟨x, x', h1, h2, h3, h4, h5⟩ := same_attr hs
  simp [attr, h1, h2, h3, h4, h5]

/-- What reading a module achieves. -/
structure ReadOK (h : Heap K) (N Mo : List String) (d a : Nat) (r r' : Reader K) (a' : Nat) : Prop where
  ext : HeapExt r.heap r'.heap
  low : r.heap.objs.length ≤ a'
  high : a' < r'.heap.objs.length
  same : Same h r'.heap d a a'
  frame : ∀ s ∉ namesIn h d a, dget r'.modules s = dget r.modules s
  keys : ∀ s, (dget r'.modules s).isSome → s ∈ N
  mkeys : ∀ s, (dget r'.mothers s).isSome → s ∈ Mo

/-- What is needed of the texts and names in `a`. -/
structure Clean (h : Heap K) (N Mo : List String) (d a : Nat) : Prop where
  texts : ∀ t ∈ textsIn h d a, t ∉ N ∧ t ∉ Mo
  mothers : ∀ s ∈ mothersIn h d a, s ∉ N ∧ s ∈ Mo
  names : ∀ s ∈ namesIn h d a, s ∈ N

/-- The statement proved by induction on the depth. -/
def ModuleOK (h : Heap K) (N Mo : List String) (init : Nat → K) (order : List Nat → List Nat) (d : Nat) : Prop :=
  ∀ (a : Nat) (inm outm : Bool) (r : Reader K), Savable h d a → Clean h N Mo d a → (∀ s, (dget r.modules s).isSome → s ∈ N) →
    (∀ s, (dget r.mothers s).isSome → s ∈ Mo) →
    ∃ node r' a', writeModule h d (a, inm, outm) = some node ∧ node.name = (attr h).name a ∧ node.inm = inm ∧ node.outm = (!inm && outm) ∧
      readObject init order r node = .ok (r', a') ∧ ReadOK h N Mo d a r r' a'

/-- Adding the modules of a list. -/
def addAll (f : Nat → Nat) (n : Builder.Net Nat Nat (Ext K)) (L : List (Nat × Bool × Bool)) : Builder.Net Nat Nat (Ext K) :=
  L.foldl (fun n p => addAs p.2.1 (!p.2.1 && p.2.2) n (f p.1)) n

theorem addAll_congr (f f' : Nat → Nat) (n : Builder.Net Nat Nat (Ext K)) (L : List (Nat × Bool × Bool)) (h : ∀ p ∈ L, f p.1 = f' p.1) :
    addAll f n L = addAll f' n L := by
  induction L generalizing n with
  | nil => rfl
  | cons p L ih =>
    simp only [addAll, List.foldl_cons] at ih ⊢
    rw [h p List.mem_cons_self]
    exact ih _ (fun q hq => h q (List.mem_cons_of_mem _ hq))

/-- The new address of a module, found by its name. -/
def newOf (h : Heap K) (r : Reader K) (x : Nat) : Nat := (dget r.modules ((attr h).name x)).getD 0

theorem modules_ok (h : Heap K) (N Mo : List String) (init : Nat → K) (order : List Nat → List Nat) (d : Nat)
    (IH : ModuleOK h N Mo init order d) : ∀ (L : List (Nat × Bool × Bool)) (r : Reader K) (n : Builder.Net Nat Nat (Ext K)),
    (∀ p ∈ L, Savable h d p.1 ∧ Clean h N Mo d p.1 ∧ (attr h).name p.1 ∈ N) →
    (L.Pairwise (fun p q => (attr h).name p.1 ≠ (attr h).name q.1)) →
    (∀ p ∈ L, ∀ q ∈ L, (attr h).name p.1 ∉ namesIn h d q.1) →
    (∀ s, (dget r.modules s).isSome → s ∈ N) → (∀ s, (dget r.mothers s).isSome → s ∈ Mo) →
    ∃ nodes r', mapAll (writeModule h d) L = some nodes ∧ readModules init order r n nodes = .ok (r', addAll (newOf h r') n L) ∧
      HeapExt r.heap r'.heap ∧
      (∀ p ∈ L, ∃ a', dget r'.modules ((attr h).name p.1) = some a' ∧ r.heap.objs.length ≤ a' ∧ a' < r'.heap.objs.length ∧
        Same h r'.heap d p.1 a') ∧
      L.Pairwise (fun p q => newOf h r' p.1 ≠ newOf h r' q.1) ∧
      (∀ s, s ∉ L.flatMap (fun p => (attr h).name p.1 :: namesIn h d p.1) → dget r'.modules s = dget r.modules s) ∧
      (∀ s, (dget r'.modules s).isSome → s ∈ N) ∧ (∀ s, (dget r'.mothers s).isSome → s ∈ Mo) := by
  intro L
  induction L with
  | nil =>
    intro r n _ _ _ h1 h2
    exact ⟨[], r, rfl, by rw [readModules]; rfl, HeapExt.refl _, by simp, List.Pairwise.nil, fun _ _ => rfl, h1, h2⟩
  | cons p L ih =>
    intro r n hL hpw hcl h1 h2
    obtain ⟨a, inm, outm⟩ := p
    obtain ⟨hp1, hp2, hp3⟩ := hL _ List.mem_cons_self
    obtain ⟨node, r1, a', w1, w2, w3, w4, w5, w6⟩ := IH a inm outm r hp1 hp2 h1 h2
    have hk1 : ∀ s, (dget (dset r1.modules node.name a') s).isSome → s ∈ N := by
      intro s hs
      by_cases hss : s = node.name
      · rw [hss, w2]; exact hp3
      · rw [dget_dset_ne _ _ _ _ (Ne.symm hss)] at hs
        exact w6.keys s hs
    rw [List.pairwise_cons] at hpw
    obtain ⟨nodes, r', v1, v2, v3, v4, v5, v6, v7, v8⟩ := ih { r1 with modules := dset r1.modules node.name a' } (addAs node.inm node.outm n a')
      (fun q hq => hL q (List.mem_cons_of_mem _ hq)) hpw.2
      (fun q hq q' hq' => hcl q (List.mem_cons_of_mem _ hq) q' (List.mem_cons_of_mem _ hq')) hk1 w6.mkeys
    have hkeep : dget r'.modules ((attr h).name a) = some a' := by
      rw [v6 _ ?_]
      · simp only; rw [w2, dget_dset_self]
      · rw [List.mem_flatMap]
        rintro ⟨q, hq, hs⟩
        rw [List.mem_cons] at hs
        rcases hs with hs | hs
        · exact hpw.1 q hq hs
        · exact hcl _ List.mem_cons_self q (List.mem_cons_of_mem _ hq) hs
    have hnew : newOf h r' a = a' := by simp [newOf, hkeep]
    refine ⟨node :: nodes, r', ?_, ?_, w6.ext.trans v3, ?_, ?_, ?_, v7, v8⟩
    · simp only [mapAll, w1, v1]
    · rw [readModules, w5]
      simp only
      rw [v2]
      simp only [addAll, List.foldl_cons, hnew, w3, w4]
    · intro q hq
      rw [List.mem_cons] at hq
      rcases hq with rfl | hq
      · refine ⟨a', hkeep, w6.low, lt_of_lt_of_le w6.high v3.1.length_le, same_mono v3 _ _ _ w6.same⟩
      · obtain ⟨b, b1, b2, b3, b4⟩ := v4 q hq
        exact ⟨b, b1, le_trans w6.ext.1.length_le b2, b3, b4⟩
    · rw [List.pairwise_cons]
      refine ⟨fun q hq => ?_, v5⟩
      obtain ⟨b, b1, b2, b3, b4⟩ := v4 q hq
      have : newOf h r' q.1 = b := by simp [newOf, b1]
      rw [hnew, this]
      have := w6.high
      simp only at b2
      omega
    · intro s hs
      rw [List.flatMap_cons, List.mem_append, List.mem_cons] at hs
      rw [v6 s (fun hh => hs (.inr hh))]
      simp only
      rw [w2, dget_dset_ne _ _ _ _ (fun hh => hs (.inl (.inl hh.symm)))]
      exact w6.frame s (fun hh => hs (.inl (.inr hh)))

/-- The new address of a mother, found by its name. -/
def newMother (h : Heap K) (r : Reader K) (x : Nat) : Nat := (dget r.mothers ((attr h).motherName x)).getD 0

theorem readMother_ok (r : Reader K) (init : Nat → K) (m : Mother K) (hm : m.params ≠ [])
    (ht : dget r.modules (Lit.int m.params.length).repr = none ∧ dget r.mothers (Lit.int m.params.length).repr = none)
    (he : dget r.modules "" = none ∧ dget r.mothers "" = none) : readMother r init (writeMother m) = .ok m := by
  have hpos : m.params.length > 0 := List.length_pos_iff.2 hm
  have hkw : readArgs r (writeMother m).children = .ok [("nbparams", .lit (.int m.params.length))] := by
    exact readArgs_value r _ _ _ _ ht.1 ht.2 (readArgs_params r (writeMother m).params he.1 he.2)
  unfold readMother
  rw [hkw]
  simp [callable, kwNat, dget, hpos, writeMother, writeParams]

theorem mothers_ok (h : Heap K) (Mo : List String) (init : Nat → K) : ∀ (xs : List Nat) (r : Reader K),
    (∀ x ∈ xs, ∃ m, h.mothers[x]? = some m ∧ m.params ≠ [] ∧
      dget r.modules (Lit.int m.params.length).repr = none ∧ (Lit.int m.params.length).repr ∉ Mo ∧ (attr h).motherName x ∈ Mo) →
    xs.Pairwise (fun x y => (attr h).motherName x ≠ (attr h).motherName y) →
    dget r.modules "" = none → "" ∉ Mo → (∀ s, (dget r.mothers s).isSome → s ∈ Mo) →
    ∃ bs r', mapAll (fun m => (h.mothers[m]?).map writeMother) xs = some bs ∧ readMothers init r bs = .ok r' ∧ r'.modules = r.modules ∧
      r'.heap.objs = r.heap.objs ∧ r.heap.mothers <+: r'.heap.mothers ∧
      (∀ x ∈ xs, ∃ b m, dget r'.mothers ((attr h).motherName x) = some b ∧ h.mothers[x]? = some m ∧ r'.heap.mothers[b]? = some m ∧
        r.heap.mothers.length ≤ b) ∧
      xs.Pairwise (fun x y => newMother h r' x ≠ newMother h r' y) ∧
      (∀ s ∉ xs.map (attr h).motherName, dget r'.mothers s = dget r.mothers s) ∧
      (∀ s, (dget r'.mothers s).isSome → s ∈ Mo) := by
  intro xs
  induction xs with
  | nil =>
    intro r _ _ _ _ h1
    exact ⟨[], r, rfl, rfl, rfl, rfl, List.prefix_refl _, by simp, List.Pairwise.nil, fun _ _ => rfl, h1⟩
  | cons x xs ih =>
    intro r hx hpw he1 he2 hk
    obtain ⟨m, m1, m2, m3, m4, m5⟩ := hx x List.mem_cons_self
    have none_of : ∀ s, s ∉ Mo → dget r.mothers s = none := by
      intro s hs
      cases hd : dget r.mothers s with
      | none => rfl
      | some v => exact absurd (hk s (by simp [hd])) hs
    have hmn : (attr h).motherName x = m.name := by simp [attr, m1]
    have hread := readMother_ok r init m m2 ⟨m3, none_of _ m4⟩ ⟨he1, none_of _ he2⟩
    rw [List.pairwise_cons] at hpw
    have hk1 : ∀ s, (dget (dset r.mothers m.name r.heap.mothers.length) s).isSome → s ∈ Mo := by
      intro s hs
      by_cases hss : s = m.name
      · rw [hss, ← hmn]; exact m5
      · rw [dget_dset_ne _ _ _ _ (Ne.symm hss)] at hs
        exact hk s hs
    obtain ⟨bs, r', v1, v2, v3, v4, v5, v6, v7, v8, v9⟩ := ih
      ⟨{ r.heap with mothers := r.heap.mothers ++ [m] }, r.modules, dset r.mothers m.name r.heap.mothers.length⟩
      (fun y hy => hx y (List.mem_cons_of_mem _ hy)) hpw.2 he1 he2 hk1
    have hkeep : dget r'.mothers ((attr h).motherName x) = some r.heap.mothers.length := by
      rw [v8 _ ?_]
      · simp only; rw [hmn, dget_dset_self]
      · rw [List.mem_map]
        rintro ⟨y, hy, hs⟩
        exact hpw.1 y hy hs.symm
    have hnew : newMother h r' x = r.heap.mothers.length := by simp [newMother, hkeep]
    refine ⟨writeMother m :: bs, r', ?_, ?_, v3, v4, ?_, ?_, ?_, ?_, v9⟩
    · simp only [mapAll, m1, v1, Option.map_some]
    · simp only [readMothers, hread]
      exact v2
    · exact (List.prefix_append _ _).trans v5
    · intro y hy
      rw [List.mem_cons] at hy
      rcases hy with rfl | hy
      · refine ⟨_, m, hkeep, m1, get_prefix v5 ?_, le_rfl⟩
        simp
      · obtain ⟨b, m', b1, b2, b3, b4⟩ := v6 y hy
        refine ⟨b, m', b1, b2, b3, ?_⟩
        simp only [List.length_append, List.length_singleton] at b4
        omega
    · rw [List.pairwise_cons]
      refine ⟨fun y hy => ?_, v7⟩
      obtain ⟨b, m', b1, b2, b3, b4⟩ := v6 y hy
      have : newMother h r' y = b := by simp [newMother, b1]
      rw [hnew, this]
      simp only [List.length_append, List.length_singleton] at b4
      omega
    · intro s hs
      rw [List.map_cons, List.mem_cons] at hs
      rw [v8 s (fun hh => hs (.inr hh))]
      simp only
      rw [dget_dset_ne _ _ _ _ (fun hh => hs (.inl (hh.symm.trans hmn.symm)))]

theorem conns_ok (h : Heap K) (r : Reader K) (init : Nat → K) (f g : Nat → Nat) (rc : Bool) (cs : List (NConn K)) (n : Builder.Net Nat Nat (Ext K))
    (hc : ∀ c ∈ cs, readConn r init (writeConn h c) = .ok (mapConn f g c)) (rest : List (BNode ConnClass K × Bool)) :
    readConns r init rc n (cs.map (fun c => (writeConn h c, false)) ++ rest) =
      readConns r init rc (cs.foldl (fun n c => addConnection n (mapConn f g c)) n) rest := by
  induction cs generalizing n with
  | nil => rfl
  | cons c cs ih =>
    simp only [List.map_cons, List.cons_append, readConns, hc c List.mem_cons_self, List.foldl_cons]
    exact ih _ (fun c' hc' => hc c' (List.mem_cons_of_mem _ hc'))

theorem rconns_ok (h : Heap K) (r : Reader K) (init : Nat → K) (f g : Nat → Nat) (cs : List (NConn K)) (n : Builder.Net Nat Nat (Ext K))
    (hc : ∀ c ∈ cs, readConn r init (writeConn h c) = .ok (mapConn f g c)) :
    readConns r init true n (cs.map (fun c => (writeConn h c, true))) =
      .ok (cs.foldl (fun n c => addRecurrentConnection n (mapConn f g c)) n) := by
  induction cs generalizing n with
  | nil => rfl
  | cons c cs ih =>
    simp only [List.map_cons, readConns, hc c List.mem_cons_self, List.foldl_cons, if_true]
    exact ih _ (fun c' hc' => hc c' (List.mem_cons_of_mem _ hc'))

/-- A sorted list is determined by its elements of each name. -/
theorem sorted_ext {α : Type} (name : α → String) : ∀ (l1 l2 : List α), l1.Pairwise (fun a b => name a ≤ name b) →
    l2.Pairwise (fun a b => name a ≤ name b) → l1.Perm l2 → (∀ s, l1.filter (fun a => name a = s) = l2.filter (fun a => name a = s)) → l1 = l2 := by
  intro l1
  induction l1 with
  | nil => intro l2 _ _ hp _; exact (List.nil_perm.1 hp).symm
  | cons x l1 ih =>
    intro l2 h1 h2 hp hf
    cases l2 with
    | nil => exact absurd hp.length_eq (by simp)
    | cons y l2 =>
      rw [List.pairwise_cons] at h1 h2
      have hxy : name x = name y := by
        have hx : x ∈ y :: l2 := hp.mem_iff.1 List.mem_cons_self
        have hy : y ∈ x :: l1 := hp.mem_iff.2 List.mem_cons_self
        rw [List.mem_cons] at hx hy
        rcases hx with hx | hx
        · rw [hx]
        · rcases hy with hy | hy
          · rw [hy]
          · exact String.le_antisymm (h1.1 y hy) (h2.1 x hx)
      have hh := hf (name x)
      rw [List.filter_cons_of_pos (by simp), List.filter_cons_of_pos (by simp [hxy])] at hh
      have he : x = y := (List.cons.inj hh).1
      subst he
      refine congrArg _ (ih l2 h1.2 h2.2 ((List.perm_cons x).1 hp) fun s => ?_)
      by_cases hs : name x = s
      · subst hs; exact (List.cons.inj hh).2
      · have := hf s
        rwa [List.filter_cons_of_neg (by simpa using hs), List.filter_cons_of_neg (by simpa using hs)] at this

theorem first_eq {α : Type} [DecidableEq α] {added l : List α} (h : FirstOccurrences added l) (hn : added.Nodup) : l = added := by
  rw [h, List.dedup_eq_self.2 (List.nodup_reverse.2 hn), List.reverse_reverse]

end Verif.XmlNet
