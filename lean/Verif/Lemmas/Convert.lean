import Verif.Model.Convert
import Verif.Props.Builder
/-
Lemmas about converted networks.
-/
namespace Verif.Builder

open Verif.Py Verif.Topo Verif.Topo.Spec Verif.Builder.Spec

/-! ### keys of dictionaries -/

section
variable {κ α : Type} [DecidableEq κ]

theorem keys_dset (d : List (κ × α)) (k : κ) (v : α) : (dset d k v).map Prod.fst = if k ∈ d.map Prod.fst then d.map Prod.fst else d.map Prod.fst ++ [k] := by
  induction d with
  | nil => simp [dset]
  | cons p d ih =>
    obtain ⟨k', v'⟩ := p
    by_cases h : k' = k
    · subst h; simp [dset]
    · have h' : ¬ k = k' := fun e => h e.symm
      simp only [dset, h, if_false, List.map_cons, ih, List.mem_cons, h', false_or]
      split <;> simp

theorem nodup_dset (d : List (κ × α)) (k : κ) (v : α) (h : (d.map Prod.fst).Nodup) : ((dset d k v).map Prod.fst).Nodup := by
  rw [keys_dset]
  split
  · exact h
  · rename_i hk
    rw [List.nodup_append]
    exact ⟨h, by simp, fun a ha b hb => by rintro rfl; simp at hb; exact hk (hb ▸ ha)⟩

theorem filter_values (d : List (κ × List α)) (key : α → κ) (hn : (d.map Prod.fst).Nodup) (hk : ∀ k l, dget d k = some l → ∀ a ∈ l, key a = k) (k : κ) :
    (d.flatMap Prod.snd).filter (fun a => key a = k) = (dget d k).getD [] := by
  induction d with
  | nil => simp [dget]
  | cons p d ih =>
    obtain ⟨k', l⟩ := p
    simp only [List.map_cons, List.nodup_cons] at hn
    have hnone : ∀ q ∈ d.map Prod.fst, k' ≠ q := fun q hq e => hn.1 (e ▸ hq)
    have hget : ∀ q l2, dget d q = some l2 → q ∈ d.map Prod.fst := by
      intro q l2 h
      clear ih hk hn hnone
      induction d with
      | nil => simp [dget] at h
      | cons p d ih2 =>
        obtain ⟨a, b⟩ := p
        by_cases hc : a = q
        · simp [hc]
        · simp only [dget, hc, if_false] at h
          simp only [List.map_cons, List.mem_cons]
          exact .inr (ih2 h)
    have ih' := ih hn.2 (fun q l2 h => hk q l2 (by simp only [dget]; rw [if_neg (hnone q (hget q l2 h))]; exact h))
    rw [List.flatMap_cons, List.filter_append, ih']
    have hl : ∀ a ∈ l, key a = k' := hk k' l (by simp [dget])
    by_cases hc : k' = k
    · subst hc
      have h1 : dget d k' = none := by
        cases h : dget d k' with
        | none => rfl
        | some l2 => exact absurd (hget k' l2 h) hn.1
      rw [h1]
      simp only [dget, if_true, Option.getD_some, Option.getD_none, List.append_nil]
      rw [List.filter_eq_self]
      intro a ha
      simpa using hl a ha
    · have h1 : l.filter (fun a => key a = k) = [] := by
        rw [List.filter_eq_nil_iff]
        intro a ha
        simp only [decide_eq_true_eq]
        exact fun e => hc ((hl a ha).symm.trans e)
      rw [h1]
      simp [dget, hc]

end

section
variable {α : Type}

/-- a list is determined by its order by name and the order within each name -/
theorem sorted_unique (name : α → String) (l l' : List α) (h : l.Pairwise (fun a b => name a ≤ name b)) (h' : l'.Pairwise (fun a b => name a ≤ name b))
    (hf : ∀ s, l.filter (fun a => name a = s) = l'.filter (fun a => name a = s)) : l = l' := by
  induction l generalizing l' with
  | nil =>
    cases l' with
    | nil => rfl
    | cons b l' =>
      have := hf (name b)
      simp at this
  | cons a l ih =>
    cases l' with
    | nil =>
      have := hf (name a)
      simp at this
    | cons b l' =>
      rw [List.pairwise_cons] at h h'
      have hab : name a = name b := by
        apply String.le_antisymm
        · have h1 := hf (name b)
          have h2 : b ∈ (a :: l).filter (fun x => name x = name b) := by rw [h1]; simp
          rw [List.mem_filter, List.mem_cons] at h2
          rcases h2.1 with rfl | h3
          · exact String.le_refl _
          · exact h.1 b h3
        · have h1 := hf (name a)
          have h2 : a ∈ (b :: l').filter (fun x => name x = name a) := by rw [← h1]; simp
          rw [List.mem_filter, List.mem_cons] at h2
          rcases h2.1 with rfl | h3
          · exact String.le_refl _
          · exact h'.1 a h3
      have h3 := hf (name a)
      rw [List.filter_cons_of_pos (by simp), List.filter_cons_of_pos (by simp [hab]), List.cons.injEq] at h3
      rw [h3.1, ih l' h.2 h'.2]
      intro s
      by_cases hs : name a = s
      · rw [← hs]; exact h3.2
      · have h4 := hf s
        have hs' : ¬ name b = s := hab ▸ hs
        simpa [List.filter_cons, hs, hs'] using h4

theorem sortedBy_unique (name : α → String) (added l : List α) (h : SortedBy name added l) (h2 : added.Pairwise (fun a b => name a ≤ name b)) : l = added :=
  sorted_unique name l added h.2.1 h2 h.2.2

end

/-! ### the order of the modules -/

section
variable {V : Type} [DecidableEq V]

/-- graphs that differ in the order of the keys only -/
def SameGraph (g g' : Graph V) : Prop := g.keys.Perm g'.keys ∧ g.cnt = g'.cnt ∧ g.kids = g'.kids

theorem dropArcs_congr (g g' : Graph V) (h : SameGraph g g') (roots ks : List V) :
    match dropArcs g roots ks, dropArcs g' roots ks with
    | .ok (a, r), .ok (a', r') => SameGraph a a' ∧ r = r'
    | .error e, .error e' => e = e'
    | _, _ => False := by
  induction ks generalizing g g' roots with
  | nil => exact ⟨h, rfl⟩
  | cons c ks ih =>
    simp only [dropArcs]
    by_cases hc : c ∈ g.keys
    · have hc' : c ∈ g'.keys := h.1.mem_iff.1 hc
      rw [if_pos hc, if_pos hc']
      have hs : SameGraph { g with cnt := upd g.cnt c (g.cnt c - 1) } { g' with cnt := upd g'.cnt c (g'.cnt c - 1) } := ⟨h.1, by rw [h.2.1], h.2.2⟩
      by_cases h0 : upd g.cnt c (g.cnt c - 1) c = 0
      · have h0' : upd g'.cnt c (g'.cnt c - 1) c = 0 := by rw [← h.2.1]; exact h0
        rw [if_pos h0, if_pos h0']
        exact ih _ _ hs _
      · have h0' : ¬ upd g'.cnt c (g'.cnt c - 1) c = 0 := by rw [← h.2.1]; exact h0
        rw [if_neg h0, if_neg h0']
        exact ih _ _ hs _
    · have hc' : c ∉ g'.keys := fun e => hc (h.1.mem_iff.2 e)
      rw [if_neg hc, if_neg hc']

theorem sortLoop_congr (n : Nat) (g g' : Graph V) (h : SameGraph g g') (roots sorted : List V) : sortLoop n g roots sorted = sortLoop n g' roots sorted := by
  induction n generalizing g g' roots sorted with
  | zero =>
    cases roots with
    | nil =>
      have : g.keys = [] ↔ g'.keys = [] := by
        constructor <;> intro e
        · have := h.1; rw [e] at this; exact (List.nil_perm.1 this)
        · have := h.1; rw [e] at this; exact (List.perm_nil.1 this)
      simp only [sortLoop, this]
    | cons r rs => rfl
  | succ n ih =>
    cases roots with
    | nil =>
      have : g.keys = [] ↔ g'.keys = [] := by
        constructor <;> intro e
        · have := h.1; rw [e] at this; exact (List.nil_perm.1 this)
        · have := h.1; rw [e] at this; exact (List.perm_nil.1 this)
      simp only [sortLoop, this]
    | cons r rs =>
      simp only [sortLoop]
      by_cases hr : r ∈ g.keys
      · rw [if_pos hr, if_pos (h.1.mem_iff.1 hr), ← h.2.2]
        have hd := dropArcs_congr g g' h rs (g.kids r)
        cases h1 : dropArcs g rs (g.kids r) with
        | error e =>
          cases h2 : dropArcs g' rs (g.kids r) with
          | error e' => rw [h1, h2] at hd; simp only at hd; rw [hd]
          | ok p => rw [h1, h2] at hd; exact hd.elim
        | ok p =>
          cases h2 : dropArcs g' rs (g.kids r) with
          | error e' => rw [h1, h2] at hd; exact hd.elim
          | ok p' =>
            rw [h1, h2] at hd
            obtain ⟨a, b⟩ := p
            obtain ⟨a', b'⟩ := p'
            simp only at hd ⊢
            obtain ⟨hs, rfl⟩ := hd
            by_cases hr1 : r ∈ a.keys
            · rw [if_pos hr1, if_pos (hs.1.mem_iff.1 hr1)]
              exact ih { a with keys := a.keys.erase r } { a' with keys := a'.keys.erase r } ⟨hs.1.erase r, hs.2⟩ _ _
            · rw [if_neg hr1, if_neg (fun e => hr1 (hs.1.mem_iff.2 e))]
      · rw [if_neg hr, if_neg (fun e => hr (h.1.mem_iff.2 e))]

/-- the order found depends on the children of each module and the set of modules only, if names are distinct -/
theorem topologicalSort_congr (ms ms' : List V) (es es' : List (V × V)) (name : V → String) (hm : ms.Perm ms') (hn : ms.Nodup)
    (hinj : ∀ a ∈ ms, ∀ b ∈ ms, name a = name b → a = b)
    (he : ∀ e ∈ es, e.1 ∈ ms ∧ e.2 ∈ ms) (hf : ∀ u, (es.filter fun e => decide (e.1 = u)) = es'.filter fun e => decide (e.1 = u)) :
    topologicalSort ms es name = topologicalSort ms' es' name := by
  have hmem : ∀ e, e ∈ es ↔ e ∈ es' := by
    intro e
    have h1 : e ∈ es.filter (fun x => decide (x.1 = e.1)) ↔ e ∈ es'.filter (fun x => decide (x.1 = e.1)) := by rw [hf]
    simpa [List.mem_filter] using h1
  have hperm : es.Perm es' := by
    rw [List.perm_iff_count]
    intro e
    have h1 : (es.filter fun x => decide (x.1 = e.1)).count e = (es'.filter fun x => decide (x.1 = e.1)).count e := by rw [hf]
    rwa [List.count_filter (by simp), List.count_filter (by simp)] at h1
  have hk : ∀ l : List V, l.Nodup → (initGraph l).keys = l := by
    intro l hl
    have hgen : ∀ (l acc : List V), (acc ++ l).Nodup → l.foldl (fun ks m => if m ∈ ks then ks else ks ++ [m]) acc = acc ++ l := by
      intro l
      induction l with
      | nil => intro acc _; simp
      | cons a l ih =>
        intro acc hacc
        have : a ∉ acc := fun ha => by
          rw [List.nodup_append] at hacc
          exact hacc.2.2 a ha a (by simp) rfl
        rw [List.foldl_cons, if_neg this, ih _ (by simpa using hacc)]
        simp
    simpa [initGraph] using hgen l [] (by simpa using hl)
  have hn' : ms'.Nodup := hm.nodup_iff.1 hn
  obtain ⟨g, hg, hgk, hgc, hgd⟩ := addEdges_ok es (initGraph ms) (by rw [hk ms hn]; exact he)
  obtain ⟨g', hg', hgk', hgc', hgd'⟩ := addEdges_ok es' (initGraph ms') (by
    rw [hk ms' hn']
    intro e h
    exact ⟨hm.mem_iff.1 (he e ((hmem e).2 h)).1, hm.mem_iff.1 (he e ((hmem e).2 h)).2⟩)
  rw [hk ms hn] at hgk
  rw [hk ms' hn'] at hgk'
  have hsame : SameGraph g g' := by
    refine ⟨by rw [hgk, hgk']; exact hm, ?_, ?_⟩
    · funext v
      rw [hgc, hgc', hperm.countP_eq]
      rfl
    · funext u
      rw [hgd, hgd', hf]
      rfl
  unfold topologicalSort
  rw [hg, hg']
  dsimp only
  have hroots : (g.keys.filter (fun v => decide (g.cnt v = 0))).insertionSort (fun a b => name a ≤ name b) =
      (g'.keys.filter (fun v => decide (g'.cnt v = 0))).insertionSort (fun a b => name a ≤ name b) := by
    apply sorted_unique name _ _ (byName_sorted name _) (byName_sorted name _)
    intro s
    change (byName name (g.keys.filter fun v => decide (g.cnt v = 0))).filter _ = (byName name (g'.keys.filter fun v => decide (g'.cnt v = 0))).filter _
    rw [(byName_stable name _).2 s, (byName_stable name _).2 s]
    have hp : ((g.keys.filter fun v => decide (g.cnt v = 0)).filter fun a => decide (name a = s)).Perm
        ((g'.keys.filter fun v => decide (g'.cnt v = 0)).filter fun a => decide (name a = s)) := by
      rw [hsame.2.1]
      exact (hsame.1.filter _).filter _
    -- at most one element
    have hone : ∀ (l : List V), l.Nodup → (∀ a ∈ l, a ∈ ms) → (∀ a ∈ l, name a = s) → l.length ≤ 1 := by
      intro l hl h1 h2
      match l, hl, h1, h2 with
      | [], _, _, _ => simp
      | [a], _, _, _ => simp
      | a :: b :: l, hl, h1, h2 =>
        exfalso
        have : a = b := hinj a (h1 a (by simp)) b (h1 b (by simp)) ((h2 a (by simp)).trans (h2 b (by simp)).symm)
        simp [this] at hl
    set l1 := (g.keys.filter fun v => decide (g.cnt v = 0)).filter fun a => decide (name a = s) with hl1
    have hlen : l1.length ≤ 1 := by
      refine hone l1 (((hgk ▸ hn : g.keys.Nodup).filter _).filter _) (fun a ha => ?_) (fun a ha => ?_)
      · rw [hl1, List.mem_filter, List.mem_filter, hgk] at ha; exact ha.1.1
      · rw [hl1, List.mem_filter] at ha; simpa using ha.2
    match l1, hlen, hp with
    | [], _, hp => exact (List.nil_perm.1 hp).symm
    | [a], _, hp => exact (List.singleton_perm.1 hp)
  rw [hroots, hsame.1.length_eq]
  exact sortLoop_congr _ g g' hsame _ _

end

/-! ### histories -/

section
variable {V M X : Type} [DecidableEq V] [DecidableEq M]

theorem nodup_sortConns (ms : List V) (conns conns' : List (V × List (Conn V M X))) (hn : (conns.map Prod.fst).Nodup) (h : sortConns conns ms = .ok conns') :
    (conns'.map Prod.fst).Nodup := by
  induction ms generalizing conns with
  | nil => simp only [sortConns, Except.ok.injEq] at h; exact h ▸ hn
  | cons m ms ih =>
    simp only [sortConns] at h
    split at h
    · cases h
    · exact ih _ (nodup_dset _ _ _ hn) h

theorem nodup_sortModules (A : Attr V M) (it : List V) (n n' : Net V M X) (hn : (n.connections.map Prod.fst).Nodup) (h : sortModules A it n = .ok n') :
    (n'.connections.map Prod.fst).Nodup := by
  simp only [sortModules] at h
  split at h
  · cases h; exact hn
  · split at h
    · cases h
    · split at h
      · cases h
      · rename_i hc
        cases h
        exact nodup_sortConns _ _ _ hn hc

theorem nodup_step (A : Attr V M) (order : List V → List V) (n : Net V M X) (op : Op V M X) (hn : (n.connections.map Prod.fst).Nodup) :
    ((step A order n op).connections.map Prod.fst).Nodup := by
  have hif : ∀ (c : Bool) (m : V), (((if c = true then n.connections else dset n.connections m [])).map Prod.fst).Nodup := by
    intro c m
    split
    · exact hn
    · exact nodup_dset _ _ _ hn
  cases op with
  | module m => exact hif _ _
  | input m => exact hif _ _
  | output m => exact hif _ _
  | connection c => exact nodup_dset _ _ _ (hif _ _)
  | recurrent c => exact hn
  | sort =>
    simp only [step]
    split
    · rename_i h; exact nodup_sortModules A _ _ _ hn h
    · exact hn

theorem nodup_run (A : Attr V M) (order : List V → List V) (n : Net V M X) (ops : List (Op V M X)) (hn : (n.connections.map Prod.fst).Nodup) :
    ((run A order n ops).connections.map Prod.fst).Nodup := by
  induction ops generalizing n with
  | nil => exact hn
  | cons op ops ih => exact ih _ (nodup_step A order n op hn)

/-- the connections of a module among all connections -/
theorem filter_allConns (A : Attr V M) (ops : List (Op V M X)) (n : Net V M X) (h : Inv A ops n) (hn : (n.connections.map Prod.fst).Nodup) (m : V) :
    (allConns n).filter (fun c => c.inmod = m) = (dget n.connections m).getD [] := by
  apply filter_values _ _ hn
  intro k l hk a ha
  have := (h.conns k l hk).1.mem_iff.1 ha
  rw [own, List.mem_filter] at this
  simpa using this.2

/-- without sorting in between, connections are kept in the order in which they were added -/
theorem exact_run (A : Attr V M) (order : List V → List V) (ops0 ops : List (Op V M X)) (n : Net V M X) (hs : ∀ o ∈ ops, o ≠ .sort)
    (h : ∀ m, (dget n.connections m).getD [] = own ops0 m) (m : V) : (dget (run A order n ops).connections m).getD [] = own (ops0 ++ ops) m := by
  induction ops generalizing n ops0 with
  | nil => simpa [run] using h m
  | cons op ops ih =>
    have hadd : ∀ (x : V) (n1 : Net V M X), n1.connections = n.connections → ∀ m, (dget (addModule n1 x).connections m).getD [] = (dget n.connections m).getD [] := by
      intro x n1 e m
      simp only [addModule, e]
      cases hd : dget n.connections x with
      | none =>
        simp only [Option.isSome_none, Bool.false_eq_true, if_false, dget_dset]
        split
        · rename_i hx; subst hx; simp [hd]
        · rfl
      | some cs => simp
    have h1 : ∀ m, (dget (step A order n op).connections m).getD [] = own (ops0 ++ [op]) m := by
      intro m
      cases op with
      | module x => rw [show step A order n (.module x) = addModule n x from rfl, hadd x n rfl, h m]; simp [own, connOf]
      | input x => exact ((hadd x { n with inmodules := _ } rfl m).trans (h m)).trans (by simp [own, connOf])
      | output x => exact ((hadd x { n with outmodules := _ } rfl m).trans (h m)).trans (by simp [own, connOf])
      | recurrent c => rw [show (step A order n (.recurrent c)).connections = n.connections from rfl, h m]; simp [own, connOf]
      | sort => exact absurd rfl (hs .sort (by simp))
      | connection c =>
        have ho : own (ops0 ++ [.connection c]) m = own ops0 m ++ (if c.inmod = m then [c] else []) := by
          simp only [own, List.filterMap_append, List.filter_append, List.filterMap_cons, connOf, List.filterMap_nil]
          by_cases hv : c.inmod = m <;> simp [hv]
        rw [ho, ← h m]
        simp only [step, addConnection]
        by_cases hv : c.inmod = m
        · subst hv
          rw [dget_dset_self, if_pos rfl]
          cases hd : dget n.connections c.inmod with
          | none => simp [dget_dset]
          | some cs => simp [hd]
        · rw [dget_dset_ne _ _ _ _ hv, if_neg hv, List.append_nil]
          cases hd : dget n.connections c.inmod with
          | none => simp [dget_dset, hv]
          | some cs => simp
    have := ih (ops0 ++ [op]) (step A order n op) (fun o ho => hs o (by simp [ho])) h1
    simpa [run] using this

end

end Verif.Builder
