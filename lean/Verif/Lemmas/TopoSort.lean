import Verif.Model.TopoSort
import Verif.Spec.TopoSort
import Mathlib.Data.Fintype.Card
import Mathlib.Data.Fintype.EquivFin
/- Correctness of the topological sort. -/
namespace Verif.Topo
open Verif.Topo.Spec

variable {V : Type} [DecidableEq V]

theorem addEdges_ok (edges : List (V × V)) (g : Graph V) (h : ∀ e ∈ edges, e.1 ∈ g.keys ∧ e.2 ∈ g.keys) :
    ∃ g', addEdges g edges = .ok g' ∧ g'.keys = g.keys ∧
      (∀ v, g'.cnt v = g.cnt v + (edges.countP (fun e => decide (e.2 = v)) : Int)) ∧
      (∀ u, g'.kids u = g.kids u ++ (edges.filter (fun e => decide (e.1 = u))).map Prod.snd) := by
  induction edges generalizing g with
  | nil => exact ⟨g, rfl, rfl, by simp, by simp⟩
  | cons e rest ih =>
    obtain ⟨u, v⟩ := e
    have he := h (u, v) (by simp)
    unfold addEdges
    simp only [he.1, he.2, if_true]
    obtain ⟨g', h1, h2, h3, h4⟩ := ih { g with kids := upd g.kids u (g.kids u ++ [v]), cnt := upd g.cnt v (g.cnt v + 1) }
      (fun e he => h e (by simp [he]))
    refine ⟨g', h1, h2, ?_, ?_⟩
    · intro w
      rw [h3 w, List.countP_cons]
      simp only [upd]
      by_cases hw : w = v
      · subst hw; simp; omega
      · simp [hw, Ne.symm hw]
    · intro w
      rw [h4 w, List.filter_cons]
      simp only [upd]
      by_cases hw : w = u
      · subst hw; simp
      · simp [hw, Ne.symm hw]

theorem addEdges_err (edges : List (V × V)) (g : Graph V) (h : ∃ e ∈ edges, e.1 ∉ g.keys ∨ e.2 ∉ g.keys) :
    addEdges g edges = .error .keyError := by
  induction edges generalizing g with
  | nil => simp at h
  | cons e rest ih =>
    obtain ⟨u, v⟩ := e
    unfold addEdges
    by_cases hu : u ∈ g.keys
    · by_cases hv : v ∈ g.keys
      · simp only [hu, hv, if_true]
        apply ih
        obtain ⟨e, he, hh⟩ := h
        rcases List.mem_cons.1 he with rfl | he
        · simp [hu, hv] at hh
        · exact ⟨e, he, hh⟩
      · simp [hu, hv]
    · simp [hu]

/-- `R` lists, without repetition, the nodes of `A` whose counter is 0. -/
def RootsOf (A : List V) (cnt : V → Int) (R : List V) : Prop := R.Nodup ∧ ∀ v, v ∈ R ↔ v ∈ A ∧ cnt v = 0

theorem dropArcs_ok (A : List V) (ks : List V) (g : Graph V) (R : List V)
    (hk : ∀ c ∈ ks, c ∈ g.keys ∧ c ∈ A) (hc : ∀ v ∈ ks, (ks.count v : Int) ≤ g.cnt v) (hR : RootsOf A g.cnt R) :
    ∃ g' R', dropArcs g R ks = .ok (g', R') ∧ g'.keys = g.keys ∧ g'.kids = g.kids ∧
      (∀ v, g'.cnt v = g.cnt v - (ks.count v : Int)) ∧ RootsOf A g'.cnt R' := by
  induction ks generalizing g R with
  | nil => exact ⟨g, R, rfl, rfl, rfl, by simp, hR⟩
  | cons c rest ih =>
    have hck := hk c (by simp)
    have hc1 : 1 ≤ g.cnt c := by
      have := hc c (by simp)
      rw [List.count_cons_self] at this; push_cast at this; omega
    have hcR : c ∉ R := fun hm => by have := (hR.2 c).1 hm; omega
    have hstep : ∀ R1, RootsOf A (upd g.cnt c (g.cnt c - 1)) R1 →
        ∃ g' R', dropArcs { g with cnt := upd g.cnt c (g.cnt c - 1) } R1 rest = .ok (g', R') ∧ g'.keys = g.keys ∧ g'.kids = g.kids ∧
          (∀ v, g'.cnt v = g.cnt v - ((c :: rest).count v : Int)) ∧ RootsOf A g'.cnt R' := by
      intro R1 hR1
      obtain ⟨g', R', h1, h2, h3, h4, h5⟩ := ih { g with cnt := upd g.cnt c (g.cnt c - 1) } R1
        (fun x hx => hk x (by simp [hx]))
        (by
          intro v hv
          have := hc v (by simp [hv])
          rw [List.count_cons] at this
          simp only [upd]
          by_cases hvc : v = c
          · subst hvc; simp at this ⊢; omega
          · simp [hvc, Ne.symm hvc] at this ⊢; omega)
        hR1
      refine ⟨g', R', h1, h2, h3, ?_, h5⟩
      intro v
      rw [h4 v, List.count_cons]
      simp only [upd]
      by_cases hvc : v = c
      · subst hvc; simp; omega
      · simp [hvc, Ne.symm hvc]
    unfold dropArcs
    simp only [hck.1, if_true]
    by_cases h0 : upd g.cnt c (g.cnt c - 1) c = 0
    · simp only [h0, if_true]
      apply hstep
      refine ⟨?_, ?_⟩
      · rw [List.nodup_append]
        refine ⟨hR.1, by simp, ?_⟩
        intro a ha b hb
        simp at hb; subst hb
        exact fun e => hcR (e ▸ ha)
      · intro v
        rw [List.mem_append, hR.2 v]
        by_cases hvc : v = c
        · subst hvc; simp [h0, hck.2]
        · simp [upd, hvc]
    · simp only [h0, if_false]
      apply hstep
      refine ⟨hR.1, ?_⟩
      intro v
      rw [hR.2 v]
      by_cases hvc : v = c
      · subst hvc
        simp only [h0, and_false, iff_false, not_and]
        intro _; omega
      · simp [upd, hvc]

/-- Number of arcs into `v` from nodes still in `keys`. -/
def arcsInto (edges : List (V × V)) (keys : List V) (v : V) : Nat :=
  edges.countP (fun e => decide (e.2 = v ∧ e.1 ∈ keys))

theorem arcsInto_erase (edges : List (V × V)) (keys : List V) (hnd : keys.Nodup) (root v : V) (hr : root ∈ keys) :
    arcsInto edges keys v = arcsInto edges (keys.erase root) v +
      ((edges.filter (fun e => decide (e.1 = root))).map Prod.snd).count v := by
  unfold arcsInto
  induction edges with
  | nil => simp
  | cons e rest ih =>
    obtain ⟨a, b⟩ := e
    rw [List.countP_cons, List.countP_cons, ih, List.filter_cons]
    have hmem : a ∈ keys.erase root ↔ a ≠ root ∧ a ∈ keys := hnd.mem_erase_iff
    by_cases ha : a = root
    · subst ha
      simp only [decide_true, if_true, List.map_cons, List.count_cons, hmem, ne_eq, not_true_eq_false, false_and, and_false, decide_false, hr, and_true]
      by_cases hb : b = v
      · simp [hb]; omega
      · simp [hb]
    · simp only [ha, decide_false, hmem, ne_eq, not_false_eq_true, true_and]
      simp
      omega

structure LInv (nodes : List V) (edges : List (V × V)) (g : Graph V) (R S : List V) : Prop where
  snd : S.Nodup
  knd : g.keys.Nodup
  disj : ∀ v ∈ S, v ∉ g.keys
  all : ∀ v, (v ∈ S ∨ v ∈ g.keys) ↔ v ∈ nodes
  kids : ∀ u, g.kids u = (edges.filter (fun e => decide (e.1 = u))).map Prod.snd
  cnt : ∀ v ∈ g.keys, g.cnt v = (arcsInto edges g.keys v : Int)
  roots : RootsOf g.keys g.cnt R
  before : ∀ e ∈ edges, e.2 ∈ S → Before S e.1 e.2
  ends : ∀ e ∈ edges, e.1 ∈ nodes ∧ e.2 ∈ nodes

theorem before_append {l : List V} {a b : V} (h : Before l a b) (l' : List V) : Before (l ++ l') a b := by
  obtain ⟨l1, l2, l3, rfl⟩ := h
  exact ⟨l1, l2, l3 ++ l', by simp⟩

theorem before_mem_left {l : List V} {a b : V} (h : Before l a b) : a ∈ l := by
  obtain ⟨l1, l2, l3, rfl⟩ := h; simp

theorem before_last {l : List V} {a : V} (h : a ∈ l) (b : V) : Before (l ++ [b]) a b := by
  obtain ⟨l1, l2, rfl⟩ := List.append_of_mem h
  exact ⟨l1, l2, [], by simp⟩

/-- One iteration. -/
theorem LInv.step {nodes : List V} {edges : List (V × V)} {g : Graph V} {root : V} {R S : List V}
    (h : LInv nodes edges g (root :: R) S) :
    ∃ g1 R1, root ∈ g.keys ∧ dropArcs g R (g.kids root) = .ok (g1, R1) ∧ g1.keys = g.keys ∧
      LInv nodes edges { g1 with keys := g1.keys.erase root } R1 (S ++ [root]) := by
  have hroot : root ∈ g.keys ∧ g.cnt root = 0 := (h.roots.2 root).1 (by simp)
  have hRnd := h.roots.1
  rw [List.nodup_cons] at hRnd
  -- children of an alive node are alive, have a positive counter, and are not the root
  have hkid : ∀ c ∈ g.kids root, c ∈ g.keys := by
    intro c hc
    rw [h.kids] at hc
    obtain ⟨e, he, rfl⟩ := List.mem_map.1 hc
    rw [List.mem_filter] at he
    have he1 : e.1 = root := by simpa using he.2
    rcases (h.all e.2).2 (h.ends e he.1).2 with hS | hK
    · have := before_mem_left (h.before e he.1 hS)
      rw [he1] at this
      exact absurd hroot.1 (h.disj _ this)
    · exact hK
  have hcount : ∀ v ∈ g.keys, g.cnt v = (arcsInto edges (g.keys.erase root) v : Int) + ((g.kids root).count v : Int) := by
    intro v hv
    rw [h.cnt v hv, arcsInto_erase edges g.keys h.knd root v hroot.1, h.kids root]
    push_cast; rfl
  have hrk : root ∉ g.kids root := by
    intro hm
    have := hcount root hroot.1
    have h2 : 0 < (g.kids root).count root := List.count_pos_iff.2 hm
    omega
  have hR' : RootsOf (g.keys.erase root) g.cnt R := by
    refine ⟨hRnd.2, ?_⟩
    intro v
    rw [h.knd.mem_erase_iff]
    constructor
    · intro hv
      have := (h.roots.2 v).1 (by simp [hv])
      exact ⟨⟨fun e => hRnd.1 (e ▸ hv), this.1⟩, this.2⟩
    · rintro ⟨⟨hne, hk⟩, h0⟩
      have := (h.roots.2 v).2 ⟨hk, h0⟩
      simpa [hne] using this
  obtain ⟨g1, R1, d1, d2, d3, d4, d5⟩ := dropArcs_ok (g.keys.erase root) (g.kids root) g R
    (fun c hc => ⟨hkid c hc, h.knd.mem_erase_iff.2 ⟨fun e => hrk (e ▸ hc), hkid c hc⟩⟩)
    (fun v hv => by rw [hcount v (hkid v hv)]; omega)
    hR'
  refine ⟨g1, R1, hroot.1, d1, d2, ?_⟩
  constructor
  · rw [List.nodup_append]
    refine ⟨h.snd, by simp, ?_⟩
    intro a ha b hb
    simp at hb; subst hb
    exact fun e => h.disj a ha (e ▸ hroot.1)
  · simp only [d2]; exact h.knd.erase root
  · intro v hv
    simp only [d2, h.knd.mem_erase_iff]
    rcases List.mem_append.1 hv with hv | hv
    · exact fun hc => h.disj v hv hc.2
    · simp at hv; subst hv; simp
  · intro v
    simp only [d2, h.knd.mem_erase_iff, List.mem_append, List.mem_singleton]
    rw [← h.all v]
    by_cases hv : v = root
    · subst hv; simp [hroot.1]
    · simp [hv]
  · intro u; simp only [d3]; exact h.kids u
  · intro v hv
    simp only [d2] at hv ⊢
    have := h.knd.mem_erase_iff.1 hv
    rw [d4 v, hcount v this.2]; omega
  · simp only [d2]; exact d5
  · intro e he h2
    rcases List.mem_append.1 h2 with h2 | h2
    · exact before_append (h.before e he h2) _
    · simp at h2
      -- the source of an arc into the root has been emitted
      rw [h2]
      apply before_last
      rcases (h.all e.1).2 (h.ends e he).1 with hS | hK
      · exact hS
      · exfalso
        have : 0 < arcsInto edges g.keys root := by
          unfold arcsInto
          exact List.countP_pos_iff.2 ⟨e, he, by simp [h2, hK]⟩
        have := h.cnt root hroot.1
        omega
  · exact h.ends

/-- What the loop returns. -/
theorem sortLoop_spec (nodes : List V) (edges : List (V × V)) (n : Nat) (g : Graph V) (R S : List V)
    (hn : g.keys.length ≤ n) (h : LInv nodes edges g R S) :
    (∃ l, sortLoop n g R S = .ok l ∧ IsTopoOrder nodes edges l) ∨
    (sortLoop n g R S = .error .loop ∧ ∃ A : List V, A ≠ [] ∧ ∀ v ∈ A, ∃ u ∈ A, (u, v) ∈ edges) := by
  induction n generalizing g R S with
  | zero =>
    have hk : g.keys = [] := List.length_eq_zero_iff.1 (by omega)
    have hR : R = [] := by
      cases R with
      | nil => rfl
      | cons r R => have := (h.roots.2 r).1 (by simp); rw [hk] at this; simp at this
    subst hR
    left
    refine ⟨S, by simp [sortLoop, hk], h.snd, ?_, ?_⟩
    · intro v; rw [← h.all v, hk]; simp
    · intro e he
      apply h.before e he
      have := (h.all e.2).2 (h.ends e he).2
      rw [hk] at this; simpa using this
  | succ n ih =>
    cases R with
    | nil =>
      by_cases hk : g.keys = []
      · left
        refine ⟨S, by simp [sortLoop, hk], h.snd, ?_, ?_⟩
        · intro v; rw [← h.all v, hk]; simp
        · intro e he
          apply h.before e he
          have := (h.all e.2).2 (h.ends e he).2
          rw [hk] at this; simpa using this
      · right
        refine ⟨by simp [sortLoop, hk], g.keys, hk, ?_⟩
        intro v hv
        have hne : g.cnt v ≠ 0 := fun h0 => by have := (h.roots.2 v).2 ⟨hv, h0⟩; simp at this
        rw [h.cnt v hv] at hne
        have : 0 < arcsInto edges g.keys v := by omega
        unfold arcsInto at this
        obtain ⟨e, he, hp⟩ := List.countP_pos_iff.1 this
        simp at hp
        exact ⟨e.1, hp.2, by rw [← hp.1]; exact he⟩
    | cons root R =>
      obtain ⟨g1, R1, s1, s2, s3, s4⟩ := h.step
      unfold sortLoop
      simp only [s1, if_true, s2, s3]
      have := ih { g1 with keys := g1.keys.erase root } R1 (S ++ [root])
        (by simp only [s3]; rw [List.length_erase_of_mem s1]; omega) s4
      simpa only [s3] using this

theorem acyclic_of_topo {nodes : List V} {edges : List (V × V)} {l : List V} (h : IsTopoOrder nodes edges l) :
    Acyclic edges := by
  have hlt : ∀ a b, (a, b) ∈ edges → l.idxOf a < l.idxOf b := by
    intro a b hab
    obtain ⟨l1, l2, l3, hl⟩ := h.2.2 (a, b) hab
    simp only at hl
    have hnd := h.1
    rw [hl] at hnd ⊢
    have ha1 : a ∉ l1 := by
      intro hm
      simp only [List.nodup_append, List.append_assoc, List.cons_append] at hnd
      exact hnd.2.2 a hm a (by simp) rfl
    have hb1 : b ∉ l1 := by
      intro hm
      simp only [List.nodup_append, List.append_assoc, List.cons_append] at hnd
      exact hnd.2.2 b hm b (by simp) rfl
    have hab' : a ≠ b := by
      rintro rfl
      simp only [List.nodup_append, List.append_assoc, List.cons_append, List.nodup_cons] at hnd
      exact hnd.2.1.1 (by simp)
    have e1 : (l1 ++ a :: l2 ++ b :: l3).idxOf a = l1.length := by
      rw [List.append_assoc, List.idxOf_append, if_neg ha1]; simp
    have e2 : (l1 ++ a :: l2 ++ b :: l3).idxOf b = ((a :: (l2 ++ b :: l3)).idxOf b) + l1.length := by
      rw [List.append_assoc, List.idxOf_append, if_neg hb1]; simp
    rw [e1, e2, List.idxOf_cons]
    have : (a == b) = false := by simpa using hab'
    rw [this]; simp only [cond_false]; omega
  intro v hv
  have : ∀ a b, Relation.TransGen (fun a b => (a, b) ∈ edges) a b → l.idxOf a < l.idxOf b := by
    intro a b hab
    induction hab with
    | single h => exact hlt _ _ h
    | tail _ h ih => exact Nat.lt_trans ih (hlt _ _ h)
  exact Nat.lt_irrefl _ (this v v hv)

theorem not_acyclic_of_closed {edges : List (V × V)} (A : List V) (hA : A ≠ []) (h : ∀ v ∈ A, ∃ u ∈ A, (u, v) ∈ edges) :
    ¬ Acyclic edges := by
  intro hac
  let r : {v // v ∈ A} → {v // v ∈ A} → Prop := fun a b => Relation.TransGen (fun a b => (a, b) ∈ edges) a.1 b.1
  have : Finite {v // v ∈ A} := Finite.of_surjective (fun i : Fin A.length => (⟨A[i], List.getElem_mem _⟩ : {v // v ∈ A})) (by
    rintro ⟨v, hv⟩
    obtain ⟨i, hi, rfl⟩ := List.getElem_of_mem hv
    exact ⟨⟨i, hi⟩, rfl⟩)
  have : IsTrans _ r := ⟨fun a b c hab hbc => Relation.TransGen.trans hab hbc⟩
  have : Std.Irrefl r := ⟨fun a ha => hac a.1 ha⟩
  have wf := Finite.wellFounded_of_trans_of_irrefl r
  obtain ⟨a, ha⟩ := List.exists_mem_of_ne_nil A hA
  have : ∀ x : {v // v ∈ A}, False := by
    intro x
    induction x using wf.induction with
    | h x ih =>
      obtain ⟨u, hu, hux⟩ := h x.1 x.2
      exact ih ⟨u, hu⟩ (Relation.TransGen.single hux)
  exact this ⟨a, ha⟩

theorem dedupFold (l acc : List V) (h : acc.Nodup) :
    (l.foldl (fun ks m => if m ∈ ks then ks else ks ++ [m]) acc).Nodup ∧
    ∀ v, v ∈ l.foldl (fun ks m => if m ∈ ks then ks else ks ++ [m]) acc ↔ v ∈ acc ∨ v ∈ l := by
  induction l generalizing acc with
  | nil => simp [h]
  | cons m l ih =>
    rw [List.foldl_cons]
    by_cases hm : m ∈ acc
    · simp only [hm, if_true]
      refine ⟨(ih acc h).1, fun v => ?_⟩
      rw [(ih acc h).2 v, List.mem_cons]
      constructor
      · rintro (h | h) <;> simp [h]
      · rintro (h | rfl | h)
        · simp [h]
        · simp [hm]
        · simp [h]
    · simp only [hm, if_false]
      have hnd : (acc ++ [m]).Nodup := by
        rw [List.nodup_append]
        refine ⟨h, by simp, ?_⟩
        intro a ha b hb; simp at hb; subst hb; exact fun e => hm (e ▸ ha)
      refine ⟨(ih _ hnd).1, fun v => ?_⟩
      rw [(ih _ hnd).2 v]
      simp [or_assoc]

theorem init_linv (modules : List V) (edges : List (V × V)) (name : V → String)
    (h : ∀ e ∈ edges, e.1 ∈ modules ∧ e.2 ∈ modules) :
    ∃ g, addEdges (initGraph modules) edges = .ok g ∧
      LInv modules edges g ((g.keys.filter (fun v => decide (g.cnt v = 0))).insertionSort (fun a b => name a ≤ name b)) [] := by
  have hfold := dedupFold modules ([] : List V) (by simp)
  have hmem : ∀ v, v ∈ (initGraph modules).keys ↔ v ∈ modules := fun v => by
    have := hfold.2 v
    simpa [initGraph] using this
  obtain ⟨g, h1, h2, h3, h4⟩ := addEdges_ok edges (initGraph modules) (by
    intro e he
    simp only [hmem]
    exact h e he)
  have hnd : g.keys.Nodup := by rw [h2]; exact hfold.1
  refine ⟨g, h1, ?_⟩
  constructor
  · simp
  · exact hnd
  · simp
  · intro v; rw [h2, hmem]; simp
  · intro u; rw [h4]; simp [initGraph]
  · intro v hv
    rw [h3 v]
    simp only [initGraph, Int.zero_add, arcsInto]
    congr 1
    apply List.countP_congr
    intro e he
    have : e.1 ∈ g.keys := by rw [h2, hmem]; exact (h e he).1
    simp [this]
  · refine ⟨?_, ?_⟩
    · exact (List.perm_insertionSort _ _).nodup_iff.2 (hnd.filter _)
    · intro v
      rw [List.mem_insertionSort, List.mem_filter]
      simp
  · simp
  · exact h

end Verif.Topo
