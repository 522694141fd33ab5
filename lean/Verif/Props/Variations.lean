import Verif.Model.Variations
import Verif.Props.Enumerate
import Mathlib.Data.List.Forall2
/-
Properties of plots of variations.
-/
namespace Verif.Spec

/-- A combination of options: a value of its list for each option, in their order. -/
def Combination {V : Type} (opts : List (List Char × List V)) (c : List (List Char × V)) : Prop :=
  List.Forall₂ (fun (kv : List Char × V) (e : List Char × List V) => kv.1 = e.1 ∧ kv.2 ∈ e.2) c opts

/-- The items of a dictionary with keys in a list, and the others. -/
def inside {V : Type} (ks : List (List Char)) (c : List (List Char × V)) : List (List Char × V) := c.filter fun e => decide (e.1 ∈ ks)
def outside {V : Type} (ks : List (List Char)) (c : List (List Char × V)) : List (List Char × V) := c.filter fun e => decide (e.1 ∉ ks)

end Verif.Spec

namespace Verif.Variations
open Verif.Enum Verif.Util Verif.Spec

variable {X T V K : Type} [DecidableEq V] [Ring K] [DecidableEq K]

theorem combination_split (ks : List Str) (opts : List (Str × List V)) (c : List (Str × V)) (h : Combination opts c) :
    Combination (subDict opts ks false) (inside ks c) ∧ Combination (subDict opts ks true) (outside ks c) := by
  unfold Combination at *
  induction h with
  | nil => exact ⟨.nil, .nil⟩
  | @cons kv e c opts hd _ ih =>
    unfold subDict inside outside at *
    by_cases hk : e.1 ∈ ks
    · rw [List.filter_cons_of_pos (by simpa [hd.1] using hk), List.filter_cons_of_pos (by simpa [hd.1] using hk), List.filter_cons_of_neg (by simpa [hd.1] using hk), List.filter_cons_of_neg (by simpa [hd.1] using hk)]
      exact ⟨.cons hd ih.1, ih.2⟩
    · rw [List.filter_cons_of_neg (by simpa [hd.1] using hk), List.filter_cons_of_neg (by simpa [hd.1] using hk), List.filter_cons_of_pos (by simpa [hd.1] using hk), List.filter_cons_of_pos (by simpa [hd.1] using hk)]
      exact ⟨ih.1, .cons hd ih.2⟩

theorem combination_join (ks : List Str) (opts : List (Str × List V)) (a b : List (Str × V)) (ha : Combination (subDict opts ks false) a) (hb : Combination (subDict opts ks true) b) :
    ∃ c, Combination opts c ∧ inside ks c = a ∧ outside ks c = b := by
  induction opts generalizing a b with
  | nil =>
    cases ha
    cases hb
    exact ⟨[], .nil, rfl, rfl⟩
  | cons e opts ih =>
    unfold Combination subDict at *
    by_cases hk : e.1 ∈ ks
    · rw [List.filter_cons_of_pos (by simpa using hk)] at ha
      rw [List.filter_cons_of_neg (by simpa using hk)] at hb
      cases ha with
      | @cons kv _ a' _ hd ht =>
        obtain ⟨c, h1, h2, h3⟩ := ih a' b ht hb
        refine ⟨kv :: c, .cons hd h1, ?_, ?_⟩
        · unfold inside at *
          rw [List.filter_cons_of_pos (by simpa [hd.1] using hk), h2]
        · unfold outside at *
          rw [List.filter_cons_of_neg (by simpa [hd.1] using hk), h3]
    · rw [List.filter_cons_of_neg (by simpa using hk)] at ha
      rw [List.filter_cons_of_pos (by simpa using hk)] at hb
      cases hb with
      | @cons kv _ b' _ hd ht =>
        obtain ⟨c, h1, h2, h3⟩ := ih a b' ha ht
        refine ⟨kv :: c, .cons hd h1, ?_, ?_⟩
        · unfold inside at *
          rw [List.filter_cons_of_neg (by simpa [hd.1] using hk), h2]
        · unfold outside at *
          rw [List.filter_cons_of_pos (by simpa [hd.1] using hk), h3]

theorem mem_combos (le : V → V → Bool) (d : List (Str × List V)) (c : List (Str × V)) : c ∈ combos le d ↔ Combination d c := by
  unfold combos Combination
  rw [(Verif.Props.C18_dictCombinations le _).2, List.forall₂_map_right_iff]
  rfl

theorem combos_nodup (le : V → V → Bool) (d : List (Str × List V)) : (combos le d).Nodup := (Verif.Props.C18_dictCombinations le _).1

theorem sorted_perm {D : Type} (sort : Option (List D → List D)) (hs : ∀ f, sort = some f → ∀ l, (f l).Perm l) (ds out : List D) (h : sorted sort ds = .ok out) : out.Perm ds := by
  unfold sorted at h
  split_ifs at h
  · obtain rfl := Except.ok.inj h
    exact .refl _
  · cases sort with
    | none => simp at h
    | some f =>
      obtain rfl := Except.ok.inj h
      exact hs f rfl ds

/-- Results of a loop that ends without exception. -/
theorem mapM_forall₂ {A B : Type} (f : A → Except VErr B) : ∀ (l : List A) (out : List B), l.mapM f = .ok out → List.Forall₂ (fun a b => f a = .ok b) l out := by
  intro l
  induction l with
  | nil =>
    intro out h
    obtain rfl := Except.ok.inj h
    exact .nil
  | cons a l ih =>
    intro out h
    rw [List.mapM_cons] at h
    cases h1 : f a with
    | error e => rw [h1] at h; simp [bind, Except.bind] at h
    | ok b =>
      rw [h1] at h
      cases h2 : l.mapM f with
      | error e => rw [h2] at h; simp [bind, Except.bind] at h
      | ok bs =>
        rw [h2] at h
        obtain rfl := Except.ok.inj h
        exact .cons h1 (ih bs h2)

/-- A call with its number in the figure. -/
def CallOk (str : V → Str) (gen : X → List (Str × V) → Option (Gen K)) (differentiator : K) (odl : List (Str × List V)) (x : X) (figdict : List (Str × V)) (p : List (Str × V) × Nat) (c : Call V K) : Prop :=
  c.varied = p.1 ∧ c.options = p.1 ++ figdict ∧ c.label = label str odl p.1 ∧ coordinates differentiator p.2 (gen x c.options) = .ok c.drawn

theorem figure_ok (le : V → V → Bool) (sort : Option (List (List (Str × V)) → List (List (Str × V)))) (str : V → Str) (gen : X → List (Str × V) → Option (Gen K)) (differentiator : K)
    (odl : List (Str × List V)) (x : X) (tit : T) (figdict : List (Str × V)) (f : Fig X T V K) (h : figure le sort str gen differentiator odl x tit figdict = .ok f) :
    f.data = x ∧ f.title = tit ∧ f.fixed = figdict ∧ ∃ odicts, sorted sort (combos le odl) = .ok odicts ∧ List.Forall₂ (CallOk str gen differentiator odl x figdict) odicts.zipIdx f.calls := by
  unfold figure at h
  cases h1 : sorted sort (combos le odl) with
  | error e => rw [h1] at h; simp [bind, Except.bind] at h
  | ok odicts =>
    rw [h1] at h
    simp only [bind, Except.bind] at h
    split at h
    · simp at h
    · rename_i calls h2
      split_ifs at h with hcalls
      · obtain rfl := Except.ok.inj h
        refine ⟨rfl, rfl, rfl, odicts, rfl, ?_⟩
        refine (mapM_forall₂ _ _ _ h2).imp fun p c hc => ?_
        split at hc
        · simp at hc
        · rename_i d h3
          obtain rfl := Except.ok.inj hc
          exact ⟨rfl, rfl, rfl, h3⟩

theorem forall₂_map_eq {A B C : Type} {R : A → B → Prop} (f : A → C) (g : B → C) (hR : ∀ a b, R a b → g b = f a) {l : List A} {m : List B} (h : List.Forall₂ R l m) : m.map g = l.map f := by
  induction h with
  | nil => rfl
  | cons h1 _ ih => simp [hR _ _ h1, ih]

theorem forall₂_right {A B : Type} {R : A → B → Prop} {l : List A} {m : List B} (h : List.Forall₂ R l m) (b : B) (hb : b ∈ m) : ∃ a ∈ l, R a b := by
  induction h with
  | nil => simp at hb
  | cons h1 _ ih =>
    rcases List.mem_cons.1 hb with rfl | hb
    · exact ⟨_, by simp, h1⟩
    · obtain ⟨a, ha, hr⟩ := ih hb
      exact ⟨a, by simp [ha], hr⟩

theorem combination_unique (ks : List Str) (opts : List (Str × List V)) (k1 k2 : List (Str × V)) (h1 : Combination opts k1) (h2 : Combination opts k2) (hi : inside ks k1 = inside ks k2) (ho : outside ks k1 = outside ks k2) : k1 = k2 := by
  induction opts generalizing k1 k2 with
  | nil =>
    cases h1
    cases h2
    rfl
  | cons e opts ih =>
    unfold Combination at h1 h2
    cases h1 with
    | @cons a _ as _ ha hat =>
      cases h2 with
      | @cons b _ bs _ hb hbt =>
        unfold inside outside at *
        by_cases hk : e.1 ∈ ks
        · rw [List.filter_cons_of_pos (by simpa [ha.1] using hk), List.filter_cons_of_pos (by simpa [hb.1] using hk)] at hi
          rw [List.filter_cons_of_neg (by simpa [ha.1] using hk), List.filter_cons_of_neg (by simpa [hb.1] using hk)] at ho
          obtain ⟨e1, e2⟩ := List.cons.inj hi
          rw [e1, ih as bs hat hbt e2 ho]
        · rw [List.filter_cons_of_neg (by simpa [ha.1] using hk), List.filter_cons_of_neg (by simpa [hb.1] using hk)] at hi
          rw [List.filter_cons_of_pos (by simpa [ha.1] using hk), List.filter_cons_of_pos (by simpa [hb.1] using hk)] at ho
          obtain ⟨e1, e2⟩ := List.cons.inj ho
          rw [e1, ih as bs hat hbt hi e2]

theorem eq_of_short {A : Type} {l : List A} (h : l.length < 2) {a b : A} (ha : a ∈ l) (hb : b ∈ l) : a = b := by
  match l, h with
  | [], _ => simp at ha
  | [c], _ => simp at ha hb; rw [ha, hb]

theorem lookup_nodup {A : Type} (d : List (Str × A)) (hd : (d.map Prod.fst).Nodup) (e : Str × A) (he : e ∈ d) : d.lookup e.1 = some e.2 := by
  induction d with
  | nil => simp at he
  | cons q d ih =>
    obtain ⟨k, v⟩ := q
    rw [List.map_cons, List.nodup_cons] at hd
    rcases List.mem_cons.1 he with rfl | he
    · simp
    · have hne : e.1 ≠ k := by
        rintro h
        exact hd.1 (List.mem_map.2 ⟨e, he, h⟩)
      rw [List.lookup_cons]
      have : (e.1 == k) = false := by simpa using hne
      rw [this]
      exact ih hd.2 he

end Verif.Variations

namespace Verif.Props
open Verif.Spec Verif.Variations

variable {X T V K : Type} [DecidableEq V] [Ring K] [DecidableEq K]

/-- If `plotVariations` ends without an exception, there are figures for each item of the data with its title, in order; each combination of the options is drawn for it in exactly one figure, where the options to be varied per plot vary and the
others are fixed, and exactly once in it; and nothing else is drawn. The generator is called with all options of the combination. -/
theorem C196_combinations_partial (le : V → V → Bool) (sort : Option (List (List (List Char × V)) → List (List (List Char × V)))) (hs : ∀ f, sort = some f → ∀ l, (f l).Perm l) (str : V → List Char)
    (gen : X → List (List Char × V) → Option (Gen K)) (differentiator : K) (datalist : List X) (titles : List T) (vary : List (List Char)) (opts : List (List Char × List V)) (figs : List (Fig X T V K))
    (h : plotVariations le sort str gen differentiator datalist titles (some vary) opts = .ok figs) :
    ∃ parts : List (List (Fig X T V K)), figs = parts.flatten ∧ List.Forall₂ (fun (p : X × T) part =>
      (∀ f ∈ part, f.data = p.1 ∧ f.title = p.2 ∧ (f.calls.map Call.varied).Nodup ∧ ∀ c ∈ f.calls, c.options = c.varied ++ f.fixed) ∧ (part.map Fig.fixed).Nodup ∧
      (∀ f ∈ part, ∀ c ∈ f.calls, ∃ k, Combination opts k ∧ c.varied = inside vary k ∧ f.fixed = outside vary k) ∧
      ∀ k, Combination opts k → ∃ f ∈ part, ∃ c ∈ f.calls, c.varied = inside vary k ∧ f.fixed = outside vary k) (datalist.zip titles) parts := by
  unfold plotVariations at h
  rw [if_neg (by simp)] at h
  simp only [bind, Except.bind, Option.getD_some] at h
  split at h
  · simp at h
  · rename_i parts hp
    obtain rfl := Except.ok.inj h
    refine ⟨parts, rfl, (mapM_forall₂ _ _ _ hp).imp fun p part hpart => ?_⟩
    split at hpart
    · simp at hpart
    · rename_i figdicts hf
      have hperm := sorted_perm sort hs _ _ hf
      have h2 := mapM_forall₂ _ _ _ hpart
      have h3 : ∀ f ∈ part, f.data = p.1 ∧ f.title = p.2 ∧ f.fixed ∈ figdicts ∧ ∃ odicts, odicts.Perm (combos le (Util.subDict opts vary false)) ∧
          f.calls.map Call.varied = odicts ∧ ∀ c ∈ f.calls, c.options = c.varied ++ f.fixed := by
        intro f hfm
        obtain ⟨fd, hfd, hok⟩ := forall₂_right h2 f hfm
        obtain ⟨e1, e2, e3, od, e4, e5⟩ := figure_ok _ _ _ _ _ _ _ _ _ _ hok
        refine ⟨e1, e2, e3 ▸ hfd, od, sorted_perm sort hs _ _ e4, ?_, ?_⟩
        · rw [forall₂_map_eq Prod.fst Call.varied (fun a b hab => hab.1) e5]
          simp [List.zipIdx_map_fst]
        · intro c hc
          obtain ⟨q, _, hq⟩ := forall₂_right e5 c hc
          rw [hq.2.1, hq.1, e3]
      have h4 : part.map Fig.fixed = figdicts := by
        have := forall₂_map_eq id Fig.fixed (fun a b hab => (figure_ok _ _ _ _ _ _ _ _ _ _ hab).2.2.1) h2
        simpa using this
      refine ⟨fun f hfm => ?_, ?_, fun f hfm c hc => ?_, fun k hk => ?_⟩
      · obtain ⟨e1, e2, -, od, e3, e4, e5⟩ := h3 f hfm
        exact ⟨e1, e2, by rw [e4]; exact e3.nodup_iff.2 (combos_nodup le _), e5⟩
      · rw [h4]
        exact hperm.nodup_iff.2 (combos_nodup le _)
      · obtain ⟨-, -, e0, od, e3, e4, -⟩ := h3 f hfm
        have m1 : c.varied ∈ combos le (Util.subDict opts vary false) := e3.mem_iff.1 (e4 ▸ List.mem_map_of_mem hc)
        have m2 := hperm.mem_iff.1 e0
        obtain ⟨k, k1, k2, k3⟩ := combination_join vary opts _ _ ((mem_combos le _ _).1 m1) ((mem_combos le _ _).1 m2)
        exact ⟨k, k1, k2.symm, k3.symm⟩
      · obtain ⟨k1, k2⟩ := combination_split vary opts k hk
        have m2 := hperm.mem_iff.2 ((mem_combos le _ _).2 k2)
        rw [← h4] at m2
        obtain ⟨f, hfm, hff⟩ := List.mem_map.1 m2
        obtain ⟨-, -, -, od, e3, e4, -⟩ := h3 f hfm
        have m1 := e3.mem_iff.2 ((mem_combos le _ _).2 k1)
        rw [← e4] at m1
        obtain ⟨c, hc, hcc⟩ := List.mem_map.1 m1
        exact ⟨f, hfm, c, hc, hcc, hff⟩

/-- What is drawn for a combination is what the generator returned for the data and this combination: nothing, a curve (if it has other than two points, over the numbers from 0), or coordinates; curves are moved upwards by multiples of the
differentiator, different ones for each curve of the figure. -/
theorem C196_curves_partial (le : V → V → Bool) (sort : Option (List (List (List Char × V)) → List (List (List Char × V)))) (str : V → List Char) (gen : X → List (List Char × V) → Option (Gen K)) (differentiator : K)
    (datalist : List X) (titles : List T) (vary : List (List Char)) (opts : List (List Char × List V)) (figs : List (Fig X T V K))
    (h : plotVariations le sort str gen differentiator datalist titles (some vary) opts = .ok figs) (f : Fig X T V K) (hf : f ∈ figs) (i : Nat) (hi : i < f.calls.length) :
    (gen f.data f.calls[i].options = none → f.calls[i].drawn = none) ∧
    (∀ ys, gen f.data f.calls[i].options = some (.curve ys) → ys.length ≠ 2 → f.calls[i].drawn = some ((List.range ys.length).map fun (j : Nat) => (j : K), ys.map (· + differentiator * (i : K)))) ∧
    (∀ xs ys, gen f.data f.calls[i].options = some (.pair xs ys) → f.calls[i].drawn = some (xs, ys)) := by
  unfold plotVariations at h
  rw [if_neg (by simp)] at h
  simp only [bind, Except.bind, Option.getD_some] at h
  split at h
  · simp at h
  · rename_i parts hp
    obtain rfl := Except.ok.inj h
    obtain ⟨part, hpm, hfm⟩ := List.mem_flatten.1 hf
    obtain ⟨p, -, hpart⟩ := forall₂_right (mapM_forall₂ _ _ _ hp) part hpm
    split at hpart
    · simp at hpart
    · rename_i figdicts hfd
      obtain ⟨fd, -, hok⟩ := forall₂_right (mapM_forall₂ _ _ _ hpart) f hfm
      obtain ⟨e1, -, -, od, -, e5⟩ := figure_ok _ _ _ _ _ _ _ _ _ _ hok
      have hlen := e5.length_eq
      have hget := List.Forall₂.get e5 (i := i) (by omega) hi
      obtain ⟨-, -, -, hc⟩ := hget
      simp only [List.get_eq_getElem, List.getElem_zipIdx, Nat.zero_add] at hc
      rw [← e1] at hc
      refine ⟨fun g => ?_, fun ys g hy => ?_, fun xs ys g => ?_⟩
      · rw [g] at hc
        exact (Except.ok.inj hc).symm
      · rw [g] at hc
        unfold coordinates at hc
        simp only [if_neg hy] at hc
        split_ifs at hc with hd
        · exact (Except.ok.inj hc).symm
        · rw [← Except.ok.inj hc]
          rw [not_not] at hd
          simp [hd]
      · rw [g] at hc
        unfold coordinates at hc
        simp only at hc
        split_ifs at hc
        exact (Except.ok.inj hc).symm

/-- A curve has no label exactly if no option with several values varies within the figure. -/
theorem C196_label (str : V → List Char) (odl : List (List Char × List V)) (hn : (odl.map Prod.fst).Nodup) (d : List (List Char × V)) (hd : Combination odl d) : label str odl d = none ↔ ∀ e ∈ odl, e.2.length ≤ 1 := by
  have key : (d.filter fun e => decide (((odl.lookup e.1).getD []).length > 1)) = [] ↔ ∀ e ∈ odl, e.2.length ≤ 1 := by
    rw [List.filter_eq_nil_iff]
    constructor
    · intro h e he
      obtain ⟨q, hq, hr⟩ := forall₂_right hd e he
      have := h q hq
      rw [hr.1, lookup_nodup odl hn e he] at this
      simpa using this
    · intro h q hq
      obtain ⟨e, he, hr⟩ := forall₂_right hd.flip q hq
      have := h e he
      change q.1 = e.1 ∧ q.2 ∈ e.2 at hr
      rw [hr.1, lookup_nodup odl hn e he]
      simpa using this
  rw [← key]
  unfold label
  simp only
  cases hl : d.filter fun e => decide (((odl.lookup e.1).getD []).length > 1) with
  | nil => simp
  | cons e es => simp

/-- **C196 fails in Python 3**: dictionaries cannot be sorted, so that every call with two or more different combinations raises a TypeError. -/
theorem C196_negation_sorted (le : V → V → Bool) (str : V → List Char) (gen : X → List (List Char × V) → Option (Gen K)) (differentiator : K) (x : X) (datalist : List X) (t : T) (titles : List T) (vary : List (List Char))
    (opts : List (List Char × List V)) (k1 k2 : List (List Char × V)) (h1 : Combination opts k1) (h2 : Combination opts k2) (hne : k1 ≠ k2) :
    plotVariations le none str gen differentiator (x :: datalist) (t :: titles) (some vary) opts = .error .type := by
  obtain ⟨a1, b1⟩ := combination_split vary opts k1 h1
  obtain ⟨a2, b2⟩ := combination_split vary opts k2 h2
  rw [← mem_combos le] at a1 b1 a2 b2
  unfold plotVariations
  rw [if_neg (by simp)]
  simp only [bind, Except.bind, Option.getD_some, List.zip_cons_cons, List.mapM_cons]
  by_cases hf : (combos le (Util.subDict opts vary true)).length < 2
  · have hsf : sorted none (combos le (Util.subDict opts vary true)) = .ok (combos le (Util.subDict opts vary true)) := by
      unfold sorted
      rw [if_pos hf]
    have ho : ¬(combos le (Util.subDict opts vary false)).length < 2 := by
      intro ho
      exact hne (combination_unique vary opts k1 k2 h1 h2 (eq_of_short ho a1 a2) (eq_of_short hf b1 b2))
    rw [hsf]
    cases hc : combos le (Util.subDict opts vary true) with
    | nil => rw [hc] at b1; simp at b1
    | cons fd fds =>
      have : ∀ fd : List (List Char × V), figure (K := K) le none str gen differentiator (Util.subDict opts vary false) x t fd = .error .type := by
        intro fd
        unfold figure sorted
        rw [if_neg ho]
        rfl
      simp [this, bind, Except.bind]
  · have hsf : sorted none (combos le (Util.subDict opts vary true)) = .error .type := by
      unfold sorted
      rw [if_neg hf]
    rw [hsf]

example : Combination [(['a'], [1, 2]), (['b'], [5])] [(['a'], 1), (['b'], 5)] ∧ Combination [(['a'], [1, 2]), (['b'], [5])] [(['a'], 2), (['b'], 5)] ∧ [(['a'], 1), (['b'], 5)] ≠ [(['a'], 2), (['b'], 5)] := by
  refine ⟨?_, ?_, by decide⟩ <;> simp [Combination]

private def twoOptions : Except VErr (List (Fig ℤ Nat ℤ ℤ)) :=
  plotVariations (fun a b => decide (a ≤ b)) (some id) (fun _ => ['v']) (fun x d => some (.curve [x, (d.map Prod.snd).sum, 0])) 0 [10] [7] (some [['a']]) [(['a'], [1, 2]), (['b'], [5, 6])]

/-- The hypotheses of the theorems about combinations and curves are met: two options, one varied within the figures. -/
example : ∃ figs, twoOptions = .ok figs ∧ (figs.map fun f => f.fixed) = [[(['b'], 5)], [(['b'], 6)]] ∧
    (figs.map fun f => f.calls.map fun c => c.varied) = [[[(['a'], 1)], [(['a'], 2)]], [[(['a'], 1)], [(['a'], 2)]]] ∧
    (figs.map fun f => f.calls.map fun c => c.drawn) =
      [[some ([0, 1, 2], [10, 6, 0]), some ([0, 1, 2], [10, 7, 0])], [some ([0, 1, 2], [10, 7, 0]), some ([0, 1, 2], [10, 8, 0])]] := by
  have h1 : ∀ a b : ℤ, a < b → Enum.sortedSet (fun a b : ℤ => decide (a ≤ b)) [a, b] = [a, b] := by
    intro a b h
    unfold Enum.sortedSet
    have : [a, b].eraseDups = [a, b] := by simp [List.eraseDups_cons, h.ne']
    rw [this]
    exact List.mergeSort_of_pairwise (by simp [h.le])
  have h2 : ∀ (k : List Char) (a b : ℤ), a < b → combos (fun a b : ℤ => decide (a ≤ b)) [(k, [a, b])] = [[(k, a)], [(k, b)]] := by
    intro k a b h
    simp [combos, Enum.dictCombinations, Enum.dictCombRev, h1 a b h]
  have o : Util.subDict [(['a'], [(1 : ℤ), 2]), (['b'], [5, 6])] [['a']] false = [(['a'], [1, 2])] := by decide
  have f : Util.subDict [(['a'], [(1 : ℤ), 2]), (['b'], [5, 6])] [['a']] true = [(['b'], [5, 6])] := by decide
  unfold twoOptions plotVariations
  rw [if_neg (by simp)]
  simp only [Option.getD_some, o, f, h2 ['b'] 5 6 (by decide)]
  simp [sorted, figure, h2 ['a'] 1 2 (by decide), coordinates, bind, Except.bind, pure, Except.pure, List.range_succ]

/-- **C196 fails for the default of `varyperplot`**: with any options, TypeError. -/
theorem C196_negation_default (le : V → V → Bool) (sort : Option (List (List (List Char × V)) → List (List (List Char × V)))) (str : V → List Char) (gen : X → List (List Char × V) → Option (Gen K)) (differentiator : K)
    (datalist : List X) (titles : List T) (opts : List (List Char × List V)) (h : opts ≠ []) : plotVariations le sort str gen differentiator datalist titles none opts = .error .type := by
  unfold plotVariations
  rw [if_pos ⟨rfl, h⟩]

/-- **C196 fails for curves with two points**, which are drawn as a single point, the first value being taken for its abscissa; and coordinates cannot be told apart by the differentiator (TypeError). -/
theorem C196_negation_two (y1 y2 : K) (i : Nat) (d : K) (hd : d ≠ 0) (xs ys : List K) : coordinates 0 i (some (.curve [y1, y2])) = .ok (some ([y1], [y2])) ∧ coordinates d i (some (.pair xs ys)) = .error .type := by
  simp [coordinates, hd]

/-- **C196 fails for labels**: values with the same first five characters (such as 0.0001 and 0.00015) have the same label, though they are different curves of one figure. -/
theorem C196_negation_labels (str : V → List Char) (key : List Char) (vs : List V) (v w : V) (h : (str v).take 5 = (str w).take 5) : label str [(key, vs)] [(key, v)] = label str [(key, vs)] [(key, w)] := by
  have hs : ∀ u : V, short str u = (str u).take 5 := by
    intro u
    unfold short
    rw [← List.take_take, List.take_length]
  unfold label
  by_cases hl : vs.length > 1
  · simp [hl, hs, h]
  · simp [hl]

example : "0.0001".toList.take 5 = "0.00015".toList.take 5 := by decide

end Verif.Props
