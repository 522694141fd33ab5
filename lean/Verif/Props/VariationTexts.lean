import Verif.Props.Variations
/-
Titles of figures and labels of curves in plots of variations.
-/
namespace Verif.Spec

/-- An option with its value as text: the first letters of the name, all if `n` is none, and the first five characters of the value. -/
def optionText {V : Type} (str : V → List Char) (n : Option Nat) (e : List Char × V) : List Char :=
  (match n with | none => e.1 | some n => e.1.take n) ++ ['='] ++ (str e.2).take 5

/-- The items of a combination whose options have several values, and those whose options have only one. -/
def several {V : Type} (opts : List (List Char × List V)) (c : List (List Char × V)) : List (List Char × V) := c.filter fun e => decide (1 < ((opts.lookup e.1).getD []).length)
def single {V : Type} (opts : List (List Char × List V)) (c : List (List Char × V)) : List (List Char × V) := c.filter fun e => decide (((opts.lookup e.1).getD []).length = 1)

end Verif.Spec
namespace Verif.Variations
open Verif.Enum Verif.Util Verif.Spec
variable {X T V K : Type} [DecidableEq V] [Ring K] [DecidableEq K]

omit [DecidableEq V] in
theorem short_eq (str : V → Str) (v : V) : short str v = (str v).take 5 := by
  unfold short
  rw [← List.take_take, List.take_length]

theorem dropLast_flatten_dash (l : List Str) : (l.map fun s => s ++ ['-']).flatten.dropLast = List.intercalate ['-'] l := by
  induction l with
  | nil => rfl
  | cons a l ih =>
    cases l with
    | nil => simp [List.intercalate]
    | cons b l =>
      rw [List.intercalate_cons_cons, ← ih, List.map_cons, List.flatten_cons, List.dropLast_append_of_ne_nil (by simp)]

omit [DecidableEq V] in
theorem label_eq (str : V → Str) (odl : List (Str × List V)) (d : List (Str × V)) : label str odl d = if several odl d = [] then none else some (List.intercalate ['-'] ((several odl d).map (optionText str (some 3)))) := by
  have hm : ((several odl d).map fun e => e.1.take 3 ++ ['='] ++ short str e.2 ++ ['-']) = ((several odl d).map (optionText str (some 3))).map fun s => s ++ ['-'] := by
    simp [optionText, short_eq, Function.comp_def]
  unfold label
  change (if ((several odl d).map fun e => e.1.take 3 ++ ['='] ++ short str e.2 ++ ['-']).flatten.length > 0 then some ((several odl d).map fun e => e.1.take 3 ++ ['='] ++ short str e.2 ++ ['-']).flatten.dropLast else none) = _
  rw [hm, dropLast_flatten_dash]
  cases h : several odl d with
  | nil => simp
  | cons e es => simp

omit [DecidableEq V] in
theorem lookup_subDict (ks : List Str) (opts : List (Str × List V)) (k : Str) (hk : k ∈ ks) : (subDict opts ks false).lookup k = opts.lookup k := by
  unfold subDict
  induction opts with
  | nil => rfl
  | cons e opts ih =>
    obtain ⟨n, v⟩ := e
    by_cases hn : n ∈ ks
    · rw [List.filter_cons_of_pos (by simpa using hn), List.lookup_cons, List.lookup_cons, ih]
    · rw [List.filter_cons_of_neg (by simpa using hn), List.lookup_cons, ih]
      have : (k == n) = false := by
        rw [beq_eq_false_iff_ne]
        rintro rfl
        exact hn hk
      rw [this]

omit [DecidableEq V] in
theorem several_subDict (ks : List Str) (opts : List (Str × List V)) (c : List (Str × V)) (hc : ∀ e ∈ c, e.1 ∈ ks) :
    several (subDict opts ks false) c = several opts c ∧ single (subDict opts ks false) c = single opts c := by
  constructor <;> exact List.filter_congr fun e he => by rw [lookup_subDict ks opts e.1 (hc e he)]

omit [DecidableEq V] in
theorem combination_keys (ks : List Str) (opts : List (Str × List V)) (c : List (Str × V)) (h : Combination (subDict opts ks false) c) : ∀ e ∈ c, e.1 ∈ ks := by
  intro e he
  obtain ⟨q, hq, hr⟩ := forall₂_right h.flip e he
  change e.1 = q.1 ∧ e.2 ∈ q.2 at hr
  rw [hr.1]
  have := List.mem_filter.1 hq
  simpa using this.2

omit [DecidableEq V] in
/-- The items with a single value, read off the options and off a combination -/
theorem titadd1_eq (str : V → Str) (all odl : List (Str × List V)) (hl : ∀ e ∈ odl, all.lookup e.1 = some e.2) (c : List (Str × V)) (h : Combination odl c) :
    titadd1 str odl = ((single all c).map fun e => optionText str none e ++ [' ']).flatten := by
  unfold Combination at h
  induction h with
  | nil => rfl
  | @cons kv e c odl hd ht ih =>
    have ih := ih fun e he => hl e (List.mem_cons_of_mem _ he)
    have he := hl e List.mem_cons_self
    obtain ⟨k, v⟩ := kv
    obtain ⟨k', vs⟩ := e
    obtain ⟨rfl, hv⟩ := hd
    simp only at hv he
    unfold titadd1 single at *
    rcases vs with _ | ⟨w, _ | ⟨w', ws⟩⟩
    · simp at hv
    · obtain rfl := List.mem_singleton.1 hv
      rw [List.filter_cons_of_pos (by simp [he]), List.map_cons, List.flatten_cons, ← ih, List.filterMap_cons]
      simp [optionText, short_eq]
    · rw [List.filter_cons_of_neg (by simp [he]), ← ih, List.filterMap_cons]


omit [DecidableEq V] in
theorem titadd2_eq (str : V → Str) (d : List (Str × V)) : titadd2 str d = (d.map fun e => optionText str none e ++ [' ']).flatten := by
  simp [titadd2, optionText, short_eq]

omit [DecidableEq V] in
theorem lookup_of_nodup_sub (opts : List (Str × List V)) (hn : (opts.map Prod.fst).Nodup) (ks : List Str) : ∀ e ∈ subDict opts ks false, opts.lookup e.1 = some e.2 := by
  intro e he
  exact lookup_nodup opts hn e (List.mem_filter.1 he).1

theorem figure_subtitle (le : V → V → Bool) (sort : Option (List (List (Str × V)) → List (List (Str × V)))) (str : V → Str) (gen : X → List (Str × V) → Option (Gen K)) (differentiator : K)
    (odl : List (Str × List V)) (x : X) (tit : T) (figdict : List (Str × V)) (f : Fig X T V K) (h : figure le sort str gen differentiator odl x tit figdict = .ok f) :
    f.subtitle = titadd1 str odl ++ titadd2 str f.fixed := by
  unfold figure at h
  cases h1 : sorted sort (combos le odl) with
  | error e => rw [h1] at h; simp [bind, Except.bind] at h
  | ok odicts =>
    rw [h1] at h
    simp only [bind, Except.bind] at h
    split at h
    · simp at h
    · split_ifs at h
      obtain rfl := Except.ok.inj h
      rfl

omit [DecidableEq V] in
/-- Combinations that agree in the texts of all options with several values are the same. -/
theorem combination_several (str : V → Str) (all odl : List (Str × List V)) (hl : ∀ e ∈ odl, all.lookup e.1 = some e.2) (hinj : ∀ e ∈ odl, ∀ v ∈ e.2, ∀ w ∈ e.2, (str v).take 5 = (str w).take 5 → v = w)
    (c d : List (Str × V)) (hc : Combination odl c) (hd : Combination odl d) (h : (several all c).map (optionText str (some 3)) = (several all d).map (optionText str (some 3))) : c = d := by
  induction odl generalizing c d with
  | nil =>
    cases hc
    cases hd
    rfl
  | cons e odl ih =>
    unfold Combination at hc hd
    have he := hl e List.mem_cons_self
    have ih := ih (fun e he => hl e (List.mem_cons_of_mem _ he)) (fun e he => hinj e (List.mem_cons_of_mem _ he))
    cases hc with
    | @cons a _ as _ ha hat =>
      cases hd with
      | @cons b _ bs _ hb hbt =>
        unfold several at *
        by_cases hk : 1 < e.2.length
        · rw [List.filter_cons_of_pos (by simpa [ha.1, he] using hk), List.filter_cons_of_pos (by simpa [hb.1, he] using hk)] at h
          obtain ⟨e1, e2⟩ := List.cons.inj h
          have hab : a = b := by
            refine Prod.ext (ha.1.trans hb.1.symm) (hinj e List.mem_cons_self _ ha.2 _ hb.2 ?_)
            unfold optionText at e1
            rw [ha.1, hb.1] at e1
            exact List.append_cancel_left e1
          rw [hab, ih as bs hat hbt e2]
        · rw [List.filter_cons_of_neg (by simpa [ha.1, he] using hk), List.filter_cons_of_neg (by simpa [hb.1, he] using hk)] at h
          have hab : a = b := Prod.ext (ha.1.trans hb.1.symm) (eq_of_short (by omega) ha.2 hb.2)
          rw [hab, ih as bs hat hbt h]

end Verif.Variations

namespace Verif.Props
open Verif.Spec Verif.Variations

variable {X T V K : Type} [DecidableEq V] [Ring K] [DecidableEq K]

/-- The label of a curve consists of the options that have several values and vary within the figure, separated by dashes, with the first three letters of the name and the first five characters of the value; there is none without such options.
The title of a figure has the options with a single value and the ones that are fixed in the figure, with the whole names. -/
theorem C196_texts (le : V → V → Bool) (sort : Option (List (List (List Char × V)) → List (List (List Char × V)))) (hs : ∀ f, sort = some f → ∀ l, (f l).Perm l) (str : V → List Char)
    (gen : X → List (List Char × V) → Option (Gen K)) (differentiator : K) (datalist : List X) (titles : List T) (vary : List (List Char)) (opts : List (List Char × List V)) (hn : (opts.map Prod.fst).Nodup)
    (figs : List (Fig X T V K)) (h : plotVariations le sort str gen differentiator datalist titles (some vary) opts = .ok figs) (f : Fig X T V K) (hf : f ∈ figs) (c : Call V K) (hc : c ∈ f.calls) :
    (c.label = if several opts c.varied = [] then none else some (List.intercalate ['-'] ((several opts c.varied).map (optionText str (some 3))))) ∧
    f.subtitle = ((single opts c.varied ++ f.fixed).map fun e => optionText str none e ++ [' ']).flatten ∧
    ∀ c' ∈ f.calls, (∀ e ∈ opts, '-' ∉ e.1 ∧ ∀ v ∈ e.2, '-' ∉ str v) → (∀ e ∈ opts, ∀ v ∈ e.2, ∀ w ∈ e.2, (str v).take 5 = (str w).take 5 → v = w) → c.label = c'.label → c.varied = c'.varied := by
  unfold plotVariations at h
  rw [if_neg (by simp)] at h
  simp only [bind, Except.bind, Option.getD_some] at h
  split at h
  · simp at h
  · rename_i parts hp
    obtain rfl := Except.ok.inj h
    obtain ⟨part, hpm, hfm⟩ := List.mem_flatten.1 hf
    obtain ⟨p, -, hpart⟩ := forall₂_right (mapM_forall₂ _ _ _ hp) part hpm
    split at hpart
    · simp at hpart
    · obtain ⟨fd, -, hok⟩ := forall₂_right (mapM_forall₂ _ _ _ hpart) f hfm
      have hsub := figure_subtitle _ _ _ _ _ _ _ _ _ _ hok
      obtain ⟨-, -, -, od, e4, e5⟩ := figure_ok _ _ _ _ _ _ _ _ _ _ hok
      have hl := lookup_of_nodup_sub opts hn vary
      have hcall : ∀ c ∈ f.calls, Combination (Util.subDict opts vary false) c.varied ∧ c.label = if several opts c.varied = [] then none else some (List.intercalate ['-'] ((several opts c.varied).map (optionText str (some 3)))) := by
        intro c hc
        obtain ⟨q, hq, h1, -, h3, -⟩ := forall₂_right e5 c hc
        have hq1 : q.1 ∈ od := by
          have := List.mem_map_of_mem (f := Prod.fst) hq
          simpa [List.zipIdx_map_fst] using this
        have hcomb := (mem_combos le _ _).1 ((sorted_perm sort hs _ _ e4).mem_iff.1 hq1)
        rw [← h1] at hcomb
        refine ⟨hcomb, ?_⟩
        rw [h3, ← h1, label_eq, (several_subDict vary opts c.varied (combination_keys vary opts _ hcomb)).1]
      obtain ⟨hcomb, hlab⟩ := hcall c hc
      refine ⟨hlab, ?_, ?_⟩
      · rw [hsub, titadd2_eq, titadd1_eq str opts _ hl _ hcomb, List.map_append, List.flatten_append]
      · intro c' hc' hk hinj heq
        obtain ⟨hcomb', hlab'⟩ := hcall c' hc'
        refine combination_several str opts _ hl (fun e he => hinj e (List.mem_filter.1 he).1) _ _ hcomb hcomb' ?_
        have hne : ∀ a, Combination (Util.subDict opts vary false) a → ∀ s ∈ (several opts a).map (optionText str (some 3)), '-' ∉ s := by
          intro a ha s hs
          obtain ⟨e, he, rfl⟩ := List.mem_map.1 hs
          obtain ⟨q, hq, hr⟩ := forall₂_right ha.flip e (List.mem_filter.1 he).1
          change e.1 = q.1 ∧ e.2 ∈ q.2 at hr
          obtain ⟨k1, k2⟩ := hk q (List.mem_filter.1 hq).1
          simp only [optionText, List.mem_append, List.mem_singleton, not_or]
          exact ⟨⟨fun h => k1 (hr.1 ▸ List.mem_of_mem_take h), by decide⟩, fun h => k2 _ hr.2 (List.mem_of_mem_take h)⟩
        rw [hlab, hlab'] at heq
        split_ifs at heq with h1 h2 h2
        · rw [h1, h2]
        · have := congrArg (List.splitOn '-') (Option.some.inj heq)
          rwa [List.splitOn_intercalate _ (hne _ hcomb) (by simpa using h1), List.splitOn_intercalate _ (hne _ hcomb') (by simpa using h2)] at this

private def twoLabels : Except VErr (List (Fig ℤ Nat ℤ ℤ)) :=
  plotVariations (fun a b => decide (a ≤ b)) (some id) (fun v => if v = 1 then ['1'] else ['2']) (fun x d => some (.curve [x, (d.map Prod.snd).sum, 0])) 0 [10] [7] (some [['a']]) [(['a'], [1, 2]), (['b'], [1, 2])]

/-- The hypotheses are met: two options, one varied within the figures. -/
example : ∃ figs, twoLabels = .ok figs ∧ (figs.map fun f => f.subtitle) = ["b=1 ".toList, "b=2 ".toList] ∧ (figs.map fun f => f.calls.map fun c => c.label) = [[some "a=1".toList, some "a=2".toList], [some "a=1".toList, some "a=2".toList]] := by
  have h1 : ∀ a b : ℤ, a < b → Enum.sortedSet (fun a b : ℤ => decide (a ≤ b)) [a, b] = [a, b] := by
    intro a b h
    unfold Enum.sortedSet
    have : [a, b].eraseDups = [a, b] := by simp [List.eraseDups_cons, h.ne']
    rw [this]
    exact List.mergeSort_of_pairwise (by simp [h.le])
  have h2 : ∀ (k : List Char) (a b : ℤ), a < b → combos (fun a b : ℤ => decide (a ≤ b)) [(k, [a, b])] = [[(k, a)], [(k, b)]] := by
    intro k a b h
    simp [combos, Enum.dictCombinations, Enum.dictCombRev, h1 a b h]
  have o : Util.subDict [(['a'], [(1 : ℤ), 2]), (['b'], [1, 2])] [['a']] false = [(['a'], [1, 2])] := by decide
  have f : Util.subDict [(['a'], [(1 : ℤ), 2]), (['b'], [1, 2])] [['a']] true = [(['b'], [1, 2])] := by decide
  unfold twoLabels plotVariations
  rw [if_neg (by simp)]
  simp only [Option.getD_some, o, f, h2 ['b'] 1 2 (by decide)]
  simp [sorted, figure, h2 ['a'] 1 2 (by decide), coordinates, bind, Except.bind, pure, Except.pure, titadd1, titadd2, label, short]

end Verif.Props
