import Verif.Model.Search
import Verif.Spec.Search
import Mathlib.Tactic.ByContra
import Mathlib.Data.List.Nodup
/-
Property theorems C19 (flood and reachable, pybrain/utilities.py).
-/
namespace Verif.Props
open Verif.Search Verif.Search.Spec

set_option linter.unusedSectionVars false
variable {V : Type} [DecidableEq V]

theorem mem_within (full : Option (Finset V)) (s : Finset V) (x : V) :
    x ∈ within full s ↔ x ∈ s ∧ ∀ f, full = some f → x ∈ f := by
  cases full with
  | none => simp [within]
  | some f => simp [within, and_comm]

/-- What the flood loop keeps true. -/
structure FloodInv (step : V → List V) (full : Option (Finset V)) (init change flooded : Finset V) : Prop where
  sub : change ⊆ flooded
  base : ∀ s ∈ init, (∀ f, full = some f → s ∈ f) → s ∈ flooded
  sound : ∀ x ∈ flooded, Linked step full init x
  closed : ∀ a ∈ flooded, a ∉ change → ∀ b, Step step full a b → b ∈ flooded

theorem FloodInv.next {step : V → List V} {full : Option (Finset V)} {init change flooded : Finset V}
    (h : FloodInv step full init change flooded) :
    FloodInv step full init ((change.biUnion (fun m => within full (step m).toFinset)) \ flooded)
      (flooded ∪ ((change.biUnion (fun m => within full (step m).toFinset)) \ flooded)) := by
  have hstep : ∀ b, b ∈ change.biUnion (fun m => within full (step m).toFinset) ↔ ∃ a ∈ change, Step step full a b := by
    intro b
    simp [Finset.mem_biUnion, mem_within, Step]
  refine ⟨Finset.subset_union_right, fun s hs hf => Finset.mem_union_left _ (h.base s hs hf), ?_, ?_⟩
  · intro x hx
    rcases Finset.mem_union.1 hx with hx | hx
    · exact h.sound x hx
    · obtain ⟨a, ha, hb⟩ := (hstep x).1 (Finset.mem_sdiff.1 hx).1
      obtain ⟨s, hs, hf, hr⟩ := h.sound a (h.sub ha)
      exact ⟨s, hs, hf, hr.tail hb⟩
  · intro a ha hac b hb
    rcases Finset.mem_union.1 ha with ha | ha
    · by_cases hc : a ∈ change
      · have := (hstep b).2 ⟨a, hc, hb⟩
        by_cases hbf : b ∈ flooded
        · exact Finset.mem_union_left _ hbf
        · exact Finset.mem_union_right _ (Finset.mem_sdiff.2 ⟨this, hbf⟩)
      · exact Finset.mem_union_left _ (h.closed a ha hc b hb)
    · exact absurd ha hac

theorem FloodInv.complete {step : V → List V} {full : Option (Finset V)} {init change flooded : Finset V}
    (h : FloodInv step full init change flooded) (he : change = ∅) (x : V) : x ∈ flooded ↔ Linked step full init x := by
  refine ⟨h.sound x, ?_⟩
  rintro ⟨s, hs, hf, hr⟩
  induction hr with
  | refl => exact h.base s hs hf
  | tail _ hb ih => exact h.closed _ ih (by simp [he]) _ hb

theorem floodLoop_spec (step : V → List V) (full : Option (Finset V)) (rel : Option (Finset V)) (init : Finset V) :
    ∀ (fuel : Nat) (change flooded : Finset V), FloodInv step full init change flooded →
      ∀ R, floodLoop step full rel fuel change flooded = some R →
        (∀ x ∈ R, Linked step full init x) ∧ ((∀ x, Linked step full init x → x ∈ R) ∨ ∃ r, rel = some r ∧ r ⊆ R) := by
  intro fuel
  induction fuel with
  | zero =>
    intro change flooded h R hR
    unfold floodLoop at hR
    split at hR
    · simp at hR
    · rename_i hc
      simp only [Option.some.injEq] at hR
      subst hR
      have : change = ∅ := by
        rw [← Finset.card_eq_zero]; omega
      exact ⟨h.sound, Or.inl fun x hx => (h.complete this x).2 hx⟩
  | succ fuel ih =>
    intro change flooded h R hR
    unfold floodLoop at hR
    split at hR
    · simp only at hR
      split at hR
      · rename_i hr
        simp only [Option.some.injEq] at hR
        subst hR
        refine ⟨h.next.sound, Or.inr ?_⟩
        cases rel with
        | none => simp [met] at hr
        | some r => exact ⟨r, rfl, by simpa [met] using hr⟩
      · exact ih _ _ h.next R hR
    · rename_i hc
      simp only [Option.some.injEq] at hR
      subst hR
      have : change = ∅ := by
        rw [← Finset.card_eq_zero]; omega
      exact ⟨h.sound, Or.inl fun x hx => (h.complete this x).2 hx⟩

theorem floodLoop_total (step : V → List V) (f : Finset V) (rel : Option (Finset V)) :
    ∀ (fuel : Nat) (change flooded : Finset V), flooded ⊆ f → f.card - flooded.card + 1 ≤ fuel →
      ∃ R, floodLoop step (some f) rel fuel change flooded = some R := by
  intro fuel
  induction fuel with
  | zero => intro change flooded _ hle; omega
  | succ fuel ih =>
    intro change flooded hsub hle
    unfold floodLoop
    split
    · simp only
      split
      · exact ⟨_, rfl⟩
      · by_cases hc : ((change.biUnion (fun m => within (some f) (step m).toFinset)) \ flooded) = ∅
        · rw [hc]
          refine ⟨flooded ∪ ∅, ?_⟩
          cases fuel <;> (unfold floodLoop; simp)
        · refine ih _ _ ?_ ?_
          · intro x hx
            rcases Finset.mem_union.1 hx with hx | hx
            · exact hsub hx
            · have h1 := (Finset.mem_sdiff.1 hx).1
              simp only [Finset.mem_biUnion, mem_within] at h1
              obtain ⟨_, _, _, h2⟩ := h1
              exact h2 f rfl
          · have hd : Disjoint flooded ((change.biUnion (fun m => within (some f) (step m).toFinset)) \ flooded) :=
              Finset.disjoint_sdiff
            rw [Finset.card_union_of_disjoint hd]
            have hpos := Finset.card_pos.2 (Finset.nonempty_iff_ne_empty.2 hc)
            have hlt : flooded.card < f.card := by
              obtain ⟨x, hx⟩ := Finset.nonempty_iff_ne_empty.2 hc
              refine Finset.card_lt_card ⟨hsub, fun hh => ?_⟩
              have hxx := (Finset.mem_sdiff.1 hx)
              have h1 := hxx.1
              simp only [Finset.mem_biUnion, mem_within] at h1
              obtain ⟨_, _, _, h2⟩ := h1
              exact hxx.2 (hh (h2 f rfl))
            omega
    · exact ⟨_, rfl⟩

theorem floodInv_init (step : V → List V) (full : Option (Finset V)) (init : Finset V) :
    FloodInv step full init (within full init) (within full init) := by
  refine ⟨Finset.Subset.refl _, fun s hs hf => (mem_within _ _ _).2 ⟨hs, hf⟩, ?_, fun a ha hc => absurd ha hc⟩
  intro x hx
  obtain ⟨h1, h2⟩ := (mem_within _ _ _).1 hx
  exact ⟨x, h1, h2, Relation.ReflTransGen.refl⟩

theorem linked_mem {step : V → List V} {f : Finset V} {init : Finset V} {x : V} (h : Linked step (some f) init x) : x ∈ f := by
  obtain ⟨s, _, hf, hr⟩ := h
  cases hr with
  | refl => exact hf f rfl
  | tail _ hb => exact hb.2 f rfl

/-- **C19, flood.** With a full set, `flood` ends and returns exactly the elements of the full set that are linked to
`initSet` by steps inside the full set. -/
theorem C19_flood (step : V → List V) (f init : Finset V) (fuel : Nat) (hfuel : f.card + 1 ≤ fuel) :
    ∃ R, flood fuel step (some f) init none = some R ∧ ∀ x, x ∈ R ↔ Linked step (some f) init x := by
  have hsub : within (some f) init ⊆ f := fun x hx => ((mem_within _ _ _).1 hx).2 f rfl
  obtain ⟨R, hR⟩ := floodLoop_total step f (some f) fuel (within (some f) init) (within (some f) init) hsub (by omega)
  refine ⟨R, hR, fun x => ?_⟩
  obtain ⟨h1, h2⟩ := floodLoop_spec step (some f) (some f) init fuel _ _ (floodInv_init step (some f) init) R hR
  refine ⟨h1 x, fun hx => ?_⟩
  rcases h2 with h2 | ⟨r, hr, h2⟩
  · exact h2 x hx
  · simp only [Option.some.injEq] at hr
    subst hr
    exact h2 (linked_mem hx)

/-- **C19, flood until the relevant elements are found.** With a set of relevant elements, everything returned is linked to
`initSet`, and a relevant element is returned if and only if it is linked, with or without a full set, whenever the loop
ends (it does with a full set). -/
theorem C19_flood_relevant (step : V → List V) (full : Option (Finset V)) (init rel : Finset V) (fuel : Nat) :
    (∀ R, flood fuel step full init (some rel) = some R →
      (∀ x ∈ R, Linked step full init x) ∧ ∀ x ∈ rel, Linked step full init x ↔ x ∈ R) ∧
    (∀ f, full = some f → f.card + 1 ≤ fuel → ∃ R, flood fuel step full init (some rel) = some R) := by
  have hunf : flood fuel step full init (some rel) = floodLoop step full (some rel) fuel (within full init) (within full init) := by
    unfold flood; cases full <;> rfl
  refine ⟨fun R hR => ?_, fun f hf hfuel => ?_⟩
  · rw [hunf] at hR
    obtain ⟨h1, h2⟩ := floodLoop_spec step full (some rel) init fuel _ _ (floodInv_init step full init) R hR
    refine ⟨h1, fun x hx => ⟨fun hl => ?_, h1 x⟩⟩
    rcases h2 with h2 | ⟨r, hr, h2⟩
    · exact h2 x hl
    · simp only [Option.some.injEq] at hr
      subst hr
      exact h2 hx
  · rw [hunf]; subst hf
    have hsub : within (some f) init ⊆ f := fun x hx => ((mem_within _ _ _).1 hx).2 f rfl
    exact floodLoop_total step f (some rel) fuel _ _ hsub (by omega)

example : flood 11 (fun n => [n + 3]) (some (Finset.range 10)) {2, 20} none = some {2, 5, 8} := by decide +kernel

/-! ### reachable -/

theorem scanStart_spec (D : List V) : ∀ (start : List V), start.IsChain (fun a b => a ∈ D → b ∉ D) →
    scanStart D start = (start.filter (fun s => decide (s ∉ D)), start.filter (fun s => decide (s ∈ D))) := by
  intro start
  generalize hn : start.length = n
  induction n using Nat.strongRecOn generalizing start with
  | _ n ih =>
    intro hc
    rcases start with _ | ⟨s, _ | ⟨t, rest⟩⟩
    · rfl
    · unfold scanStart
      by_cases h : s ∈ D <;> simp [h]
    · rw [List.isChain_cons_cons] at hc
      unfold scanStart
      by_cases h : s ∈ D
      · have ht := hc.1 h
        rw [if_pos h, ih rest.length (by simp at hn; omega) rest rfl hc.2.tail]
        simp [h, ht]
      · rw [if_neg h, ih (t :: rest).length (by simp at hn ⊢; omega) (t :: rest) rfl hc.2]
        rw [List.filter_cons_of_pos (a := s) (by simpa using h), List.filter_cons_of_neg (a := s) (p := fun s => decide (s ∈ D)) (by simpa using h)]

theorem walk_mono_start {step : V → List V} {D S : V → Prop} {n : Nat} {x : V} (h : Dist step D S x (n + 1)) :
    ∃ a, Dist step D S a n ∧ ¬ D a ∧ x ∈ step a := by
  obtain ⟨hw, hm⟩ := h
  cases hw with
  | next k a b ha hna hb =>
    refine ⟨a, ⟨ha, fun j hj hw => ?_⟩, hna, hb⟩
    exact hm (j + 1) (by omega) (Walk.next j a x hw hna hb)

theorem walk_dist {step : V → List V} {D S : V → Prop} {n : Nat} {x : V} (h : Walk step D S n x) :
    ∃ j, j ≤ n ∧ Dist step D S x j := by
  induction n using Nat.strongRecOn with
  | _ n ih =>
    by_cases hm : ∃ j, j < n ∧ Walk step D S j x
    · obtain ⟨j, hj, hw⟩ := hm
      obtain ⟨i, hi, hd⟩ := ih j hj hw
      exact ⟨i, by omega, hd⟩
    · exact ⟨n, Nat.le_refl _, h, fun j hj hw => hm ⟨j, hj, hw⟩⟩

theorem dist_unique {step : V → List V} {D S : V → Prop} {x : V} {i j : Nat} (hi : Dist step D S x i) (hj : Dist step D S x j) :
    i = j := by
  rcases Nat.lt_trichotomy i j with h | h | h
  · exact absurd hi.1 (hj.2 i h)
  · exact h
  · exact absurd hj.1 (hi.2 j h)

/-- What holds when level `n` is expanded. -/
structure Level (step : V → List V) (D S : V → Prop) (n : Nat) (start : Finset V) (dests : List V) (seen : Finset V) : Prop where
  start_iff : ∀ x, x ∈ start ↔ Dist step D S x n ∧ ¬ D x
  seen_iff : ∀ x, x ∈ seen ∪ start ↔ ∃ j, j ≤ n ∧ Dist step D S x j
  dests_sub : ∀ x ∈ dests, D x
  dests_sup : ∀ x, D x → x ∉ seen ∪ start → x ∈ dests

theorem mem_foldl_erase (found : List V) : ∀ (l : List V) (x : V), x ∉ found → (x ∈ found.foldl List.erase l ↔ x ∈ l) := by
  induction found with
  | nil => intro l x _; simp
  | cons f fs ih =>
    intro l x hx
    simp only [List.mem_cons, not_or] at hx
    rw [List.foldl_cons, ih _ _ hx.2, List.mem_erase_of_ne hx.1]

theorem foldl_erase_sub (found : List V) : ∀ (l : List V) (x : V), x ∈ found.foldl List.erase l → x ∈ l := by
  induction found with
  | nil => intro l x h; simpa using h
  | cons f fs ih =>
    intro l x hx
    rw [List.foldl_cons] at hx
    exact List.mem_of_mem_erase (ih _ _ hx)

/-- The nodes found in one turn and the next level. `expand` is the set of nodes that are expanded. -/
theorem level_new {step : V → List V} {D S : V → Prop} {n : Nat} (expand seen1 : Finset V)
    (h1 : ∀ x, x ∈ expand ↔ Dist step D S x n ∧ ¬ D x) (h2 : ∀ x, x ∈ seen1 ↔ ∃ j, j ≤ n ∧ Dist step D S x j) (x : V) :
    x ∈ expand.biUnion (fun s => (step s).toFinset) \ seen1 ↔ Dist step D S x (n + 1) := by
  rw [Finset.mem_sdiff, Finset.mem_biUnion]
  simp only [List.mem_toFinset]
  constructor
  · rintro ⟨⟨a, ha, hb⟩, hs⟩
    obtain ⟨had, hna⟩ := (h1 a).1 ha
    have hw : Walk step D S (n + 1) x := Walk.next n a x had.1 hna hb
    refine ⟨hw, fun j hj hwj => hs ?_⟩
    obtain ⟨i, hi, hd⟩ := walk_dist hwj
    exact (h2 x).2 ⟨i, by omega, hd⟩
  · intro hd
    obtain ⟨a, had, hna, hb⟩ := walk_mono_start hd
    refine ⟨⟨a, (h1 a).2 ⟨had, hna⟩, hb⟩, fun hs => ?_⟩
    obtain ⟨j, hj, hdj⟩ := (h2 x).1 hs
    have := dist_unique hd hdj
    omega

theorem level_next {step : V → List V} {D S : V → Prop} {n : Nat} (expand seen1 : Finset V) (dests : List V)
    (h1 : ∀ x, x ∈ expand ↔ Dist step D S x n ∧ ¬ D x) (h2 : ∀ x, x ∈ seen1 ↔ ∃ j, j ≤ n ∧ Dist step D S x j)
    (h3 : ∀ x ∈ dests, D x) (h4 : ∀ x, D x → x ∉ seen1 → x ∈ dests) :
    let new := expand.biUnion (fun s => (step s).toFinset) \ seen1
    let found := (dests.filter (fun d => decide (d ∈ new))).eraseDups
    Level step D S (n + 1) (new.filter (fun s => s ∉ dests)) (found.foldl List.erase dests) (seen1 ∪ found.toFinset) ∧
      ∀ x, x ∈ found ↔ D x ∧ Dist step D S x (n + 1) := by
  intro new found
  have hnew : ∀ x, x ∈ new ↔ Dist step D S x (n + 1) := level_new expand seen1 h1 h2
  have hns : ∀ x, x ∈ new → x ∉ seen1 := fun x hx => (Finset.mem_sdiff.1 hx).2
  have hdd : ∀ x, x ∈ new → (x ∈ dests ↔ D x) := fun x hx => ⟨h3 x, fun hd => h4 x hd (hns x hx)⟩
  have hfound : ∀ x, x ∈ found ↔ D x ∧ Dist step D S x (n + 1) := by
    intro x
    simp only [found, List.mem_eraseDups, List.mem_filter, decide_eq_true_eq]
    constructor
    · rintro ⟨a, b⟩; exact ⟨h3 x a, (hnew x).1 b⟩
    · rintro ⟨a, b⟩
      have := (hnew x).2 b
      exact ⟨(hdd x this).2 a, this⟩
  have hseen : ∀ x, x ∈ seen1 ∪ found.toFinset ∪ new.filter (fun s => s ∉ dests) ↔ ∃ j, j ≤ n + 1 ∧ Dist step D S x j := by
    intro x
    simp only [Finset.mem_union, List.mem_toFinset, Finset.mem_filter]
    constructor
    · rintro ((h | h) | h)
      · obtain ⟨j, hj, hd⟩ := (h2 x).1 h
        exact ⟨j, by omega, hd⟩
      · exact ⟨n + 1, Nat.le_refl _, ((hfound x).1 h).2⟩
      · exact ⟨n + 1, Nat.le_refl _, (hnew x).1 h.1⟩
    · rintro ⟨j, hj, hd⟩
      by_cases hj2 : j ≤ n
      · exact Or.inl (Or.inl ((h2 x).2 ⟨j, hj2, hd⟩))
      · have : j = n + 1 := by omega
        subst this
        have hx := (hnew x).2 hd
        by_cases hxD : D x
        · exact Or.inl (Or.inr ((hfound x).2 ⟨hxD, hd⟩))
        · exact Or.inr ⟨hx, fun hh => hxD (h3 x hh)⟩
  refine ⟨⟨?_, hseen, ?_, ?_⟩, hfound⟩
  · intro x
    rw [Finset.mem_filter, hnew]
    constructor
    · rintro ⟨a, b⟩; exact ⟨a, fun hd => b ((hdd x ((hnew x).2 a)).2 hd)⟩
    · rintro ⟨a, b⟩; exact ⟨a, fun hd => b (h3 x hd)⟩
  · intro x hx; exact h3 x (foldl_erase_sub _ _ _ hx)
  · intro x hD hx
    have hnf : x ∉ found := fun hf => hx (Finset.mem_union_left _ (Finset.mem_union_right _ (List.mem_toFinset.2 hf)))
    have hns1 : x ∉ seen1 := fun hf => hx (Finset.mem_union_left _ (Finset.mem_union_left _ hf))
    exact (mem_foldl_erase _ _ _ hnf).2 (h4 x hD hns1)

/-- nothing lies further away once a level is empty or all destinations have been met -/
theorem level_done {step : V → List V} {D S : V → Prop} {n : Nat} {start : Finset V} {dests : List V} {seen : Finset V}
    (h : Level step D S n start dests seen) (hd : start.card = 0 ∨ dests.length = 0) (x : V) (k : Nat) (hD : D x)
    (hk : Dist step D S x (n + (k + 1))) : False := by
  rcases hd with hd | hd
  · have hs : start = ∅ := Finset.card_eq_zero.1 hd
    have : ∀ k, ∀ y, ¬ Dist step D S y (n + (k + 1)) := by
      intro k
      induction k with
      | zero =>
        intro y hy
        obtain ⟨a, ha, hna, _⟩ := walk_mono_start (n := n) hy
        have := (h.start_iff a).2 ⟨ha, hna⟩
        simp [hs] at this
      | succ k ih =>
        intro y hy
        obtain ⟨a, ha, _, _⟩ := walk_mono_start (n := n + (k + 1)) hy
        exact ih a ha
    exact this k x hk
  · have hx : x ∉ seen ∪ start := fun hh => by
      obtain ⟨j, hj, hdj⟩ := (h.seen_iff x).1 hh
      have := dist_unique hk hdj
      omega
    have := h.dests_sup x hD hx
    have hnil : dests = [] := List.length_eq_zero_iff.1 hd
    simp [hnil] at this

theorem reachRec_spec (step : V → List V) (D S : V → Prop) : ∀ (fuel n : Nat) (start : Finset V) (dests : List V) (seen : Finset V),
    Level step D S n start dests seen → ∀ res, reachRec step fuel start dests seen = some res →
      ∀ d k, (d, k) ∈ res ↔ D d ∧ 0 < k ∧ Dist step D S d (n + k) := by
  intro fuel
  induction fuel with
  | zero =>
    intro n start dests seen h res hres d k
    unfold reachRec at hres
    split at hres
    · rename_i hd
      simp only [Option.some.injEq] at hres
      subst hres
      simp only [List.not_mem_nil, false_iff]
      rintro ⟨hD, hk, hdist⟩
      obtain ⟨k', rfl⟩ : ∃ k', k = k' + 1 := ⟨k - 1, by omega⟩
      exact level_done h hd d k' hD hdist
    · simp at hres
  | succ fuel ih =>
    intro n start dests seen h res hres d k
    unfold reachRec at hres
    split at hres
    · rename_i hd
      simp only [Option.some.injEq] at hres
      subst hres
      simp only [List.not_mem_nil, false_iff]
      rintro ⟨hD, hk, hdist⟩
      obtain ⟨k', rfl⟩ : ∃ k', k = k' + 1 := ⟨k - 1, by omega⟩
      exact level_done h hd d k' hD hdist
    · simp only at hres
      obtain ⟨hlev, hfound⟩ := level_next start (seen ∪ start) dests h.start_iff h.seen_iff h.dests_sub h.dests_sup
      split at hres
      · simp at hres
      · rename_i deeper hdeep
        simp only [Option.some.injEq] at hres
        subst hres
        have hI := ih (n + 1) _ _ _ hlev deeper hdeep
        rw [List.mem_append, List.mem_map, List.mem_map]
        constructor
        · rintro (⟨s, hs, he⟩ | ⟨kv, hkv, he⟩)
          · simp only [Prod.mk.injEq] at he
            obtain ⟨rfl, rfl⟩ := he
            exact ⟨((hfound s).1 hs).1, by omega, ((hfound s).1 hs).2⟩
          · simp only [Prod.mk.injEq] at he
            obtain ⟨rfl, rfl⟩ := he
            obtain ⟨a, b, c⟩ := (hI kv.1 kv.2).1 hkv
            exact ⟨a, by omega, by rw [show n + (kv.2 + 1) = n + 1 + kv.2 by omega]; exact c⟩
        · rintro ⟨hD, hk, hd⟩
          by_cases hk1 : k = 1
          · subst hk1
            exact Or.inl ⟨d, (hfound d).2 ⟨hD, hd⟩, rfl⟩
          · refine Or.inr ⟨(d, k - 1), (hI d (k - 1)).2 ⟨hD, by omega, ?_⟩, ?_⟩
            · rw [show n + 1 + (k - 1) = n + k by omega]; exact hd
            · simp; omega

/-- `D` of the walks below: being a destination. -/
abbrev isDest (dests : List V) : V → Prop := fun x => x ∈ dests

theorem level_zero (step : V → List V) (start dests : List V) :
    (∀ x, x ∈ (start.filter (fun s => decide (s ∉ dests))).toFinset ↔ Dist step (isDest dests) (· ∈ start) x 0 ∧ ¬ isDest dests x) ∧
    (∀ x, x ∈ start.toFinset ↔ ∃ j, j ≤ 0 ∧ Dist step (isDest dests) (· ∈ start) x j) := by
  have h0 : ∀ x, Dist step (isDest dests) (· ∈ start) x 0 ↔ x ∈ start := by
    intro x
    constructor
    · rintro ⟨hw, _⟩; cases hw; assumption
    · intro h; exact ⟨Walk.start x h, fun j hj => absurd hj (by omega)⟩
  refine ⟨fun x => ?_, fun x => ?_⟩
  · rw [h0]; simp [isDest]
  · rw [List.mem_toFinset]
    constructor
    · intro h; exact ⟨0, Nat.le_refl _, (h0 x).2 h⟩
    · rintro ⟨j, hj, hd⟩
      have : j = 0 := by omega
      subst this; exact (h0 x).1 hd

/-- **C19, reachable (partial).** Let no two neighbouring entries of the list of starts both be destinations. If
`reachable` returns, it reports a destination with distance `k` if and only if `k` is the length of the shortest walk to it
from the starts that passes through no other destination. Missing: destinations that can only be reached
through other destinations, and neighbouring starts that are destinations (negations below). -/
theorem C19_reachable_partial (fuel : Nat) (step : V → List V) (start dests : List V)
    (hc : start.IsChain (fun a b => a ∈ dests → b ∉ dests)) (res : List (V × Nat))
    (hres : reachable fuel step start dests = some res) (d : V) (k : Nat) :
    (d, k) ∈ res ↔ d ∈ dests ∧ Dist step (isDest dests) (· ∈ start) d k := by
  unfold reachable at hres
  split at hres
  · rename_i hd
    simp only [Option.some.injEq] at hres
    subst hres
    simp only [List.not_mem_nil, false_iff]
    rintro ⟨h1, h2⟩
    rcases hd with hd | hd
    · have hs : start = [] := List.length_eq_zero_iff.1 hd
      have : ∀ k x, ¬ Walk step (isDest dests) (· ∈ start) k x := by
        intro k
        induction k with
        | zero => intro x hw; cases hw with | start _ h => simp [hs] at h
        | succ k ih => intro x hw; cases hw with | next _ a _ ha _ _ => exact ih a ha
      exact this k d h2.1
    · simp [List.length_eq_zero_iff.1 hd] at h1
  · simp only at hres
    rw [scanStart_spec dests start hc] at hres
    obtain ⟨hz1, hz2⟩ := level_zero step start dests
    obtain ⟨hlev, hfound⟩ := level_next (n := 0) (D := isDest dests) (S := (· ∈ start)) _ start.toFinset dests hz1 hz2
      (fun x hx => hx) (fun x hx _ => hx)
    split at hres
    · simp at hres
    · rename_i deeper hdeep
      simp only [Option.some.injEq] at hres
      subst hres
      have hI := reachRec_spec step (isDest dests) (· ∈ start) fuel 1 _ _ _ hlev deeper hdeep
      rw [List.mem_append, List.mem_append, List.mem_map, List.mem_map, List.mem_map]
      constructor
      · rintro ((⟨s, hs, he⟩ | ⟨s, hs, he⟩) | ⟨kv, hkv, he⟩)
        · simp only [Prod.mk.injEq] at he
          obtain ⟨rfl, rfl⟩ := he
          simp only [List.mem_filter, decide_eq_true_eq] at hs
          exact ⟨hs.2, Walk.start _ hs.1, fun j hj => absurd hj (by omega)⟩
        · simp only [Prod.mk.injEq] at he
          obtain ⟨rfl, rfl⟩ := he
          exact (hfound s).1 hs
        · simp only [Prod.mk.injEq] at he
          obtain ⟨rfl, rfl⟩ := he
          obtain ⟨a, b, c⟩ := (hI kv.1 kv.2).1 hkv
          exact ⟨a, by rw [Nat.add_comm kv.2 1]; exact c⟩
      · rintro ⟨hD, hd⟩
        rcases k with _ | _ | k
        · refine Or.inl (Or.inl ⟨d, ?_, rfl⟩)
          have := hd.1
          cases this with
          | start _ h => simp [h, hD]
        · exact Or.inl (Or.inr ⟨d, (hfound d).2 ⟨hD, hd⟩, rfl⟩)
        · refine Or.inr ⟨(d, k + 1), (hI d (k + 1)).2 ⟨hD, by omega, ?_⟩, rfl⟩
          rw [show 1 + (k + 1) = k + 1 + 1 by omega]; exact hd

theorem reachRec_total (step : V → List V) (F : Finset V) (hF : ∀ a ∈ F, ∀ b ∈ step a, b ∈ F) :
    ∀ (fuel : Nat) (start : Finset V) (dests : List V) (seen : Finset V), start ⊆ F → seen ⊆ F → Disjoint start seen →
      F.card < fuel + seen.card → ∃ res, reachRec step fuel start dests seen = some res := by
  intro fuel
  induction fuel with
  | zero =>
    intro start dests seen _ h2 _ hlt
    have := Finset.card_le_card h2
    omega
  | succ fuel ih =>
    intro start dests seen h1 h2 hd hlt
    unfold reachRec
    split
    · exact ⟨_, rfl⟩
    · rename_i hne
      simp only
      have hnew : ∀ x, x ∈ start.biUnion (fun s => (step s).toFinset) \ (seen ∪ start) → x ∈ F := by
        intro x hx
        simp only [Finset.mem_sdiff, Finset.mem_biUnion, List.mem_toFinset] at hx
        obtain ⟨⟨a, ha, hb⟩, _⟩ := hx
        exact hF a (h1 ha) x hb
      have hfnd : ∀ x, x ∈ (dests.filter (fun d => decide (d ∈ start.biUnion (fun s => (step s).toFinset) \ (seen ∪ start)))).eraseDups →
          x ∈ start.biUnion (fun s => (step s).toFinset) \ (seen ∪ start) ∧ x ∈ dests := by
        intro x hx
        rw [List.mem_eraseDups, List.mem_filter] at hx
        exact ⟨by simpa using hx.2, hx.1⟩
      obtain ⟨res, hres⟩ := ih
        ((start.biUnion (fun s => (step s).toFinset) \ (seen ∪ start)).filter (fun s => s ∉ dests))
        (((dests.filter (fun d => decide (d ∈ start.biUnion (fun s => (step s).toFinset) \ (seen ∪ start)))).eraseDups).foldl List.erase dests)
        ((seen ∪ start) ∪ ((dests.filter (fun d => decide (d ∈ start.biUnion (fun s => (step s).toFinset) \ (seen ∪ start)))).eraseDups).toFinset)
        (fun x hx => hnew x (Finset.mem_filter.1 hx).1)
        (by
          intro x hx
          rcases Finset.mem_union.1 hx with hx | hx
          · rcases Finset.mem_union.1 hx with hx | hx
            · exact h2 hx
            · exact h1 hx
          · exact hnew x (hfnd x (List.mem_toFinset.1 hx)).1)
        (by
          rw [Finset.disjoint_left]
          intro x hx hy
          have hx2 := Finset.mem_filter.1 hx
          rcases Finset.mem_union.1 hy with hy | hy
          · exact (Finset.mem_sdiff.1 hx2.1).2 hy
          · exact hx2.2 (hfnd x (List.mem_toFinset.1 hy)).2)
        (by
          have hpos : 0 < start.card := by omega
          have hle := Finset.card_le_card (s := seen ∪ start)
            (t := (seen ∪ start) ∪ ((dests.filter (fun d => decide (d ∈ start.biUnion (fun s => (step s).toFinset) \ (seen ∪ start)))).eraseDups).toFinset)
            Finset.subset_union_left
          rw [Finset.card_union_of_disjoint hd.symm] at hle
          omega)
      rw [hres]
      exact ⟨_, rfl⟩

/-- **C19, reachable ends** on every finite graph: whenever the starts lie in a finite set closed under steps. -/
theorem C19_reachable_total (fuel : Nat) (step : V → List V) (start dests : List V) (F : Finset V)
    (hF : ∀ a ∈ F, ∀ b ∈ step a, b ∈ F) (hs : ∀ s ∈ start, s ∈ F) (hfuel : F.card + 1 ≤ fuel) :
    ∃ res, reachable fuel step start dests = some res := by
  have hscan : ∀ (l : List V), ∀ x ∈ (scanStart dests l).1, x ∈ l := by
    intro l
    generalize hn : l.length = n
    induction n using Nat.strongRecOn generalizing l with
    | _ n ih =>
      rcases l with _ | ⟨s, _ | ⟨t, rest⟩⟩
      · intro x hx; simp [scanStart] at hx
      · intro x hx; unfold scanStart at hx; split at hx <;> simp_all
      · intro x hx
        unfold scanStart at hx
        split at hx
        · simp only [List.mem_cons] at hx
          rcases hx with rfl | hx
          · simp
          · have := ih rest.length (by simp at hn; omega) rest rfl x hx
            simp [this]
        · simp only [List.mem_cons] at hx
          rcases hx with rfl | hx
          · simp
          · have := ih (t :: rest).length (by simp at hn ⊢; omega) (t :: rest) rfl x hx
            exact List.mem_cons_of_mem _ this
  unfold reachable
  split
  · exact ⟨_, rfl⟩
  · simp only
    have hnew : ∀ x, x ∈ (scanStart dests start).1.toFinset.biUnion (fun s => (step s).toFinset) \ start.toFinset → x ∈ F := by
      intro x hx
      simp only [Finset.mem_sdiff, Finset.mem_biUnion, List.mem_toFinset] at hx
      obtain ⟨⟨a, ha, hb⟩, _⟩ := hx
      exact hF a (hs a (hscan start a ha)) x hb
    have hfnd : ∀ x, x ∈ (dests.filter (fun d => decide (d ∈ (scanStart dests start).1.toFinset.biUnion (fun s => (step s).toFinset) \ start.toFinset))).eraseDups →
        x ∈ (scanStart dests start).1.toFinset.biUnion (fun s => (step s).toFinset) \ start.toFinset ∧ x ∈ dests := by
      intro x hx
      rw [List.mem_eraseDups, List.mem_filter] at hx
      exact ⟨by simpa using hx.2, hx.1⟩
    obtain ⟨res, hres⟩ := reachRec_total step F hF fuel
      (((scanStart dests start).1.toFinset.biUnion (fun s => (step s).toFinset) \ start.toFinset).filter (fun s => s ∉ dests))
      (((dests.filter (fun d => decide (d ∈ (scanStart dests start).1.toFinset.biUnion (fun s => (step s).toFinset) \ start.toFinset))).eraseDups).foldl List.erase dests)
      (start.toFinset ∪ ((dests.filter (fun d => decide (d ∈ (scanStart dests start).1.toFinset.biUnion (fun s => (step s).toFinset) \ start.toFinset))).eraseDups).toFinset)
      (fun x hx => hnew x (Finset.mem_filter.1 hx).1)
      (by
        intro x hx
        rcases Finset.mem_union.1 hx with hx | hx
        · exact hs x (List.mem_toFinset.1 hx)
        · exact hnew x (hfnd x (List.mem_toFinset.1 hx)).1)
      (by
        rw [Finset.disjoint_left]
        intro x hx hy
        have hx2 := Finset.mem_filter.1 hx
        rcases Finset.mem_union.1 hy with hy | hy
        · exact (Finset.mem_sdiff.1 hx2.1).2 hy
        · exact hx2.2 (hfnd x (List.mem_toFinset.1 hy)).2)
      (by omega)
    rw [hres]
    exact ⟨_, rfl⟩

/-- **C19, negation.** With steps `n ↦ n - 1`, destination 1 can be reached from 3 (through 2), but only 2 is reported. -/
theorem C19_negation_through_destination :
    reachable 10 (fun n : Nat => if n = 0 then [] else [n - 1]) [3] [2, 1] = some [(2, 1)] ∧
    Relation.ReflTransGen (fun a b : Nat => b ∈ (if a = 0 then [] else [a - 1])) 3 1 := by
  refine ⟨by decide +kernel, ?_⟩
  exact (Relation.ReflTransGen.single (b := 2) (by simp)).tail (by simp)

/-- **C19, negation.** Of two starts that are destinations only the first is reported. -/
theorem C19_negation_adjacent_starts : reachable 10 (fun _ : Nat => []) [1, 2] [1, 2] = some [(1, 0)] := by decide +kernel

example : reachable 10 (fun n : Nat => if n = 0 then [] else [n - 1]) [5, 2] [1, 4, 7] = some [(1, 1), (4, 1)] := by decide +kernel

end Verif.Props
