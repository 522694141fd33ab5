import Verif.Model.NonDominated
import Verif.Spec.NonDominated
import Mathlib.Data.List.Nodup
import Mathlib.Order.Basic
import Mathlib.Data.List.Basic
/-
Lemmas for C21-C23.
-/
namespace Verif.NonDom
open Spec
set_option linter.unusedSectionVars false

section generic
variable {α : Type} [DecidableEq α]

/-- `addItem` when nothing that is looked at removes `i`: everything `i` dominates goes. -/
theorem addItem_keep (dom : α → α → Bool) (i : α) : ∀ (js res : List α), res.Nodup → (∀ j ∈ js, j ≠ i → dom j i = false) →
    (addItem dom i js res).Nodup ∧
    ∀ x, x ∈ addItem dom i js res ↔ x ∈ res ∧ ¬ (x ∈ js ∧ x ≠ i ∧ dom i x = true) := by
  intro js
  induction js with
  | nil => intro res h _; exact ⟨h, fun x => by simp [addItem]⟩
  | cons j js ih =>
    intro res h hno
    have hno' : ∀ j ∈ js, j ≠ i → dom j i = false := fun k hk => hno k (List.mem_cons_of_mem _ hk)
    unfold addItem
    by_cases hji : j = i
    · rw [if_pos hji]
      obtain ⟨h1, h2⟩ := ih res h hno'
      refine ⟨h1, fun x => ?_⟩
      rw [h2]
      subst hji
      constructor
      · rintro ⟨a, b⟩; exact ⟨a, fun hc => b ⟨by rcases List.mem_cons.1 hc.1 with h | h; exact absurd h hc.2.1; exact h, hc.2⟩⟩
      · rintro ⟨a, b⟩; exact ⟨a, fun hc => b ⟨List.mem_cons_of_mem _ hc.1, hc.2⟩⟩
    · rw [if_neg hji, if_neg (by rw [hno j (by simp) hji]; simp)]
      by_cases hd : dom i j = true
      · rw [if_pos hd]
        obtain ⟨h1, h2⟩ := ih (res.erase j) (h.erase j) hno'
        refine ⟨h1, fun x => ?_⟩
        rw [h2, h.mem_erase_iff]
        constructor
        · rintro ⟨⟨a, b⟩, c⟩
          refine ⟨b, fun hc => c ⟨?_, hc.2⟩⟩
          rcases List.mem_cons.1 hc.1 with h | h
          · exact absurd h a
          · exact h
        · rintro ⟨a, b⟩
          exact ⟨⟨fun he => b ⟨by rw [he]; simp, he ▸ hji, he ▸ hd⟩, a⟩, fun hc => b ⟨List.mem_cons_of_mem _ hc.1, hc.2⟩⟩
      · rw [if_neg hd]
        obtain ⟨h1, h2⟩ := ih res h hno'
        refine ⟨h1, fun x => ?_⟩
        rw [h2]
        constructor
        · rintro ⟨a, b⟩
          refine ⟨a, fun hc => b ⟨?_, hc.2⟩⟩
          rcases List.mem_cons.1 hc.1 with h | h
          · rw [h] at hc; exact absurd hc.2.2 hd
          · exact h
        · rintro ⟨a, b⟩; exact ⟨a, fun hc => b ⟨List.mem_cons_of_mem _ hc.1, hc.2⟩⟩

/-- `addItem` when something removes `i` and `i` dominates nothing. -/
theorem addItem_drop (dom : α → α → Bool) (i : α) : ∀ (js res : List α), (∃ j ∈ js, j ≠ i ∧ dom j i = true) →
    (∀ j ∈ js, j ≠ i → dom j i = false → dom i j = false) → addItem dom i js res = res.erase i := by
  intro js
  induction js with
  | nil => rintro res ⟨j, hj, _⟩; simp at hj
  | cons j js ih =>
    rintro res ⟨k, hk, hki, hdk⟩ hno
    unfold addItem
    by_cases hji : j = i
    · rw [if_pos hji]
      refine ih res ⟨k, ?_, hki, hdk⟩ (fun m hm => hno m (List.mem_cons_of_mem _ hm))
      rcases List.mem_cons.1 hk with h | h
      · exact absurd (h.trans hji) hki
      · exact h
    · rw [if_neg hji]
      by_cases hdj : dom j i = true
      · rw [if_pos hdj]
      · rw [if_neg hdj, if_neg (by rw [hno j (by simp) hji (by simpa using hdj)]; simp)]
        refine ih res ⟨k, ?_, hki, hdk⟩ (fun m hm => hno m (List.mem_cons_of_mem _ hm))
        rcases List.mem_cons.1 hk with h | h
        · rw [h] at hdk; exact absurd hdk hdj
        · exact h

theorem mem_setAdd (res : List α) (i x : α) : x ∈ setAdd res i ↔ x ∈ res ∨ x = i := by
  unfold setAdd
  split
  · constructor
    · exact Or.inl
    · rintro (h | rfl) <;> assumption
  · simp

theorem nodup_setAdd (res : List α) (i : α) (h : res.Nodup) : (setAdd res i).Nodup := by
  unfold setAdd
  split
  · exact h
  · rename_i hi
    rw [List.nodup_append]
    exact ⟨h, by simp, fun a ha b hb => by simp at hb; subst hb; exact fun he => hi (he ▸ ha)⟩

/-- One turn of the outer loop keeps the result a front of the items seen so far. -/
theorem front_step (dom : α → α → Bool) (htr : ∀ a b c, dom a b = true → dom b c = true → dom a c = true)
    (σ : List α → List α) (hσ : ∀ l, (σ l).Perm l) (seen res : List α) (i : α)
    (h : IsFront (fun a b => dom a b = true) seen res) (hi : i ∉ seen) :
    IsFront (fun a b => dom a b = true) (seen ++ [i]) (addItem dom i (σ (setAdd res i)) (setAdd res i)) := by
  have hir : i ∉ res := fun hh => hi (h.sub i hh)
  have hm : ∀ x, x ∈ σ (setAdd res i) ↔ x ∈ res ∨ x = i := fun x => by rw [(hσ _).mem_iff, mem_setAdd]
  by_cases hc : ∃ j ∈ σ (setAdd res i), j ≠ i ∧ dom j i = true
  · rw [addItem_drop dom i _ _ hc]
    · obtain ⟨j, hj, hji, hdj⟩ := hc
      have hjr : j ∈ res := ((hm j).1 hj).resolve_right hji
      have he : ∀ x, x ∈ (setAdd res i).erase i ↔ x ∈ res := by
        intro x
        rw [(nodup_setAdd res i h.nodup).mem_erase_iff, mem_setAdd]
        constructor
        · rintro ⟨a, b⟩; exact b.resolve_right a
        · intro hx; exact ⟨fun he => hir (he ▸ hx), Or.inl hx⟩
      refine ⟨(nodup_setAdd res i h.nodup).erase i, ?_, ?_, ?_⟩
      · intro x hx; exact List.mem_append_left _ (h.sub x ((he x).1 hx))
      · intro a ha b hb; exact h.indep a ((he a).1 ha) b ((he b).1 hb)
      · intro x hx hxr
        rcases List.mem_append.1 hx with hx | hx
        · obtain ⟨y, hy, hd⟩ := h.covers x hx (fun hh => hxr ((he x).2 hh))
          exact ⟨y, (he y).2 hy, hd⟩
        · simp at hx; subst hx
          exact ⟨j, (he j).2 hjr, hdj⟩
    · intro k hk hki hkd
      obtain ⟨j, hj, hji, hdj⟩ := hc
      have hjr : j ∈ res := ((hm j).1 hj).resolve_right hji
      have hkr : k ∈ res := ((hm k).1 hk).resolve_right hki
      by_contra hik
      have hik : dom i k = true := by simpa using hik
      have hjk : j ≠ k := fun he => by rw [he, hkd] at hdj; exact absurd hdj (by simp)
      exact h.indep j hjr k hkr hjk (htr j i k hdj hik)
  · have hno : ∀ j ∈ σ (setAdd res i), j ≠ i → dom j i = false := by
      intro j hj hji
      by_contra hd
      exact hc ⟨j, hj, hji, by simpa using hd⟩
    obtain ⟨h1, h2⟩ := addItem_keep dom i (σ (setAdd res i)) (setAdd res i) (nodup_setAdd res i h.nodup) hno
    have h3 : ∀ x, x ∈ addItem dom i (σ (setAdd res i)) (setAdd res i) ↔ (x ∈ res ∧ dom i x = false) ∨ x = i := by
      intro x
      rw [h2, mem_setAdd]
      by_cases hxi : x = i
      · subst hxi; simp
      · constructor
        · rintro ⟨a, b⟩
          refine Or.inl ⟨a.resolve_right hxi, ?_⟩
          by_contra hd
          exact b ⟨(hm x).2 a, hxi, by simpa using hd⟩
        · rintro (⟨a, b⟩ | a)
          · exact ⟨Or.inl a, fun hh => by rw [b] at hh; exact absurd hh.2.2 (by simp)⟩
          · exact absurd a hxi
    refine ⟨h1, ?_, ?_, ?_⟩
    · intro x hx
      rcases (h3 x).1 hx with ⟨a, _⟩ | rfl
      · exact List.mem_append_left _ (h.sub x a)
      · simp
    · intro a ha b hb hab hd
      rcases (h3 a).1 ha with ⟨ha1, ha2⟩ | rfl
      · rcases (h3 b).1 hb with ⟨hb1, _⟩ | rfl
        · exact h.indep a ha1 b hb1 hab hd
        · have := hno a ((hm a).2 (Or.inl ha1)) hab
          rw [this] at hd; exact absurd hd (by simp)
      · rcases (h3 b).1 hb with ⟨_, hb2⟩ | rfl
        · rw [hb2] at hd; exact absurd hd (by simp)
        · exact hab rfl
    · intro x hx hxr
      rcases List.mem_append.1 hx with hx | hx
      · by_cases hxres : x ∈ res
        · refine ⟨i, (h3 i).2 (Or.inr rfl), ?_⟩
          by_contra hd
          exact hxr ((h3 x).2 (Or.inl ⟨hxres, by simpa using hd⟩))
        · obtain ⟨y, hy, hd⟩ := h.covers x hx hxres
          by_cases hiy : dom i y = true
          · exact ⟨i, (h3 i).2 (Or.inr rfl), htr i y x hiy hd⟩
          · exact ⟨y, (h3 y).2 (Or.inl ⟨hy, by simpa using hiy⟩), hd⟩
      · simp at hx; subst hx
        exact absurd ((h3 x).2 (Or.inr rfl)) hxr

theorem frontLoop_spec (dom : α → α → Bool) (htr : ∀ a b c, dom a b = true → dom b c = true → dom a c = true)
    (σ : List α → List α) (hσ : ∀ l, (σ l).Perm l) (items : List α) (hn : items.Nodup) :
    IsFront (fun a b => dom a b = true) items (frontLoop dom σ items) := by
  suffices H : ∀ (rest seen res : List α), (seen ++ rest).Nodup → IsFront (fun a b => dom a b = true) seen res →
      IsFront (fun a b => dom a b = true) (seen ++ rest)
        (rest.foldl (fun res i => addItem dom i (σ (setAdd res i)) (setAdd res i)) res) by
    have := H items [] [] (by simpa using hn) ⟨List.nodup_nil, by simp, by simp, by simp⟩
    simpa [frontLoop] using this
  intro rest
  induction rest with
  | nil => intro seen res _ h; simpa using h
  | cons i rest ih =>
    intro seen res hnd h
    rw [List.foldl_cons]
    have hi : i ∉ seen := by
      rw [List.nodup_append] at hnd
      exact fun hh => hnd.2.2 i hh i (by simp) rfl
    have := ih (seen ++ [i]) _ (by simpa using hnd) (front_step dom htr σ hσ seen res i h hi)
    simpa using this

theorem nodup_eraseDups' (l : List α) : l.eraseDups.Nodup := by
  generalize hn : l.length = n
  induction n using Nat.strongRecOn generalizing l with
  | _ n ih =>
    cases l with
    | nil => simp
    | cons x xs =>
      rw [List.eraseDups_cons, List.nodup_cons]
      refine ⟨?_, ih _ ?_ _ rfl⟩
      · rw [List.mem_eraseDups]; simp
      · have := List.length_filter_le (fun b => !b == x) xs
        simp only [List.length_cons] at hn
        omega

theorem Spec.IsFront.congr_items {dom : α → α → Prop} {a b R : List α} (h : IsFront dom a R) (hab : ∀ x, x ∈ a ↔ x ∈ b) : IsFront dom b R :=
  ⟨h.nodup, fun x hx => (hab x).1 (h.sub x hx), h.indep, fun x hx => h.covers x ((hab x).2 hx)⟩

/-- the version on a set of items -/
theorem frontSet_spec (dom : α → α → Bool) (htr : ∀ a b c, dom a b = true → dom b c = true → dom a c = true)
    (σ : List α → List α) (hσ : ∀ l, (σ l).Perm l) (items : List α) :
    IsFront (fun a b => dom a b = true) items (frontLoop dom σ (σ items.eraseDups)) := by
  refine (frontLoop_spec dom htr σ hσ (σ items.eraseDups) ((hσ _).nodup_iff.2 (nodup_eraseDups' items))).congr_items ?_
  intro x
  rw [(hσ _).mem_iff, List.mem_eraseDups]

/-- the version on positions -/
theorem frontOn_spec (dom : α → α → Bool) (htr : ∀ a b c, dom a b = true → dom b c = true → dom a c = true)
    (σi : List Nat → List Nat) (hσ : ∀ l, (σi l).Perm l) (items : List α) :
    IsFront (fun a b => dom a b = true) items (frontOn dom σi items) := by
  have hspec := frontLoop_spec (domAt dom items) (by
      intro a b c h1 h2
      revert h1 h2
      unfold domAt
      cases items[a]? <;> cases items[b]? <;> cases items[c]? <;> simp
      exact htr _ _ _) σi hσ (List.range items.length) List.nodup_range
  have hmem : ∀ x, x ∈ frontOn dom σi items ↔ ∃ i ∈ frontLoop (domAt dom items) σi (List.range items.length), items[i]? = some x := by
    intro x
    unfold frontOn
    rw [List.mem_eraseDups, List.mem_filterMap]
  refine ⟨nodup_eraseDups' _, ?_, ?_, ?_⟩
  · intro x hx
    obtain ⟨i, _, h⟩ := (hmem x).1 hx
    exact List.mem_of_getElem? h
  · intro a ha b hb hab hd
    obtain ⟨i, hi, hia⟩ := (hmem a).1 ha
    obtain ⟨j, hj, hjb⟩ := (hmem b).1 hb
    refine hspec.indep i hi j hj (fun he => hab ?_) ?_
    · rw [he, hjb] at hia; simpa using hia.symm
    · simp only [domAt, hia, hjb]; exact hd
  · intro x hx hxr
    obtain ⟨i, hlt, hix⟩ := List.getElem_of_mem hx
    have hix' : items[i]? = some x := by rw [List.getElem?_eq_some_iff]; exact ⟨hlt, hix⟩
    obtain ⟨j, hj, hd⟩ := hspec.covers i (List.mem_range.2 hlt) (fun hh => hxr ((hmem x).2 ⟨i, hh, hix'⟩))
    have hjl : j < items.length := List.mem_range.1 (hspec.sub j hj)
    have hjy : items[j]? = some items[j] := by simp [hjl]
    refine ⟨items[j], (hmem _).2 ⟨j, hj, hjy⟩, ?_⟩
    simp only [domAt, hix', hjy] at hd; exact hd

/-- fronts of parts can be merged -/
theorem Spec.IsFront.merge {dom : α → α → Prop} (htr : ∀ a b c, dom a b → dom b c → dom a c) {l1 l2 p1 p2 R : List α}
    (h1 : IsFront dom l1 p1) (h2 : IsFront dom l2 p2) (h : IsFront dom (p1 ++ p2) R) : IsFront dom (l1 ++ l2) R := by
  refine ⟨h.nodup, ?_, h.indep, ?_⟩
  · intro x hx
    rcases List.mem_append.1 (h.sub x hx) with hx | hx
    · exact List.mem_append_left _ (h1.sub x hx)
    · exact List.mem_append_right _ (h2.sub x hx)
  · intro x hx hxr
    have key : ∀ (l p : List α), IsFront dom l p → (∀ y ∈ p, y ∈ p1 ++ p2) → x ∈ l → ∃ y ∈ R, dom y x := by
      intro l p hp hsub hxl
      by_cases hxp : x ∈ p
      · exact h.covers x (hsub x hxp) hxr
      · obtain ⟨y, hy, hd⟩ := hp.covers x hxl hxp
        by_cases hyR : y ∈ R
        · exact ⟨y, hyR, hd⟩
        · obtain ⟨z, hz, hzd⟩ := h.covers y (hsub y hy) hyR
          exact ⟨z, hz, htr z y x hzd hd⟩
    rcases List.mem_append.1 hx with hx | hx
    · exact key l1 p1 h1 (fun y hy => List.mem_append_left _ hy) hx
    · exact key l2 p2 h2 (fun y hy => List.mem_append_right _ hy) hx

theorem frontMerge_spec {dom : α → α → Prop} (htr : ∀ a b c, dom a b → dom b c → dom a c) (t : Nat) (base : List α → List α)
    (hbase : ∀ l, IsFront dom l (base l)) (σ : List α → List α) (hσ : ∀ l, (σ l).Perm l) :
    ∀ (n : Nat) (items R : List α), frontMerge t base σ n items = some R → IsFront dom items R := by
  intro n
  induction n with
  | zero => intro items R h; simp [frontMerge] at h
  | succ n ih =>
    intro items R h
    rw [frontMerge] at h
    split at h
    · split at h
      · rename_i p1 p2 e1 e2
        have f1 := ih _ _ e1
        have f2 := ih _ _ e2
        have g : ∀ {l p : List α}, IsFront dom l p → IsFront dom l (σ p) := by
          intro l p hp
          exact ⟨(hσ p).nodup_iff.2 hp.nodup, fun x hx => hp.sub x ((hσ p).mem_iff.1 hx),
            fun a ha b hb => hp.indep a ((hσ p).mem_iff.1 ha) b ((hσ p).mem_iff.1 hb),
            fun x hx hxr => by
              obtain ⟨y, hy, hd⟩ := hp.covers x hx (fun hh => hxr ((hσ p).mem_iff.2 hh))
              exact ⟨y, (hσ p).mem_iff.2 hy, hd⟩⟩
        have key : ∀ R, IsFront dom (σ p1 ++ σ p2) R → IsFront dom items R := by
          intro R hR
          have := IsFront.merge htr (g f1) (g f2) hR
          rwa [List.take_append_drop] at this
        split at h
        · simp only [Option.some.injEq] at h
          subst h
          exact key _ (hbase _)
        · exact key _ (ih _ _ h)
      · simp at h
    · simp only [Option.some.injEq] at h
      subst h
      exact hbase items

theorem frontMerge_total (t : Nat) (ht : 1 ≤ t) (base : List α → List α) (σ : List α → List α) (hσ : ∀ l, (σ l).Perm l) :
    ∀ (n : Nat) (items : List α), items.length < n → ∃ R, frontMerge t base σ n items = some R := by
  intro n
  induction n with
  | zero => intro items h; omega
  | succ n ih =>
    intro items h
    rw [frontMerge]
    split
    · rename_i hl
      obtain ⟨p1, h1⟩ := ih (items.take (items.length / 2)) (by rw [List.length_take]; omega)
      obtain ⟨p2, h2⟩ := ih (items.drop (items.length / 2)) (by rw [List.length_drop]; omega)
      rw [h1, h2]
      simp only
      split
      · exact ⟨_, rfl⟩
      · rename_i hc
        refine ih _ ?_
        rw [List.length_append, (hσ p1).length_eq, (hσ p2).length_eq]
        omega
    · exact ⟨_, rfl⟩

/-! ### sorting -/

theorem front_nonempty {dom : α → α → Prop} {items R : List α} (h : IsFront dom items R) (hne : items ≠ []) : R ≠ [] := by
  intro hR
  cases items with
  | nil => exact hne rfl
  | cons x xs =>
    obtain ⟨y, hy, _⟩ := h.covers x (by simp) (by simp [hR])
    simp [hR] at hy

/-- what `sortLoop` returns: fronts, each of what is left after the previous ones -/
inductive Ranked (dom : α → α → Prop) : List α → List (List α) → Prop
  | nil : Ranked dom [] []
  | cons (items f : List α) (fs : List (List α)) : items ≠ [] → IsFront dom items f →
      Ranked dom (items.filter (fun i => decide (i ∉ f))) fs → Ranked dom items (f :: fs)

theorem sortLoop_spec {dom : α → α → Prop} (front : List α → Option (List α)) (σ : List α → List α) (hσ : ∀ l, (σ l).Perm l)
    (hf : ∀ l, ∃ R, front l = some R ∧ IsFront dom l R) :
    ∀ (n : Nat) (items : List α), items.length ≤ n → ∃ fs, sortLoop front σ n items = some fs ∧ Ranked dom items fs := by
  intro n
  induction n with
  | zero =>
    intro items h
    have : items = [] := List.length_eq_zero_iff.1 (by omega)
    subst this
    exact ⟨[], rfl, Ranked.nil⟩
  | succ n ih =>
    intro items h
    cases items with
    | nil => exact ⟨[], rfl, Ranked.nil⟩
    | cons x xs =>
      rw [sortLoop]
      obtain ⟨f, hf1, hf2⟩ := hf (σ (x :: xs))
      have hf2 : IsFront dom (x :: xs) f := hf2.congr_items (fun y => (hσ _).mem_iff)
      rw [hf1]
      simp only
      obtain ⟨y, hy⟩ := List.exists_mem_of_ne_nil f (front_nonempty hf2 (by simp))
      have hlt : ((x :: xs).filter (fun i => decide (i ∉ f))).length < (x :: xs).length := by
        rw [List.length_filter_lt_length_iff_exists]
        exact ⟨y, hf2.sub y hy, by simpa using hy⟩
      obtain ⟨fs, h1, h2⟩ := ih ((x :: xs).filter (fun i => decide (i ∉ f))) (by omega)
      rw [h1]
      exact ⟨f :: fs, rfl, Ranked.cons _ _ _ (by simp) hf2 h2⟩

end generic

/-! ### the domination tests -/

section tests
variable {K : Type} [LinearOrder K]

theorem domOld_iff (dim : Nat) (eq : Bool) (x y : Nat → K) :
    domOld dim eq x y = true ↔ (if eq then Better dim x y else AtLeast dim x y) := by
  unfold domOld
  cases eq <;> simp [Better, AtLeast]

theorem domFast_iff (dim : Nat) (eq : Bool) (x y : Nat → K) :
    domFast dim eq x y = true ↔ (if eq then Better dim x y else AtLeast dim x y) := by
  unfold domFast
  cases eq <;> simp [Better, AtLeast]

theorem domArr_iff (dim : Nat) (eq : Bool) (x y : Nat → K) :
    domArr dim eq x y = true ↔ (if eq then Better dim x y else AtLeast dim x y) := by
  unfold domArr
  cases eq <;> simp [Better, AtLeast]

theorem rel_trans (dim : Nat) (eq : Bool) (x y z : Nat → K) (h1 : if eq then Better dim x y else AtLeast dim x y)
    (h2 : if eq then Better dim y z else AtLeast dim y z) : if eq then Better dim x z else AtLeast dim x z := by
  cases eq
  · exact fun k hk => le_trans (h1 k hk) (h2 k hk)
  · exact fun k hk => lt_trans (h1 k hk) (h2 k hk)

end tests
end Verif.NonDom
