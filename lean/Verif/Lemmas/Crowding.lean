import Verif.Model.Crowding
import Mathlib.Tactic.Linarith
import Mathlib.Tactic.FieldSimp
import Mathlib.Data.List.Perm.Subperm
/-
Lemmas about the crowding distance.
-/
namespace Verif.NonDom

variable {α K : Type} [DecidableEq α] [Field K] [LinearOrder K] [IsStrictOrderedRing K]

theorem fold_upd (c : α × α × α → K) : ∀ (ts : List (α × α × α)) (d : α → K), (ts.map (fun t => t.2.1)).Nodup → ∀ x,
    let r := ts.foldl (fun d t => updAt d t.2.1 (d t.2.1 + c t)) d
    (x ∉ ts.map (fun t => t.2.1) ∧ r x = d x) ∨ ∃ t ∈ ts, t.2.1 = x ∧ r x = d x + c t := by
  intro ts
  induction ts with
  | nil => intro d _ x; exact Or.inl ⟨by simp, rfl⟩
  | cons t ts ih =>
    intro d hnd x
    rw [List.map_cons, List.nodup_cons] at hnd
    simp only [List.foldl_cons]
    have h := ih (updAt d t.2.1 (d t.2.1 + c t)) hnd.2 x
    simp only at h
    by_cases hx : t.2.1 = x
    · right
      refine ⟨t, by simp, hx, ?_⟩
      rcases h with ⟨_, h2⟩ | ⟨t', ht', he, _⟩
      · rw [h2, updAt, if_pos hx.symm, hx]
      · exfalso
        apply hnd.1
        rw [hx, ← he]
        exact List.mem_map_of_mem ht'
    · have hd : updAt d t.2.1 (d t.2.1 + c t) x = d x := by rw [updAt, if_neg (fun h => hx h.symm)]
      rw [hd] at h
      rcases h with ⟨h1, h2⟩ | ⟨t', ht', he, hr⟩
      · left
        refine ⟨?_, h2⟩
        rw [List.map_cons, List.mem_cons]
        rintro (h | h)
        · exact hx h.symm
        · exact h1 h
      · exact Or.inr ⟨t', by simp [ht'], he, hr⟩

theorem tripled_at (ind : List α) (t : α × α × α) (h : t ∈ ind.zip ((ind.drop 1).dropLast.zip (ind.drop 2))) :
    ∃ j, ind[j]? = some t.1 ∧ ind[j + 1]? = some t.2.1 ∧ ind[j + 2]? = some t.2.2 := by
  obtain ⟨j, hj⟩ := List.mem_iff_getElem?.1 h
  rw [List.getElem?_zip_eq_some] at hj
  obtain ⟨h1, h2⟩ := hj
  rw [List.getElem?_zip_eq_some] at h2
  obtain ⟨h2, h3⟩ := h2
  refine ⟨j, h1, ?_, ?_⟩
  · rw [List.dropLast_eq_take, List.getElem?_take] at h2
    split at h2
    · rw [List.getElem?_drop] at h2; rwa [Nat.add_comm] at h2
    · simp at h2
  · rw [List.getElem?_drop] at h3; rwa [Nat.add_comm] at h3

theorem tripled_mid_nodup (ind : List α) (h : ind.Nodup) :
    ((ind.zip ((ind.drop 1).dropLast.zip (ind.drop 2))).map (fun t => t.2.1)).Nodup := by
  have : ((ind.zip ((ind.drop 1).dropLast.zip (ind.drop 2))).map (fun t => t.2.1)) = (ind.drop 1).dropLast := by
    rw [show (fun t : α × α × α => t.2.1) = Prod.fst ∘ Prod.snd from rfl, ← List.map_map, List.map_snd_zip, List.map_fst_zip]
    · simp only [List.length_dropLast, List.length_drop]; omega
    · simp only [List.length_zip, List.length_dropLast, List.length_drop]; omega
  rw [this]
  exact (h.sublist (List.drop_sublist 1 ind)).sublist (List.dropLast_sublist _)

/-- What one objective does: the distance of some least and some greatest individual becomes `big`, that of the others
grows by an amount between 0 and 1. -/
theorem crowdObj_spec (big : K) (fit : α → Nat → K) (i : Nat) (l : List α) (hnd : l.Nodup) (d : α → K) (l' : List α) (d' : α → K)
    (h : crowdObj big fit i l d = some (l', d')) :
    l'.Perm l ∧ (∃ a ∈ l, (∀ b ∈ l, fit a i ≤ fit b i) ∧ d' a = big) ∧ (∃ a ∈ l, (∀ b ∈ l, fit b i ≤ fit a i) ∧ d' a = big) ∧
    ∀ x, d' x = big ∨ (d x ≤ d' x ∧ d' x ≤ d x + 1) := by
  unfold crowdObj at h
  have hp : (l.mergeSort (fun a b => decide (fit a i ≤ fit b i))).Perm l := List.mergeSort_perm _ _
  have hs : (l.mergeSort (fun a b => decide (fit a i ≤ fit b i))).Pairwise (fun a b => fit a i ≤ fit b i) := by
    have := List.pairwise_mergeSort (le := fun a b : α => decide (fit a i ≤ fit b i)) (fun x y z hxy hyz => by
      simp only [decide_eq_true_eq] at *; exact le_trans hxy hyz) (fun x y => by
      simp only [Bool.or_eq_true, decide_eq_true_eq]; exact le_total _ _) l
    exact this.imp (fun {a b} h => by simpa using h)
  generalize l.mergeSort (fun a b => decide (fit a i ≤ fit b i)) = ind at h hp hs
  simp only at h
  have hn : ind.Nodup := hp.nodup_iff.2 hnd
  have hmono : ∀ (p q : Nat) (a b : α), p ≤ q → ind[p]? = some a → ind[q]? = some b → fit a i ≤ fit b i := by
    intro p q a b hpq hpa hqb
    obtain ⟨hp1, hp2⟩ := List.getElem?_eq_some_iff.1 hpa
    obtain ⟨hq1, hq2⟩ := List.getElem?_eq_some_iff.1 hqb
    rcases Nat.lt_or_eq_of_le hpq with hlt | heq
    · rw [← hp2, ← hq2]
      exact List.pairwise_iff_getElem.1 hs p q hp1 hq1 hlt
    · subst heq; rw [hpa] at hqb; rw [Option.some.inj hqb]
  cases hf : ind.head? with
  | none => rw [hf] at h; simp at h
  | some first =>
    cases hl : ind.getLast? with
    | none => rw [hf, hl] at h; simp at h
    | some last =>
      rw [hf, hl] at h
      simp only at h
      split at h
      · simp at h
      · rename_i hno
        simp only [Option.some.injEq, Prod.mk.injEq] at h
        obtain ⟨h1, h2⟩ := h
        subst h1
        have hf0 : ind[0]? = some first := by rw [← List.head?_eq_getElem?]; exact hf
        have hl0 : ind[ind.length - 1]? = some last := by rw [← List.getLast?_eq_getElem?]; exact hl
        have hpos : 0 < ind.length := (List.getElem?_eq_some_iff.1 hf0).1
        have hge : ∀ b ∈ ind, fit first i ≤ fit b i := by
          intro b hb
          obtain ⟨q, hq⟩ := List.mem_iff_getElem?.1 hb
          exact hmono 0 q _ _ (Nat.zero_le _) hf0 hq
        have hle : ∀ b ∈ ind, fit b i ≤ fit last i := by
          intro b hb
          obtain ⟨q, hq⟩ := List.mem_iff_getElem?.1 hb
          exact hmono q (ind.length - 1) _ _ (by have := (List.getElem?_eq_some_iff.1 hq).1; omega) hq hl0
        have hfold := fold_upd (fun t : α × α × α => (fit t.1 i - fit t.2.2 i) / (fit first i - fit last i)) _
          (updAt (updAt d first big) last big) (tripled_mid_nodup ind hn)
        simp only [h2] at hfold
        have hinj : ∀ (p q : Nat) (a : α), ind[p]? = some a → ind[q]? = some a → p = q := by
          intro p q a h1 h2
          obtain ⟨hp1, hp2⟩ := List.getElem?_eq_some_iff.1 h1
          obtain ⟨hq1, hq2⟩ := List.getElem?_eq_some_iff.1 h2
          exact (List.getElem?_inj hp1 hn).1 (h1.trans h2.symm)
        have hfirst : d' first = big := by
          rcases hfold first with ⟨_, h⟩ | ⟨t, ht, he, _⟩
          · rw [h, updAt]; split
            · rfl
            · rw [updAt, if_pos rfl]
          · obtain ⟨j, _, hj, _⟩ := tripled_at ind t ht
            rw [he] at hj
            exact absurd (hinj _ _ _ hj hf0) (by omega)
        have hlast : d' last = big := by
          rcases hfold last with ⟨_, h⟩ | ⟨t, ht, he, _⟩
          · rw [h, updAt, if_pos rfl]
          · obtain ⟨j, _, hj, hj2⟩ := tripled_at ind t ht
            rw [he] at hj
            have := hinj _ _ _ hj hl0
            have := (List.getElem?_eq_some_iff.1 hj2).1
            omega
        refine ⟨hp, ⟨first, hp.mem_iff.1 (List.mem_of_getElem? hf0), fun b hb => hge b (hp.mem_iff.2 hb), hfirst⟩,
          ⟨last, hp.mem_iff.1 (List.mem_of_getElem? hl0), fun b hb => hle b (hp.mem_iff.2 hb), hlast⟩, fun x => ?_⟩
        by_cases hxf : x = first
        · subst hxf; exact Or.inl hfirst
        by_cases hxl : x = last
        · subst hxl; exact Or.inl hlast
        have hbase : updAt (updAt d first big) last big x = d x := by
          rw [updAt, if_neg hxl, updAt, if_neg hxf]
        right
        have hx := hfold x
        rw [hbase] at hx
        rcases hx with ⟨_, h⟩ | ⟨t, ht, he, h⟩
        · rw [h]; constructor <;> linarith
        · obtain ⟨j, hj0, hj1, hj2⟩ := tripled_at ind t ht
          have e1 := hmono j (j + 2) _ _ (by omega) hj0 hj2
          have e2 := hge t.1 (List.mem_of_getElem? hj0)
          have e3 := hle t.2.2 (List.mem_of_getElem? hj2)
          have hne : fit first i - fit last i ≠ 0 := fun h0 => hno ⟨h0, List.ne_nil_of_mem ht⟩
          have hneg : fit first i - fit last i < 0 := lt_of_le_of_ne (by linarith) hne
          have hc0 : 0 ≤ (fit t.1 i - fit t.2.2 i) / (fit first i - fit last i) :=
            div_nonneg_of_nonpos (by linarith) hneg.le
          have hc1 : (fit t.1 i - fit t.2.2 i) / (fit first i - fit last i) ≤ 1 := by
            rw [div_le_one_of_neg hneg]; linarith
          rw [h]; constructor <;> linarith

theorem crowdLoop_spec (big : K) (hb : 0 ≤ big) (fit : α → Nat → K) : ∀ (is : List Nat) (l : List α) (d : α → K) (n : K), l.Nodup →
    (∀ x, 0 ≤ d x ∧ (big ≤ d x ∨ d x ≤ n)) → ∀ l' d', crowdLoop big fit is l d = some (l', d') →
    (∀ x, 0 ≤ d' x ∧ (big ≤ d' x ∨ d' x ≤ n + is.length)) ∧ (∀ x, big ≤ d x → big ≤ d' x) ∧
    (∀ i ∈ is, (∃ a ∈ l, (∀ b ∈ l, fit a i ≤ fit b i) ∧ big ≤ d' a) ∧ (∃ a ∈ l, (∀ b ∈ l, fit b i ≤ fit a i) ∧ big ≤ d' a)) := by
  intro is
  induction is with
  | nil =>
    intro l d n _ hd l' d' h
    simp only [crowdLoop, Option.some.injEq, Prod.mk.injEq] at h
    obtain ⟨-, h⟩ := h
    subst h
    exact ⟨by simpa using hd, fun _ h => h, by simp⟩
  | cons i is ih =>
    intro l d n hnd hd l' d' h
    rw [crowdLoop] at h
    cases hc : crowdObj big fit i l d with
    | none => rw [hc] at h; simp at h
    | some p =>
      obtain ⟨l1, d1⟩ := p
      rw [hc] at h
      simp only at h
      obtain ⟨hp, ⟨a, ha, hamin, hab⟩, ⟨z, hz, hzmax, hzb⟩, hall⟩ := crowdObj_spec big fit i l hnd d l1 d1 hc
      have hd1 : ∀ x, 0 ≤ d1 x ∧ (big ≤ d1 x ∨ d1 x ≤ n + 1) := by
        intro x
        rcases hall x with he | ⟨e1, e2⟩
        · rw [he]; exact ⟨hb, Or.inl le_rfl⟩
        · obtain ⟨h0, h1⟩ := hd x
          refine ⟨le_trans h0 e1, ?_⟩
          rcases h1 with h1 | h1
          · exact Or.inl (le_trans h1 e1)
          · right; linarith
      have hkeep : ∀ x, big ≤ d x → big ≤ d1 x := by
        intro x hx
        rcases hall x with he | ⟨e1, _⟩
        · rw [he]
        · exact le_trans hx e1
      obtain ⟨k1, k2, k3⟩ := ih l1 d1 (n + 1) (hp.nodup_iff.2 hnd) hd1 l' d' h
      refine ⟨fun x => ⟨(k1 x).1, ?_⟩, fun x hx => k2 x (hkeep x hx), ?_⟩
      · rcases (k1 x).2 with h | h
        · exact Or.inl h
        · right; rw [List.length_cons]; push_cast; linarith
      · intro j hj
        rcases List.mem_cons.1 hj with rfl | hj
        · exact ⟨⟨a, ha, hamin, k2 a (by rw [hab])⟩, ⟨z, hz, hzmax, k2 z (by rw [hzb])⟩⟩
        · obtain ⟨⟨a', h1, h2, h3⟩, ⟨z', g1, g2, g3⟩⟩ := k3 j hj
          exact ⟨⟨a', hp.mem_iff.1 h1, fun b hb => h2 b (hp.mem_iff.2 hb), h3⟩,
            ⟨z', hp.mem_iff.1 g1, fun b hb => g2 b (hp.mem_iff.2 hb), g3⟩⟩

/-- What one objective adds to an individual that is extreme in it neither way: the normalised distance of its two neighbours. -/
theorem crowdObj_inner (big : K) (fit : α → Nat → K) (i : Nat) (l : List α) (hnd : l.Nodup) (d : α → K) (l' : List α) (d' : α → K)
    (h : crowdObj big fit i l d = some (l', d')) (hfi : ∀ a ∈ l, ∀ b ∈ l, fit a i = fit b i → a = b)
    (x lo hi p s : α) (hx : x ∈ l) (hlo : lo ∈ l) (hhi : hi ∈ l) (hp : p ∈ l) (hs : s ∈ l)
    (hmin : ∀ b ∈ l, fit lo i ≤ fit b i) (hmax : ∀ b ∈ l, fit b i ≤ fit hi i)
    (hpx : fit p i < fit x i) (hxs : fit x i < fit s i)
    (hpn : ∀ b ∈ l, ¬ (fit p i < fit b i ∧ fit b i < fit x i)) (hsn : ∀ b ∈ l, ¬ (fit x i < fit b i ∧ fit b i < fit s i)) :
    l'.Perm l ∧ d' x = d x + (fit s i - fit p i) / (fit hi i - fit lo i) := by
  unfold crowdObj at h
  have hperm : (l.mergeSort (fun a b => decide (fit a i ≤ fit b i))).Perm l := List.mergeSort_perm _ _
  have hsrt : (l.mergeSort (fun a b => decide (fit a i ≤ fit b i))).Pairwise (fun a b => fit a i ≤ fit b i) := by
    have := List.pairwise_mergeSort (le := fun a b : α => decide (fit a i ≤ fit b i)) (fun x y z hxy hyz => by
      simp only [decide_eq_true_eq] at *; exact le_trans hxy hyz) (fun x y => by
      simp only [Bool.or_eq_true, decide_eq_true_eq]; exact le_total _ _) l
    exact this.imp (fun {a b} h => by simpa using h)
  generalize l.mergeSort (fun a b => decide (fit a i ≤ fit b i)) = ind at h hperm hsrt
  simp only at h
  have hn : ind.Nodup := hperm.nodup_iff.2 hnd
  have hinj : ∀ (p q : Nat) (a : α), ind[p]? = some a → ind[q]? = some a → p = q := by
    intro p q a h1 h2
    obtain ⟨hp1, _⟩ := List.getElem?_eq_some_iff.1 h1
    exact (List.getElem?_inj hp1 hn).1 (h1.trans h2.symm)
  have hmem : ∀ (q : Nat) (a : α), ind[q]? = some a → a ∈ l := fun q a h => hperm.mem_iff.1 (List.mem_of_getElem? h)
  have hmono : ∀ (p q : Nat) (a b : α), p ≤ q → ind[p]? = some a → ind[q]? = some b → fit a i ≤ fit b i := by
    intro p q a b hpq hpa hqb
    obtain ⟨hp1, hp2⟩ := List.getElem?_eq_some_iff.1 hpa
    obtain ⟨hq1, hq2⟩ := List.getElem?_eq_some_iff.1 hqb
    rcases Nat.lt_or_eq_of_le hpq with hlt | heq
    · rw [← hp2, ← hq2]
      exact List.pairwise_iff_getElem.1 hsrt p q hp1 hq1 hlt
    · subst heq; rw [hpa] at hqb; rw [Option.some.inj hqb]
  have hstrict : ∀ (p q : Nat) (a b : α), p < q → ind[p]? = some a → ind[q]? = some b → fit a i < fit b i := by
    intro p q a b hpq hpa hqb
    refine lt_of_le_of_ne (hmono p q a b hpq.le hpa hqb) (fun he => ?_)
    have := hfi a (hmem _ _ hpa) b (hmem _ _ hqb) he
    subst this
    exact absurd (hinj _ _ _ hpa hqb) (by omega)
  obtain ⟨kx, hkx⟩ := List.mem_iff_getElem?.1 (hperm.mem_iff.2 hx)
  obtain ⟨kp, hkp⟩ := List.mem_iff_getElem?.1 (hperm.mem_iff.2 hp)
  obtain ⟨ks, hks⟩ := List.mem_iff_getElem?.1 (hperm.mem_iff.2 hs)
  have hlt1 : kp < kx := by
    by_contra hc
    exact absurd (hmono kx kp x p (by omega) hkx hkp) (not_le.2 hpx)
  have hlt2 : kx < ks := by
    by_contra hc
    exact absurd (hmono ks kx s x (by omega) hks hkx) (not_le.2 hxs)
  have hlen : ks < ind.length := (List.getElem?_eq_some_iff.1 hks).1
  have e1 : kx = kp + 1 := by
    by_contra hc
    have hb : ind[kp + 1]? = some (ind[kp + 1]'(by omega)) := List.getElem?_eq_getElem (by omega)
    exact hpn _ (hmem _ _ hb) ⟨hstrict kp (kp + 1) _ _ (by omega) hkp hb, hstrict (kp + 1) kx _ _ (by omega) hb hkx⟩
  have e2 : ks = kp + 2 := by
    by_contra hc
    have hb : ind[kx + 1]? = some (ind[kx + 1]'(by omega)) := List.getElem?_eq_getElem (by omega)
    exact hsn _ (hmem _ _ hb) ⟨hstrict kx (kx + 1) _ _ (by omega) hkx hb, hstrict (kx + 1) ks _ _ (by omega) hb hks⟩
  subst e1 e2
  cases hf : ind.head? with
  | none => rw [hf] at h; simp at h
  | some first =>
    cases hl : ind.getLast? with
    | none => rw [hf, hl] at h; simp at h
    | some last =>
      rw [hf, hl] at h
      simp only at h
      split at h
      · simp at h
      · simp only [Option.some.injEq, Prod.mk.injEq] at h
        obtain ⟨h1, h2⟩ := h
        subst h1
        have hf0 : ind[0]? = some first := by rw [← List.head?_eq_getElem?]; exact hf
        have hl0 : ind[ind.length - 1]? = some last := by rw [← List.getLast?_eq_getElem?]; exact hl
        have ef : first = lo := by
          obtain ⟨q, hq⟩ := List.mem_iff_getElem?.1 (hperm.mem_iff.2 hlo)
          exact hfi _ (hmem _ _ hf0) _ hlo (le_antisymm (hmono 0 q _ _ (Nat.zero_le _) hf0 hq) (hmin _ (hmem _ _ hf0)))
        have el : last = hi := by
          obtain ⟨q, hq⟩ := List.mem_iff_getElem?.1 (hperm.mem_iff.2 hhi)
          exact hfi _ (hmem _ _ hl0) _ hhi (le_antisymm (hmax _ (hmem _ _ hl0))
            (hmono q (ind.length - 1) _ _ (by have := (List.getElem?_eq_some_iff.1 hq).1; omega) hq hl0))
        subst ef el
        have hfold := fold_upd (fun t : α × α × α => (fit t.1 i - fit t.2.2 i) / (fit first i - fit last i)) _
          (updAt (updAt d first big) last big) (tripled_mid_nodup ind hn) x
        simp only [h2] at hfold
        have hxlo : x ≠ first := fun he => by have := hinj _ _ _ hkx (he ▸ hf0); omega
        have hxhi : x ≠ last := fun he => by have := hinj _ _ _ hkx (he ▸ hl0); omega
        have hbase : updAt (updAt d first big) last big x = d x := by
          rw [updAt, if_neg hxhi, updAt, if_neg hxlo]
        rw [hbase] at hfold
        refine ⟨hperm, ?_⟩
        rcases hfold with ⟨hno, _⟩ | ⟨t, ht, he, hr⟩
        · exfalso
          apply hno
          rw [List.mem_map]
          refine ⟨(p, x, s), ?_, rfl⟩
          rw [List.mem_iff_getElem?]
          refine ⟨kp, ?_⟩
          rw [List.getElem?_zip_eq_some]
          refine ⟨hkp, ?_⟩
          rw [List.getElem?_zip_eq_some]
          refine ⟨?_, ?_⟩
          · rw [List.dropLast_eq_take, List.getElem?_take, if_pos (by rw [List.length_drop]; omega), List.getElem?_drop, Nat.add_comm]
            exact hkx
          · rw [List.getElem?_drop, Nat.add_comm]; exact hks
        · obtain ⟨j, hj0, hj1, hj2⟩ := tripled_at ind t ht
          rw [he] at hj1
          have := hinj _ _ _ hj1 hkx
          have hj : j = kp := by omega
          subst hj
          rw [hkp] at hj0; rw [hks] at hj2
          rw [hr, ← Option.some.inj hj0, ← Option.some.inj hj2, ← neg_sub (fit s i), ← neg_sub (fit last i), neg_div_neg_eq]

/-- `p` is the individual of `l` directly below `x` in objective `i`, `s` the one directly above, `lo` and `hi` the extremes. -/
structure Neighbours (fit : α → Nat → K) (l : List α) (i : Nat) (x lo hi p s : α) : Prop where
  lo_mem : lo ∈ l
  hi_mem : hi ∈ l
  p_mem : p ∈ l
  s_mem : s ∈ l
  lo_min : ∀ b ∈ l, fit lo i ≤ fit b i
  hi_max : ∀ b ∈ l, fit b i ≤ fit hi i
  p_below : fit p i < fit x i
  s_above : fit x i < fit s i
  p_next : ∀ b ∈ l, ¬ (fit p i < fit b i ∧ fit b i < fit x i)
  s_next : ∀ b ∈ l, ¬ (fit x i < fit b i ∧ fit b i < fit s i)

theorem Neighbours.perm {fit : α → Nat → K} {l l' : List α} {i : Nat} {x lo hi p s : α} (h : Neighbours fit l i x lo hi p s)
    (hp : l'.Perm l) : Neighbours fit l' i x lo hi p s :=
  ⟨hp.mem_iff.2 h.lo_mem, hp.mem_iff.2 h.hi_mem, hp.mem_iff.2 h.p_mem, hp.mem_iff.2 h.s_mem, fun b hb => h.lo_min b (hp.mem_iff.1 hb),
    fun b hb => h.hi_max b (hp.mem_iff.1 hb), h.p_below, h.s_above, fun b hb => h.p_next b (hp.mem_iff.1 hb),
    fun b hb => h.s_next b (hp.mem_iff.1 hb)⟩

theorem crowdLoop_inner (big : K) (fit : α → Nat → K) (x : α) (lo hi p s : Nat → α) : ∀ (is : List Nat) (l : List α) (d : α → K),
    l.Nodup → x ∈ l → (∀ i ∈ is, ∀ a ∈ l, ∀ b ∈ l, fit a i = fit b i → a = b) →
    (∀ i ∈ is, Neighbours fit l i x (lo i) (hi i) (p i) (s i)) → ∀ l' d', crowdLoop big fit is l d = some (l', d') →
    d' x = d x + (is.map (fun i => (fit (s i) i - fit (p i) i) / (fit (hi i) i - fit (lo i) i))).sum := by
  intro is
  induction is with
  | nil =>
    intro l d _ _ _ _ l' d' h
    simp only [crowdLoop, Option.some.injEq, Prod.mk.injEq] at h
    simp [h.2]
  | cons i is ih =>
    intro l d hnd hx hfi hN l' d' h
    rw [crowdLoop] at h
    cases hc : crowdObj big fit i l d with
    | none => rw [hc] at h; simp at h
    | some q =>
      obtain ⟨l1, d1⟩ := q
      rw [hc] at h
      simp only at h
      have n := hN i (by simp)
      obtain ⟨hp, hd⟩ := crowdObj_inner big fit i l hnd d l1 d1 hc (hfi i (by simp)) x (lo i) (hi i) (p i) (s i) hx n.lo_mem n.hi_mem
        n.p_mem n.s_mem n.lo_min n.hi_max n.p_below n.s_above n.p_next n.s_next
      have := ih l1 d1 (hp.nodup_iff.2 hnd) (hp.mem_iff.2 hx)
        (fun j hj a ha b hb => hfi j (by simp [hj]) a (hp.mem_iff.1 ha) b (hp.mem_iff.1 hb))
        (fun j hj => (hN j (by simp [hj])).perm hp) l' d' h
      rw [this, hd, List.map_cons, List.sum_cons, add_assoc]

end Verif.NonDom
