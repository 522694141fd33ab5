import Verif.Model.Classification
import Verif.Spec.Classification
import Verif.Lemmas.Split
/- Lemmas for classification datasets. -/
namespace Verif.Classification
open Verif.Py Verif.DataSet

variable {I : Type}

theorem pyInt_int (n : Int) : pyInt (n : Rat) = n := by
  unfold pyInt
  split
  · exact Rat.floor_intCast n
  · exact Rat.ceil_intCast n

theorem targetCol_labels (labels : List Int) (d : CDS I) (h : d.target = labels.map (fun (l : Int) => [(l : Rat)])) :
    d.targetCol = labels.map (fun (l : Int) => (l : Rat)) := by
  unfold CDS.targetCol
  rw [h, List.map_map]; rfl

theorem oneOfManyRow_ok (n : Nat) (lo hi : Num) (l : Int) (h0 : 0 ≤ l) (h1 : l < n) :
    oneOfManyRow n lo hi (l : Rat) = some (Spec.oneHot n lo.val (stored lo hi) l.toNat) := by
  unfold oneOfManyRow
  rw [pyInt_int]
  have : normIdx n l = some l.toNat := by
    unfold normIdx
    simp [h0, h1]
  rw [this]
  simp only [Option.map_some, Option.some.injEq, Spec.oneHot]
  apply List.ext_getElem
  · simp
  · intro i hi1 hi2
    simp only [List.getElem_set, List.getElem_replicate, List.getElem_map, List.getElem_range]
    split
    · rename_i h; simp [h]
    · rename_i h; rw [if_neg (fun e => h e.symm)]

theorem mapM_some {α β : Type} (l : List α) (f : α → Option β) (g : α → β) (h : ∀ a ∈ l, f a = some (g a)) :
    l.mapM f = some (l.map g) := by
  induction l with
  | nil => rfl
  | cons a l ih =>
    rw [List.mapM_cons, h a (by simp), ih (fun b hb => h b (by simp [hb]))]; rfl

theorem toOneOfMany_core (d : CDS I) (labels : List Int) (ht : d.target = labels.map (fun (l : Int) => [(l : Rat)]))
    (hout : d.outdim = 1) (hn : 0 < d.nClasses) (hl : ∀ l ∈ labels, 0 ≤ l ∧ l < d.nClasses) (lo hi : Num) :
    d.toOneOfMany lo hi =
      ({ d with outdim := d.nClasses.toNat,
                target := labels.map (fun l => Spec.oneHot d.nClasses.toNat lo.val (stored lo hi) l.toNat),
                cls := labels.map (fun (l : Int) => (l : Rat)) }, none) := by
  unfold CDS.toOneOfMany
  have hnl : ¬ d.nClasses ≤ 0 := by omega
  simp only [hout, ne_eq, not_true_eq_false, if_false, hnl]
  rw [targetCol_labels labels d ht, List.mapM_map]
  rw [mapM_some labels _ (fun l => Spec.oneHot d.nClasses.toNat lo.val (stored lo hi) l.toNat)]
  intro l hlm
  have := hl l hlm
  exact oneOfManyRow_ok _ _ _ _ this.1 (by omega)

theorem foldl_max_oneHot (lo hi : Rat) (hlt : lo < hi) (l : List Nat) (k : Nat) (b : Rat) (hb : b = lo ∨ b = hi) :
    (l.map (fun j => if j = k then hi else lo)).foldl max b = if k ∈ l ∨ b = hi then hi else lo := by
  have hle : lo ≤ hi := Rat.le_of_lt hlt
  have hnle : ¬ hi ≤ lo := Rat.not_le.2 hlt
  have hne : ¬ lo = hi := fun h => by rw [h] at hlt; exact Rat.lt_irrefl hlt
  induction l generalizing b with
  | nil => rcases hb with rfl | rfl <;> simp [hne]
  | cons j l ih =>
    simp only [List.map_cons, List.foldl_cons]
    by_cases hjk : j = k
    · subst hjk
      have hm : max b hi = hi := by
        rcases hb with rfl | rfl
        · simp [Rat.max_def, hle]
        · simp [Rat.max_def]
      simp only [if_true, hm, ih hi (Or.inr rfl)]
      simp
    · have hm : max b lo = b := by
        rcases hb with rfl | rfl
        · simp [Rat.max_def]
        · simp [Rat.max_def, hnle]
      simp only [if_neg hjk, hm, ih b hb]
      have : (k ∈ j :: l) ↔ (k ∈ l) := by simp [Ne.symm hjk]
      simp [this]

theorem idxOf_oneHot (lo hi : Rat) (hlt : lo < hi) (n k : Nat) (hk : k < n) : (Spec.oneHot n lo hi k).idxOf hi = k := by
  have hne : ¬ lo = hi := fun h => by rw [h] at hlt; exact Rat.lt_irrefl hlt
  have hmem : hi ∈ Spec.oneHot n lo hi k := by
    unfold Spec.oneHot
    exact List.mem_map.2 ⟨k, by simpa using hk, by simp⟩
  have hlt' := List.idxOf_lt_length_of_mem hmem
  have := List.getElem_idxOf hlt'
  simp only [Spec.oneHot, List.getElem_map, List.getElem_range] at this
  split at this
  · rename_i h; simpa [Spec.oneHot] using h
  · exact absurd this hne

theorem argmax_oneHot (lo hi : Rat) (hlt : lo < hi) (n k : Nat) (hk : k < n) : argmax (Spec.oneHot n lo hi k) = k := by
  unfold argmax
  have hb : (Spec.oneHot n lo hi k).headD 0 = lo ∨ (Spec.oneHot n lo hi k).headD 0 = hi := by
    obtain ⟨m, rfl⟩ : ∃ m, n = m + 1 := ⟨n - 1, by omega⟩
    unfold Spec.oneHot
    rw [List.range_succ_eq_map]
    simp only [List.map_cons, List.headD_cons]
    split <;> simp
  have := foldl_max_oneHot lo hi hlt (List.range n) k _ hb
  have h2 : (Spec.oneHot n lo hi k).foldl max ((Spec.oneHot n lo hi k).headD 0) = hi := by
    rw [show List.foldl max ((Spec.oneHot n lo hi k).headD 0) (Spec.oneHot n lo hi k) = _ from this]
    simp [hk]
  rw [h2]
  exact idxOf_oneHot lo hi hlt n k hk

theorem fancy_where {α : Type} (rows : List α) (cls : List Rat) (h : cls.length ≤ rows.length) (p : Rat → Bool) :
    fancy rows (wherePos cls p) = some (((rows.zip cls).filter (fun x => p x.2)).map Prod.fst) := by
  unfold wherePos fancy
  suffices H : ∀ (pre post : List α) (cls : List Rat), cls.length ≤ post.length →
      List.mapM (fun i => (pre ++ post)[i]?) (((cls.zipIdx pre.length).filter (fun x => p x.1)).map Prod.snd)
        = some (((post.zip cls).filter (fun x => p x.2)).map Prod.fst) by
    simpa using H [] rows cls h
  intro pre post cls
  induction cls generalizing pre post with
  | nil => intro _; simp
  | cons c cs ih =>
    intro hlen
    cases post with
    | nil => simp at hlen
    | cons a post =>
      have := ih (pre ++ [a]) post (by simpa using hlen)
      simp only [List.length_append, List.length_cons, List.length_nil, Nat.zero_add, List.append_assoc, List.cons_append, List.nil_append] at this
      simp only [List.zipIdx_cons, List.zip_cons_cons, List.filter_cons]
      split
      · simp only [List.map_cons, List.mapM_cons, this]
        simp
      · simpa using this

theorem assignClasses_noop (d : CDS I) (h : d.cls.length = d.target.length) :
    (d.assignClasses).2 = none ∧ (d.assignClasses).1.input = d.input ∧ (d.assignClasses).1.target = d.target ∧
    (d.assignClasses).1.cls = d.cls ∧ (d.assignClasses).1.outdim = d.outdim := by
  unfold CDS.assignClasses
  simp only [h, Nat.lt_irrefl, false_and, if_false]
  split <;> simp

theorem assignClasses_scalar (d : CDS I) (h : d.outdim = 1) :
    (d.assignClasses).2 = none ∧ (d.assignClasses).1.input = d.input ∧ (d.assignClasses).1.target = d.target ∧
    (d.assignClasses).1.cls = (if d.cls.length < d.target.length then d.targetCol.map (fun v => ((pyInt v : Int) : Rat)) else d.cls) := by
  unfold CDS.assignClasses
  simp only [h, gt_iff_lt, Nat.lt_irrefl, and_false, if_false]
  by_cases hc : d.cls.length < d.target.length
  · simp only [hc, if_true]; split <;> simp
  · simp only [hc, if_false]; split <;> simp

theorem sum_zero {α : Type} (l : List α) : (l.map (fun _ => 0)).sum = 0 := by
  induction l with
  | nil => rfl
  | cons a l ih => simp [ih]

theorem count_sum (l : List Rat) (n : Nat) (h : ∀ x ∈ l, ∃ k : Nat, k < n ∧ x = (k : Rat)) :
    ((List.range n).map (fun (c : Nat) => l.count (c : Rat))).sum = l.length := by
  induction l with
  | nil => simpa using sum_zero (List.range n)
  | cons x l ih =>
    have ih' := ih (fun y hy => h y (by simp [hy]))
    obtain ⟨k, hk, rfl⟩ := h x (by simp)
    have e : ((List.range n).map (fun (c : Nat) => (((k : Nat) : Rat) :: l).count (c : Rat)))
        = (List.range n).map (fun (c : Nat) => l.count (c : Rat) + if c = k then 1 else 0) := by
      apply List.map_congr_left
      intro c _
      rw [List.count_cons]
      congr 1
      by_cases hck : c = k
      · simp [hck]
      · have : ¬ ((k : Rat) = (c : Rat)) := fun h => hck (by exact_mod_cast h.symm)
        simp [hck, this]
    rw [e]
    have hsum : ∀ (f g : Nat → Nat) (L : List Nat), (L.map (fun c => f c + g c)).sum = (L.map f).sum + (L.map g).sum := by
      intro f g L
      induction L with
      | nil => rfl
      | cons a L ih => simp [ih]; omega
    rw [hsum, ih']
    have : ((List.range n).map (fun c => if c = k then 1 else 0)).sum = 1 := by
      clear e ih ih' h hsum
      induction n with
      | zero => omega
      | succ n ihn =>
        rw [List.range_succ, List.map_append, List.sum_append]
        by_cases hkn : k < n
        · rw [ihn hkn]; simp; omega
        · have : k = n := by omega
          subst this
          have h0 : ((List.range k).map (fun c => if c = k then 1 else 0)) = (List.range k).map (fun _ => 0) := by
            apply List.map_congr_left
            intro c hc
            have : c < k := by simpa using hc
            simp; omega
          rw [h0, sum_zero]; simp
    rw [this]; simp

end Verif.Classification
