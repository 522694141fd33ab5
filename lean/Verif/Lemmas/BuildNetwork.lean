import Verif.Spec.BuildNetwork
import Verif.Lemmas.Builder
import Std.Data.String.ToNat
/-
Lemmas about `buildNetwork`.
-/
namespace Verif.BuildNetwork

open Verif.Py Verif.Topo Verif.Topo.Spec Verif.Builder Verif.Builder.Spec Verif.BuildNetwork.Spec

theorem hiddenName_inj {i j : Nat} (h : hiddenName i = hiddenName j) : i = j := by
  unfold hiddenName at h
  have := congrArg String.toList h
  simp only [String.toList_append, List.append_cancel_left_eq] at this
  exact Nat.repr_injective (String.toList_inj.1 this)

theorem hiddenName_ne (i : Nat) : hiddenName i ≠ "in" ∧ hiddenName i ≠ "out" ∧ hiddenName i ≠ "bias" := by
  unfold hiddenName
  refine ⟨fun h => ?_, fun h => ?_, fun h => ?_⟩ <;>
  · have := congrArg String.toList h
    simp [String.toList_append] at this

theorem layer_zero (o : Opt) (d : List Nat) : layer o d 0 = ⟨"in", linearLayer, d.getD 0 0, false⟩ := by simp [layer]

theorem layer_last (o : Opt) (d : List Nat) (k : Nat) (hk : 1 ≤ k) (hd : d.length = k + 1) :
    layer o d k = ⟨"out", o.outclass, d.getD k 0, false⟩ := by
  have h0 : k ≠ 0 := by omega
  simp [layer, hd, h0]

theorem layer_hidden (o : Opt) (d : List Nat) (k i : Nat) (hi : i + 1 < k) (hd : d.length = k + 1) :
    layer o d (i + 1) = ⟨hiddenName i, o.hiddenclass, d.getD (i + 1) 0, o.hiddenclass.lstm && o.peepholes⟩ := by
  have h0 : i + 1 ≠ k := by omega
  simp [layer, hd, h0, hiddenName]

/-- The name of a layer determines it. -/
theorem name_inj (o : Opt) (d : List Nat) (k : Nat) (hk : 1 ≤ k) (hd : d.length = k + 1) (i j : Nat) (hi : i ≤ k) (hj : j ≤ k)
    (h : (layer o d i).name = (layer o d j).name) : i = j := by
  have cases3 : ∀ i ≤ k, i = 0 ∨ i = k ∨ ∃ t, i = t + 1 ∧ t + 1 < k := by
    intro i hi
    rcases Nat.eq_zero_or_pos i with h | h
    · exact .inl h
    · by_cases h' : i = k
      · exact .inr (.inl h')
      · exact .inr (.inr ⟨i - 1, by omega, by omega⟩)
  have h0 : (layer o d 0).name = "in" := by rw [layer_zero]
  have hK : (layer o d k).name = "out" := by rw [layer_last o d k hk hd]
  have hH : ∀ t, t + 1 < k → (layer o d (t + 1)).name = hiddenName t := fun t ht => by rw [layer_hidden o d k t ht hd]
  rcases cases3 i hi with rfl | rfl | ⟨t, rfl, ht⟩ <;> rcases cases3 j hj with rfl | rfl | ⟨s, rfl, hs⟩
  · rfl
  · rw [h0, hK] at h; simp at h
  · rw [h0, hH s hs] at h; exact absurd h.symm (hiddenName_ne s).1
  · rw [h0, hK] at h; simp at h
  · rfl
  · rw [hK, hH s hs] at h; exact absurd h.symm (hiddenName_ne s).2.1
  · rw [h0, hH t ht] at h; exact absurd h (hiddenName_ne t).1
  · rw [hK, hH t ht] at h; exact absurd h (hiddenName_ne t).2.1
  · rw [hH t ht, hH s hs] at h
    rw [hiddenName_inj h]

theorem name_ne_bias (o : Opt) (d : List Nat) (i : Nat) : (layer o d i).name ≠ "bias" := by
  unfold layer
  dsimp only
  split
  · simp
  · split
    · simp
    · exact (hiddenName_ne _).2.2

/-- Family of modules: the layers and the bias unit. -/
def Fam (o : Opt) (d : List Nat) (m : Layer) : Prop := m = biasLayer ∨ ∃ i < d.length, m = layer o d i

theorem fam_inj (o : Opt) (d : List Nat) (k : Nat) (hk : 1 ≤ k) (hd : d.length = k + 1) (a b : Layer) (ha : Fam o d a) (hb : Fam o d b)
    (h : a.name = b.name) : a = b := by
  rcases ha with rfl | ⟨i, hi, rfl⟩ <;> rcases hb with rfl | ⟨j, hj, rfl⟩
  · rfl
  · exact absurd h.symm (name_ne_bias o d j)
  · exact absurd h (name_ne_bias o d i)
  · rw [name_inj o d k hk hd i j (by omega) (by omega) h]

/-- The state during construction: the network is the result of the calls `ops`, which only add layers of the family. -/
structure St (o : Opt) (d : List Nat) (ops : List (Op Layer Unit Unit)) (n : BNet) : Prop where
  inv : Inv attr ops n
  fam : ∀ m ∈ ops.filterMap modOf, Fam o d m

theorem St.snoc {o : Opt} {d : List Nat} {ops : List (Op Layer Unit Unit)} {n : BNet} (h : St o d ops n) (op : Op Layer Unit Unit)
    (hop : ∀ m, modOf op = some m → Fam o d m) : St o d (ops ++ [op]) (step attr id n op) := by
  refine ⟨inv_step attr id (fun l => .refl l) ops n h.inv op, fun m hm => ?_⟩
  rw [List.filterMap_append, List.mem_append] at hm
  rcases hm with hm | hm
  · exact h.fam m hm
  · rw [List.mem_filterMap] at hm
    obtain ⟨op', h1, h2⟩ := hm
    rw [List.mem_singleton] at h1
    subst h1
    exact hop m h2

theorem getitem_ok {o : Opt} {d : List Nat} {k : Nat} (hk : 1 ≤ k) (hd : d.length = k + 1) {ops : List (Op Layer Unit Unit)} {n : BNet}
    (h : St o d ops n) (a : Layer) (ha : a ∈ ops.filterMap modOf) : getitem attr n a.name = some a := by
  have hmem : a ∈ n.modules := (first_mem h.inv.modules a).2 ha
  unfold getitem
  cases hf : n.modules.find? (fun m => decide (attr.name m = a.name)) with
  | none =>
    rw [List.find?_eq_none] at hf
    exact absurd (by simp [attr]) (hf a hmem)
  | some x =>
    have h1 := List.find?_some hf
    have h2 := List.mem_of_find?_eq_some hf
    have h3 := h.fam x ((first_mem h.inv.modules x).1 h2)
    rw [fam_inj o d k hk hd x a h3 (h.fam a ha) (of_decide_eq_true h1)]

theorem full_ok {o : Opt} {d : List Nat} {k : Nat} (hk : 1 ≤ k) (hd : d.length = k + 1) {ops : List (Op Layer Unit Unit)} {n : BNet}
    (h : St o d ops n) (nm : Layer → Layer → String) (a b : Layer) (ha : a ∈ ops.filterMap modOf) (hb : b ∈ ops.filterMap modOf) :
    full nm n a.name b.name = .ok (link nm a b) := by
  unfold full
  rw [getitem_ok hk hd h a ha, getitem_ok hk hd h b hb]
  rfl

theorem connect_ok {o : Opt} {d : List Nat} {k : Nat} (hk : 1 ≤ k) (hd : d.length = k + 1) {ops : List (Op Layer Unit Unit)} {n : BNet}
    (h : St o d ops n) (nm : Layer → Layer → String) (a b : Layer) (ha : a ∈ ops.filterMap modOf) (hb : b ∈ ops.filterMap modOf) :
    ∃ n', connect nm n a.name b.name = .ok n' ∧ St o d (ops ++ [.connection (link nm a b)]) n' := by
  refine ⟨addConnection n (link nm a b), ?_, h.snoc (.connection (link nm a b)) (by simp [modOf])⟩
  unfold connect
  rw [full_ok hk hd h nm a b ha hb]

/-- The calls made for hidden layer number `j`. -/
def hiddenOps (nm : Layer → Layer → String) (o : Opt) (d : List Nat) (j : Nat) : List (Op Layer Unit Unit) :=
  .module (layer o d (j + 1)) :: (if o.bias then [.connection (link nm biasLayer (layer o d (j + 1)))] else [])

theorem addHidden_ok {o : Opt} {d : List Nat} {k : Nat} (hk : 1 ≤ k) (hd : d.length = k + 1) (nm : Layer → Layer → String) (rest : List Nat) :
    ∀ (i : Nat) (ops : List (Op Layer Unit Unit)) (n : BNet), St o d ops n → (o.bias = true → biasLayer ∈ ops.filterMap modOf) →
      i + rest.length + 1 ≤ k → (∀ j (hj : j < rest.length), rest[j] = d.getD (i + j + 1) 0) →
      ∃ n', addHidden nm o i rest n = .ok n' ∧ St o d (ops ++ (List.range' i rest.length).flatMap (hiddenOps nm o d)) n' := by
  induction rest with
  | nil => intro i ops n h _ _ _; exact ⟨n, rfl, by simpa using h⟩
  | cons num rest ih =>
    intro i ops n h hb hi hr
    simp only [List.length_cons] at hi
    have hlay := layer_hidden o d k i (by omega) hd
    have hnum : num = d.getD (i + 1) 0 := hr 0 (by simp)
    have hmod : (⟨hiddenName i, o.hiddenclass, num, o.hiddenclass.lstm && o.peepholes⟩ : Layer) = layer o d (i + 1) := by
      rw [hlay, hnum]
    have h1 : St o d (ops ++ [.module (layer o d (i + 1))]) (addModule n (layer o d (i + 1))) :=
      h.snoc (.module (layer o d (i + 1))) (by
        intro m hm
        simp only [modOf, Option.some.injEq] at hm
        subst hm
        exact .inr ⟨i + 1, by omega, rfl⟩)
    have hname : hiddenName i = (layer o d (i + 1)).name := by rw [hlay]
    have hr' : ∀ j (hj : j < rest.length), rest[j] = d.getD (i + 1 + j + 1) 0 := by
      intro j hj
      have := hr (j + 1) (by simpa using hj)
      simpa [Nat.add_assoc, Nat.add_comm 1 j] using this
    unfold addHidden
    simp only [hmod]
    by_cases hbias : o.bias = true
    · obtain ⟨n2, h2, h3⟩ := connect_ok hk hd h1 nm biasLayer (layer o d (i + 1))
        (by rw [List.filterMap_append, List.mem_append]; exact .inl (hb hbias))
        (by rw [List.filterMap_append, List.mem_append]; exact .inr (by simp [modOf]))
      obtain ⟨n3, h4, h5⟩ := ih (i + 1) _ n2 h3
        (by intro _; rw [List.filterMap_append, List.filterMap_append, List.mem_append, List.mem_append]; exact .inl (.inl (hb hbias)))
        (by omega) hr'
      refine ⟨n3, ?_, ?_⟩
      · rw [if_pos hbias, hname]
        have : connect nm (addModule n (layer o d (i + 1))) "bias" (layer o d (i + 1)).name = .ok n2 := h2
        rw [this]
        exact h4
      · simpa [List.range'_succ, hiddenOps, hbias] using h5
    · obtain ⟨n3, h4, h5⟩ := ih (i + 1) _ _ h1
        (by intro hh; exact absurd hh hbias) (by omega) hr'
      refine ⟨n3, ?_, ?_⟩
      · rw [if_neg hbias]; exact h4
      · simpa [List.range'_succ, hiddenOps, hbias] using h5

theorem chainHidden_ok {o : Opt} {d : List Nat} {k : Nat} (hk : 1 ≤ k) (hd : d.length = k + 1) (nm : Layer → Layer → String) (is : List Nat) :
    ∀ (ops : List (Op Layer Unit Unit)) (n : BNet), St o d ops n →
      (∀ i ∈ is, i + 2 < k ∧ layer o d (i + 1) ∈ ops.filterMap modOf ∧ layer o d (i + 2) ∈ ops.filterMap modOf) →
      ∃ n', chainHidden nm is n = .ok n' ∧
        St o d (ops ++ is.map (fun i => .connection (link nm (layer o d (i + 1)) (layer o d (i + 2))))) n' := by
  induction is with
  | nil => intro ops n h _; exact ⟨n, rfl, by simpa using h⟩
  | cons i is ih =>
    intro ops n h hmem
    obtain ⟨hi, ha, hb⟩ := hmem i (by simp)
    obtain ⟨n1, h1, h2⟩ := connect_ok hk hd h nm _ _ ha hb
    obtain ⟨n2, h3, h4⟩ := ih _ n1 h2 (fun j hj => by
      obtain ⟨hj1, hj2, hj3⟩ := hmem j (by simp [hj])
      refine ⟨hj1, ?_, ?_⟩ <;>
      · rw [List.filterMap_append, List.mem_append]; exact .inl (by assumption))
    refine ⟨n2, ?_, ?_⟩
    · unfold chainHidden
      rw [layer_hidden o d k i (by omega) hd, layer_hidden o d k (i + 1) (by omega) hd] at h1
      rw [show connect nm n (hiddenName i) (hiddenName (i + 1)) = .ok n1 from h1]
      exact h3
    · simpa using h4

end Verif.BuildNetwork
