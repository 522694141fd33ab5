import Verif.Lemmas.BuildNetwork
/-
C52: `buildNetwork` builds the documented chain of layers.
-/
namespace Verif.BuildNetwork

open Verif.Py Verif.Topo Verif.Topo.Spec Verif.Builder Verif.Builder.Spec Verif.BuildNetwork.Spec

/-- All calls made by `buildNetwork`. -/
def opsOf (nm : Layer → Layer → String) (o : Opt) (d : List Nat) (k : Nat) : List (Op Layer Unit Unit) :=
  [.input (layer o d 0), .output (layer o d k)] ++
  (if o.bias then .module biasLayer :: (if o.outputbias then [.connection (link nm biasLayer (layer o d k))] else []) else []) ++
  (List.range (k - 1)).flatMap (hiddenOps nm o d) ++
  (List.range (k - 2)).map (fun i => .connection (link nm (layer o d (i + 1)) (layer o d (i + 2)))) ++
  (if k = 1 then [.connection (link nm (layer o d 0) (layer o d 1))]
    else [.connection (link nm (layer o d 0) (layer o d 1)), .connection (link nm (layer o d (k - 1)) (layer o d k))]) ++
  (if o.hiddenclass.lstm then [.recurrent (link nm (layer o d 1) (layer o d 1))] else [])

theorem filterMap_hidden {β : Type} (f : Op Layer Unit Unit → Option β) (nm : Layer → Layer → String) (o : Opt) (d : List Nat) (l : List Nat) :
    (l.flatMap (hiddenOps nm o d)).filterMap f = l.flatMap (fun j => (hiddenOps nm o d j).filterMap f) := by
  induction l with
  | nil => rfl
  | cons a l ih => simp [List.filterMap_append, ih]

theorem mods_hidden (nm : Layer → Layer → String) (o : Opt) (d : List Nat) (l : List Nat) :
    (l.flatMap (hiddenOps nm o d)).filterMap modOf = l.map (fun j => layer o d (j + 1)) := by
  rw [filterMap_hidden]
  induction l with
  | nil => rfl
  | cons a l ih =>
    rw [List.flatMap_cons, ih, List.map_cons]
    by_cases hb : o.bias = true <;> simp [hiddenOps, hb, modOf, List.filterMap_cons]

theorem conns_hidden (nm : Layer → Layer → String) (o : Opt) (d : List Nat) (l : List Nat) :
    (l.flatMap (hiddenOps nm o d)).filterMap connOf = if o.bias then l.map (fun j => link nm biasLayer (layer o d (j + 1))) else [] := by
  rw [filterMap_hidden]
  induction l with
  | nil => simp
  | cons a l ih =>
    rw [List.flatMap_cons, ih]
    by_cases hb : o.bias = true <;> simp [hiddenOps, hb, connOf, List.filterMap_cons]

theorem none_hidden {β : Type} (f : Op Layer Unit Unit → Option β) (nm : Layer → Layer → String) (o : Opt) (d : List Nat) (l : List Nat)
    (h1 : ∀ m, f (.module m) = none) (h2 : ∀ c, f (.connection c) = none) :
    (l.flatMap (hiddenOps nm o d)).filterMap f = [] := by
  rw [filterMap_hidden]
  induction l with
  | nil => rfl
  | cons a l ih =>
    rw [List.flatMap_cons, ih]
    by_cases hb : o.bias = true <;> simp [hiddenOps, hb, h1, h2, List.filterMap_cons]

theorem opsOf_mods (nm : Layer → Layer → String) (o : Opt) (d : List Nat) (k : Nat) :
    (opsOf nm o d k).filterMap modOf = [layer o d 0, layer o d k] ++ (if o.bias then [biasLayer] else []) ++
      (List.range (k - 1)).map (fun j => layer o d (j + 1)) := by
  unfold opsOf
  simp only [List.filterMap_append, mods_hidden, List.filterMap_map]
  have h1 : (List.range (k - 2)).filterMap (modOf ∘ fun i => (.connection (link nm (layer o d (i + 1)) (layer o d (i + 2))) : Op Layer Unit Unit)) = [] := by
    rw [List.filterMap_eq_nil_iff]; intro i _; rfl
  rw [h1]
  by_cases hb : o.bias = true <;> by_cases ho : o.outputbias = true <;> by_cases hk : k = 1 <;> by_cases hl : o.hiddenclass.lstm = true <;>
    simp [hb, ho, hk, hl, modOf, List.filterMap_cons]

theorem opsOf_ins (nm : Layer → Layer → String) (o : Opt) (d : List Nat) (k : Nat) : (opsOf nm o d k).filterMap inputOf = [layer o d 0] := by
  unfold opsOf
  simp only [List.filterMap_append, none_hidden inputOf nm o d _ (fun _ => rfl) (fun _ => rfl), List.filterMap_map]
  have h1 : (List.range (k - 2)).filterMap (inputOf ∘ fun i => (.connection (link nm (layer o d (i + 1)) (layer o d (i + 2))) : Op Layer Unit Unit)) = [] := by
    rw [List.filterMap_eq_nil_iff]; intro i _; rfl
  rw [h1]
  by_cases hb : o.bias = true <;> by_cases ho : o.outputbias = true <;> by_cases hk : k = 1 <;> by_cases hl : o.hiddenclass.lstm = true <;>
    simp [hb, ho, hk, hl, inputOf, List.filterMap_cons]

theorem opsOf_outs (nm : Layer → Layer → String) (o : Opt) (d : List Nat) (k : Nat) : (opsOf nm o d k).filterMap outputOf = [layer o d k] := by
  unfold opsOf
  simp only [List.filterMap_append, none_hidden outputOf nm o d _ (fun _ => rfl) (fun _ => rfl), List.filterMap_map]
  have h1 : (List.range (k - 2)).filterMap (outputOf ∘ fun i => (.connection (link nm (layer o d (i + 1)) (layer o d (i + 2))) : Op Layer Unit Unit)) = [] := by
    rw [List.filterMap_eq_nil_iff]; intro i _; rfl
  rw [h1]
  by_cases hb : o.bias = true <;> by_cases ho : o.outputbias = true <;> by_cases hk : k = 1 <;> by_cases hl : o.hiddenclass.lstm = true <;>
    simp [hb, ho, hk, hl, outputOf, List.filterMap_cons]

theorem opsOf_recs (nm : Layer → Layer → String) (o : Opt) (d : List Nat) (k : Nat) :
    (opsOf nm o d k).filterMap recOf = if o.hiddenclass.lstm then [link nm (layer o d 1) (layer o d 1)] else [] := by
  unfold opsOf
  simp only [List.filterMap_append, none_hidden recOf nm o d _ (fun _ => rfl) (fun _ => rfl), List.filterMap_map]
  have h1 : (List.range (k - 2)).filterMap (recOf ∘ fun i => (.connection (link nm (layer o d (i + 1)) (layer o d (i + 2))) : Op Layer Unit Unit)) = [] := by
    rw [List.filterMap_eq_nil_iff]; intro i _; rfl
  rw [h1]
  by_cases hb : o.bias = true <;> by_cases ho : o.outputbias = true <;> by_cases hk : k = 1 <;> by_cases hl : o.hiddenclass.lstm = true <;>
    simp [hb, ho, hk, hl, recOf, List.filterMap_cons]

/-- The chain, split at its ends. -/
theorem chain_split {α : Type} (f : Nat → α) (k : Nat) (hk : 1 ≤ k) :
    (List.range k).map f = if k = 1 then [f 0] else f 0 :: ((List.range (k - 2)).map (fun i => f (i + 1)) ++ [f (k - 1)]) := by
  by_cases h : k = 1
  · subst h; rfl
  · rw [if_neg h]
    obtain ⟨t, rfl⟩ : ∃ t, k = t + 2 := ⟨k - 2, by omega⟩
    rw [List.range_succ_eq_map, List.range_succ]
    simp [List.map_map, Function.comp_def]

theorem opsOf_conns (nm : Layer → Layer → String) (o : Opt) (d : List Nat) (k : Nat) (hk : 1 ≤ k) (hd : d.length = k + 1) :
    ((opsOf nm o d k).filterMap connOf).Perm (connections nm o d) := by
  unfold opsOf connections
  simp only [List.filterMap_append, conns_hidden, List.filterMap_map, hd, Nat.add_sub_cancel]
  have h1 : (List.range (k - 2)).filterMap (connOf ∘ fun i => (.connection (link nm (layer o d (i + 1)) (layer o d (i + 2))) : Op Layer Unit Unit)) =
      (List.range (k - 2)).map (fun i => link nm (layer o d (i + 1)) (layer o d (i + 2))) := by
    rw [← List.filterMap_eq_map]; rfl
  have h2 : (if o.hiddenclass.lstm = true then [(.recurrent (link nm (layer o d 1) (layer o d 1)) : Op Layer Unit Unit)] else []).filterMap connOf = [] := by
    by_cases hl : o.hiddenclass.lstm = true <;> simp [hl, connOf, List.filterMap_cons]
  have h3 : ([.input (layer o d 0), .output (layer o d k)] : List (Op Layer Unit Unit)).filterMap connOf = [] := rfl
  have h4 : ((if o.bias = true then (.module biasLayer : Op Layer Unit Unit) :: (if o.outputbias = true then [.connection (link nm biasLayer (layer o d k))] else []) else []).filterMap connOf ++
      (if o.bias = true then (List.range (k - 1)).map (fun j => link nm biasLayer (layer o d (j + 1))) else [])).Perm
      (if o.bias = true then (List.range (k - 1)).map (fun i => link nm biasLayer (layer o d (i + 1))) ++
        (if o.outputbias = true then [link nm biasLayer (layer o d k)] else []) else []) := by
    by_cases hb : o.bias = true <;> by_cases ho : o.outputbias = true <;> simp only [hb, ho, connOf, List.filterMap_cons, List.filterMap_nil, if_true, if_false, Bool.false_eq_true]
    · exact List.perm_append_comm
    · simp
    · simp
    · simp
  have h5 : ((List.range (k - 2)).map (fun i => link nm (layer o d (i + 1)) (layer o d (i + 2))) ++
      (if k = 1 then [(.connection (link nm (layer o d 0) (layer o d 1)) : Op Layer Unit Unit)]
        else [.connection (link nm (layer o d 0) (layer o d 1)), .connection (link nm (layer o d (k - 1)) (layer o d k))]).filterMap connOf).Perm
      ((List.range k).map (fun i => link nm (layer o d i) (layer o d (i + 1)))) := by
    rw [chain_split (fun i => link nm (layer o d i) (layer o d (i + 1))) k hk]
    by_cases hk1 : k = 1
    · subst hk1; simp [connOf, List.filterMap_cons]
    · have e2 : layer o d (k - 1 + 1) = layer o d k := by rw [Nat.sub_add_cancel hk]
      simp only [if_neg hk1, connOf, List.filterMap_cons, List.filterMap_nil, e2]
      have : ∀ (B : List (Conn Layer Unit Unit)) (x y : Conn Layer Unit Unit), (B ++ [x, y]).Perm (x :: (B ++ [y])) := by
        intro B x y
        have e : B ++ [x, y] = (B ++ [x]) ++ [y] := by simp
        rw [e]
        simpa using (List.perm_append_comm (l₁ := B) (l₂ := [x])).append_right [y]
      exact this _ _ _
  rw [h1, h2, h3, List.nil_append, List.append_nil, List.append_assoc _ _ (List.filterMap connOf _)]
  exact (List.Perm.append h4 h5).trans List.perm_append_comm

theorem getD_of_getElem {l : List Nat} {i : Nat} (h : i < l.length) : l.getD i 0 = l[i] := by
  rw [List.getD_eq_getElem?_getD, List.getElem?_eq_getElem h]; rfl

/-- The construction up to sorting. -/
theorem construct_ok (nm : Layer → Layer → String) (o : Opt) (d : List Nat) (k : Nat) (hk : 1 ≤ k) (hd : d.length = k + 1) (recurrent : Bool) :
    ∃ n1 n2 n3 n4,
      addBias nm o (addOutputModule (addInputModule empty ⟨"in", linearLayer, d.headD 0, false⟩) ⟨"out", o.outclass, d.getLastD 0, false⟩) = .ok n1 ∧
      addHidden nm o 0 (slice d 1 (-1)) n1 = .ok n2 ∧ chainHidden nm (List.range (d.length - 3)) n2 = .ok n3 ∧
      addOther nm d.length n3 = .ok n4 ∧
      ((o.hiddenclass.lstm = true → k = 2 ∧ recurrent = true) →
        ∃ n5, addLoop nm o recurrent d.length n4 = .ok n5 ∧ St o d (opsOf nm o d k) n5) := by
  have hhead : d.headD 0 = d.getD 0 0 := by cases d <;> simp
  have hlast : d.getLastD 0 = d.getD k 0 := by
    rw [List.getLastD_eq_getLast?, List.getLast?_eq_getElem?, hd, Nat.add_sub_cancel, List.getD_eq_getElem?_getD]
  have hslice : slice d 1 (-1) = (List.range (k - 1)).map (fun j => d.getD (j + 1) 0) := by
    apply List.ext_getElem
    · simp [slice, clampBound, hd]; omega
    · intro i h1 h2
      simp only [List.length_map, List.length_range] at h2
      have : d.getD (i + 1) 0 = d[i + 1]'(by omega) := getD_of_getElem _
      rw [List.getElem_map, List.getElem_range, this]
      simp [slice, clampBound, hd, Nat.add_comm]
  have hin : (⟨"in", linearLayer, d.headD 0, false⟩ : Layer) = layer o d 0 := by rw [layer_zero, hhead]
  have hout : (⟨"out", o.outclass, d.getLastD 0, false⟩ : Layer) = layer o d k := by rw [layer_last o d k hk hd, hlast]
  rw [hin, hout]
  have famL : ∀ i ≤ k, Fam o d (layer o d i) := fun i hi => .inr ⟨i, by omega, rfl⟩
  have s0 : St o d [] empty := ⟨inv_empty attr, by simp⟩
  have s1 := s0.snoc (.input (layer o d 0)) (by intro m hm; cases hm; exact famL 0 (by omega))
  have s2 : St o d [.input (layer o d 0), .output (layer o d k)] (addOutputModule (addInputModule empty (layer o d 0)) (layer o d k)) :=
    s1.snoc (.output (layer o d k)) (by intro m hm; cases hm; exact famL k le_rfl)
  -- bias
  obtain ⟨n1, e1, s3⟩ : ∃ n1, addBias nm o (addOutputModule (addInputModule empty (layer o d 0)) (layer o d k)) = .ok n1 ∧
      St o d ([.input (layer o d 0), .output (layer o d k)] ++
        (if o.bias then .module biasLayer :: (if o.outputbias then [.connection (link nm biasLayer (layer o d k))] else []) else [])) n1 := by
    unfold addBias
    by_cases hb : o.bias = true
    · have s3 : St o d [.input (layer o d 0), .output (layer o d k), .module biasLayer]
        (addModule (addOutputModule (addInputModule empty (layer o d 0)) (layer o d k)) ⟨"bias", biasUnit, 1, false⟩) := s2.snoc (.module biasLayer) (by intro m hm; cases hm; exact .inl rfl)
      by_cases ho : o.outputbias = true
      · obtain ⟨n1, h1, h2⟩ := connect_ok hk hd s3 nm biasLayer (layer o d k) (by simp [modOf, List.filterMap_cons]) (by simp [modOf, List.filterMap_cons])
        rw [layer_last o d k hk hd] at h1
        refine ⟨n1, ?_, by simpa [hb, ho] using h2⟩
        rw [if_pos hb, if_pos ho, layer_last o d k hk hd]
        exact h1
      · exact ⟨_, by rw [if_pos hb, if_neg ho], by simpa [hb, ho] using s3⟩
    · exact ⟨_, by rw [if_neg hb], by simpa [hb] using s2⟩
  -- hidden layers
  obtain ⟨n2, e2, s4⟩ := addHidden_ok hk hd nm (slice d 1 (-1)) 0 _ n1 s3
    (by intro hb; rw [List.filterMap_append, List.mem_append]; exact .inr (by simp [hb, modOf, List.filterMap_cons]))
    (by rw [hslice]; simp; omega)
    (by
      intro j hj
      simp only [hslice, List.getElem_map, List.getElem_range, Nat.zero_add])
  have hlen : (slice d 1 (-1)).length = k - 1 := by rw [hslice]; simp
  rw [hlen, ← List.range_eq_range'] at s4
  have hmodsH : ∀ j, j + 1 < k → layer o d (j + 1) ∈
      (([.input (layer o d 0), .output (layer o d k)] ++
        (if o.bias then .module biasLayer :: (if o.outputbias then [.connection (link nm biasLayer (layer o d k))] else []) else []) ++
        (List.range (k - 1)).flatMap (hiddenOps nm o d)) : List (Op Layer Unit Unit)).filterMap modOf := by
    intro j hj
    rw [List.filterMap_append, List.mem_append, mods_hidden]
    exact .inr (List.mem_map.2 ⟨j, List.mem_range.2 (by omega), rfl⟩)
  have hmodsI : ∀ j, j = 0 ∨ j = k → layer o d j ∈
      (([.input (layer o d 0), .output (layer o d k)] ++
        (if o.bias then .module biasLayer :: (if o.outputbias then [.connection (link nm biasLayer (layer o d k))] else []) else []) ++
        (List.range (k - 1)).flatMap (hiddenOps nm o d)) : List (Op Layer Unit Unit)).filterMap modOf := by
    intro j hj
    rw [List.filterMap_append, List.filterMap_append, List.mem_append, List.mem_append]
    refine .inl (.inl ?_)
    rcases hj with rfl | rfl <;> simp [modOf, List.filterMap_cons]
  -- chain
  obtain ⟨n3, e3, s5⟩ := chainHidden_ok hk hd nm (List.range (k - 2)) _ n2 s4 (fun i hi => by
    have hi := List.mem_range.1 hi
    exact ⟨by omega, hmodsH i (by omega), hmodsH (i + 1) (by omega)⟩)
  have hmem5 : ∀ (L : List (Op Layer Unit Unit)) (ops : List (Op Layer Unit Unit)) (m : Layer), m ∈ ops.filterMap modOf → m ∈ (ops ++ L).filterMap modOf := by
    intro L ops m hm
    rw [List.filterMap_append, List.mem_append]; exact .inl hm
  -- ends
  obtain ⟨n4, e4, s6⟩ : ∃ n4, addOther nm d.length n3 = .ok n4 ∧ St o d
      ([.input (layer o d 0), .output (layer o d k)] ++
        (if o.bias then .module biasLayer :: (if o.outputbias then [.connection (link nm biasLayer (layer o d k))] else []) else []) ++
        (List.range (k - 1)).flatMap (hiddenOps nm o d) ++
        (List.range (k - 2)).map (fun i => .connection (link nm (layer o d (i + 1)) (layer o d (i + 2)))) ++
        (if k = 1 then [.connection (link nm (layer o d 0) (layer o d 1))]
          else [.connection (link nm (layer o d 0) (layer o d 1)), .connection (link nm (layer o d (k - 1)) (layer o d k))])) n4 := by
    unfold addOther
    by_cases hk1 : k = 1
    · obtain ⟨n4, h1, h2⟩ := connect_ok hk hd s5 nm (layer o d 0) (layer o d k) (hmem5 _ _ _ (hmodsI 0 (.inl rfl))) (hmem5 _ _ _ (hmodsI k (.inr rfl)))
      rw [layer_zero, layer_last o d k hk hd] at h1
      refine ⟨n4, ?_, ?_⟩
      · rw [if_pos (by omega)]
        exact h1
      · rw [if_pos hk1]
        rw [show layer o d 1 = layer o d k by rw [hk1]]
        exact h2
    · obtain ⟨n4, h1, h2⟩ := connect_ok hk hd s5 nm (layer o d 0) (layer o d 1) (hmem5 _ _ _ (hmodsI 0 (.inl rfl))) (hmem5 _ _ _ (hmodsH 0 (by omega)))
      have hk2 : k - 1 = k - 2 + 1 := by omega
      obtain ⟨n5, h3, h4⟩ := connect_ok hk hd h2 nm (layer o d (k - 1)) (layer o d k)
        (hmem5 _ _ _ (hmem5 _ _ _ (by have := hmodsH (k - 2) (by omega); rwa [← hk2] at this))) (hmem5 _ _ _ (hmem5 _ _ _ (hmodsI k (.inr rfl))))
      rw [layer_zero, layer_hidden o d k 0 (by omega) hd] at h1
      rw [hk2, layer_hidden o d k (k - 2) (by omega) hd, layer_last o d k hk hd] at h3
      refine ⟨n5, ?_, ?_⟩
      · rw [if_neg (by omega)]
        rw [show connect nm n3 "in" (hiddenName 0) = .ok n4 from h1]
        rw [show d.length - 3 = k - 2 by omega]
        exact h3
      · rw [if_neg hk1]
        simpa using h4
  refine ⟨n1, n2, n3, n4, e1, e2, by rw [show d.length - 3 = k - 2 by omega]; exact e3, e4, fun hl => ?_⟩
  -- loop
  obtain ⟨n5, e5, s7⟩ : ∃ n5, addLoop nm o recurrent d.length n4 = .ok n5 ∧ St o d (opsOf nm o d k) n5 := by
    unfold addLoop opsOf
    by_cases hlstm : o.hiddenclass.lstm = true
    · obtain ⟨hk2, hrec⟩ := hl hlstm
      have h1 := full_ok hk hd s6 nm (layer o d 1) (layer o d 1) (hmem5 _ _ _ (hmem5 _ _ _ (hmodsH 0 (by omega))))
        (hmem5 _ _ _ (hmem5 _ _ _ (hmodsH 0 (by omega))))
      have h2 := s6.snoc (.recurrent (link nm (layer o d 1) (layer o d 1))) (by intro m hm; cases hm)
      refine ⟨addRecurrentConnection n4 (link nm (layer o d 1) (layer o d 1)), ?_, ?_⟩
      · rw [if_pos hlstm, if_neg (by omega)]
        have h3 : (layer o d 1).name = hiddenName 0 := by rw [layer_hidden o d k 0 (by omega) hd]
        rw [h3] at h1
        rw [h1]
        simp [hrec]
      · rw [if_pos hlstm]
        exact h2
    · exact ⟨n4, by rw [if_neg hlstm], by rw [if_neg hlstm, List.append_nil]; exact s6⟩
  exact ⟨n5, e5, s7⟩

end Verif.BuildNetwork

namespace Verif.Props

open Verif.Py Verif.Topo Verif.Topo.Spec Verif.Builder Verif.Builder.Spec Verif.BuildNetwork Verif.BuildNetwork.Spec

/-- An order of the layers that respects all connections. -/
theorem BuildNetwork.topo (nm : Layer → Layer → String) (o : Opt) (d : List Nat) (k : Nat) (hk : 1 ≤ k) (hd : d.length = k + 1) :
    IsTopoOrder ((opsOf nm o d k).filterMap modOf) (edgesOf (opsOf nm o d k))
      ((if o.bias then [biasLayer] else []) ++ (List.range (k + 1)).map (layer o d)) := by
  have hnd : ((List.range (k + 1)).map (layer o d)).Nodup := by
    refine List.Nodup.map_on ?_ List.nodup_range
    intro x hx y hy h
    rw [List.mem_range] at hx hy
    exact name_inj o d k hk hd x y (by omega) (by omega) (by rw [h])
  have hbl : ∀ i, biasLayer ≠ layer o d i := fun i h => name_ne_bias o d i (by rw [← h]; rfl)
  have split2 : ∀ i j, i < j → j ≤ k → Before ((List.range (k + 1)).map (layer o d)) (layer o d i) (layer o d j) := by
    intro i j hij hj
    refine ⟨(List.range i).map (layer o d), (List.range' (i + 1) (j - i - 1)).map (layer o d), (List.range' (j + 1) (k - j)).map (layer o d), ?_⟩
    have e : List.range (k + 1) = List.range i ++ i :: List.range' (i + 1) (j - i - 1) ++ j :: List.range' (j + 1) (k - j) := by
      have h1 : List.range i ++ i :: List.range' (i + 1) (j - i - 1) = List.range j := by
        rw [List.range_eq_range', List.range_eq_range', ← List.range'_succ]
        have := List.range'_append (s := 0) (m := i) (n := j - i - 1 + 1) (step := 1)
        simp only [Nat.zero_add, Nat.one_mul] at this
        rw [this]
        congr 1
        omega
      rw [h1, List.range_eq_range', List.range_eq_range', ← List.range'_succ]
      have := List.range'_append (s := 0) (m := j) (n := k - j + 1) (step := 1)
      simp only [Nat.zero_add, Nat.one_mul] at this
      rw [this]
      congr 1
      omega
    rw [e]
    simp
  have before_app : ∀ (L l : List Layer) (a b : Layer), Before l a b → Before (L ++ l) a b := by
    rintro L l a b ⟨l1, l2, l3, rfl⟩
    exact ⟨L ++ l1, l2, l3, by simp⟩
  refine ⟨?_, fun v => ?_, fun e he => ?_⟩
  · by_cases hb : o.bias = true
    · simp only [hb, if_true, List.singleton_append, List.nodup_cons]
      refine ⟨?_, hnd⟩
      rw [List.mem_map]
      rintro ⟨i, _, h⟩
      exact hbl i h.symm
    · simpa [hb] using hnd
  · rw [opsOf_mods]
    have : v ∈ (List.range (k + 1)).map (layer o d) ↔ v ∈ [layer o d 0, layer o d k] ∨ v ∈ (List.range (k - 1)).map (fun j => layer o d (j + 1)) := by
      simp only [List.mem_map, List.mem_range, List.mem_cons, List.not_mem_nil, or_false]
      constructor
      · rintro ⟨i, hi, rfl⟩
        rcases Nat.eq_zero_or_pos i with rfl | h
        · exact .inl (.inl rfl)
        · by_cases h' : i = k
          · subst h'; exact .inl (.inr rfl)
          · exact .inr ⟨i - 1, by omega, by rw [Nat.sub_add_cancel h]⟩
      · rintro ((rfl | rfl) | ⟨j, hj, rfl⟩)
        · exact ⟨0, by omega, rfl⟩
        · exact ⟨k, by omega, rfl⟩
        · exact ⟨j + 1, by omega, rfl⟩
    rw [List.mem_append, List.mem_append, List.mem_append, this]
    tauto
  · have hm := ((opsOf_conns nm o d k hk hd).map (fun c => (c.inmod, c.outmod))).mem_iff.1 he
    rw [List.mem_map] at hm
    obtain ⟨c, hc, rfl⟩ := hm
    unfold connections at hc
    simp only [hd, Nat.add_sub_cancel] at hc
    rw [List.mem_append] at hc
    rcases hc with hc | hc
    · rw [List.mem_map] at hc
      obtain ⟨i, hi, rfl⟩ := hc
      rw [List.mem_range] at hi
      exact before_app _ _ _ _ (split2 i (i + 1) (by omega) (by omega))
    · by_cases hb : o.bias = true
      · have hall : ∃ j, j ≤ k ∧ c = link nm biasLayer (layer o d j) := by
          simp only [hb, if_true, List.mem_append, List.mem_map, List.mem_range] at hc
          rcases hc with ⟨i, hi, rfl⟩ | hc
          · exact ⟨i + 1, by omega, rfl⟩
          · split at hc
            · simp only [List.mem_singleton] at hc
              exact ⟨k, le_rfl, hc⟩
            · simp at hc
        obtain ⟨j, hj, rfl⟩ := hall
        refine ⟨[], (List.range j).map (layer o d), (List.range' (j + 1) (k - j)).map (layer o d), ?_⟩
        have h1 : List.range (k + 1) = List.range j ++ j :: List.range' (j + 1) (k - j) := by
          rw [List.range_eq_range', List.range_eq_range', ← List.range'_succ]
          have := List.range'_append (s := 0) (m := j) (n := k - j + 1) (step := 1)
          simp only [Nat.zero_add, Nat.one_mul] at this
          rw [this]
          congr 1
          omega
        rw [h1]
        simp [hb, link]
      · simp [hb] at hc

/-- C52: `buildNetwork` with at least two sizes and known options builds exactly the documented chain of layers, ready for
use. (Networks of LSTM layers have to have one hidden layer; the class of LSTM layers is sequential.) -/
theorem C52_chain_partial (arac : Bool) (nm : Layer → Layer → String) (order : List Layer → List Layer) (ho : ∀ l, (order l).Perm l)
    (sizes : List Nat) (options : List Arg) (o : Opt) (hopt : readOptions {} options = .ok o) (hs : 2 ≤ sizes.length)
    (hfast : o.fast = true → arac = true) (hlstm : o.hiddenclass.lstm = true → sizes.length = 3 ∧ o.hiddenclass.sequential = true) :
    ∃ n, buildNetwork arac nm order sizes options =
      .ok (n, o.recurrent || (o.hiddenclass.sequential || o.outclass.sequential)) ∧ IsChain nm o sizes n := by
  obtain ⟨k, hd⟩ : ∃ k, sizes.length = k + 1 := ⟨sizes.length - 1, by omega⟩
  have hk : 1 ≤ k := by omega
  obtain ⟨n1, n2, n3, n4, e1, e2, e3, e4, e5⟩ := construct_ok nm o sizes k hk hd
    (o.recurrent || (o.hiddenclass.sequential || o.outclass.sequential))
  obtain ⟨n5, e5, s⟩ := e5
    (fun h => ⟨by have := (hlstm h).1; omega, by simp [(hlstm h).2]⟩)
  have htopo := BuildNetwork.topo nm o sizes k hk hd
  have hmem : ∀ e ∈ edgesOf (opsOf nm o sizes k), e.1 ∈ (opsOf nm o sizes k).filterMap modOf ∧ e.2 ∈ (opsOf nm o sizes k).filterMap modOf := by
    intro e he
    obtain ⟨l1, l2, l3, hl⟩ := htopo.2.2 e he
    exact ⟨(htopo.2.1 e.1).1 (by simp [hl]), (htopo.2.1 e.2).1 (by simp [hl])⟩
  obtain ⟨n6, h1, h2, h3, h4⟩ := (sortModules_spec attr (order n5.modules) _ n5 s.inv (ho _)).1 hmem (acyclic_of_topo htopo)
  refine ⟨n6, ?_, ?_⟩
  · unfold buildNetwork
    simp only [hopt]
    rw [if_neg (by omega), if_neg (by
      intro hc
      simp only [Bool.and_eq_true, Bool.not_eq_true'] at hc
      rw [hfast hc.2] at hc
      exact absurd hc.1 (by simp))]
    simp only [e1, e2, e3, e4, e5, h1]
  · have hone : ∀ (l : List Layer) (a : Layer), FirstOccurrences [a] l → l = [a] := by
      intro l a h; rw [h]; simp
    have hnd : ((opsOf nm o sizes k).filterMap modOf).Nodup := by
      have hp : ((opsOf nm o sizes k).filterMap modOf).Perm ((if o.bias then [biasLayer] else []) ++ (List.range (k + 1)).map (layer o sizes)) := by
        rw [opsOf_mods, chain_split (layer o sizes) (k + 1) (by omega), if_neg (show k + 1 ≠ 1 by omega)]
        simp only [Nat.add_sub_cancel, show k + 1 - 2 = k - 1 by omega]
        have : ∀ (A B : List Layer) (x y : Layer), ([x, y] ++ A ++ B).Perm (A ++ x :: (B ++ [y])) := by
          intro A B x y
          have h1 : ([x, y] ++ A ++ B).Perm (A ++ ([x, y] ++ B)) := by
            rw [← List.append_assoc]
            exact List.Perm.append_right _ List.perm_append_comm
          refine h1.trans (List.Perm.append_left _ ?_)
          exact List.Perm.cons _ (List.perm_append_comm (l₁ := [y]))
        exact this _ _ _ _
      exact hp.nodup_iff.2 htopo.1
    have hmods : n6.modules = (opsOf nm o sizes k).filterMap modOf := by
      have h := h3.modules
      unfold FirstOccurrences at h
      rw [h, List.dedup_eq_self.2 (List.nodup_reverse.2 hnd), List.reverse_reverse]
    have hins : n6.inmodules = [layer o sizes 0] := hone _ _ (by rw [← opsOf_ins nm o sizes k]; exact h3.inputs)
    have houts : n6.outmodules = [layer o sizes k] := hone _ _ (by rw [← opsOf_outs nm o sizes k]; exact h3.outputs)
    have hperm : n6.modules.Perm (Spec.modules o sizes) := by
      rw [List.perm_ext_iff_of_nodup (by rw [hmods]; exact hnd)]
      · intro a
        rw [hmods, ← htopo.2.1 a]
        unfold Spec.modules
        rw [hd, List.mem_append, List.mem_append]
        exact or_comm
      · unfold Spec.modules
        rw [hd]
        exact (List.perm_append_comm.nodup_iff).2 htopo.1
    refine ⟨hperm, hins, ?_, h3.all.trans (opsOf_conns nm o sizes k hk hd), ?_, ?_, h2, ?_, ?_⟩
    · rw [houts, hd, Nat.add_sub_cancel]
    · have h := h3.recs.1
      rw [opsOf_recs] at h
      by_cases hl : o.hiddenclass.lstm = true
      · rw [if_pos hl] at h ⊢
        exact List.perm_singleton.1 h
      · rw [if_neg hl] at h ⊢
        exact List.perm_nil.1 h
    · exact topo_congr (fun v => by rw [hmods]) (fun e => ((h3.all.map _).mem_iff).symm) (h3.order h2)
    · rw [(h3.dims h2).1, hins]
      simp [attr, layer_zero, linearLayer]
    · rw [(h3.dims h2).2, houts, hd, Nat.add_sub_cancel]
      simp [attr, layer_last o sizes k hk hd]

/-- The value of an option: the last one given, else the default. -/
def BuildNetwork.lastOr {α : Type} (options : List Arg) (f : Arg → Option α) (dflt : α) : α := ((options.filterMap f).getLast?).getD dflt

theorem BuildNetwork.lastOr_cons {α : Type} (a : Arg) (options : List Arg) (f : Arg → Option α) (dflt : α) :
    BuildNetwork.lastOr (a :: options) f dflt = BuildNetwork.lastOr options f ((f a).getD dflt) := by
  unfold BuildNetwork.lastOr
  cases h : f a with
  | none => simp [h]
  | some v =>
    simp only [List.filterMap_cons, h, Option.getD_some]
    cases hl : options.filterMap f with
    | nil => simp
    | cons x xs => simp [List.getLast?_cons]

/-- C52: the options: unknown ones raise `NetworkError`, all others set the named value and leave the other defaults. -/
theorem C52_options (options : List Arg) :
    ((∃ key, .other key ∈ options) → readOptions {} options = .error .networkError) ∧
    ((∀ key, .other key ∉ options) → readOptions {} options = .ok
      { bias := BuildNetwork.lastOr options (fun | .bias b => some b | _ => none) true
        hiddenclass := BuildNetwork.lastOr options (fun | .hiddenclass b => some b | _ => none) sigmoidLayer
        outclass := BuildNetwork.lastOr options (fun | .outclass b => some b | _ => none) linearLayer
        outputbias := BuildNetwork.lastOr options (fun | .outputbias b => some b | _ => none) true
        peepholes := BuildNetwork.lastOr options (fun | .peepholes b => some b | _ => none) false
        recurrent := BuildNetwork.lastOr options (fun | .recurrent b => some b | _ => none) false
        fast := BuildNetwork.lastOr options (fun | .fast b => some b | _ => none) false }) := by
  have gen : ∀ (options : List Arg) (o : Opt),
      ((∃ key, .other key ∈ options) → readOptions o options = .error .networkError) ∧
      ((∀ key, .other key ∉ options) → readOptions o options = .ok
        { bias := BuildNetwork.lastOr options (fun | .bias b => some b | _ => none) o.bias
          hiddenclass := BuildNetwork.lastOr options (fun | .hiddenclass b => some b | _ => none) o.hiddenclass
          outclass := BuildNetwork.lastOr options (fun | .outclass b => some b | _ => none) o.outclass
          outputbias := BuildNetwork.lastOr options (fun | .outputbias b => some b | _ => none) o.outputbias
          peepholes := BuildNetwork.lastOr options (fun | .peepholes b => some b | _ => none) o.peepholes
          recurrent := BuildNetwork.lastOr options (fun | .recurrent b => some b | _ => none) o.recurrent
          fast := BuildNetwork.lastOr options (fun | .fast b => some b | _ => none) o.fast }) := by
    intro options
    induction options with
    | nil => intro o; exact ⟨by simp, fun _ => by simp [readOptions, BuildNetwork.lastOr]⟩
    | cons a options ih =>
      intro o
      cases a with
      | other key => exact ⟨fun _ => rfl, fun h => absurd (List.mem_cons_self) (h key)⟩
      | _ =>
        simp only [readOptions, BuildNetwork.lastOr_cons, Option.getD_some, Option.getD_none]
        refine ⟨fun h => (ih _).1 ?_, fun h => (ih _).2 fun key hk => h key (List.mem_cons_of_mem _ hk)⟩
        obtain ⟨key, hk⟩ := h
        exact ⟨key, by simpa using hk⟩
  exact gen options {}

/-- C52: unknown options, fewer than two sizes, and `fast` without the compiled networks raise `NetworkError`. -/
theorem C52_errors (arac : Bool) (nm : Layer → Layer → String) (order : List Layer → List Layer) (sizes : List Nat) (options : List Arg)
    (h : (∃ key, .other key ∈ options) ∨ sizes.length < 2 ∨
      ∃ o, readOptions {} options = .ok o ∧ o.fast = true ∧ arac = false) :
    buildNetwork arac nm order sizes options = .error .networkError := by
  unfold buildNetwork
  by_cases hu : ∃ key, .other key ∈ options
  · rw [(C52_options options).1 hu]
  · have ho := (C52_options options).2 (fun key hk => hu ⟨key, hk⟩)
    rw [ho]
    dsimp only
    rcases h with h | h | ⟨o, h1, h2, h3⟩
    · exact absurd h hu
    · rw [if_pos h]
    · rw [ho] at h1
      cases h1
      split
      · rfl
      · rw [if_pos]
        simp only [h3, Bool.not_false, Bool.true_and]
        exact h2

/-- C52 fails for LSTM layers when there is no hidden layer: the construction stops with an exception although nothing
is wrong with the arguments. -/
theorem C52_negation_lstm_flat (arac : Bool) (nm : Layer → Layer → String) (order : List Layer → List Layer) (a b : Nat) :
    buildNetwork arac nm order [a, b] [.hiddenclass lstmLayer] = .error .attributeError := by
  have h0 : hiddenName 0 = "hidden0" := by decide
  simp [buildNetwork, readOptions, lstmLayer, addBias, connect, full, getitem, addModule, addInputModule, addOutputModule,
    Builder.empty, attr, slice, clampBound, addHidden, chainHidden, addOther, addLoop, h0, addConnection, List.find?]

/-- C52 fails for LSTM layers when there are several hidden layers: the interpreter is asked to exit. -/
theorem C52_negation_lstm_deep (arac : Bool) (nm : Layer → Layer → String) (order : List Layer → List Layer) (sizes : List Nat)
    (options : List Arg) (o : Opt) (hopt : readOptions {} options = .ok o) (hfast : o.fast = true → arac = true)
    (hl : o.hiddenclass.lstm = true) (hs : 3 < sizes.length) :
    buildNetwork arac nm order sizes options = .error .systemExit := by
  obtain ⟨n1, n2, n3, n4, e1, e2, e3, e4, -⟩ := construct_ok nm o sizes (sizes.length - 1) (by omega) (by omega)
    (o.recurrent || (o.hiddenclass.sequential || o.outclass.sequential))
  unfold buildNetwork
  simp only [hopt]
  rw [if_neg (by omega), if_neg (by
    intro hc
    simp only [Bool.and_eq_true, Bool.not_eq_true'] at hc
    rw [hfast hc.2] at hc
    exact absurd hc.1 (by simp))]
  simp only [e1, e2, e3, e4]
  unfold addLoop
  rw [if_pos hl, if_pos hs]

/-- A network with two hidden layers and a changed output class meets the hypotheses of `C52_chain_partial`. -/
example : ∃ n, buildNetwork false (fun a b => a.name ++ "-" ++ b.name) id [2, 3, 4, 1] [.outclass sigmoidLayer, .outputbias false] =
    .ok (n, false) ∧ IsChain (fun a b => a.name ++ "-" ++ b.name)
      { outclass := sigmoidLayer, outputbias := false } [2, 3, 4, 1] n :=
  C52_chain_partial false _ id (fun _ => .refl _) [2, 3, 4, 1] [.outclass sigmoidLayer, .outputbias false] _ rfl (by decide)
    (by decide) (by decide)

/-- So does an LSTM network with peepholes. -/
example : ∃ n, buildNetwork false (fun a b => a.name ++ "-" ++ b.name) id [2, 3, 1] [.hiddenclass lstmLayer, .peepholes true] =
    .ok (n, true) ∧ IsChain (fun a b => a.name ++ "-" ++ b.name)
      { hiddenclass := lstmLayer, peepholes := true } [2, 3, 1] n :=
  C52_chain_partial false _ id (fun _ => .refl _) [2, 3, 1] [.hiddenclass lstmLayer, .peepholes true] _ rfl (by decide)
    (by decide) (by decide)

example : buildNetwork false (fun a b => a.name ++ "-" ++ b.name) id [2, 3, 4, 1] [.hiddenclass lstmLayer] = .error .systemExit :=
  C52_negation_lstm_deep false _ id _ _ _ rfl (by decide) rfl (by decide)

example : buildNetwork false (fun a b => a.name ++ "-" ++ b.name) id [2] [] = .error .networkError :=
  C52_errors false _ id _ _ (.inr (.inl (by decide)))

end Verif.Props
