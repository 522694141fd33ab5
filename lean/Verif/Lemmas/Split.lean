import Verif.Lemmas.DataSetRead
/- Lemmas for SupervisedDataSet.splitWithProportion. -/
namespace Verif.DataSet
open Verif.Py

variable {K : Type}

theorem fancy_some {α : Type} (rows : List α) (idx : List Nat) (h : ∀ i ∈ idx, i < rows.length) (f : Nat → α)
    (hf : ∀ i (hi : i < rows.length), f i = rows[i]) :
    fancy rows idx = some (idx.map f) := by
  unfold fancy
  induction idx with
  | nil => rfl
  | cons i rest ih =>
    have hi := h i (by simp)
    rw [List.mapM_cons, ih (fun j hj => h j (by simp [hj])), List.getElem?_eq_getElem hi]
    simp [hf i hi]

theorem sliceTo_append_sliceFrom {α : Type} (l : List α) (a : Int) : sliceTo l a ++ sliceFrom l a = l := by
  unfold sliceTo sliceFrom
  exact List.take_append_drop _ _

theorem mkSupervised_ok (id od : Nat) (A : List (List K × List K)) (h1 : ∀ r ∈ A, r.1.length = id) (h2 : ∀ r ∈ A, r.2.length = od) :
    ∃ d, mkSupervised id od (A.map Prod.fst) (A.map Prod.snd) = .ok d ∧ d.link = ["input", "target"] ∧
      d.getField "input" = some (A.map Prod.fst) ∧ d.getField "target" = some (A.map Prod.snd) ∧ d.getLength = some A.length := by
  have e1 : ((A.map Prod.fst).all (fun r => decide (r.length = id))) = true := by
    simp; intro a b h; exact h1 _ h
  have e2 : ((A.map Prod.snd).all (fun r => decide (r.length = od))) = true := by
    simp; intro a b h; exact h2 _ h
  refine ⟨{ fields := [("input", { dim := id, buf := A.map Prod.fst, fin := (A.map Prod.fst).length }),
                       ("target", { dim := od, buf := A.map Prod.snd, fin := (A.map Prod.snd).length })],
            link := ["input", "target"], index := 0 }, ?_, rfl, ?_, ?_, ?_⟩
  · unfold mkSupervised
    simp only [DS.setField, e1, e2, if_true]
    simp [DS.linkFields, DS.linkFields.loop, DS.fieldLen, DS.get, DS.put, DS.empty, dset, dget,
      Field.rows]
  all_goals simp [DS.getField, DS.getLength, DS.get, dget, Field.rows, List.take_of_length_le]

theorem get_rows_width (d : DS K) (hd : d.WF) (l : String) (f : Field K) (hf : d.get l = some f) : ∀ r ∈ f.rows, r.length = f.dim := by
  intro r hr
  exact (hd.1 l f hf).2 r (List.mem_of_mem_take hr)

theorem floor_bounds (n : Nat) (p : Rat) (h0 : 0 ≤ p) (h1 : p ≤ 1) :
    pyInt ((n : Rat) * p) = ((n : Rat) * p).floor ∧ 0 ≤ ((n : Rat) * p).floor ∧ ((n : Rat) * p).floor ≤ n := by
  have hn : (0 : Rat) ≤ (n : Rat) := by exact_mod_cast Nat.zero_le n
  have hx : (0 : Rat) ≤ (n : Rat) * p := Rat.mul_nonneg hn h0
  refine ⟨by simp [pyInt, hx], ?_, ?_⟩
  · rw [Rat.le_floor_iff]; simpa using hx
  · have h2 : (n : Rat) * p ≤ (n : Rat) * 1 := Rat.mul_le_mul_of_nonneg_left h1 hn
    rw [Rat.mul_one] at h2
    have := Rat.floor_monotone h2
    have e : ((n : Rat)).floor = (n : Int) := Rat.floor_intCast (n : Int)
    rwa [e] at this

theorem split_ok (d : DS K) (hd : d.WF) (rows : List (List K × List K)) (hlink : d.link = ["input", "target"])
    (hi : d.getField "input" = some (rows.map Prod.fst)) (ht : d.getField "target" = some (rows.map Prod.snd))
    (perm : List Nat) (hp : perm.Perm (List.range rows.length)) (p : Rat) :
    ∃ (l r : DS K) (A B : List (List K × List K)), d.splitWithProportion perm p = .ok (l, r) ∧ (A ++ B).Perm rows ∧
      (l.link = ["input", "target"] ∧ l.getField "input" = some (A.map Prod.fst) ∧ l.getField "target" = some (A.map Prod.snd) ∧
        l.getLength = some A.length) ∧
      (r.link = ["input", "target"] ∧ r.getField "input" = some (B.map Prod.fst) ∧ r.getField "target" = some (B.map Prod.snd) ∧
        r.getLength = some B.length) ∧
      (0 ≤ p → p ≤ 1 → (A.length : Int) = ((rows.length : Rat) * p).floor) := by
  obtain ⟨fi, hfi, hfir⟩ : ∃ f, d.get "input" = some f ∧ f.rows = rows.map Prod.fst := by
    simpa [DS.getField] using hi
  obtain ⟨ft, hft, hftr⟩ : ∃ f, d.get "target" = some f ∧ f.rows = rows.map Prod.snd := by
    simpa [DS.getField] using ht
  have hlen : d.getLength = some rows.length := by
    unfold DS.getLength
    rw [hlink]
    simp only [hfi, Option.map_some, Option.some.injEq]
    rw [← (hd.1 _ _ hfi).rows_length, hfir, List.length_map]
  have hw1 := get_rows_width d hd _ _ hfi
  have hw2 := get_rows_width d hd _ _ hft
  rw [hfir] at hw1
  rw [hftr] at hw2
  by_cases hr0 : rows.length = 0
  · have hrn : rows = [] := List.length_eq_zero_iff.1 hr0
    subst hrn
    have hpn : perm = [] := by simpa using hp
    subst hpn
    obtain ⟨l, hl, hl1, hl2, hl3, hl4⟩ := mkSupervised_ok fi.dim ft.dim ([] : List (List K × List K)) (by simp) (by simp)
    refine ⟨l, l, [], [], ?_, by simp, ⟨hl1, hl2, hl3, hl4⟩, ⟨hl1, hl2, hl3, hl4⟩, ?_⟩
    · unfold DS.splitWithProportion
      rw [hlen, hfi, hft]
      simp only [sliceTo, sliceFrom, List.take_nil, List.drop_nil, fancy, List.mapM_nil]
      simp only [List.map_nil] at hl
      simp [hl]
    · intro _ _; simp; rfl
  let x0 := rows[0]'(by omega)
  let f : Nat → List K × List K := fun i => rows[i]?.getD x0
  have hfe : ∀ i (hi : i < rows.length), f i = rows[i] := by
    intro i hi; simp [f, hi]
  have hmem : ∀ i ∈ perm, i < rows.length := by
    intro i hi; simpa using hp.mem_iff.1 hi
  have hrows : (perm.map f).Perm rows := by
    have h1 := hp.map f
    have h2 : (List.range rows.length).map f = rows := by
      apply List.ext_getElem
      · simp
      · intro i h1 h2; simp [hfe i h2]
    rwa [h2] at h1
  let sep := pyInt ((rows.length : Rat) * p)
  have hsub : ∀ x ∈ perm, f x ∈ rows := fun x hx => by
    rw [hfe x (hmem x hx)]; exact List.getElem_mem _
  have hL : ∀ x ∈ sliceTo perm sep, x ∈ perm := fun x hx => List.mem_of_mem_take hx
  have hR : ∀ x ∈ sliceFrom perm sep, x ∈ perm := fun x hx => List.mem_of_mem_drop hx
  have hf1 : ∀ i (hi : i < (rows.map Prod.fst).length), (f i).1 = (rows.map Prod.fst)[i] := by
    intro i hi; rw [List.getElem_map, hfe i (by simpa using hi)]
  have hf2 : ∀ i (hi : i < (rows.map Prod.snd).length), (f i).2 = (rows.map Prod.snd)[i] := by
    intro i hi; rw [List.getElem_map, hfe i (by simpa using hi)]
  have wid1 : ∀ x ∈ perm, (f x).1.length = fi.dim := fun x hx => hw1 _ (List.mem_map.2 ⟨_, hsub x hx, rfl⟩)
  have wid2 : ∀ x ∈ perm, (f x).2.length = ft.dim := fun x hx => hw2 _ (List.mem_map.2 ⟨_, hsub x hx, rfl⟩)
  obtain ⟨l, hl, hl'⟩ := mkSupervised_ok fi.dim ft.dim ((sliceTo perm sep).map f)
    (by intro r hr; obtain ⟨x, hx, rfl⟩ := List.mem_map.1 hr; exact wid1 x (hL x hx))
    (by intro r hr; obtain ⟨x, hx, rfl⟩ := List.mem_map.1 hr; exact wid2 x (hL x hx))
  obtain ⟨r, hr, hr'⟩ := mkSupervised_ok fi.dim ft.dim ((sliceFrom perm sep).map f)
    (by intro r hr; obtain ⟨x, hx, rfl⟩ := List.mem_map.1 hr; exact wid1 x (hR x hx))
    (by intro r hr; obtain ⟨x, hx, rfl⟩ := List.mem_map.1 hr; exact wid2 x (hR x hx))
  refine ⟨l, r, (sliceTo perm sep).map f, (sliceFrom perm sep).map f, ?_, ?_, hl', hr', ?_⟩
  · unfold DS.splitWithProportion
    rw [hlen, hfi, hft]
    simp only
    rw [hfir, hftr]
    rw [fancy_some _ (sliceTo perm sep) (fun i hi => by simpa using hmem i (hL i hi)) (fun i => (f i).1) hf1,
      fancy_some _ (sliceTo perm sep) (fun i hi => by simpa using hmem i (hL i hi)) (fun i => (f i).2) hf2,
      fancy_some _ (sliceFrom perm sep) (fun i hi => by simpa using hmem i (hR i hi)) (fun i => (f i).1) hf1,
      fancy_some _ (sliceFrom perm sep) (fun i hi => by simpa using hmem i (hR i hi)) (fun i => (f i).2) hf2]
    simp only [List.map_map, Function.comp_def] at hl hr
    simp only [hl, hr]
  · rw [← List.map_append, sliceTo_append_sliceFrom]; exact hrows
  · intro h0 h1
    obtain ⟨hb1, hb2, hb3⟩ := floor_bounds rows.length p h0 h1
    have hsep : sep = ((rows.length : Rat) * p).floor := hb1
    obtain ⟨m, hm⟩ : ∃ m : Nat, sep = m := ⟨sep.toNat, by omega⟩
    rw [← hsep, List.length_map, hm, sliceTo_ofNat, List.length_take]
    have : perm.length = rows.length := by simpa using hp.length_eq
    omega

end Verif.DataSet
