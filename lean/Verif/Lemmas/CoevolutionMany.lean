import Verif.Lemmas.CoevolutionPops
/-
Lemmas for C177.
-/
namespace Verif.Coevolution
open Verif.DataSet (Err)
set_option linter.unusedSectionVars false
variable {K : Type} [Field K] [LinearOrder K] {n : Nat}
open Spec

theorem otherNumbers_length (k main : Nat) (h : main < k) : (otherNumbers k main).length = k - 1 := by
  unfold otherNumbers
  have h1 := List.length_eq_length_filter_add (l := List.range k) (fun i => decide (i = main))
  have h2 : ((List.range k).filter (fun i => decide (i = main))).length = 1 := by
    have : (List.range k).filter (fun i => decide (i = main)) = (List.range k).filter (fun i => i == main) := List.filter_congr (fun i _ => by by_cases h : i = main <;> simp [h])
    rw [this, List.filter_beq, List.count_eq_one_of_mem List.nodup_range (List.mem_range.2 h)]
    rfl
  have h3 : (List.range k).filter (fun i => !decide (i = main)) = (List.range k).filter (fun i => decide (i ≠ main)) := List.filter_congr (fun i _ => by simp)
  rw [List.length_range, h2, h3] at h1
  omega

theorem others_eq (c : Settings K) (hpos : 0 < c.populationSize) (k : Nat) (m : Many K n) (games : List (Nat × Nat × K)) (h : ManyConsistent c k m games) :
    others k m = (otherNumbers k m.main).map m.pops := by
  unfold others otherNumbers
  rw [List.filter_map]
  congr 1
  apply List.filter_congr
  intro i hi
  have hi := List.mem_range.1 hi
  have hm : m.main < k := by rw [h.main]; exact Nat.mod_lt _ h.some
  simp only [Function.comp_apply, h.current]
  congr 1
  by_cases he : i = m.main
  · simp [he]
  · simp only [eq_iff_iff]
    refine ⟨fun _ => he, fun _ heq => ?_⟩
    have hne : m.pops i ≠ [] := by
      intro h0
      have := h.size i hi
      rw [h0] at this
      simp at this
      omega
    obtain ⟨p, hp⟩ := List.exists_mem_of_ne_nil _ hne
    have : p.id ∈ (m.pops m.main).map Ind.id := heq ▸ List.mem_map_of_mem hp
    obtain ⟨q, hq, he'⟩ := List.mem_map.1 this
    exact h.apart i hi m.main hm he p hp q hq he'.symm

theorem tournaments_full (eval : Nat → Nat → Nat → K) (sample : Nat → List Nat → Nat → List Nat) (hs : GoodSample sample) (pop1 : List Nat) (k L : Nat) :
    ∀ (ls : List (List Nat)) (b : Book Nat K) (games : List (Nat × Nat × K)), Reflects b games → Paired games →
    (∀ l ∈ ls, l.length = L ∧ ∀ p ∈ pop1, p ∉ l) →
    ∃ new, Reflects (ls.foldl (fun b l => doTournament eval sample b pop1 l (some k)) b) (games ++ new) ∧ Paired (games ++ new) ∧
      new.length = ls.length * (2 * (pop1.length * min k L)) ∧
      (∀ g ∈ new, ∃ l ∈ ls, (g.1 ∈ pop1 ∧ g.2.1 ∈ l) ∨ (g.2.1 ∈ pop1 ∧ g.1 ∈ l)) ∧ ∀ l ∈ ls, Met new pop1 l k := by
  intro ls
  induction ls with
  | nil => intro b games h hp _; exact ⟨[], by simpa using h, by simpa using hp, by simp, by simp, by simp⟩
  | cons a ls ih =>
    intro b games h hp hd
    obtain ⟨new1, r1, p1, _, n1, m1, t1⟩ := tournament_full eval sample hs pop1 a k b games h hp
    obtain ⟨new2, r2, p2, n2, m2, t2⟩ := ih _ _ r1 p1 (fun l hl => hd l (by simp [hl]))
    have n1' := n1 (hd a (by simp)).2
    rw [(hd a (by simp)).1] at n1'
    rw [List.append_assoc] at r2 p2
    refine ⟨new1 ++ new2, r2, p2, ?_, ?_, ?_⟩
    · rw [List.length_append, n1', n2, List.length_cons, Nat.add_mul]; omega
    · intro g hg
      rcases List.mem_append.1 hg with hg | hg
      · exact ⟨a, by simp, m1 g hg⟩
      · obtain ⟨l, hl, h⟩ := m2 g hg
        exact ⟨l, by simp [hl], h⟩
    · intro l hl
      rcases List.mem_cons.1 hl with rfl | hl
      · exact met_mono _ _ _ _ _ t1 (fun g hg => List.mem_append_left _ hg)
      · exact met_mono _ _ _ _ _ (t2 l hl) (fun g hg => List.mem_append_right _ hg)

/-- what a generation does -/
structure ManyStep (o : Oracle K n) (c : Settings K) (k : Nat) (m : Many K n) (games new : List (Nat × Nat × K)) (best : Ind K n) (m' : Many K n) : Prop where
  consistent : ManyConsistent c k m' (games ++ new)
  number : new.length = (k - 1) * (2 * (c.populationSize * min c.tournamentSize (max 1 (c.populationSize / 2))))
  met : ∀ i < k, i ≠ m.main → Met new ((m.pops m.main).map Ind.id) (((m.pops i).take (max 1 (c.populationSize / 2))).map Ind.id) c.tournamentSize
  members : ∀ g ∈ new, ∃ i < k, i ≠ m.main ∧ ∃ p ∈ m.pops m.main, ∃ q ∈ m.pops i, (g.1 = p.id ∧ g.2.1 = q.id) ∨ (g.1 = q.id ∧ g.2.1 = p.id)
  generation : m'.s.generation = m.s.generation + 1
  kept : ∀ i, i ≠ m.main → m'.pops i = m.pops i
  hof : m'.s.hallOfFame = m.s.hallOfFame ++ [best]
  fits : ∃ fs, Top ((m.pops m.main).map (fitnessOf o (games ++ new) ((otherNumbers k m.main).flatMap (fun i => (m.pops i).map Ind.id)) [])) fs c.numSelected ∧
    m'.s.hallOfFitnesses = m.s.hallOfFitnesses ++ [fs]
  mem : best ∈ m.pops m.main
  best : ∀ p ∈ m.pops m.main, fitnessOf o (games ++ new) ((otherNumbers k m.main).flatMap (fun i => (m.pops i).map Ind.id)) [] p ≤
    fitnessOf o (games ++ new) ((otherNumbers k m.main).flatMap (fun i => (m.pops i).map Ind.id)) [] best
  offspring : selectAndReproduce o c (m.s.generation + 1) (m.pops m.main)
    ((m.pops m.main).map (fitnessOf o (games ++ new) ((otherNumbers k m.main).flatMap (fun i => (m.pops i).map Ind.id)) [])) m.s.next = .ok (m'.pops m.main, m'.s.next)
  next : m.s.next ≤ m'.s.next
  allNew : c.elitism = false → ∀ p ∈ m'.pops m.main, m.s.next ≤ p.id

theorem bestPart_eq (c : Settings K) (l : List (Ind K n)) (h : l.length = c.populationSize) : bestPart l = (l.take (max 1 (c.populationSize / 2))).map Ind.id := by
  unfold bestPart
  rw [h]
  congr 2
  split <;> omega

theorem manyGeneration_ok (o : Oracle K n) (ho : Fair o) [IsStrictOrderedRing K] (c : Settings K) (hc : Sensible c) (k : Nat)
    (m : Many K n) (games : List (Nat × Nat × K)) (h : ManyConsistent c k m games) :
    ∃ m' new best, manyGeneration o c k m = .ok m' ∧ ManyStep o c k m games new best m' := by
  have hs1 := hc.some_selected
  have hs2 := hc.not_more
  have hpos : 0 < c.populationSize := by omega
  have hm : m.main < k := by rw [h.main]; exact Nat.mod_lt _ h.some
  have hoth := others_eq c hpos k m games h
  have hmem : ∀ i ∈ otherNumbers k m.main, i < k ∧ i ≠ m.main := by
    intro i hi
    unfold otherNumbers at hi
    rw [List.mem_filter, List.mem_range] at hi
    simpa using hi
  obtain ⟨new, r1, p1, n1, m1, t1⟩ := tournaments_full o.eval o.sample ho.sample (m.s.pop.map Ind.id) c.tournamentSize (max 1 (c.populationSize / 2))
    ((otherNumbers k m.main).map (fun i => bestPart (m.pops i))) m.s.book games h.reflects h.paired (by
      intro l hl
      obtain ⟨i, hi, rfl⟩ := List.mem_map.1 hl
      obtain ⟨i1, i2⟩ := hmem i hi
      rw [bestPart_eq c _ (h.size i i1)]
      refine ⟨?_, ?_⟩
      · rw [List.length_map, List.length_take, h.size i i1]; omega
      · intro p hp hq
        obtain ⟨x, hx, rfl⟩ := List.mem_map.1 hp
        obtain ⟨y, hy, he⟩ := List.mem_map.1 hq
        rw [h.current] at hx
        exact h.apart m.main hm i i1 (Ne.symm i2) x hx y (List.mem_of_mem_take hy) he.symm)
  set opps := (otherNumbers k m.main).flatMap (fun i => (m.pops i).map Ind.id) with hopps
  set F := fitnessOf o (games ++ new) opps [] with hF
  have hflat : ((otherNumbers k m.main).map m.pops).flatten.map Ind.id = opps := by
    rw [hopps, List.map_flatten, List.map_map, List.flatMap]; rfl
  obtain ⟨b, hb⟩ : ∃ b, b = ((otherNumbers k m.main).map (fun i => bestPart (m.pops i))).foldl (fun b l => doTournament o.eval o.sample b (m.s.pop.map Ind.id) l (some c.tournamentSize)) m.s.book := ⟨_, rfl⟩
  rw [← hb] at r1
  have heval : manyEvaluate o c k { m with s := { m.s with generation := m.s.generation + 1 } } = .ok (m.s.pop.map F, b) := by
    unfold manyEvaluate
    have : others k ({ m with s := { m.s with generation := m.s.generation + 1 } } : Many K n) = others k m := rfl
    rw [this, hoth, hflat, List.foldl_map]
    rw [List.foldl_map] at hb
    dsimp only
    rw [← hb, co_mapM_ok _ F _ (fun p _ => fitness_eq o b _ r1 p1 opps [] p)]
    rfl
  have hcur := h.current
  obtain ⟨s', best, f1, f2⟩ := finish_ok o ho c hc { m.s with generation := m.s.generation + 1 } F b (by dsimp only; rw [hcur]; exact h.size _ hm)
    (by dsimp only; rw [hcur]; exact h.ids _ hm) (by dsimp only; rw [hcur]; exact h.fresh _ hm)
  have hnext := f2.next
  have hgen := f2.generation
  have hof := f2.hof
  have hoff := f2.offspring
  have hbest := f2.best
  have hbm := f2.mem
  obtain ⟨fs, g1, g2⟩ := f2.fits
  have hkept := f2.kept
  dsimp only at f1 hnext hgen hof hoff hbest hbm g1 g2 hkept
  rw [hcur] at hoff hbest hbm g1 hkept
  have hmm : (m.s.generation + 1) % k < k := Nat.mod_lt _ h.some
  refine ⟨{ s := { s' with pop := if (s'.generation % k) = m.main then s'.pop else m.pops (s'.generation % k) }, pops := fun i => if i = m.main then s'.pop else m.pops i, main := s'.generation % k },
    new, best, ?_, ?_⟩
  · unfold manyGeneration
    dsimp only
    rw [heval]
    simp only [bind, Except.bind, f1, pure, Except.pure]
  · refine ⟨⟨h.some, rfl, rfl, ?_, ?_, ?_, ?_, ?_, ?_, ?_, by rw [← f2.book] at r1; exact r1, p1⟩, ?_, ?_, ?_, hgen, ?_, hof, ⟨fs, g1, g2⟩, hbm, hbest, ?_, hnext, ?_⟩
    · intro i hi
      dsimp only
      split
      · exact f2.size
      · exact h.size i hi
    · intro i hi
      dsimp only
      split
      · exact f2.ids
      · exact h.ids i hi
    · intro i hi j hj hij p hp q hq he
      dsimp only at hp hq
      split at hp
      · rename_i hi'
        rw [if_neg (by omega)] at hq
        have hlt := h.fresh j hj q hq
        have := hkept p hp (by omega)
        exact h.apart i hi j hj hij p (hi' ▸ this) q hq he
      · split at hq
        · rename_i hj'
          have hlt := h.fresh i hi p hp
          have := hkept q hq (by omega)
          exact h.apart i hi j hj hij p hp q (hj' ▸ this) he
        · exact h.apart i hi j hj hij p hp q hq he
    · intro i hi p hp
      dsimp only at hp ⊢
      split at hp
      · exact f2.fresh p hp
      · exact lt_of_lt_of_le (h.fresh i hi p hp) hnext
    · intro g hg
      dsimp only
      rcases List.mem_append.1 hg with hg | hg
      · have := h.played g hg
        exact ⟨lt_of_lt_of_le this.1 hnext, lt_of_lt_of_le this.2 hnext⟩
      · obtain ⟨l, hl, hcase⟩ := m1 g hg
        obtain ⟨i, hi, rfl⟩ := List.mem_map.1 hl
        have hlt1 : ∀ x ∈ m.s.pop.map Ind.id, x < s'.next := by
          intro x hx
          rw [hcur] at hx
          obtain ⟨p, hp, rfl⟩ := List.mem_map.1 hx
          exact lt_of_lt_of_le (h.fresh _ hm p hp) hnext
        have hlt2 : ∀ x ∈ bestPart (m.pops i), x < s'.next := by
          intro x hx
          obtain ⟨p, hp, rfl⟩ := List.mem_map.1 hx
          exact lt_of_lt_of_le (h.fresh i (hmem i hi).1 p (List.mem_of_mem_take hp)) hnext
        rcases hcase with ⟨x, y⟩ | ⟨x, y⟩
        · exact ⟨hlt1 _ x, hlt2 _ y⟩
        · exact ⟨hlt2 _ y, hlt1 _ x⟩
    · dsimp only
      rw [hof, hgen, List.length_append, h.hof]; rfl
    · dsimp only
      rw [g2, hgen, List.length_append, h.fits]; rfl
    · rw [n1, List.length_map, otherNumbers_length k m.main hm, List.length_map, hcur, h.size _ hm]
    · intro i hi hne
      rw [← bestPart_eq c _ (h.size i hi), ← hcur]
      exact t1 _ (List.mem_map.2 ⟨i, by unfold otherNumbers; rw [List.mem_filter, List.mem_range]; exact ⟨hi, by simpa using hne⟩, rfl⟩)
    · intro g hg
      obtain ⟨l, hl, hcase⟩ := m1 g hg
      obtain ⟨i, hi, rfl⟩ := List.mem_map.1 hl
      obtain ⟨i1, i2⟩ := hmem i hi
      rw [hcur] at hcase
      refine ⟨i, i1, i2, ?_⟩
      rcases hcase with ⟨x, y⟩ | ⟨x, y⟩
      · obtain ⟨p, hp, e1⟩ := List.mem_map.1 x
        obtain ⟨q, hq, e2⟩ := List.mem_map.1 y
        exact ⟨p, hp, q, List.mem_of_mem_take hq, Or.inl ⟨e1.symm, e2.symm⟩⟩
      · obtain ⟨p, hp, e1⟩ := List.mem_map.1 x
        obtain ⟨q, hq, e2⟩ := List.mem_map.1 y
        exact ⟨p, hp, q, List.mem_of_mem_take hq, Or.inr ⟨e2.symm, e1.symm⟩⟩
    · intro i hi
      dsimp only
      rw [if_neg hi]
    · dsimp only
      rw [if_pos rfl]
      exact hoff
    · intro he p hp
      dsimp only at hp
      rw [if_pos rfl] at hp
      exact f2.allNew he p hp

/-! ### the start -/

theorem addSeeds_ok (pick : Nat → Nat) (randomize : Nat → (Fin n → K) → Fin n → K) : ∀ (k : Nat) (seeds : List (Ind K n)), seeds ≠ [] →
    seeds.map Ind.id = List.range seeds.length →
    ∃ more, addSeeds pick randomize k seeds = .ok (seeds ++ more) ∧ more.length = k ∧ (seeds ++ more).map Ind.id = List.range (seeds ++ more).length ∧
      ∀ x ∈ more, ∃ y ∈ seeds ++ more, ∃ t, x.params = randomize t y.params := by
  intro k
  induction k with
  | zero => intro seeds _ h; exact ⟨[], by simp [addSeeds], rfl, by simpa using h, by simp⟩
  | succ k ih =>
    intro seeds hne hids
    have hlen : 0 < seeds.length := List.length_pos_iff.2 hne
    have hlt := Nat.mod_lt (pick seeds.length) hlen
    unfold addSeeds
    rw [List.getElem?_eq_getElem hlt]
    simp only
    set x : Ind K n := { seeds[pick seeds.length % seeds.length] with id := seeds.length, params := randomize seeds.length seeds[pick seeds.length % seeds.length].params } with hx
    obtain ⟨more, e1, e2, e3, e4⟩ := ih (seeds ++ [x]) (by simp) (by rw [List.map_append, hids, List.length_append, List.length_singleton, List.range_succ]; rfl)
    refine ⟨x :: more, by rw [e1]; simp, by simp [e2], by simpa using e3, ?_⟩
    intro z hz
    rcases List.mem_cons.1 hz with rfl | hz
    · exact ⟨seeds[pick seeds.length % seeds.length], List.mem_append_left _ (List.getElem_mem hlt), _, rfl⟩
    · obtain ⟨y, hy, t, ht⟩ := e4 z hz
      exact ⟨y, by simpa using hy, t, ht⟩

theorem mem_every {α : Type} (k i : Nat) (l : List α) (x : α) : x ∈ every k i l ↔ ∃ j, l[j]? = some x ∧ i ≤ j ∧ (j - i) % k = 0 := by
  unfold every
  rw [List.mem_map]
  constructor
  · rintro ⟨⟨y, j⟩, hy, rfl⟩
    rw [List.mem_filter, List.mk_mem_zipIdx_iff_getElem?] at hy
    exact ⟨j, hy.1, by simpa using hy.2⟩
  · rintro ⟨j, h1, h2⟩
    exact ⟨(x, j), by rw [List.mem_filter, List.mk_mem_zipIdx_iff_getElem?]; exact ⟨h1, by simpa using h2⟩, rfl⟩

theorem every_sublist {α : Type} (k i : Nat) (l : List α) : (every k i l).Sublist l := by
  unfold every
  have := (List.filter_sublist (l := l.zipIdx) (p := fun x => decide (i ≤ x.2 ∧ (x.2 - i) % k = 0))).map Prod.fst
  rwa [List.zipIdx_map_fst] at this

theorem every_index (k i j : Nat) (hi : i < k) : (i ≤ j ∧ (j - i) % k = 0) ↔ j % k = i := by
  constructor
  · rintro ⟨h1, h2⟩
    obtain ⟨d, hd⟩ := Nat.dvd_of_mod_eq_zero h2
    have : j = i + k * d := by omega
    rw [this, Nat.add_mul_mod_self_left, Nat.mod_eq_of_lt hi]
  · rintro rfl
    refine ⟨Nat.mod_le _ _, ?_⟩
    have := Nat.div_add_mod j k
    have : j - j % k = k * (j / k) := by omega
    rw [this, Nat.mul_mod_right]

theorem every_length {α : Type} (k i P : Nat) (hi : i < k) (l : List α) (hl : l.length ≤ k * P) : (every k i l).length ≤ P := by
  have h1 : (every k i l).length = ((l.zipIdx.filter (fun x => decide (i ≤ x.2 ∧ (x.2 - i) % k = 0))).map (fun x => x.2 / k)).length := by
    unfold every; simp
  rw [h1]
  have hsub : ((l.zipIdx.filter (fun x => decide (i ≤ x.2 ∧ (x.2 - i) % k = 0))).map Prod.snd).Sublist (List.range l.length) := by
    have := (List.filter_sublist (l := l.zipIdx) (p := fun x => decide (i ≤ x.2 ∧ (x.2 - i) % k = 0))).map Prod.snd
    rwa [List.zipIdx_map_snd, ← List.range_eq_range'] at this
  have hnd : ((l.zipIdx.filter (fun x => decide (i ≤ x.2 ∧ (x.2 - i) % k = 0))).map (fun x => x.2 / k)).Nodup := by
    have h2 : ((l.zipIdx.filter (fun x => decide (i ≤ x.2 ∧ (x.2 - i) % k = 0))).map Prod.snd).Nodup := List.nodup_range.sublist hsub
    have h3 : (l.zipIdx.filter (fun x => decide (i ≤ x.2 ∧ (x.2 - i) % k = 0))).map (fun x => x.2 / k) =
        ((l.zipIdx.filter (fun x => decide (i ≤ x.2 ∧ (x.2 - i) % k = 0))).map Prod.snd).map (fun j => j / k) := by rw [List.map_map]; rfl
    rw [h3]
    apply List.Nodup.map_on _ h2
    intro a ha b hb hab
    obtain ⟨⟨x, a'⟩, ha1, rfl⟩ := List.mem_map.1 ha
    obtain ⟨⟨y, b'⟩, hb1, rfl⟩ := List.mem_map.1 hb
    rw [List.mem_filter] at ha1 hb1
    have e1 := (every_index k i a' hi).1 (by simpa using ha1.2)
    have e2 := (every_index k i b' hi).1 (by simpa using hb1.2)
    dsimp only at hab ⊢
    rw [← Nat.div_add_mod a' k, ← Nat.div_add_mod b' k, e1, e2, hab]
  have hss : ((l.zipIdx.filter (fun x => decide (i ≤ x.2 ∧ (x.2 - i) % k = 0))).map (fun x => x.2 / k)) ⊆ List.range P := by
    intro a ha
    obtain ⟨⟨x, j⟩, hj, rfl⟩ := List.mem_map.1 ha
    rw [List.mem_filter] at hj
    have hjl : j ∈ List.range l.length := hsub.subset (List.mem_map.2 ⟨(x, j), List.mem_filter.2 hj, rfl⟩)
    rw [List.mem_range] at hjl ⊢
    exact Nat.div_lt_of_lt_mul (by omega)
  have := (List.subperm_of_subset hnd hss).length_le
  rwa [List.length_range] at this

theorem buildPops_ok (o : Oracle K n) (c : Settings K) (k : Nat) (seeds : List (Ind K n)) (hids : (seeds.map Ind.id).Nodup)
    (hsize : ∀ i < k, (every k i seeds).length ≤ c.populationSize) (hne : ∀ i < k, every k i seeds ≠ []) :
    ∀ (is : List Nat) (next : Nat), is.Nodup → (∀ i ∈ is, i < k) → (∀ p ∈ seeds, p.id < next) →
    ∃ (ch : Nat → List (Ind K n)) (next' : Nat), buildPops o c k seeds is next = .ok (is.map (fun i => every k i seeds ++ ch i), next') ∧ next ≤ next' ∧
      (∀ i ∈ is, ∀ p ∈ ch i, next ≤ p.id ∧ p.id < next') ∧
      (∀ i ∈ is, (every k i seeds ++ ch i).length = c.populationSize ∧ ((every k i seeds ++ ch i).map Ind.id).Nodup) ∧
      (∀ i ∈ is, ∀ j ∈ is, i ≠ j → ∀ p ∈ ch i, ∀ q ∈ ch j, p.id ≠ q.id) := by
  intro is
  induction is with
  | nil => intro next _ _ _; exact ⟨fun _ => [], next, rfl, le_rfl, by simp, by simp, by simp⟩
  | cons i is ih =>
    intro next hnd hlt hfresh
    rw [List.nodup_cons] at hnd
    have hik := hlt i (by simp)
    have hsub := every_sublist k i seeds
    have hsn : ((every k i seeds).map Ind.id).Nodup := hids.sublist (hsub.map _)
    have hsl : ∀ p ∈ every k i seeds, p.id < next := fun p hp => hfresh p (hsub.subset hp)
    obtain ⟨l, e1, e2, _⟩ := extend_ok o c (every k i seeds) (hne i hik) c.populationSize next
    obtain ⟨n1, n2, n3, n4⟩ := nodup_extend _ _ _ _ hsn hsl e2
    obtain ⟨ch, next', b1, b2, b3, b4, b5⟩ := ih (next + (c.populationSize - (every k i seeds).length)) hnd.2 (fun j hj => hlt j (by simp [hj])) (fun p hp => by have := hfresh p hp; omega)
    have hne' : ∀ j ∈ is, j ≠ i := by rintro j hj rfl; exact hnd.1 hj
    refine ⟨fun j => if j = i then l else ch j, next', ?_, by omega, ?_, ?_, ?_⟩
    · unfold buildPops
      rw [e1]
      simp only [bind, Except.bind, b1, pure, Except.pure]
      congr 2
      rw [List.map_cons, if_pos rfl]
      congr 1
      exact List.map_congr_left (fun j hj => by rw [if_neg (hne' j hj)])
    · intro j hj p hp
      dsimp only at hp
      rcases List.mem_cons.1 hj with rfl | hj
      · rw [if_pos rfl] at hp
        have := n2 p (List.mem_append_right _ hp)
        exact ⟨n3 p hp, by omega⟩
      · rw [if_neg (hne' j hj)] at hp
        have := b3 j hj p hp
        exact ⟨by omega, this.2⟩
    · intro j hj
      dsimp only
      rcases List.mem_cons.1 hj with rfl | hj
      · rw [if_pos rfl]
        refine ⟨?_, n1⟩
        have := hsize j hik
        rw [List.length_append, n4]; omega
      · rw [if_neg (hne' j hj)]
        exact b4 j hj
    · intro a ha b hb hab p hp q hq
      dsimp only at hp hq
      rcases List.mem_cons.1 ha with rfl | ha'
      · rcases List.mem_cons.1 hb with rfl | hb
        · exact absurd rfl hab
        · rw [if_pos rfl] at hp
          rw [if_neg (hne' b hb)] at hq
          have := n2 p (List.mem_append_right _ hp)
          have := b3 b hb q hq
          omega
      · rw [if_neg (hne' a ha')] at hp
        rcases List.mem_cons.1 hb with rfl | hb
        · rw [if_pos rfl] at hq
          have := n2 q (List.mem_append_right _ hq)
          have := b3 a ha' p hp
          omega
        · rw [if_neg (hne' b hb)] at hq
          exact b5 a ha' b hb hab p hp q hq

end Verif.Coevolution
