import Verif.Model.MultiObjective
import Verif.Spec.MultiObjective
import Verif.Props.NonDominated
import Verif.Props.GA
/-
C122: multi-objective genetic algorithms.
-/
namespace Verif.MOGA
open Verif.DataSet (Err)
open Verif.GA (Config Rand crossOver mutated eliteSize selectionSize kept Fair Inherits crossOver_ok)
open Verif.NonDom
open Verif.NonDom.Spec (IsFront)
open Verif.Props (SortedFronts cutFronts cutFronts_spec selectLoop_eq)

variable {K V : Type} [CommRing K] [LinearOrder K]

/-- Traversals visit every element once. -/
structure Orders.Fair (o : Orders K V) : Prop where
  items : ∀ l, (o.σ l).Perm l
  positions : ∀ l, (o.σi l).Perm l
  crowd : ∀ key l, (o.byCrowd key l).Perm l

theorem get?_put (d : Dict K V) (x y : List K) (v : V) : get? (put d x v) y = if y = x then some v else get? d y := by
  have hmap : ∀ d : Dict K V, get? (d.map fun e => if e.1 = x then (x, v) else e) y =
      if y = x then (get? d x).map (fun _ => v) else get? d y := by
    intro d
    induction d with
    | nil => simp [get?]
    | cons e d ih =>
      unfold get? at ih ⊢
      rw [List.map_cons, List.find?_cons, List.find?_cons, List.find?_cons]
      by_cases he : e.1 = x
      · rw [if_pos he]
        by_cases hyx : y = x
        · subst hyx; simp [he]
        · have h1 : ¬ x = y := fun h => hyx h.symm
          simp [h1, hyx, he] at ih ⊢
          exact ih
      · rw [if_neg he]
        by_cases hey : e.1 = y
        · have hyx : ¬ y = x := fun h => he (hey.trans h)
          simp [hey, hyx]
        · simp [hey, he] at ih ⊢
          exact ih
  unfold put
  by_cases h : (get? d x).isSome
  · rw [if_pos h, hmap]
    obtain ⟨w, hw⟩ := Option.isSome_iff_exists.1 h
    rw [hw]; rfl
  · rw [if_neg h]
    have hn : get? d x = none := by simpa using h
    unfold get? at hn ⊢
    rw [List.find?_append]
    by_cases hyx : y = x
    · subst hyx
      rw [if_pos rfl]
      have : d.find? (fun e => decide (e.1 = y)) = none := by simpa using hn
      simp [this]
    · have h1 : ¬ x = y := fun h => hyx h.symm
      simp [hyx, h1]

/-- All stored values are those of the evaluator. -/
def Right (F : List K → V) (d : Option (Dict K V)) : Prop := ∀ x v, d.bind (get? · x) = some v → v = F x

theorem evalPop_spec (F : List K → V) (old : Option (Dict K V)) (ho : Right F old) (pop : List (List K)) :
    (∀ x, get? (evalPop F old pop).1 x = if x ∈ pop then some (F x) else none) ∧
      (evalPop F old pop).2 = pop.countP (fun x => (old.bind (get? · x)).isNone) := by
  have gen : ∀ (pop : List (List K)) (d : Dict K V) (n : Nat),
      let r := pop.foldl (evalOne F old) (d, n)
      (∀ x, get? r.1 x = if x ∈ pop then some (F x) else get? d x) ∧ r.2 = n + pop.countP (fun x => (old.bind (get? · x)).isNone) := by
    intro pop
    induction pop with
    | nil => intro d n; simp
    | cons x pop ih =>
      intro d n
      simp only [List.foldl_cons]
      cases hx : old.bind (get? · x) with
      | some v =>
        have hone : evalOne F old (d, n) x = (put d x v, n) := by simp [evalOne, hx]
        rw [hone]
        obtain ⟨h1, h2⟩ := ih (put d x v) n
        refine ⟨fun y => ?_, ?_⟩
        · rw [h1 y, get?_put, ho x v hx]
          by_cases hy : y = x <;> by_cases hyp : y ∈ pop <;> simp [hy, hyp]
        · rw [h2, List.countP_cons]; simp [hx]
      | none =>
        have hone : evalOne F old (d, n) x = (put d x (F x), n + 1) := by simp [evalOne, hx]
        rw [hone]
        obtain ⟨h1, h2⟩ := ih (put d x (F x)) (n + 1)
        refine ⟨fun y => ?_, ?_⟩
        · rw [h1 y, get?_put]
          by_cases hy : y = x <;> by_cases hyp : y ∈ pop <;> simp [hy, hyp]
        · rw [h2, List.countP_cons]; simp [hx]; omega
  obtain ⟨h1, h2⟩ := gen pop [] 0
  refine ⟨fun x => ?_, ?_⟩
  · have := h1 x
    unfold evalPop
    rw [this]
    simp [get?]
  · unfold evalPop; rw [h2, Nat.zero_add]

theorem mem_distinct {α : Type} [DecidableEq α] {l : List α} {x : α} : x ∈ distinct l ↔ x ∈ l := List.mem_eraseDups

theorem nodup_distinct {α : Type} [DecidableEq α] (l : List α) : (distinct l).Nodup := nodup_eraseDups' l

theorem isFront_congr {α : Type} {d e : α → α → Prop} {items R : List α} (h : IsFront d items R)
    (hde : ∀ a ∈ items, ∀ b ∈ items, d a b ↔ e a b) : IsFront e items R :=
  ⟨h.nodup, h.sub, fun a ha b hb hab hd => h.indep a ha b hb hab ((hde a (h.sub a ha) b (h.sub b hb)).2 hd),
    fun x hx hxR => by obtain ⟨y, hy, hd⟩ := h.covers x hx hxR; exact ⟨y, hy, (hde y (h.sub y hy) x hx).1 hd⟩⟩

theorem front_spec (dom : V → V → Bool) (hdom : ∀ a b c, dom a b = true → dom b c = true → dom a c = true) (o : Orders K V) (ho : o.Fair)
    (key : List K → V) (items : List (List K)) :
    ∃ R, front dom o key items = some R ∧ IsFront (fun a b => dom (key a) (key b) = true) items R := by
  obtain ⟨R, hR⟩ := frontMerge_total 100 (by omega) (frontOn (fun a b => dom (key a) (key b)) o.σi) o.σ ho.items (items.length + 1) items (by omega)
  refine ⟨R, hR, frontMerge_spec (fun a b c => hdom (key a) (key b) (key c)) 100 _ (fun l => ?_) o.σ ho.items _ items R hR⟩
  exact frontOn_spec (fun a b => dom (key a) (key b)) (fun a b c => hdom (key a) (key b) (key c)) o.σi ho.positions l

theorem select_spec (dom : V → V → Bool) (hdom : ∀ a b c, dom a b = true → dom b c = true → dom a c = true) (o : Orders K V) (ho : o.Fair)
    (c : Config K) (key : List K → V) (pop : List (List K)) :
    ∃ ps fs, select dom o c key pop = some ps ∧ SortedFronts (fun a b => dom (key a) (key b) = true) pop fs ∧ ps.Nodup ∧
      ps.length = min (selectionSize c) (distinct pop).length ∧ (∀ x ∈ ps, x ∈ pop) ∧
      (∀ i j x, i < j → x ∈ fs.getD j [] → x ∈ ps → ∀ y ∈ fs.getD i [], y ∈ ps) := by
  obtain ⟨fs, h1, h2⟩ := sortLoop_spec (dom := fun a b => dom (key a) (key b) = true) (front dom o key) o.σ ho.items
    (fun l => front_spec dom hdom o ho key l) pop.length (distinct pop) (Verif.Props.length_eraseDups_le' pop)
  have hs := Verif.Props.ranked_sorted h2
  have hfs : SortedFronts (fun a b => dom (key a) (key b) = true) pop fs :=
    ⟨⟨hs.partition.1, fun x => by rw [hs.partition.2, mem_distinct]⟩, hs.nonempty, hs.indep, hs.ranked⟩
  obtain ⟨i1, i2, i3, i4, -⟩ := cutFronts_spec (o.byCrowd key) (ho.crowd key) fs (selectionSize c) hfs.partition.1
  have hsel : nsga2select (o.byCrowd key) (selectionSize c) fs = cutFronts (o.byCrowd key) (selectionSize c) fs := by
    have := selectLoop_eq (o.byCrowd key) (ho.crowd key) (selectionSize c) fs [] (by simpa using hfs.partition.1)
    simpa [nsga2select] using this
  have hperm := ho.items (cutFronts (o.byCrowd key) (selectionSize c) fs)
  have hlen : fs.flatten.length = (distinct pop).length :=
    ((List.perm_ext_iff_of_nodup hfs.partition.1 (nodup_distinct pop)).2 fun x => by
      rw [hfs.partition.2, mem_distinct]).length_eq
  refine ⟨o.σ (cutFronts (o.byCrowd key) (selectionSize c) fs), fs, ?_, hfs, hperm.nodup_iff.2 i1, ?_, fun x hx => ?_, ?_⟩
  · unfold select sorted
    rw [h1, Option.map_some, hsel]
  · rw [hperm.length_eq, i2, hlen]
  · exact (hfs.partition.2 x).1 (i3 x (hperm.mem_iff.1 hx))
  · intro i j x hij hx hxp y hy
    exact hperm.mem_iff.2 (i4 i j x hij hx (hperm.mem_iff.1 hxp) y hy)

theorem undominated_of_front {α : Type} {d : α → α → Prop} (hirr : ∀ a, ¬ d a a) (htr : ∀ a b c, d a b → d b c → d a c) {items R : List α}
    (h : IsFront d items R) (x : α) : x ∈ R ↔ x ∈ items ∧ ∀ y ∈ items, ¬ d y x := by
  refine ⟨fun hx => ⟨h.sub x hx, fun y hy hb => ?_⟩, fun ⟨hx, hn⟩ => ?_⟩
  · by_cases hyR : y ∈ R
    · exact h.indep y hyR x hx (fun he => hirr x (he ▸ hb)) hb
    · obtain ⟨z, hz, hzb⟩ := h.covers y hy hyR
      have hzx := htr _ _ _ hzb hb
      exact h.indep z hz x hx (fun he => hirr x (he ▸ hzx)) hzx
  · by_contra hxR
    obtain ⟨y, hy, hb⟩ := h.covers x hx hxR
    exact hn y (h.sub y hy) hb

theorem undominated_first {α : Type} {d : α → α → Prop} (hirr : ∀ a, ¬ d a a) (htr : ∀ a b c, d a b → d b c → d a c) {items : List α}
    {fs : List (List α)} (h : SortedFronts d items fs) (x : α) : x ∈ fs.getD 0 [] ↔ x ∈ items ∧ ∀ y ∈ items, ¬ d y x := by
  have inFront : ∀ y ∈ items, ∃ j, y ∈ fs.getD j [] := by
    intro y hy
    obtain ⟨f, hf, hyf⟩ := List.mem_flatten.1 ((h.partition.2 y).2 hy)
    obtain ⟨j, hj, rfl⟩ := List.mem_iff_getElem.1 hf
    exact ⟨j, by rw [List.getD_eq_getElem?_getD, List.getElem?_eq_getElem hj]; exact hyf⟩
  have ofFront : ∀ j y, y ∈ fs.getD j [] → y ∈ items ∧ fs.getD j [] ∈ fs := by
    intro j y hy
    rw [List.getD_eq_getElem?_getD] at hy ⊢
    cases hj : fs[j]? with
    | none => rw [hj] at hy; simp at hy
    | some f =>
      rw [hj] at hy
      exact ⟨(h.partition.2 y).1 (List.mem_flatten.2 ⟨f, List.mem_of_getElem? hj, hy⟩), List.mem_of_getElem? hj⟩
  have root : ∀ j y, y ∈ fs.getD j [] → ∃ z ∈ fs.getD 0 [], z = y ∨ d z y := by
    intro j
    induction j with
    | zero => exact fun y hy => ⟨y, hy, Or.inl rfl⟩
    | succ j ih =>
      intro y hy
      obtain ⟨w, hw, hd⟩ := h.ranked j y hy
      obtain ⟨z, hz, rfl | hzw⟩ := ih w hw
      · exact ⟨z, hz, Or.inr hd⟩
      · exact ⟨z, hz, Or.inr (htr _ _ _ hzw hd)⟩
  constructor
  · intro hx
    refine ⟨(ofFront 0 x hx).1, fun y hy hd => ?_⟩
    obtain ⟨j, hj⟩ := inFront y hy
    obtain ⟨z, hz, hzy⟩ := root j y hj
    have hzx : d z x := by rcases hzy with rfl | h; exacts [hd, htr _ _ _ h hd]
    exact h.indep _ (ofFront 0 x hx).2 z hz x hx (fun he => hirr x (he ▸ hzx)) hzx
  · rintro ⟨hx, hn⟩
    obtain ⟨j, hj⟩ := inFront x hx
    cases j with
    | zero => exact hj
    | succ j =>
      obtain ⟨w, hw, hd⟩ := h.ranked j x hj
      exact absurd hd (hn w (ofFront j w hw).1)

/-- What one generation with elitism computes before the offspring. -/
theorem step_core [Inhabited V] (dom : V → V → Bool) (hdom : ∀ a b c, dom a b = true → dom b c = true → dom a c = true) (o : Orders K V) (ho : o.Fair)
    (c : Config K) (he : c.elitism = true) (F : List K → V) (r : Rand K) (s : St K V) (hs : Right F s.fitnesses) :
    ∃ (d : Dict K V) (R ps : List (List K)),
      learnStep dom o c F r s = (match offspring c r ps with
        | .error e => .error e
        | .ok pop => .ok { pop := pop, fitnesses := some d, best := some R, bestEvaluation := R.map F
                           numEvaluations := s.numEvaluations + s.pop.countP (fun x => (s.fitnesses.bind (get? · x)).isNone) }) ∧
      IsFront (fun a b => dom (F a) (F b) = true) s.pop R ∧
      (∀ x, get? d x = if x ∈ s.pop then some (F x) else none) ∧ ps.Nodup ∧
      ps.length = min (selectionSize c) (distinct s.pop).length ∧ (∀ x ∈ ps, x ∈ s.pop) ∧
      ((∀ v, dom v v = false) → R.length ≤ selectionSize c → ∀ x ∈ R, x ∈ ps) := by
  obtain ⟨hd1, hd2⟩ := evalPop_spec F s.fitnesses hs s.pop
  set d := (evalPop F s.fitnesses s.pop).1 with hd
  set n := (evalPop F s.fitnesses s.pop).2 with hn
  set key : List K → V := fun x => (get? d x).getD default with hkey
  have hkF : ∀ x ∈ s.pop, key x = F x := fun x hx => by simp [hkey, hd1, hx]
  have hcong : ∀ a ∈ s.pop, ∀ b ∈ s.pop, dom (key a) (key b) = true ↔ dom (F a) (F b) = true := fun a ha b hb => by rw [hkF a ha, hkF b hb]
  obtain ⟨R, hR, hRf⟩ := front_spec dom hdom o ho key s.pop
  have hRF := isFront_congr hRf hcong
  obtain ⟨ps, fs, hps, hfs, p1, p2, p3, p4⟩ := select_spec dom hdom o ho c key s.pop
  have hRp := ho.items R
  have hbe : (o.σ R).map key = (o.σ R).map F := List.map_congr_left fun x hx => hkF x (hRf.sub x (hRp.mem_iff.1 hx))
  refine ⟨d, o.σ R, ps, ?_, ?_, hd1, p1, p2, p3, ?_⟩
  · unfold learnStep
    dsimp only
    rw [he, if_pos rfl]
    dsimp only
    rw [hR, hps]
    dsimp only
    rw [← hd2, ← hbe]
    cases offspring c r ps <;> rfl
  · exact ⟨hRp.nodup_iff.2 hRF.nodup, fun x hx => hRF.sub x (hRp.mem_iff.1 hx),
      fun a ha b hb => hRF.indep a (hRp.mem_iff.1 ha) b (hRp.mem_iff.1 hb),
      fun x hx hxR => by
        obtain ⟨y, hy, h⟩ := hRF.covers x hx (fun h => hxR (hRp.mem_iff.2 h))
        exact ⟨y, hRp.mem_iff.2 hy, h⟩⟩
  · intro hirr hlen x hx
    rw [hRp.mem_iff] at hx
    rw [hRp.length_eq] at hlen
    have hU := undominated_of_front (fun v => by simp [hirr]) (fun a b c => hdom (key a) (key b) (key c)) hRf
    have h0 := undominated_first (fun v => by simp [hirr]) (fun a b c => hdom (key a) (key b) (key c)) hfs
    have hn0 : (fs.getD 0 []).Nodup := by
      cases fs with
      | nil => simp
      | cons f fs => exact (List.nodup_append.1 (by simpa using hfs.partition.1)).1
    have hperm0 : (fs.getD 0 []).Perm R := (List.perm_ext_iff_of_nodup hn0 hRf.nodup).2 fun y => by rw [h0, hU]
    have hx0 : x ∈ fs.getD 0 [] := hperm0.mem_iff.2 hx
    by_contra hxps
    have hsub : ∀ y ∈ ps, y ∈ (fs.getD 0 []).erase x := by
      intro y hy
      have hyx : y ≠ x := fun h => hxps (h ▸ hy)
      rw [List.mem_erase_of_ne hyx]
      obtain ⟨f, hf, hyf⟩ := List.mem_flatten.1 ((hfs.partition.2 y).2 (p3 y hy))
      obtain ⟨j, hj, rfl⟩ := List.mem_iff_getElem.1 hf
      rcases Nat.eq_zero_or_pos j with rfl | hj0
      · rw [List.getD_eq_getElem?_getD, List.getElem?_eq_getElem hj]; exact hyf
      · exact absurd (p4 0 j y hj0 (by rw [List.getD_eq_getElem?_getD, List.getElem?_eq_getElem hj]; exact hyf) hy x hx0) hxps
    have hle := (p1.subperm hsub).length_le
    rw [List.length_erase_of_mem hx0, hperm0.length_eq] at hle
    have hpos : 0 < R.length := List.length_pos_of_mem hx
    have hRd : R.length ≤ (distinct s.pop).length :=
      (hRf.nodup.subperm fun y hy => mem_distinct.2 (hRf.sub y hy)).length_le
    omega

theorem right_of (F : List K → V) (d : Dict K V) (pop : List (List K)) (h : ∀ x, get? d x = if x ∈ pop then some (F x) else none) :
    Right F (some d) := by
  intro x v hv
  simp only [Option.bind_some, h] at hv
  split_ifs at hv
  exact (Option.some.inj hv).symm

/-- The offspring begin with the elite. -/
theorem offspring_inv (c : Config K) (r : Rand K) (ps pop : List (List K)) (h : offspring c r ps = .ok pop) :
    ∃ cs, pop = ps.take (kept c) ++ cs := by
  unfold offspring at h
  dsimp only at h
  split at h
  · simp at h
  · exact ⟨_, (Except.ok.inj h).symm⟩

theorem offspring_ok (c : Config K) (r : Rand K) (hr : Fair c r) (ps : List (List K)) (hl : ∀ p ∈ ps, p.length = c.xdim) (h2 : 2 ≤ ps.length)
    (hk : kept c < c.populationSize) :
    ∃ cs, offspring c r ps = .ok (ps.take (kept c) ++ cs) ∧ cs.length = c.populationSize - kept c ∧ (∀ x ∈ cs, x.length = c.xdim) ∧
      ∀ k x, cs[k]? = some x → ∀ i < c.xdim, r.coin k i = true ∨ ∃ p ∈ ps, x[i]? = p[i]? := by
  obtain ⟨cs, c1, c2, c3⟩ := crossOver_ok c r hr ps hl h2 (c.populationSize - kept c)
  refine ⟨cs.zipIdx.map (fun (x, k) => mutated c r k x), ?_, by simp [c2], ?_, ?_⟩
  · unfold offspring
    dsimp only
    have hk' : ¬ c.populationSize ≤ min (eliteSize c) (selectionSize c) := not_le.2 hk
    rw [if_neg hk', show min (eliteSize c) (selectionSize c) = kept c from rfl, c1]
  · intro x hx
    obtain ⟨⟨y, k⟩, hy, rfl⟩ := List.mem_map.1 hx
    have := (c3 y (List.fst_mem_of_mem_zipIdx hy)).1
    simpa [mutated] using this
  · intro k x hx i hi
    rw [List.getElem?_map, List.getElem?_zipIdx] at hx
    cases hc : cs[k]? with
    | none => rw [hc] at hx; simp at hx
    | some y =>
      rw [hc] at hx
      simp only [Option.map_some, Option.some.injEq, Nat.zero_add] at hx
      subst hx
      have hy := c3 y (List.mem_of_getElem? hc)
      have hiy : i < y.length := by rw [hy.1]; exact hi
      by_cases hcoin : r.coin k i = true
      · exact Or.inl hcoin
      · refine Or.inr ?_
        obtain ⟨p, hp, he⟩ := hy.2 i hiy
        refine ⟨p, hp, ?_⟩
        rw [← he]
        simp [mutated, List.getElem?_eq_getElem hiy, hcoin]

end Verif.MOGA

namespace Verif.Props
open Verif.DataSet (Err)
open Verif.GA (Config Rand eliteSize selectionSize kept Fair)
open Verif.NonDom Verif.MOGA Verif.MOGA.Spec
open Verif.NonDom.Spec (IsFront)

variable {K : Type} [CommRing K] [LinearOrder K] [IsStrictOrderedRing K]

theorem MOGA_beats (minimize : Bool) (dim : Nat) (f : List K → Nat → K) (a b : List K) :
    domArr dim true (internal minimize f a) (internal minimize f b) = true ↔ Beats (!minimize) dim (f a) (f b) := by
  rw [domArr_iff]
  cases minimize <;> simp [NonDom.Spec.Better, Beats, internal]

theorem MOGA_trans (dim : Nat) (a b c : Nat → K) (h1 : domArr dim true a b = true) (h2 : domArr dim true b c = true) :
    domArr dim true a c = true := by
  rw [domArr_iff] at *
  exact rel_trans dim true _ _ _ h1 h2

theorem MOGA_irrefl (dim : Nat) (hd : 0 < dim) (a : Nat → K) : domArr dim true a a = false := by
  rw [Bool.eq_false_iff]
  intro h
  rw [domArr_iff] at h
  exact lt_irrefl _ (h 0 hd)

theorem MOGA_front (minimize : Bool) (dim : Nat) (hd : 0 < dim) (f : List K → Nat → K) (pop R : List (List K))
    (h : IsFront (fun a b => domArr dim true (internal minimize f a) (internal minimize f b) = true) pop R) :
    ParetoFront (!minimize) dim f pop R := by
  refine ⟨h.nodup, fun x => ?_⟩
  rw [undominated_of_front (fun a => by simp [MOGA_irrefl dim hd]) (fun a b c => MOGA_trans dim (internal minimize f a) (internal minimize f b) (internal minimize f c)) h x]
  simp only [MOGA_beats]

/-- **C122, one generation.** With elitism, two parents to select, two different individuals and room for children, a generation succeeds, whatever
was evaluated before. Reported are exactly those individuals of the evaluated population that no other one beats in all objectives, in the direction
*opposite* to the one the user asked for (see `C122_negation_direction`), with their (internal) evaluations. Only individuals that were not in the
previous population are evaluated. The next population begins with the elite, which consists of different parents; all genes of the others come from
parents, unless mutated. -/
theorem C122_generation (o : Orders K (Nat → K)) (ho : o.Fair) (c : Config K) (he : c.elitism = true) (minimize : Bool) (dim : Nat) (hd : 0 < dim)
    (f : List K → Nat → K) (r : Rand K) (hr : Fair c r) (s : St K (Nat → K)) (hs : Right (internal minimize f) s.fitnesses)
    (hl : ∀ p ∈ s.pop, p.length = c.xdim) (h2 : 2 ≤ selectionSize c) (hp : 2 ≤ (distinct s.pop).length) (hk : kept c < c.populationSize) :
    ∃ (s' : St K (Nat → K)) (R ps cs : List (List K)), learnStep (domArr dim true) o c (internal minimize f) r s = .ok s' ∧
      s'.best = some R ∧ ParetoFront (!minimize) dim f s.pop R ∧ s'.bestEvaluation = R.map (internal minimize f) ∧
      s'.numEvaluations = s.numEvaluations + s.pop.countP (fun x => (s.fitnesses.bind (get? · x)).isNone) ∧
      Right (internal minimize f) s'.fitnesses ∧ (∀ x, (s'.fitnesses.bind (get? · x)).isSome ↔ x ∈ s.pop) ∧
      s'.pop = ps.take (kept c) ++ cs ∧ ps.Nodup ∧ (∀ x ∈ ps, x ∈ s.pop) ∧ ps.length = min (selectionSize c) (distinct s.pop).length ∧
      cs.length = c.populationSize - kept c ∧ (∀ x ∈ s'.pop, x.length = c.xdim) ∧
      ∀ k x, cs[k]? = some x → ∀ i < c.xdim, r.coin k i = true ∨ ∃ p ∈ ps, x[i]? = p[i]? := by
  obtain ⟨d, R, ps, e1, e2, e3, e4, e5, e6, -⟩ := step_core (domArr dim true) (MOGA_trans dim) o ho c he (internal minimize f) r s hs
  obtain ⟨cs, c1, c2, c3, c4⟩ := offspring_ok c r hr ps (fun p hp => hl p (e6 p hp)) (by omega) hk
  rw [c1] at e1
  refine ⟨_, R, ps, cs, e1, rfl, MOGA_front minimize dim hd f s.pop R e2, rfl, rfl, right_of _ d s.pop e3, fun x => ?_, rfl, e4, e6, e5, c2, ?_, c4⟩
  · simp only [Option.bind_some, e3]
    split_ifs with h <;> simp [h]
  · intro x hx
    rcases List.mem_append.1 hx with hx | hx
    · exact hl x (e6 x (List.mem_of_mem_take hx))
    · exact c3 x hx

/-- **C122, progress.** If all parents are elite (as by default) and the reported fronts are not larger than the number of parents, then nothing that
was ever evaluated beats a reported individual: the reported fronts do not get worse. -/
theorem C122_progress (o : Orders K (Nat → K)) (ho : o.Fair) (c : Config K) (he : c.elitism = true) (hk : kept c = selectionSize c)
    (minimize : Bool) (dim : Nat) (hd : 0 < dim) (f : List K → Nat → K) (rs : List (Rand K)) (pop : List (List K)) (ss : List (St K (Nat → K)))
    (h : evolve (domArr dim true) o c (internal minimize f) rs (initSt pop) = .ok ss)
    (hfit : ∀ s ∈ ss, ∀ R, s.best = some R → R.length ≤ selectionSize c) :
    ∀ (j : Nat) (s : St K (Nat → K)) (R : List (List K)), ss[j]? = some s → s.best = some R → ∀ i ≤ j, ∀ s0 : St K (Nat → K), (initSt pop :: ss)[i]? = some s0 → ∀ y ∈ s0.pop, ∀ x ∈ R,
      ¬ Beats (!minimize) dim (f y) (f x) := by
  have gen : ∀ (rs : List (Rand K)) (s0 : St K (Nat → K)) (ss : List (St K (Nat → K))) (E : List K → Prop), Right (internal minimize f) s0.fitnesses →
      (∀ y, E y → ∃ z ∈ s0.pop, z = y ∨ Beats (!minimize) dim (f z) (f y)) →
      evolve (domArr dim true) o c (internal minimize f) rs s0 = .ok ss → (∀ s ∈ ss, ∀ R, s.best = some R → R.length ≤ selectionSize c) →
      ∀ (j : Nat) (s : St K (Nat → K)) (R : List (List K)), ss[j]? = some s → s.best = some R →
        (∀ y, E y → ∀ x ∈ R, ¬ Beats (!minimize) dim (f y) (f x)) ∧
        ∀ i ≤ j, ∀ s1 : St K (Nat → K), (s0 :: ss)[i]? = some s1 → ∀ y ∈ s1.pop, ∀ x ∈ R, ¬ Beats (!minimize) dim (f y) (f x) := by
    intro rs
    induction rs with
    | nil =>
      intro s0 ss E _ _ h _ j s R hj
      rw [evolve] at h
      rw [← Except.ok.inj h] at hj
      simp at hj
    | cons r rs ih =>
      intro s0 ss E hR0 hE h hfit j s R hj hb
      rw [evolve] at h
      obtain ⟨d, R1, ps, e1, e2, e3, e4, e5, e6, e7⟩ := step_core (domArr dim true) (MOGA_trans dim) o ho c he (internal minimize f) r s0 hR0
      cases hoff : offspring c r ps with
      | error e => rw [e1, hoff] at h; simp at h
      | ok pop1 =>
        rw [hoff] at e1
        rw [e1] at h
        dsimp only at h
        generalize hs1 : ({ pop := pop1, fitnesses := some d, best := some R1, bestEvaluation := R1.map (internal minimize f)
                            numEvaluations := s0.numEvaluations + s0.pop.countP (fun x => (s0.fitnesses.bind (get? · x)).isNone) } :
                            St K (Nat → K)) = s1 at h
        have hs1p : s1.pop = pop1 := by rw [← hs1]
        have hs1b : s1.best = some R1 := by rw [← hs1]
        have hs1f : s1.fitnesses = some d := by rw [← hs1]
        cases hrest : evolve (domArr dim true) o c (internal minimize f) rs s1 with
        | error e => rw [hrest] at h; simp at h
        | ok ss1 =>
          rw [hrest] at h
          have hss : ss = s1 :: ss1 := (Except.ok.inj h).symm
          subst hss
          have hpf := MOGA_front minimize dim hd f s0.pop R1 e2
          have hbt : ∀ a b c, Beats (!minimize) dim (f a) (f b) → Beats (!minimize) dim (f b) (f c) → Beats (!minimize) dim (f a) (f c) := by
            intro a b c h1 h2
            rw [← MOGA_beats] at *
            exact MOGA_trans dim _ _ _ h1 h2
          -- what was evaluated before does not beat the front
          have hEf : ∀ y, E y → ∀ x ∈ R1, ¬ Beats (!minimize) dim (f y) (f x) := by
            intro y hy x hx hbeat
            obtain ⟨z, hz, rfl | hzy⟩ := hE y hy
            · exact ((hpf.2 x).1 hx).2 z hz hbeat
            · exact ((hpf.2 x).1 hx).2 z hz (hbt _ _ _ hzy hbeat)
          -- the front survives
          have hsurv : ∀ x ∈ R1, x ∈ s1.pop := by
            intro x hx
            have hxp := e7 (MOGA_irrefl dim hd) (hfit s1 (by simp) R1 hs1b) x hx
            obtain ⟨cs, hcs⟩ := offspring_inv c r ps pop1 hoff
            rw [hs1p, hcs]
            refine List.mem_append_left _ ?_
            rw [List.take_of_length_le (by rw [e5, hk]; exact Nat.min_le_left _ _)]
            exact hxp
          have hpopE : ∀ y ∈ s0.pop, ∃ z ∈ s1.pop, z = y ∨ Beats (!minimize) dim (f z) (f y) := by
            intro y hy
            by_cases hyR : y ∈ R1
            · exact ⟨y, hsurv y hyR, Or.inl rfl⟩
            · obtain ⟨z, hz, hzy⟩ := e2.covers y hy hyR
              exact ⟨z, hsurv z hz, Or.inr ((MOGA_beats minimize dim f z y).1 hzy)⟩
          cases j with
          | zero =>
            simp only [List.getElem?_cons_zero, Option.some.injEq] at hj
            subst hj
            rw [hs1b, Option.some.injEq] at hb
            subst hb
            refine ⟨hEf, fun i hi s2 hs2 y hy x hx => ?_⟩
            have : i = 0 := by omega
            subst this
            simp only [List.getElem?_cons_zero, Option.some.injEq] at hs2
            subst hs2
            exact ((hpf.2 x).1 hx).2 y hy
          | succ j =>
            rw [List.getElem?_cons_succ] at hj
            obtain ⟨g1, g2⟩ := ih s1 ss1 (fun y => E y ∨ y ∈ s0.pop) (by rw [hs1f]; exact right_of _ d s0.pop e3) (by
              rintro y (hy | hy)
              · obtain ⟨z, hz, rfl | hzy⟩ := hE y hy
                · exact hpopE z hz
                · obtain ⟨w, hw, rfl | hwz⟩ := hpopE z hz
                  · exact ⟨w, hw, Or.inr hzy⟩
                  · exact ⟨w, hw, Or.inr (hbt _ _ _ hwz hzy)⟩
              · exact hpopE y hy) hrest (fun s hs => hfit s (List.mem_cons_of_mem _ hs)) j s R hj hb
            refine ⟨fun y hy => g1 y (Or.inl hy), fun i hi s2 hs2 y hy x hx => ?_⟩
            cases i with
            | zero =>
              simp only [List.getElem?_cons_zero, Option.some.injEq] at hs2
              subst hs2
              exact g1 y (Or.inr hy) x hx
            | succ i =>
              rw [List.getElem?_cons_succ] at hs2
              exact g2 i (by omega) s2 hs2 y hy x hx
  intro j s R hj hb
  exact (gen rs (initSt pop) ss (fun _ => False) (fun x v h => by simp [initSt] at h) (fun _ h => h.elim) h hfit j s R hj hb).2

/-- **C122 violated: the wrong direction.** In whatever way the user sets `minimize`: an individual that is better than some other one in all
objectives is *not* reported. The optimizer turns functions to be minimised round (`mustMaximize`), but the fronts are made of the smallest values. -/
theorem C122_negation_direction (o : Orders K (Nat → K)) (ho : o.Fair) (c : Config K) (he : c.elitism = true) (minimize : Bool) (dim : Nat)
    (hd : 0 < dim) (f : List K → Nat → K) (r : Rand K) (pop : List (List K)) (s' : St K (Nat → K))
    (h : learnStep (domArr dim true) o c (internal minimize f) r (initSt pop) = .ok s') (x y : List K) (hx : x ∈ pop)
    (hb : Beats minimize dim (f y) (f x)) : ∃ R, s'.best = some R ∧ y ∉ R := by
  obtain ⟨d, R, ps, e1, e2, -⟩ := step_core (domArr dim true) (MOGA_trans dim) o ho c he (internal minimize f) r (initSt pop)
    (fun x v h => by simp [initSt] at h)
  cases hoff : offspring c r ps with
  | error e => rw [e1, hoff] at h; simp at h
  | ok pop1 =>
    rw [e1, hoff] at h
    refine ⟨R, by rw [← Except.ok.inj h], fun hy => ?_⟩
    refine ((MOGA_front minimize dim hd f _ R e2).2 y |>.1 hy).2 x hx fun k hk => ?_
    have := hb k hk
    cases minimize <;> simpa using this

/-- **C122 violated: without elitism** the first generation raises a TypeError. -/
theorem C122_negation_elitism (o : Orders K (Nat → K)) (c : Config K) (he : c.elitism = false) (dim : Nat) (F : List K → Nat → K) (r : Rand K)
    (pop : List (List K)) : learnStep (domArr dim true) o c F r (initSt pop) = .error .typeError := by
  simp [learnStep, he, initSt]

/-- **C122 (and C79) violated for the library's own functions**: a function environment has the number 5 as its default bound, and every genetic
algorithm (also `GA`) raises a TypeError when it is constructed for one, whatever the dimension. -/
theorem C122_negation_bounds (n : Nat) : initBoundaries n (optimizerBound (K := K) .none (some (.number 5))) = .error .typeError := rfl

theorem MOGA_constFront (minimize : Bool) (dim : Nat) (p : ConstFun K) (pop R : List (List K))
    (h : IsFront (fun a b => domC dim true (constInternal minimize p a) (constInternal minimize p b) = true) pop R) :
    IsFront (Prefers dim (fun x => internal minimize p.f x) true (fun x => minimize || (p.g x).1) (fun x => if minimize then 0 else (p.g x).2)) pop R := by
  refine isFront_congr h fun a _ b _ => ?_
  unfold domC
  rw [domConst_iff]
  cases minimize <;> simp [Prefers, rel, constInternal, internal] <;> rfl

theorem MOGA_constTrans (dim : Nat) (a b c : (Nat → K) × Bool × K) (h1 : domC dim true a b = true) (h2 : domC dim true b c = true) :
    domC dim true a c = true := by
  unfold domC at *
  rw [domConst_iff] at *
  exact prefers_trans dim _ true _ _ a b c h1 h2

/-- **C122, constraints.** When the user asks to maximise, the individuals reported by the constrained algorithm are the feasible ones that no feasible
one beats (again in the wrong direction); without feasible individuals it is one with the smallest violation. -/
theorem C122_constrained (o : Orders K ((Nat → K) × Bool × K)) (ho : o.Fair) (c : Config K) (he : c.elitism = true) (dim : Nat) (hd : 0 < dim)
    (p : ConstFun K) (r : Rand K) (pop : List (List K)) (s' : St K ((Nat → K) × Bool × K))
    (h : learnStep (domC dim true) o c (constInternal false p) r (initSt pop) = .ok s') :
    ∃ R, s'.best = some R ∧ ((∃ x ∈ pop, (p.g x).1 = true) → ParetoFront true dim p.f (pop.filter fun x => (p.g x).1) R) ∧
      ((∀ x ∈ pop, (p.g x).1 = false) → pop ≠ [] → ∃ b ∈ pop, R = [b] ∧ ∀ x ∈ pop, (p.g b).2 ≤ (p.g x).2) := by
  obtain ⟨d, R, ps, e1, e2, -⟩ := step_core (domC dim true) (MOGA_constTrans dim) o ho c he (constInternal false p) r (initSt pop)
    (fun x v h => by simp [initSt] at h)
  cases hoff : offspring c r ps with
  | error e => rw [e1, hoff] at h; simp at h
  | ok pop1 =>
    rw [e1, hoff] at h
    have hc := constrained_of_front hd (MOGA_constFront false dim p pop R e2)
    refine ⟨R, by rw [← Except.ok.inj h], fun hx => ?_, fun hall hne => ?_⟩
    · have := hc.1 (by simpa using hx)
      refine ⟨this.1, fun x => ?_⟩
      rw [this.2 x]
      simp [Beats, NonDom.Spec.Better, internal]
    · have := hc.2 (by simpa using hall) hne
      simpa using this

/-- **C122 violated: constraints are ignored.** With the default direction (functions are to be minimised) the constrained algorithm reports the
front of *all* individuals, whatever their feasibility: the function turned round always says that the last point was feasible. -/
theorem C122_negation_constraints (o : Orders K ((Nat → K) × Bool × K)) (ho : o.Fair) (c : Config K) (he : c.elitism = true) (dim : Nat) (hd : 0 < dim)
    (p : ConstFun K) (r : Rand K) (pop : List (List K)) (s' : St K ((Nat → K) × Bool × K))
    (h : learnStep (domC dim true) o c (constInternal true p) r (initSt pop) = .ok s') (hne : pop ≠ []) :
    ∃ R, s'.best = some R ∧ ParetoFront false dim p.f pop R := by
  obtain ⟨d, R, ps, e1, e2, -⟩ := step_core (domC dim true) (MOGA_constTrans dim) o ho c he (constInternal true p) r (initSt pop)
    (fun x v h => by simp [initSt] at h)
  cases hoff : offspring c r ps with
  | error e => rw [e1, hoff] at h; simp at h
  | ok pop1 =>
    rw [e1, hoff] at h
    obtain ⟨w, hw⟩ := List.exists_mem_of_ne_nil pop hne
    have hc := (constrained_of_front hd (MOGA_constFront true dim p pop R e2)).1 ⟨w, hw, rfl⟩
    refine ⟨R, by rw [← Except.ok.inj h], hc.1, fun x => ?_⟩
    rw [hc.2 x]
    simp [Beats, NonDom.Spec.Better, internal]

/-! Examples: the objectives are the two coordinates. -/

/-- four individuals, two parents, who are elite -/
def mogaConfig : Config ℤ :=
  { populationSize := 4, topProportion := 1 / 2, elitism := true, eliteProportion := 1 / 2, eliteExact := none, xdim := 2, bounds := none }
def mogaRand (n : ℤ) : Rand ℤ :=
  { shuffleParents := id, cut := fun _ => 0, shuffleChildren := id, pick := fun _ => 0, coin := fun _ _ => true, noise := fun _ _ => n }
def mogaOrders : Orders ℤ (Nat → ℤ) := { σ := id, σi := id, byCrowd := fun _ l => l }
def coords (x : List ℤ) (k : Nat) : ℤ := x.getD k 0
def mogaPop : List (List ℤ) := [[0, 1], [1, 0], [2, 2], [3, 3]]

example : mogaOrders.Fair ∧ (0 < 2) ∧ 2 ≤ selectionSize mogaConfig ∧ 2 ≤ (distinct mogaPop).length ∧ kept mogaConfig < mogaConfig.populationSize ∧
    kept mogaConfig = selectionSize mogaConfig ∧ (∀ p ∈ mogaPop, p.length = 2) ∧ Fair mogaConfig (mogaRand 5) ∧
    (evolve (domArr 2 true) mogaOrders mogaConfig (internal false coords) [mogaRand 5, mogaRand 5] (initSt mogaPop)).toOption.map
      (fun ss => ss.map fun s => (s.best, s.numEvaluations)) = some [(some [[0, 1], [1, 0]], 4), (some [[0, 1], [1, 0]], 6)] := by
  refine ⟨⟨fun l => .refl l, fun l => .refl l, fun _ l => .refl l⟩, by decide, by decide +kernel, by decide +kernel, by decide +kernel,
    by decide +kernel, by decide +kernel, ⟨fun l => .refl l, fun l => .refl l, fun i _ => by simp [mogaRand, mogaConfig], fun n h => h⟩, by decide +kernel⟩

/-- in the example the user maximises (the default), and the individual `[3, 3]`, which beats all others, is not reported -/
example : Beats false 2 (coords [3, 3]) (coords [2, 2]) := by
  intro k hk
  have : k = 0 ∨ k = 1 := by omega
  rcases this with rfl | rfl <;> decide

/-- **C122 violated: the elite is not the best.** If fewer individuals are elite than are parents, the elite are arbitrary parents (the first ones of
a set in its order of iteration): an individual that beats all others is lost, and then a worse one is reported. -/
theorem C122_negation_elite : ∃ (o : Orders ℤ (Nat → ℤ)) (c : Config ℤ) (rs : List (Rand ℤ)) (ss : List (St ℤ (Nat → ℤ))), o.Fair ∧
    (∀ r ∈ rs, Fair c r) ∧ c.elitism = true ∧ 0 < kept c ∧
    evolve (domArr 2 true) o c (internal false coords) rs (initSt [[0, 0], [1, 1], [2, 2], [3, 3]]) = .ok ss ∧
    ∃ s, ss[1]? = some s ∧ s.best = some [[1, 1]] ∧ Beats true 2 (coords [0, 0]) (coords [1, 1]) := by
  have hb : Beats true 2 (coords [0, 0]) (coords [1, 1]) := by
    intro k hk
    have : k = 0 ∨ k = 1 := by omega
    rcases this with rfl | rfl <;> decide
  let o : Orders ℤ (Nat → ℤ) := { σ := List.reverse, σi := id, byCrowd := fun _ l => l }
  let c : Config ℤ := { mogaConfig with eliteExact := some 1 }
  have hev : ((evolve (domArr 2 true) o c (internal false coords) [mogaRand 7, mogaRand 7] (initSt [[0, 0], [1, 1], [2, 2], [3, 3]])).toOption.map
      fun ss => ss.map fun s => s.best) = some [some [[0, 0]], some [[1, 1]]] := by decide +kernel
  refine ⟨o, c, [mogaRand 7, mogaRand 7], ?_⟩
  cases he : evolve (domArr 2 true) o c (internal false coords) [mogaRand 7, mogaRand 7] (initSt [[0, 0], [1, 1], [2, 2], [3, 3]]) with
  | error e => rw [he] at hev; simp [Except.toOption] at hev
  | ok ss =>
    rw [he] at hev
    simp only [Except.toOption, Option.map_some, Option.some.injEq] at hev
    refine ⟨ss, ⟨fun l => List.reverse_perm l, fun l => .refl l, fun _ l => .refl l⟩, fun r hr => ?_, rfl, by decide +kernel, rfl, ?_⟩
    · have : r = mogaRand 7 := by simpa using hr
      subst this
      exact ⟨fun l => .refl l, fun l => .refl l, fun i _ => by simp [mogaRand, c, mogaConfig], fun n h => h⟩
    · have h1 := congrArg (fun l => l[1]?) hev
      simp only [List.getElem?_map] at h1
      cases hs : ss[1]? with
      | none => rw [hs] at h1; simp at h1
      | some s => exact ⟨s, rfl, by rw [hs] at h1; simpa using h1, hb⟩

/-- Extreme individuals (in the first objective) before the others, as by the crowding distance. -/
def extremesFirst (l : List (List ℤ)) : List (List ℤ) :=
  let ext := fun x => l.all (fun y => decide (coords x 0 ≤ coords y 0)) || l.all (fun y => decide (coords y 0 ≤ coords x 0))
  l.filter ext ++ l.filter (fun x => !ext x)

/-- **C122 violated: large fronts.** If the front is larger than the number of parents, members of it are dropped, and later an individual is reported
that one of these beats: here four individuals form a front, the inner ones are dropped, and `[6, 6]` is reported although `[5, 4]` was evaluated. -/
theorem C122_negation_crowd : ∃ (o : Orders ℤ (Nat → ℤ)) (rs : List (Rand ℤ)) (ss : List (St ℤ (Nat → ℤ))), o.Fair ∧
    (∀ r ∈ rs, Fair mogaConfig r) ∧ kept mogaConfig = selectionSize mogaConfig ∧
    evolve (domArr 2 true) o mogaConfig (internal false coords) rs (initSt [[0, 9], [5, 4], [4, 5], [9, 0]]) = .ok ss ∧
    ∃ s R, ss[1]? = some s ∧ s.best = some R ∧ [6, 6] ∈ R ∧ Beats true 2 (coords [5, 4]) (coords [6, 6]) := by
  have hb : Beats true 2 (coords [5, 4]) (coords [6, 6]) := by
    intro k hk
    have : k = 0 ∨ k = 1 := by omega
    rcases this with rfl | rfl <;> decide
  let o : Orders ℤ (Nat → ℤ) := { σ := id, σi := id, byCrowd := fun _ l => extremesFirst l }
  have hev : ((evolve (domArr 2 true) o mogaConfig (internal false coords) [mogaRand 6, mogaRand 6] (initSt [[0, 9], [5, 4], [4, 5], [9, 0]])).toOption.map
      fun ss => ss.map fun s => s.best) = some [some [[0, 9], [5, 4], [4, 5], [9, 0]], some [[0, 9], [9, 0], [6, 6]]] := by decide +kernel
  refine ⟨o, [mogaRand 6, mogaRand 6], ?_⟩
  cases he : evolve (domArr 2 true) o mogaConfig (internal false coords) [mogaRand 6, mogaRand 6] (initSt [[0, 9], [5, 4], [4, 5], [9, 0]]) with
  | error e => rw [he] at hev; simp [Except.toOption] at hev
  | ok ss =>
    rw [he] at hev
    simp only [Except.toOption, Option.map_some, Option.some.injEq] at hev
    refine ⟨ss, ⟨fun l => .refl l, fun l => .refl l, fun _ l => ?_⟩, fun r hr => ?_, by decide +kernel, rfl, ?_⟩
    · exact List.filter_append_perm _ l
    · have : r = mogaRand 6 := by simpa using hr
      subst this
      exact ⟨fun l => .refl l, fun l => .refl l, fun i _ => by simp [mogaRand, mogaConfig], fun n h => h⟩
    · have h1 := congrArg (fun l => l[1]?) hev
      simp only [List.getElem?_map] at h1
      cases hs : ss[1]? with
      | none => rw [hs] at h1; simp at h1
      | some s => exact ⟨s, [[0, 9], [9, 0], [6, 6]], rfl, by rw [hs] at h1; simpa using h1, by simp, hb⟩

end Verif.Props
