import Verif.Model.SeqOneOfK
import Verif.Props.SequenceClass
/-!
C187: sequence classification datasets in 1-of-k representation.
-/

namespace Verif.SeqClass
open Verif.Py
open Verif.DataSet (Err pyInt)
open Spec

variable {I : Type}

/-- the row of a class: the membership value at its place, the other value elsewhere -/
def indicator (n : Nat) (lo hi : Int) (t : Int) : List Int := (List.range n).map fun (j : Nat) => if (j : Int) = t then hi else lo

theorem kRow_ok (n : Nat) (lo hi t : Int) (h0 : 0 ≤ t) (h1 : t < n) : kRow n lo hi t = .ok (indicator n lo hi t) := by
  unfold kRow normIdx
  rw [if_pos h0, if_pos h1]
  dsimp only
  congr 1
  apply List.ext_getElem
  · simp [indicator]
  · intro j h2 h3
    simp only [indicator, List.getElem_map, List.getElem_range, List.getElem_set, List.getElem_replicate]
    by_cases hj : t.toNat = j
    · rw [if_pos hj, if_pos (by omega)]
    · rw [if_neg hj, if_neg (by omega)]

/-- the number of classes a conversion works with -/
def classesOf (d : SC I) : Int := (if d.nClasses ≤ 0 then d.assignClasses else d).nClasses

theorem assign_fields (d : SC I) : d.assignClasses.input = d.input ∧ d.assignClasses.target = d.target ∧ d.assignClasses.starts = d.starts ∧ d.assignClasses.classLinked = d.classLinked := by
  unfold SC.assignClasses
  dsimp only
  split <;> split <;> exact ⟨rfl, rfl, rfl, rfl⟩

theorem pre_fields (d : SC I) : (if d.nClasses ≤ 0 then d.assignClasses else d).input = d.input ∧ (if d.nClasses ≤ 0 then d.assignClasses else d).target = d.target ∧
    (if d.nClasses ≤ 0 then d.assignClasses else d).starts = d.starts ∧ (if d.nClasses ≤ 0 then d.assignClasses else d).classLinked = d.classLinked := by
  split
  · exact assign_fields d
  · exact ⟨rfl, rfl, rfl, rfl⟩

/-- reading classes depends on inputs, classes and starts only -/
theorem class_congr (a b : SC I) (h1 : a.input = b.input) (h2 : a.cls = b.cls) (h3 : a.starts = b.starts) :
    (∀ i, a.getSequenceClass i = b.getSequenceClass i) ∧ a.getSequenceClasses = b.getSequenceClasses := by
  constructor
  · intro i
    unfold SC.getSequenceClass
    rw [h1, h2, h3]
  · unfold SC.getSequenceClasses
    rw [h1, h2, h3]

theorem convert_ok (d : SC I) (lo hi : Int) (h : ∀ t ∈ d.target, 0 ≤ t ∧ t < classesOf d) :
    d.toOneOfMany lo hi = .ok { input := d.input, rows := d.target.map (indicator (classesOf d).toNat lo hi), cls := d.target, starts := d.starts, nClasses := classesOf d, width := (classesOf d).toNat, classLinked := d.classLinked } := by
  obtain ⟨h1, h2, h3, h4⟩ := pre_fields d
  have hn : (if d.nClasses ≤ 0 then d.assignClasses else d).nClasses = classesOf d := rfl
  unfold SC.toOneOfMany
  dsimp only
  generalize (if d.nClasses ≤ 0 then d.assignClasses else d) = d1 at h1 h2 h3 h4 hn
  rw [h1, h2, h3, h4, hn, mapM_except (kRow (classesOf d).toNat lo hi) (indicator (classesOf d).toNat lo hi)]
  intro t ht
  obtain ⟨a, b⟩ := h t ht
  exact kRow_ok _ lo hi t a (by omega)

theorem addAll_cls (c : Int) : ∀ (xs : List I) (ds ds' : SC I), addAll c xs ds = .ok ds' → ds'.cls = ds.cls
  | [], ds, ds', h => by rw [addAll] at h; cases h; rfl
  | x :: xs, ds, ds', h => by
    rw [addAll] at h
    split at h
    · cases h
    · rename_i ds1 heq
      rw [addAll_cls c xs ds1 ds' h]
      unfold SC.addSample at heq
      split at heq
      · cases heq
      · cases heq
        rfl

theorem moveSeqs_cls (d : SC I) (idx : List Nat) (c : Int) : ∀ (count : Nat) (perm : List Nat) (ds ds' : SC I) (q : List Nat), moveSeqs d idx c count perm ds = .ok (q, ds') → ds'.cls = ds.cls
  | 0, perm, ds, ds', q, h => by rw [moveSeqs] at h; cases h; rfl
  | count + 1, perm, ds, ds', q, h => by
    rw [moveSeqs] at h
    split at h
    · cases h
    · split at h
      · cases h
      · split at h
        · cases h
        · split at h
          · cases h
          · rename_i ds1 hn
            split at h
            · cases h
            · rename_i ds2 ha
              rw [moveSeqs_cls d idx c count _ ds2 ds' q h, addAll_cls c _ ds1 ds2 ha]
              unfold SC.newSequence at hn
              split at hn
              · split at hn
                · cases hn
                · split at hn
                  · cases hn
                  · cases hn; rfl
              · cases hn; rfl

end Verif.SeqClass

namespace Verif.Props
open Verif.SeqClass Verif.SeqClass.Spec
open Verif.DataSet (Err pyInt)

variable {I : Type}

/-- C187. After any history of calls, a dataset whose targets are class numbers can be converted: inputs and sequences stay, each target becomes a row with the membership value at the class's place and the other value elsewhere, and the classes of
all sequences can be read as before, also if they were not assigned. -/
theorem C187_convert (nb : Int) (ops : List (Op I)) (lo hi : Int) :
    let d := (SC.init nb).run ops
    let E := ((Abs.mk [[]] false : Abs I).run ops).seqs
    (∀ s ∈ E.flatten, 0 ≤ s.2 ∧ s.2 < classesOf d) →
    ∃ k, d.toOneOfMany lo hi = .ok k ∧ k.input = E.flatten.map Prod.fst ∧ k.rows = E.flatten.map (fun s => (List.range (classesOf d).toNat).map fun (j : Nat) => if (j : Int) = s.2 then hi else lo) ∧
      k.starts = d.starts ∧ k.nClasses = classesOf d ∧
      (E.getLastD [] ≠ [] → (∀ i < E.length, k.getSequenceClass i = .ok (lastClass (E.getD i []))) ∧ k.getSequenceClasses = .ok (E.map lastClass)) := by
  intro d E hE
  obtain ⟨h, -⟩ := run_holds ops (SC.init nb) (Abs.mk [[]] false) (holds_init nb) rfl
  change Holds d E at h
  have ht : ∀ t ∈ d.target, 0 ≤ t ∧ t < classesOf d := by
    intro t ht
    rw [h.target, List.mem_map] at ht
    obtain ⟨s, hs, rfl⟩ := ht
    exact hE s hs
  refine ⟨_, convert_ok d lo hi ht, h.input, ?_, rfl, rfl, fun hl => ?_⟩
  · dsimp only
    rw [h.target, List.map_map]
    rfl
  · obtain ⟨c1, -, c3⟩ := C86_class nb ops hl
    obtain ⟨-, a1, -, a3, a4⟩ := holds_assign h
    have hstarts : d.assignClasses.starts = d.starts := by
      unfold SC.assignClasses; dsimp only; split <;> split <;> rfl
    have hcls : d.assignClasses.cls = d.target := by rw [a1, a3]
    obtain ⟨g1, g2⟩ := class_congr (KC.toClassNb { input := d.input, rows := d.target.map (indicator (classesOf d).toNat lo hi), cls := d.target, starts := d.starts, nClasses := classesOf d, width := (classesOf d).toNat, classLinked := d.classLinked })
      d.assignClasses a4.symm hcls.symm hstarts.symm
    exact ⟨fun i hi' => (g1 i).trans (c1 i hi').1, g2.trans c3⟩

/-- Converting there and back gives the dataset with its classes assigned. -/
theorem C187_back (nb : Int) (ops : List (Op I)) (lo hi : Int) (k : KC I) :
    let d := (SC.init nb).run ops
    (∀ s ∈ ((Abs.mk [[]] false : Abs I).run ops).seqs.flatten, 0 ≤ s.2 ∧ s.2 < classesOf d) → d.toOneOfMany lo hi = .ok k → k.toClassNb = d.assignClasses := by
  intro d hE hk
  obtain ⟨h, -⟩ := run_holds ops (SC.init nb) (Abs.mk [[]] false) (holds_init nb) rfl
  change Holds d _ at h
  have ht : ∀ t ∈ d.target, 0 ≤ t ∧ t < classesOf d := by
    intro t ht
    rw [h.target, List.mem_map] at ht
    obtain ⟨s, hs, rfl⟩ := ht
    exact hE s hs
  rw [convert_ok d lo hi ht] at hk
  cases hk
  obtain ⟨-, a1, a2, a3, a4⟩ := holds_assign h
  have hstarts : d.assignClasses.starts = d.starts := by
    unfold SC.assignClasses; dsimp only; split <;> split <;> rfl
  have hn : d.assignClasses.nClasses = classesOf d := by
    unfold classesOf
    split
    · rfl
    · rename_i hp
      unfold SC.assignClasses
      dsimp only
      split <;> simp only [if_neg hp]
  have ext : ∀ a b : SC I, a.input = b.input → a.target = b.target → a.cls = b.cls → a.starts = b.starts → a.nClasses = b.nClasses → a.classLinked = b.classLinked → a = b := by
    rintro ⟨⟩ ⟨⟩ h1 h2 h3 h4 h5 h6
    simp only at h1 h2 h3 h4 h5 h6
    subst h1 h2 h3 h4 h5 h6
    rfl
  exact ext _ _ a4.symm a3.symm (by rw [a1, a3]; rfl) hstarts.symm hn.symm a2.symm

/-- A target that is no class number makes the conversion fail. -/
theorem C187_refused (d : SC I) (lo hi : Int) (t : Int) (ht : t ∈ d.target) (h : classesOf d ≤ t) (h0 : 0 ≤ t) : d.toOneOfMany lo hi = .error .indexError := by
  obtain ⟨-, h2, -, -⟩ := pre_fields d
  have hn : (if d.nClasses ≤ 0 then d.assignClasses else d).nClasses = classesOf d := rfl
  unfold SC.toOneOfMany
  dsimp only
  generalize (if d.nClasses ≤ 0 then d.assignClasses else d) = d1 at h2 hn
  rw [h2, hn, mapM_error (kRow (classesOf d).toNat lo hi) t ?_ d.target ht ?_]
  · unfold kRow Verif.Py.normIdx
    rw [if_pos h0, if_neg (by omega)]
  · intro b _ e hb
    unfold kRow at hb
    split at hb
    · cases hb; rfl
    · cases hb

/-- Sequences can be removed in the new representation, and it makes no difference whether this is done before or after the conversion. -/
theorem C187_remove (nb : Int) (ops : List (Op I)) (lo hi : Int) (k : KC I) (i : Nat) :
    let d := (SC.init nb).run ops
    let E := ((Abs.mk [[]] false : Abs I).run ops).seqs
    (∀ s ∈ E.flatten, 0 ≤ s.2 ∧ s.2 < classesOf d) → d.toOneOfMany lo hi = .ok k → i < E.length → 0 < classesOf d →
    ∃ k', k.removeSequence i = (k', none) ∧ (d.removeSequence i).2 = none ∧ (d.removeSequence i).1.toOneOfMany lo hi = .ok k' := by
  intro d E hE hk hil hpos
  have hback := C187_back nb ops lo hi k hE hk
  obtain ⟨h, -⟩ := run_holds ops (SC.init nb) (Abs.mk [[]] false) (holds_init nb) rfl
  change Holds d E at h
  have ht : ∀ t ∈ d.target, 0 ≤ t ∧ t < classesOf d := by
    intro t ht
    rw [h.target, List.mem_map] at ht
    obtain ⟨s, hs, rfl⟩ := ht
    exact hE s hs
  rw [convert_ok d lo hi ht] at hk
  cases hk
  obtain ⟨ha, a1, a2, a3, a4⟩ := holds_assign h
  have hlen : d.input.length = d.target.length := by rw [h.input, h.target, List.length_map, List.length_map]
  have hslen : d.starts.length = E.length := by rw [h.starts]; simp [startsOf]
  obtain ⟨v, hv⟩ : ∃ v, d.starts[i]? = some v := ⟨_, List.getElem?_eq_getElem (by omega)⟩
  -- removal from the dataset with class numbers
  have hd : ∃ d', d.removeSequence i = (d', none) ∧ d'.classLinked = false ∧ d'.nClasses = classesOf d ∧ ∃ P : Nat × Nat × List Nat,
      d'.input = d.input.take P.1 ++ d.input.drop P.2.1 ∧ d'.target = d.target.take P.1 ++ d.target.drop P.2.1 ∧ d'.starts = P.2.2 ∧
      KC.removeSequence { input := d.input, rows := d.target.map (indicator (classesOf d).toNat lo hi), cls := d.target, starts := d.starts, nClasses := classesOf d, width := (classesOf d).toNat, classLinked := d.classLinked } i =
        ({ input := d'.input, rows := d'.target.map (indicator (classesOf d).toNat lo hi), cls := d'.target, starts := d'.starts, nClasses := classesOf d, width := (classesOf d).toNat, classLinked := false }, none) := by
    have hkr : ∀ k : KC I, k.input.length = k.rows.length → k.input.length = k.cls.length → k.removeSequence i = match KC.cutSequence { k with classLinked := true } i with
        | (k2, some e) => (k2, some e)
        | (k2, none) => ({ k2 with classLinked := false }, none) := by
      intro k h1 h2
      unfold KC.removeSequence KC.assignClasses
      rw [if_neg (by omega)]
      dsimp only
      rw [if_neg (by omega)]
      rcases KC.cutSequence { k with classLinked := true } i with ⟨k2, _ | e⟩ <;> rfl
    rw [hkr _ (by simpa using hlen) hlen]
    unfold SC.removeSequence
    rw [← hback]
    dsimp only [KC.toClassNb]
    rw [if_neg (by omega)]
    unfold SC.cutSequence KC.cutSequence
    dsimp only
    rw [hv]
    dsimp only
    generalize (if i = d.starts.length - 1 then d.input.length else d.starts.getD (i + 1) 0) = e
    by_cases hc : i = d.starts.length - 1 ∧ (d.input.take v ++ d.input.drop e).length = 0
    · rw [if_pos hc, if_pos hc]
      refine ⟨_, rfl, rfl, rfl, ⟨0, d.input.length, [0]⟩, ?_, ?_, rfl, ?_⟩
      · simp [SC.clear]
      · simp [SC.clear, hlen]
      · simp [SC.clear, KC.clear]
    · rw [if_neg hc, if_neg hc]
      refine ⟨_, rfl, rfl, rfl, ⟨v, e, _⟩, rfl, rfl, rfl, ?_⟩
      simp [List.map_take, List.map_drop]
  obtain ⟨d', r1, r2, r3, P, r4, r5, r6, r7⟩ := hd
  refine ⟨_, r7, by rw [r1], ?_⟩
  have hcl : classesOf d' = classesOf d := by
    unfold classesOf
    rw [if_neg (by omega)]
    exact r3
  have ht' : ∀ t ∈ d'.target, 0 ≤ t ∧ t < classesOf d' := by
    intro t htm
    rw [hcl]
    rw [r5, List.mem_append] at htm
    rcases htm with htm | htm
    · exact ht t (List.mem_of_mem_take htm)
    · exact ht t (List.mem_of_mem_drop htm)
  rw [r1, convert_ok d' lo hi ht', hcl, r2]

/-- After the conversion a sample with a target of the width of the representation is accepted (unless the class field is linked) and becomes the last one; targets of other lengths than the width and one are refused, and nothing changes. -/
theorem C187_add_partial (k : KC I) (x : I) (row : List Int) (hl : k.classLinked = false) :
    (row.length = k.width → k.addSample x row = ({ k with input := k.input ++ [x], rows := k.rows ++ [row] }, none)) ∧
    (row.length ≠ k.width → row.length ≠ 1 → k.addSample x row = (k, some .valueError)) := by
  constructor
  · intro h
    unfold KC.addSample
    rw [if_neg (by simp [hl]), if_pos h]
  · intro h h1
    unfold KC.addSample
    rw [if_neg (by simp [hl]), if_neg h]
    match row, h1 with
    | [], _ => rfl
    | [v], h1 => exact absurd rfl h1
    | _ :: _ :: _, _ => rfl

example : (KC.addSample (⟨[7], [[1, 0]], [0], [0], 2, 2, false⟩ : KC Nat) 8 [0, 1]).1.rows = [[1, 0], [0, 1]] := by decide

/-- **C187 fails for samples added after the conversion**: the class of the last sequence cannot be read, nor can sequences be removed or classes be assigned: IndexError, for every history, sample and row. -/
theorem C187_negation_add (k : KC I) (x : I) (row : List Int) (k' : KC I) (_hw : 2 ≤ k.width) (hin : k.input.length = k.rows.length) (hc : k.cls.length ≤ k.rows.length) (h : k.addSample x row = (k', none)) (i : Nat) :
    k'.assignClasses = some .indexError ∧ k'.removeSequence i = (k', some .indexError) ∧ k'.getSequenceClass ((k'.starts.length : Int) - 1) = .error .indexError := by
  have hk : k'.cls = k.cls ∧ k'.rows.length = k.rows.length + 1 ∧ k'.input.length = k.input.length + 1 := by
    unfold KC.addSample at h
    split at h
    · cases h
    · split at h
      · cases h; simp
      · split at h
        · cases h; simp
        · cases h
  obtain ⟨h1, h2, h3⟩ := hk
  have ha : k'.assignClasses = some .indexError := by
    unfold KC.assignClasses
    rw [if_pos (by rw [h1]; omega)]
  refine ⟨ha, by rw [KC.removeSequence, ha], ?_⟩
  unfold KC.getSequenceClass SC.getSequenceClass
  dsimp only [KC.toClassNb]
  rw [if_neg (by omega), if_pos rfl]
  unfold pyGet Verif.Py.getIdx Verif.Py.normIdx
  rw [if_pos (by omega), if_neg (by rw [h1]; omega)]
  rfl

/-- **C187 fails for stratified splits**: as soon as there is a closed sequence of one of the classes, splitting a dataset in 1-of-k representation raises an IndexError, for every history and permutation and all fractions. -/
theorem C187_negation_split (nb : Int) (ops : List (Op I)) (lo hi : Int) (k : KC I) (testfrac evalfrac : Rat) (ht : 0 ≤ testfrac) (he : 0 ≤ evalfrac) (hte : testfrac + evalfrac ≤ 1) (perms : Nat → List Nat) :
    let d := (SC.init nb).run ops
    let E := ((Abs.mk [[]] false : Abs I).run ops).seqs
    ((Abs.mk [[]] false : Abs I).run ops).broken = false →
    (∀ s ∈ E.flatten, 0 ≤ s.2 ∧ s.2 < classesOf d) → d.toOneOfMany lo hi = .ok k → 2 ≤ classesOf d → 2 ≤ E.length →
    (∀ c : Nat, (perms c).Perm (List.range (closedOf E c).length)) →
    k.stratifiedSplit testfrac evalfrac perms = .error .indexError := by
  intro d E hb hE hk _ hlen2 hp
  have hback := C187_back nb ops lo hi k hE hk
  obtain ⟨h0, hl0⟩ := run_holds ops (SC.init nb) (Abs.mk [[]] false) (holds_init nb) rfl
  change Holds d E at h0
  rw [hb] at hl0
  obtain ⟨h, hc, hl, -⟩ := holds_assign h0
  rw [hl0] at hl
  have hcl : classesOf d = k.nClasses := by
    have : ∀ t ∈ d.target, 0 ≤ t ∧ t < classesOf d := by
      intro t ht
      rw [h0.target, List.mem_map] at ht
      obtain ⟨s, hs, rfl⟩ := ht
      exact hE s hs
    rw [convert_ok d lo hi this] at hk
    cases hk
    rfl
  rw [← hback] at h hc hl
  generalize hD : k.toClassNb = D at h hc hl
  have hclear : Full D D.clear [] := ⟨by simp, by simpa using holds_clear, hl, rfl⟩
  have hempty : D.clear.cls = [] ∧ D.clear.target = [] := ⟨rfl, rfl⟩
  -- one class
  have hclass : ∀ c : Nat, (closedOf E c = [] → splitClassK D testfrac evalfrac (E.dropLast.map lastClass) c (perms c) ⟨D.clear, D.clear, D.clear⟩ = .ok ⟨D.clear, D.clear, D.clear⟩) ∧
      (closedOf E c ≠ [] → splitClassK D testfrac evalfrac (E.dropLast.map lastClass) c (perms c) ⟨D.clear, D.clear, D.clear⟩ = .error .indexError) := by
    intro c
    have hplen : (perms c).length = (closedOf E c).length := by simpa using (hp c).length_eq
    constructor
    · intro hnil
      have hpn : perms c = [] := List.length_eq_zero_iff.1 (by rw [hplen, hnil]; rfl)
      have hz : ∀ q : Rat, pyInt (q * ((([] : List Nat).length : Nat) : Rat)) = 0 := by
        intro q
        rw [List.length_nil, Nat.cast_zero, mul_zero]
        decide
      unfold splitClassK
      dsimp only
      rw [idx_eq, hnil, hz, hz, hpn]
      rfl
    · intro hne
      have hidx : ∀ q ∈ closedOf E c, q < E.length - 1 := fun q hq => by
        unfold closedOf at hq; rw [List.mem_filter, List.mem_range] at hq; exact hq.1
      have hpmem : ∀ p ∈ perms c, p < (closedOf E c).length := fun p hm => List.mem_range.1 ((hp c).subset hm)
      obtain ⟨hc1, hc2, hc3⟩ := frac_counts ht he hte (closedOf E c).length
      set a := (pyInt (testfrac * (closedOf E c).length)).toNat with ha
      set b := (pyInt (evalfrac * (closedOf E c).length)).toNat with hb'
      have hcount : ((closedOf E c).length - pyInt (testfrac * (closedOf E c).length) - pyInt (evalfrac * (closedOf E c).length) : Int).toNat =
          (closedOf E c).length - a - b := by omega
      have hlpos : 0 < (closedOf E c).length := List.length_pos_iff.2 hne
      -- a set that gets sequences is refused
      have hmove : ∀ (count : Nat) (perm : List Nat), count ≤ perm.length → (∀ p ∈ perm, p < (closedOf E c).length) →
          ∃ ds', moveSeqs D (closedOf E c) c count perm D.clear = .ok (perm.take (perm.length - count), ds') ∧ (count = 0 → ds' = D.clear) ∧ (0 < count → ds'.cls.length < ds'.target.length) := by
        intro count perm hcp hpm
        obtain ⟨ds', m, f⟩ := moveSeqs_spec (d0 := D) h (closedOf E c) hidx c count perm D.clear [] hclear hcp hpm
        refine ⟨ds', m, ?_, ?_⟩
        · rintro rfl
          rw [moveSeqs] at m
          simp only [Except.ok.injEq, Prod.mk.injEq] at m
          exact m.2.symm
        · intro hcpos
          have hcls : ds'.cls = [] := moveSeqs_cls D (closedOf E c) c count perm D.clear ds' _ m
          have hF : (perm.reverse.take count) ≠ [] := by
            rw [Ne, List.take_eq_nil_iff]
            rintro (hz | hz)
            · omega
            · rw [List.reverse_eq_nil_iff] at hz
              rw [hz] at hcp
              simp at hcp
              omega
          obtain ⟨p, hpm⟩ := List.exists_mem_of_ne_nil _ hF
          set F := (perm.reverse.take count).map fun p => relabel E c ((closedOf E c).getD p 0) with hFd
          have hFmem : relabel E c ((closedOf E c).getD p 0) ∈ F := List.mem_map.2 ⟨p, hpm, rfl⟩
          have hFne : F ≠ [] := List.ne_nil_of_mem hFmem
          rw [List.nil_append] at f
          have htar := f.holds.target
          rw [if_neg hFne] at htar
          rw [hcls, List.length_nil, htar, List.length_map, List.length_pos_iff]
          intro hnil
          rw [List.flatten_eq_nil_iff] at hnil
          exact f.full _ hFmem (hnil _ hFmem)
      obtain ⟨tst, m1, z1, p1⟩ := hmove a (perms c) (by omega) hpmem
      obtain ⟨val, m2, z2, p2⟩ := hmove b ((perms c).take ((perms c).length - a)) (by rw [List.length_take]; omega) (fun p hm => hpmem p (List.take_subset _ _ hm))
      obtain ⟨trn, m3, z3, p3⟩ := hmove ((closedOf E c).length - a - b) (((perms c).take ((perms c).length - a)).take (((perms c).take ((perms c).length - a)).length - b))
        (by simp only [List.length_take]; omega) (fun p hm => hpmem p (List.take_subset _ _ (List.take_subset _ _ hm)))
      unfold splitClassK
      dsimp only
      rw [idx_eq, ← ha, ← hb', hcount, m1]
      dsimp only
      by_cases ha0 : 0 < a
      · rw [if_pos (p1 ha0)]
      · rw [z1 (by omega), if_neg (by simp [hempty.1, hempty.2]), m2]
        dsimp only
        by_cases hb0 : 0 < b
        · rw [if_pos (p2 hb0)]
        · rw [z2 (by omega), if_neg (by simp [hempty.1, hempty.2]), m3]
          dsimp only
          rw [if_pos (p3 (by omega))]
  -- all classes
  have hloop : ∀ cs : List Nat, (∃ c ∈ cs, closedOf E c ≠ []) → splitLoopK D testfrac evalfrac (E.dropLast.map lastClass) perms cs ⟨D.clear, D.clear, D.clear⟩ = .error .indexError := by
    intro cs
    induction cs with
    | nil => rintro ⟨c, hc, -⟩; exact absurd hc (by simp)
    | cons c cs ih =>
      rintro ⟨c', hc', hne⟩
      rw [splitLoopK]
      by_cases hnil : closedOf E c = []
      · rw [(hclass c).1 hnil]
        refine ih ⟨c', ?_, hne⟩
        rcases List.mem_cons.1 hc' with rfl | hm
        · exact absurd hnil hne
        · exact hm
      · rw [(hclass c).2 hnil]
  unfold KC.stratifiedSplit
  have hcc := closed_classes h hc
  have e1 : D.starts = k.starts := by rw [← hD]; rfl
  have e2 : D.cls = k.cls := by rw [← hD]; rfl
  rw [e1, e2] at hcc
  rw [hcc]
  dsimp only
  rw [hD]
  refine hloop _ ?_
  -- the first sequence is closed
  have hmem : E.getD 0 [] ∈ E.dropLast := by
    rw [List.mem_iff_getElem]
    exact ⟨0, by rw [List.length_dropLast]; omega, by simp [show 0 < E.length by omega]⟩
  have hne0 := h.full _ hmem
  have hsm : (E.getD 0 []).getLast hne0 ∈ E.flatten := List.mem_flatten.2 ⟨_, List.mem_of_mem_dropLast hmem, List.getLast_mem hne0⟩
  obtain ⟨g0, g1⟩ := hE _ hsm
  have hlc : lastClass (E.getD 0 []) = ((E.getD 0 []).getLast hne0).2 := by
    unfold lastClass
    rw [List.getLast?_eq_some_getLast hne0]
    rfl
  refine ⟨((E.getD 0 []).getLast hne0).2.toNat, ?_, ?_⟩
  · rw [List.mem_range, ← hcl]
    omega
  · apply List.ne_nil_of_mem (a := 0)
    unfold closedOf
    rw [List.mem_filter, List.mem_range]
    refine ⟨by omega, ?_⟩
    rw [decide_eq_true_eq, hlc]
    exact (Int.toNat_of_nonneg g0).symm

/-- The hypotheses are met: two sequences with classes 1 and 0, the second one open. -/
example : let d := (SC.init 2 : SC Nat).run [.addSample 5 0, .addSample 6 1, .newSequence, .addSample 7 0]
    (d.toOneOfMany 0 1).toOption.map (fun k => (k.rows, (k.getSequenceClasses).toOption)) = some ([[1, 0], [0, 1], [1, 0]], some [1, 0]) := by decide +kernel

end Verif.Props
