import Verif.Lemmas.Masked
/-
Property theorems C29 and C65 (pybrain/structure/evolvables/maskedparameters.py, topology.py).
-/
namespace Verif.Props
open Verif.DataSet Verif.Masked Verif.Masked.Spec

variable {K : Type}

/-- a masked container whose mask, values and container belong together, with between one and `maxComplexity` active parameters -/
structure MaskOk [Zero K] (n : Nat) (s : Masked K) : Prop where
  dim : s.mask.length = n
  cons : Consistent s.mask s.vals s.cont
  low : 1 ≤ activeCount s.mask
  high : activeCount s.mask ≤ s.maxComplexity

/-- **C29, one call.** Whatever bits are flipped and whatever positions are drawn (below the number of parameters), topologyMutate
leaves between 1 and maxComplexity parameters active, the values untouched, and the container consistent with the mask.
The number of active parameters before may be anything (randomize may leave none). -/
theorem C29_topologyMutate [Zero K] (n : Nat) (hn : 0 < n) (s : Masked K) (hd : s.mask.length = n) (hv : s.vals.length = n)
    (hmax : 1 ≤ s.maxComplexity) (flip : Nat → Bool) (draw : Nat → Nat) (hdraw : ∀ t, draw t < n) (fuel : Nat) (s' : Masked K)
    (h : topologyMutate flip draw fuel s = some s') : MaskOk n s' ∧ s'.vals = s.vals ∧ s'.maxComplexity = s.maxComplexity := by
  unfold topologyMutate at h
  simp only at h
  cases hdl : dropLoop draw fuel (active (flipBits flip s.mask) - s.maxComplexity) 0 (flipBits flip s.mask) with
  | none => rw [hdl] at h; simp at h
  | some r =>
    obtain ⟨m2, pos⟩ := r
    rw [hdl] at h
    simp only [Option.some.injEq] at h
    obtain ⟨e1, e2⟩ := dropLoop_spec draw _ _ _ _ _ _ hdl
    rw [flipBits_length] at e1
    rw [active_eq] at e2
    have hl2 : m2.length = n := by rw [e1, hd]
    have key : ∀ m3, m3.length = n → 1 ≤ activeCount m3 → activeCount m3 ≤ s.maxComplexity → applyMask { s with mask := m3 } = s' →
        MaskOk n s' ∧ s'.vals = s.vals ∧ s'.maxComplexity = s.maxComplexity := by
      intro m3 h1 h2 h3 h4
      subst h4
      exact ⟨⟨h1, masked_consistent m3 s.vals (by rw [hv, h1]), h2, h3⟩, rfl, rfl⟩
    rw [active_eq] at h
    by_cases h0 : activeCount m2 = 0
    · rw [if_pos h0] at h
      have hc := count_set_true m2 (draw pos) (by rw [hl2]; exact hdraw pos) h0
      exact key _ (by simp [hl2]) (by simp only [activeCount]; omega) (by simp only [activeCount]; omega) h
    · rw [if_neg h0] at h
      exact key m2 hl2 (by omega) (by omega) h

/-- **C29, termination.** If every position keeps being drawn, topologyMutate ends (its rejection loop always finds an active bit). -/
theorem C29_terminates [Zero K] (s : Masked K) (flip : Nat → Bool) (draw : Nat → Nat)
    (hfair : ∀ i < s.mask.length, ∀ t, ∃ d, draw (t + d) = i) : ∃ fuel, (topologyMutate flip draw fuel s).isSome := by
  obtain ⟨fuel, r, hr⟩ := dropLoop_total draw s.mask.length hfair (active (flipBits flip s.mask) - s.maxComplexity) 0
    (flipBits flip s.mask) (flipBits_length _ _) (by rw [active_eq]; omega)
  exact ⟨fuel, by simp [topologyMutate, hr]⟩

/-- the operations of a user's history -/
inductive MaskOp (K : Type) where
  | topologyMutate (flip : Nat → Bool) (draw : Nat → Nat) (fuel : Nat)
  | mutate (noise : Nat → K)
  | setParameters (x : List K)

/-- perform an operation; `none` if it raises (or does not end within the fuel) -/
def MaskOp.run [Zero K] [Add K] : MaskOp K → Masked K → Option (Masked K)
  | .topologyMutate flip draw fuel, s => Masked.topologyMutate flip draw fuel s
  | .mutate noise, s => some (Masked.mutate noise s)
  | .setParameters x, s => match Masked.setParameters s x with
    | (s', none) => some s'
    | (_, some _) => none

/-- random positions are below the number of parameters -/
def MaskOp.InRange (n : Nat) : MaskOp K → Prop
  | .topologyMutate _ draw _ => ∀ t, draw t < n
  | _ => True

theorem setParameters_length [Zero K] (s : Masked K) (hc : s.vals.length = s.mask.length) (x : List K) (h : activeCount s.mask ≤ x.length) :
    (setParameters s x).2 = none ∧ (setParameters s x).1 = applyMask { s with vals := (setLoop s.mask s.vals x 0).1 } := by
  obtain ⟨e1, _⟩ := setLoop_ok s.mask s.vals x 0 hc (by omega)
  unfold setParameters
  simp only [e1]
  exact ⟨trivial, trivial⟩

theorem setParameters_none [Zero K] (s : Masked K) (hc : s.vals.length = s.mask.length) (x : List K) (h : (setParameters s x).2 = none) :
    activeCount s.mask ≤ x.length := by
  by_contra hlt
  have := setLoop_short s.mask s.vals x 0 hc (by omega) (by omega)
  unfold setParameters at h
  simp only [this] at h
  simp at h

/-- **C29, histories.** Starting from a valid state any sequence of topology mutations, mutations and parameter assignments
keeps between 1 and maxComplexity parameters active and the container equal to the masked parameters. -/
theorem C29_history [Zero K] [Add K] (n : Nat) (hn : 0 < n) : ∀ (ops : List (MaskOp K)), (∀ o ∈ ops, o.InRange n) → ∀ (s s' : Masked K),
    MaskOk n s → ops.foldlM (fun s o => o.run s) s = some s' → MaskOk n s' ∧ s'.maxComplexity = s.maxComplexity := by
  intro ops
  induction ops with
  | nil => intro _ s s' hs h; simp at h; subst h; exact ⟨hs, rfl⟩
  | cons o ops ih =>
    intro hr s s' hs h
    rw [List.foldlM_cons] at h
    cases ho : o.run s with
    | none => rw [ho] at h; simp at h
    | some s1 =>
      rw [ho] at h
      have h1 : MaskOk n s1 ∧ s1.maxComplexity = s.maxComplexity := by
        cases o with
        | topologyMutate flip draw fuel =>
          have := C29_topologyMutate n hn s hs.dim (hs.cons.len.trans hs.dim) (Nat.le_trans hs.low hs.high) flip draw
            (hr _ List.mem_cons_self) fuel s1 ho
          exact ⟨this.1, this.2.2⟩
        | mutate noise =>
          simp only [MaskOp.run, Option.some.injEq] at ho
          subst ho
          exact ⟨⟨hs.dim, masked_consistent _ _ (by
            show (s.vals.mapIdx _).length = s.mask.length
            rw [List.length_mapIdx]; exact hs.cons.len), hs.low, hs.high⟩, rfl⟩
        | setParameters x =>
          simp only [MaskOp.run] at ho
          have hsp : (Masked.setParameters s x).2 = none ∧ (Masked.setParameters s x).1 = s1 := by
            revert ho
            cases Masked.setParameters s x with
            | mk a b => cases b <;> simp
          have hx := setParameters_none s hs.cons.len x hsp.1
          have h2 := (setParameters_length s hs.cons.len x hx).2
          rw [hsp.2] at h2
          subst h2
          obtain ⟨_, e2, _⟩ := setLoop_ok s.mask s.vals x 0 hs.cons.len (by omega)
          exact ⟨⟨hs.dim, masked_consistent _ _ e2, hs.low, hs.high⟩, rfl⟩
      obtain ⟨g1, g2⟩ := ih (fun o ho => hr o (List.mem_cons_of_mem _ ho)) s1 s' h1.1 h
      exact ⟨g1, g2.trans h1.2⟩

/-- **C29, reading.** `params` are the active parameters, in order. -/
theorem C29_params [Zero K] (s : Masked K) (h : s.vals.length = s.mask.length) : params false s = activeVals s.mask s.vals := by
  have hl := activeVals_length s.mask s.vals h
  simp only [params, Bool.false_eq_true, if_false]
  rw [packLoop_eq _ _ 0 (by rw [List.length_replicate, active_eq, ← hl]; simp [activeVals])]
  simp [activeVals]

/-- **C29, round trip.** Writing the parameters read back changes nothing. -/
theorem C29_roundtrip [Zero K] (s : Masked K) (hc : Consistent s.mask s.vals s.cont) : setParameters s (params false s) = (s, none) := by
  have hl := activeVals_length s.mask s.vals hc.len
  rw [C29_params s hc.len]
  obtain ⟨h1, h2⟩ := setParameters_length s hc.len (activeVals s.mask s.vals) (by omega)
  obtain ⟨_, e2, e3, e4⟩ := setLoop_ok s.mask s.vals (activeVals s.mask s.vals) 0 hc.len (by omega)
  have hv : (setLoop s.mask s.vals (activeVals s.mask s.vals) 0).1 = s.vals := by
    apply vals_ext s.mask _ _ e2 hc.len
    · rw [e3, List.drop_zero, ← hl, List.take_length]
    · exact e4
  rw [hv] at h2
  have h3 : (setParameters s (activeVals s.mask s.vals)).1 = s := by
    rw [h2]
    show ({ s with cont := masked s.mask s.vals } : Masked K) = s
    rw [← consistent_cont hc]
  exact Prod.ext h3 h1

/-- **C29, writing.** After writing as many values as there are active parameters they are read back, and the disabled ones
keep their values. With fewer values IndexError is raised. -/
theorem C29_write [Zero K] (s : Masked K) (hc : s.vals.length = s.mask.length) (x : List K) :
    (x.length = activeCount s.mask → (setParameters s x).2 = none ∧ params false (setParameters s x).1 = x ∧
      ∀ i : Nat, s.mask[i]? = some false → (setParameters s x).1.vals[i]? = s.vals[i]?) ∧
    (x.length < activeCount s.mask → (setParameters s x).2 = some .indexError) := by
  refine ⟨fun hx => ?_, fun hx => ?_⟩
  · obtain ⟨h1, h2⟩ := setParameters_length s hc x (by omega)
    obtain ⟨_, e2, e3, e4⟩ := setLoop_ok s.mask s.vals x 0 hc (by omega)
    refine ⟨h1, ?_, ?_⟩
    · rw [h2, C29_params _ e2]
      show activeVals s.mask (setLoop s.mask s.vals x 0).1 = x
      rw [e3, List.drop_zero, ← hx, List.take_length]
    · intro i hi
      rw [h2]; exact e4 i hi
  · have := setLoop_short s.mask s.vals x 0 hc (by omega) (by omega)
    unfold setParameters
    simp only [this]

theorem count_map_filter (on : Nat → Bool) (l : List Nat) : (l.map on).count true = (l.filter on).length := by
  induction l with
  | nil => rfl
  | cons a l ih => cases h : on a <;> simp [h, ih]

/-- switching off distinct active positions lowers the count by their number -/
theorem count_switchOff : ∀ (l : List Nat) (m : List Bool), l.Nodup → (∀ i ∈ l, m.getD i false = true) →
    (l.foldl (fun m i => m.set i false) m).count true + l.length = m.count true := by
  intro l
  induction l with
  | nil => intro m _ _; rfl
  | cons a l ih =>
    intro m hnd hall
    rw [List.nodup_cons] at hnd
    have h1 := count_set_false m a (hall a List.mem_cons_self)
    have h2 := ih (m.set a false) hnd.2 (by
      intro i hi
      have hne : a ≠ i := fun h => hnd.1 (h ▸ hi)
      rw [List.getD_eq_getElem?_getD, List.getElem?_set_ne hne, ← List.getD_eq_getElem?_getD]
      exact hall i (List.mem_cons_of_mem _ hi))
    rw [List.foldl_cons, List.length_cons]
    omega

/-- **C29, randomize.** For any random numbers and any sample of distinct enabled positions, randomize keeps the number of active
parameters at or below maxComplexity and the container consistent. -/
theorem C29_randomize [Zero K] (on : Nat → Bool) (sample : Nat → List Nat → List Nat)
    (hsample : ∀ k l, l.Nodup → k ≤ l.length → (sample k l).Nodup ∧ (∀ i ∈ sample k l, i ∈ l) ∧ (sample k l).length = k)
    (new : List K) (s : Masked K) (hnew : new.length = s.cont.length) :
    let s' := randomize on sample new s
    activeCount s'.mask ≤ s.maxComplexity ∧ Consistent s'.mask s'.vals s'.cont ∧ s'.mask.length = s.cont.length := by
  intro s'
  have hlen : ∀ (l : List Nat) (m : List Bool), (l.foldl (fun m i => m.set i false) m).length = m.length := by
    intro l
    induction l with
    | nil => intro m; rfl
    | cons a l ih => intro m; rw [List.foldl_cons, ih]; simp
  have hcnt : ((List.range s.cont.length).map on).count true = ((List.range s.cont.length).filter on).length := count_map_filter on _
  have hml : s'.mask.length = s.cont.length := by
    show (if _ then _ else _ : List Bool).length = _
    split
    · rw [hlen]; simp
    · simp
  refine ⟨?_, ?_, hml⟩
  · show (if _ then _ else _ : List Bool).count true ≤ _
    split
    · rename_i hover
      have hnd : ((List.range s.cont.length).filter on).Nodup := List.nodup_range.filter _
      obtain ⟨h1, h2, h3⟩ := hsample (((List.range s.cont.length).filter on).length - s.maxComplexity) _ hnd (by omega)
      have := count_switchOff _ ((List.range s.cont.length).map on) h1 (by
        intro i hi
        have hm := h2 i hi
        rw [List.mem_filter, List.mem_range] at hm
        rw [List.getD_eq_getElem?_getD, List.getElem?_map, List.getElem?_range hm.1]
        simpa using hm.2)
      omega
    · rename_i hover
      omega
  · exact masked_consistent _ _ (by rw [hml]; exact hnew)

/-- the hypotheses are met: three parameters of which at most two may be active; all bits are flipped on, two must go -/
example : topologyMutate (K := Int) (fun i => i ≠ 1) (fun t => t % 3) 3 ⟨[false, true, false], [5, 6, 7], [0, 6, 0], 1⟩ =
    some ⟨[false, false, true], [5, 6, 7], [0, 0, 7], 1⟩ := by decide

example : MaskOk 3 (⟨[false, true, true], [5, 6, 7], [0, 6, 7], 2⟩ : Masked Int) :=
  ⟨rfl, masked_consistent (K := Int) [false, true, true] [5, 6, 7] rfl, by decide, by decide⟩

/-- **C29, violated: randomize may disable everything.** -/
theorem C29_negation_randomize : activeCount (init (K := Int) (fun _ => false) (fun k l => l.take k) [1, 2] [3, 4] none).mask = 0 := by
  decide

/-- **C29, violated: round trip with returnZeros.** With returnZeros=True `params` has one entry per parameter, but writing
takes the values as if only the active ones were given: reading and writing back moves values. -/
theorem C29_negation_returnZeros : ∃ s : Masked Int, Consistent s.mask s.vals s.cont ∧
    setParameters s (params true s) = (⟨[false, true], [5, 0], [0, 0], 2⟩, none) ∧ s.vals = [5, 6] :=
  ⟨⟨[false, true], [5, 6], [0, 6], 2⟩, masked_consistent (K := Int) [false, true] [5, 6] rfl, by decide, rfl⟩

/-- **C65, partial.** Whatever is done to a copy, the original still knows its own mask and values: writing its own parameters
again restores it completely. -/
theorem C65_restore_partial [Zero K] (op : Masked K → Masked K) (original copy : Masked K) (h : Consistent original.mask original.vals original.cont) :
    setParameters (opOnCopy op original copy).1 (params false (opOnCopy op original copy).1) = (original, none) := by
  have h1 := C29_roundtrip original h
  have h2 : params false (opOnCopy op original copy).1 = params false original := rfl
  rw [h2]
  have h3 : ∀ (x : List K), (setLoop original.mask original.vals x 0).2 = none →
      setParameters (opOnCopy op original copy).1 x = setParameters original x := by
    intro x hx
    unfold setParameters opOnCopy
    simp only [hx]
    rfl
  rw [h3, h1]
  have hl := activeVals_length original.mask original.vals h.len
  rw [C29_params original h.len]
  exact (setLoop_ok original.mask original.vals _ 0 h.len (by omega)).1

/-- **C65, violated**: the parameters the original computes with are overwritten, because both share the container. -/
theorem C65_negation_shared : ∃ s : Masked Int, Consistent s.mask s.vals s.cont ∧
    ¬ Consistent (opOnCopy (mutate (fun _ => 1)) s s).1.mask (opOnCopy (mutate (fun _ => 1)) s s).1.vals
      (opOnCopy (mutate (fun _ => 1)) s s).1.cont := by
  refine ⟨⟨[true], [5], [5], 1⟩, masked_consistent (K := Int) [true] [5] rfl, fun h => ?_⟩
  have := h.on 0 rfl
  revert this; decide

end Verif.Props
