import Verif.Lemmas.LstmNetSim
/-
Lemmas for C174: one row of the buffers. The sweeps over the modules of a network with LSTM layers follow those of the extended network.
-/
namespace Verif.LstmNet
open Verif.Net Verif.Net.Spec Verif.LstmNet.Spec Verif.Topo.Spec Finset

variable {V P : Type}

/-- the connection that carries the state of layer `v` to the next step -/
def stateConn (v : V) (pc : P) (d : Nat) : Conn V P ℝ := identityConnection v pc d (2 * d) (4 * d) (5 * d)

def stateRecs (N : LNet V P ℝ) : List (V × Conn V P ℝ) := N.sorted.filterMap fun v => (N.kind v).map fun k => (v, stateConn v (N.mod v).pc k.dim)

/-- The extended network. -/
noncomputable def ext (N : LNet V P ℝ) : RNet V P ℝ where
  mod v := match N.kind v with
    | none => N.mod v
    | some k => extMod k (N.mod v).pc
  sorted := N.sorted
  inmods := N.inmods
  outmods := N.outmods
  conns := N.conns
  recs := N.recs ++ stateRecs N

theorem ext_mod_none (N : LNet V P ℝ) (v : V) (h : N.kind v = none) : (ext N).mod v = N.mod v := by simp [ext, h]
theorem ext_mod_some (N : LNet V P ℝ) (v : V) (k : Kind ℝ) (h : N.kind v = some k) : (ext N).mod v = extMod k (N.mod v).pc := by simp [ext, h]

/-- input rows of module `v` in the extended network and in the network -/
def InR (N : LNet V P ℝ) (v : V) (x' x : Vec ℝ) : Prop := match N.kind v with
  | none => x' = x
  | some k => ∀ j < 4 * k.dim, x' j = x j
/-- output rows -/
def OutR (N : LNet V P ℝ) (v : V) (x' x : Vec ℝ) : Prop := match N.kind v with
  | none => x' = x
  | some k => ∀ j < k.dim, x' j = x j

theorem InR.none {N : LNet V P ℝ} {v : V} {x' x : Vec ℝ} (h : InR N v x' x) (hk : N.kind v = none) : x' = x := by simpa [InR, hk] using h
theorem InR.some {N : LNet V P ℝ} {v : V} {x' x : Vec ℝ} {k : Kind ℝ} (h : InR N v x' x) (hk : N.kind v = some k) : ∀ j < 4 * k.dim, x' j = x j := by
  simpa [InR, hk] using h
theorem OutR.none {N : LNet V P ℝ} {v : V} {x' x : Vec ℝ} (h : OutR N v x' x) (hk : N.kind v = none) : x' = x := by simpa [OutR, hk] using h
theorem OutR.some {N : LNet V P ℝ} {v : V} {x' x : Vec ℝ} {k : Kind ℝ} (h : OutR N v x' x) (hk : N.kind v = some k) : ∀ j < k.dim, x' j = x j := by
  simpa [OutR, hk] using h
theorem inR_refl (N : LNet V P ℝ) (v : V) (x : Vec ℝ) : InR N v x x := by unfold InR; split <;> simp
theorem outR_refl (N : LNet V P ℝ) (v : V) (x : Vec ℝ) : OutR N v x x := by unfold OutR; split <;> simp

/-- pointwise: agreement on the coordinates the module has -/
theorem inR_of {N : LNet V P ℝ} {v : V} {x' x y' y : Vec ℝ} (h : InR N v x' x) (hn : N.kind v = none → x' = x → y' = y)
    (hs : ∀ k, N.kind v = some k → ∀ j < 4 * k.dim, x' j = x j → y' j = y j) : InR N v y' y := by
  unfold InR at *
  cases hk : N.kind v with
  | none => rw [hk] at h; exact hn hk h
  | some k => rw [hk] at h; exact fun j hj => hs k hk j hj (h j hj)
theorem outR_of {N : LNet V P ℝ} {v : V} {x' x y' y : Vec ℝ} (h : OutR N v x' x) (hn : N.kind v = none → x' = x → y' = y)
    (hs : ∀ k, N.kind v = some k → ∀ j < k.dim, x' j = x j → y' j = y j) : OutR N v y' y := by
  unfold OutR at *
  cases hk : N.kind v with
  | none => rw [hk] at h; exact hn hk h
  | some k => rw [hk] at h; exact fun j hj => hs k hk j hj (h j hj)

theorem InR.addAt {N : LNet V P ℝ} {v : V} {x' x : Vec ℝ} (h : InR N v x' x) (a b : Nat) (y : Vec ℝ) : InR N v (addAt x' a b y) (addAt x a b y) :=
  inR_of h (fun _ e => by rw [e]) (fun k _ j _ e => by unfold Net.addAt; rw [e])
theorem OutR.addAt {N : LNet V P ℝ} {v : V} {x' x : Vec ℝ} (h : OutR N v x' x) (a b : Nat) (y : Vec ℝ) : OutR N v (addAt x' a b y) (addAt x a b y) :=
  outR_of h (fun _ e => by rw [e]) (fun k _ j _ e => by unfold Net.addAt; rw [e])

theorem OutR.sl {N : LNet V P ℝ} (hN : LWF N) {v : V} {x' x : Vec ℝ} (h : OutR N v x' x) {a b : Nat} (hb : b ≤ (N.mod v).outdim) [DecidableEq V] : sl x' a b = sl x a b := by
  cases hk : N.kind v with
  | none => rw [h.none hk]
  | some k =>
    rw [hN.outdim v k hk] at hb
    funext i
    unfold Net.sl
    split
    · exact h.some hk _ (by omega)
    · rfl
theorem InR.sl {N : LNet V P ℝ} (hN : LWF N) {v : V} {x' x : Vec ℝ} (h : InR N v x' x) {a b : Nat} (hb : b ≤ (N.mod v).indim) [DecidableEq V] : sl x' a b = sl x a b := by
  cases hk : N.kind v with
  | none => rw [h.none hk]
  | some k =>
    rw [hN.indim v k hk] at hb
    funext i
    unfold Net.sl
    split
    · exact h.some hk _ (by omega)
    · rfl

section
variable [DecidableEq V] [DecidableEq P]

/-- rows of all buffers in the extended network and in the network; `pd p` is the number of parameters of container `p` -/
structure RowR (N : LNet V P ℝ) (pd : P → Nat) (b' b : Bufs V P ℝ) : Prop where
  inb : ∀ v, InR N v (b'.inb v) (b.inb v)
  outb : ∀ v, OutR N v (b'.outb v) (b.outb v)
  ine : ∀ v, InR N v (b'.ine v) (b.ine v)
  oute : ∀ v, OutR N v (b'.oute v) (b.oute v)
  derivs : ∀ p i, i < pd p → b'.derivs p i = b.derivs p i

theorem upd_rel {α β : Type} {R : V → α → β → Prop} {f' : V → α} {f : V → β} (h : ∀ v, R v (f' v) (f v)) (m : V) {a' : α} {a : β} (ha : R m a' a) :
    ∀ v, R v (upd f' m a' v) (upd f m a v) := by
  intro v
  unfold upd
  by_cases hv : v = m
  · subst hv; simpa using ha
  · simpa [hv] using h v

/-- a connection from `m` fits the network -/
def Fits (N : LNet V P ℝ) (m : V) (c : Conn V P ℝ) : Prop := c.inTo ≤ (N.mod m).outdim ∧ c.outTo ≤ (N.mod c.outmod).indim

theorem connForward_rel {N : LNet V P ℝ} (hN : LWF N) {pd : P → Nat} (θ : P → Vec ℝ) (m : V) {b' b : Bufs V P ℝ} (h : RowR N pd b' b) (c : Conn V P ℝ)
    (hc : Fits N m c) : RowR N pd (connForward θ m b' c) (connForward θ m b c) := by
  refine ⟨?_, h.outb, h.ine, h.oute, h.derivs⟩
  simp only [connForward]
  rw [(h.outb m).sl hN hc.1]
  exact upd_rel h.inb _ ((h.inb _).addAt _ _ _)

theorem connsForward_rel {N : LNet V P ℝ} (hN : LWF N) {pd : P → Nat} (θ : P → Vec ℝ) (m : V) (cs : List (Conn V P ℝ)) {b' b : Bufs V P ℝ} (h : RowR N pd b' b)
    (hc : ∀ c ∈ cs, Fits N m c) : RowR N pd (cs.foldl (connForward θ m) b') (cs.foldl (connForward θ m) b) := by
  induction cs generalizing b' b with
  | nil => exact h
  | cons c cs ih => exact ih (connForward_rel hN θ m h c (hc c (by simp))) fun d hd => hc d (by simp [hd])

theorem recsForward_rel {N : LNet V P ℝ} (hN : LWF N) {pd : P → Nat} (θ : P → Vec ℝ) (prev' prev : V → Vec ℝ) (hp : ∀ v, OutR N v (prev' v) (prev v))
    (rs : List (V × Conn V P ℝ)) {b' b : Bufs V P ℝ} (h : RowR N pd b' b)
    (hc : ∀ a ∈ rs, Fits N a.1 a.2) : RowR N pd (rs.foldl (recForward θ prev') b') (rs.foldl (recForward θ prev) b) := by
  induction rs generalizing b' b with
  | nil => exact h
  | cons a rs ih =>
    refine ih ?_ fun d hd => hc d (by simp [hd])
    have ha := hc a (by simp)
    refine ⟨?_, h.outb, h.ine, h.oute, h.derivs⟩
    simp only [recForward]
    rw [(hp a.1).sl hN ha.1]
    exact upd_rel h.inb _ ((h.inb _).addAt _ _ _)

theorem connBackward_rel {N : LNet V P ℝ} (hN : LWF N) {pd : P → Nat} (θ : P → Vec ℝ) (m : V) {b' b : Bufs V P ℝ} (h : RowR N pd b' b) (c : Conn V P ℝ)
    (hc : Fits N m c) : RowR N pd (connBackward θ m b' c) (connBackward θ m b c) := by
  simp only [connBackward]
  rw [(h.outb m).sl hN hc.1, (h.ine c.outmod).sl hN hc.2]
  refine ⟨h.inb, h.outb, h.ine, upd_rel h.oute _ ((h.oute _).addAt _ _ _), ?_⟩
  intro p i hi
  simp only [upd]
  split
  · subst p; dsimp only; rw [h.derivs _ i hi]
  · exact h.derivs p i hi

theorem connsBackward_rel {N : LNet V P ℝ} (hN : LWF N) {pd : P → Nat} (θ : P → Vec ℝ) (m : V) (cs : List (Conn V P ℝ)) {b' b : Bufs V P ℝ} (h : RowR N pd b' b)
    (hc : ∀ c ∈ cs, Fits N m c) : RowR N pd (cs.foldl (connBackward θ m) b') (cs.foldl (connBackward θ m) b) := by
  induction cs generalizing b' b with
  | nil => exact h
  | cons c cs ih => exact ih (connBackward_rel hN θ m h c (hc c (by simp))) fun d hd => hc d (by simp [hd])

theorem recsBackward_rel {N : LNet V P ℝ} (hN : LWF N) {pd : P → Nat} (θ : P → Vec ℝ) (next' next : V → Vec ℝ) (hp : ∀ v, InR N v (next' v) (next v))
    (rs : List (V × Conn V P ℝ)) {b' b : Bufs V P ℝ} (h : RowR N pd b' b)
    (hc : ∀ a ∈ rs, Fits N a.1 a.2) : RowR N pd (rs.foldl (recBackward θ next') b') (rs.foldl (recBackward θ next) b) := by
  induction rs generalizing b' b with
  | nil => exact h
  | cons a rs ih =>
    refine ih ?_ fun d hd => hc d (by simp [hd])
    have ha := hc a (by simp)
    simp only [recBackward]
    rw [(h.outb a.1).sl hN ha.1, (hp a.2.outmod).sl hN ha.2]
    refine ⟨h.inb, h.outb, h.ine, upd_rel h.oute _ ((h.oute _).addAt _ _ _), ?_⟩
    intro p i hi
    simp only [upd]
    split
    · subst p; dsimp only; rw [h.derivs _ i hi]
    · exact h.derivs p i hi

theorem loadIn_rel {N : LNet V P ℝ} (hN : LWF N) {pd : P → Nat} (x : Vec ℝ) (ms : List V) (hms : ∀ m ∈ ms, m ∈ N.inmods) (index : Nat) {b' b : Bufs V P ℝ} (h : RowR N pd b' b) :
    RowR N pd (loadIn (ext N).toNet x index ms b') (loadIn N.toNet x index ms b) := by
  induction ms generalizing index b' b with
  | nil => exact h
  | cons m ms ih =>
    have hk : N.kind m = none := by
      cases hk : N.kind m with
      | none => rfl
      | some k => exact absurd (hms m (by simp)) (hN.notIn m k hk)
    simp only [loadIn, ext_mod_none N m hk]
    refine ih (fun m hm => hms m (by simp [hm])) _ ⟨?_, h.outb, h.ine, h.oute, h.derivs⟩
    exact upd_rel h.inb _ (inR_refl _ _ _)

theorem loadErr_rel {N : LNet V P ℝ} (hN : LWF N) {pd : P → Nat} (x : Vec ℝ) (ms : List V) (hms : ∀ m ∈ ms, m ∈ N.outmods) (index : Nat) {b' b : Bufs V P ℝ} (h : RowR N pd b' b) :
    RowR N pd (loadErr (ext N).toNet x index ms b') (loadErr N.toNet x index ms b) := by
  induction ms generalizing index b' b with
  | nil => exact h
  | cons m ms ih =>
    have hk : N.kind m = none := by
      cases hk : N.kind m with
      | none => rfl
      | some k => exact absurd (hms m (by simp)) (hN.notOut m k hk)
    simp only [loadErr, ext_mod_none N m hk]
    refine ih (fun m hm => hms m (by simp [hm])) _ ⟨h.inb, h.outb, h.ine, ?_, h.derivs⟩
    exact upd_rel h.oute _ (outR_refl _ _ _)

theorem readOut_rel {N : LNet V P ℝ} (hN : LWF N) (rows' rows : V → Vec ℝ) (hr : ∀ v, OutR N v (rows' v) (rows v)) (ms : List V) (hms : ∀ m ∈ ms, m ∈ N.outmods) (index : Nat)
    (o : Vec ℝ) : readOut (ext N).toNet rows' index ms o = readOut N.toNet rows index ms o := by
  induction ms generalizing index o with
  | nil => rfl
  | cons m ms ih =>
    have hk : N.kind m = none := by
      cases hk : N.kind m with
      | none => rfl
      | some k => exact absurd (hms m (by simp)) (hN.notOut m k hk)
    simp only [readOut, ext_mod_none N m hk, (hr m).none hk]
    exact ih (fun m hm => hms m (by simp [hm])) _ _

theorem readErr_rel {N : LNet V P ℝ} (hN : LWF N) (rows' rows : V → Vec ℝ) (hr : ∀ v, InR N v (rows' v) (rows v)) (ms : List V) (hms : ∀ m ∈ ms, m ∈ N.inmods) (index : Nat)
    (o : Vec ℝ) : readErr (ext N).toNet rows' index ms o = readErr N.toNet rows index ms o := by
  induction ms generalizing index o with
  | nil => rfl
  | cons m ms ih =>
    have hk : N.kind m = none := by
      cases hk : N.kind m with
      | none => rfl
      | some k => exact absurd (hms m (by simp)) (hN.notIn m k hk)
    simp only [readErr, ext_mod_none N m hk, (hr m).none hk]
    exact ih (fun m hm => hms m (by simp [hm])) _ _

/-! ### the state connections -/

theorem stateRecs_sum (N : LNet V P ℝ) (hnd : N.sorted.Nodup) (n : V) (hn : n ∈ N.sorted) (f : V × Conn V P ℝ → ℝ) :
    ((stateRecs N).map fun a => if a.1 = n then f a else 0).sum = match N.kind n with
      | none => 0
      | some k => f (n, stateConn n (N.mod n).pc k.dim) := by
  unfold stateRecs
  have key : ∀ l : List V, l.Nodup → ((l.filterMap fun v => (N.kind v).map fun k => (v, stateConn v (N.mod v).pc k.dim)).map fun a => if a.1 = n then f a else 0).sum =
      if n ∈ l then (match N.kind n with
      | none => 0
      | some k => f (n, stateConn n (N.mod n).pc k.dim)) else 0 := by
    intro l hl
    induction l with
    | nil => simp
    | cons v l ih =>
      rw [List.nodup_cons] at hl
      rw [List.filterMap_cons]
      cases hk : N.kind v with
      | none =>
        simp only [Option.map_none]
        rw [ih hl.2]
        by_cases hv : n = v
        · subst hv
          simp [hk]
        · simp [hv]
      | some k =>
        simp only [Option.map_some, List.map_cons, List.sum_cons]
        rw [ih hl.2]
        by_cases hv : n = v
        · subst hv
          simp [hk, hl.1]
        · simp [hv, Ne.symm hv]
  rw [key _ hnd, if_pos hn]

theorem stateRecs_mem {N : LNet V P ℝ} {a : V × Conn V P ℝ} (h : a ∈ stateRecs N) :
    ∃ k, a.1 ∈ N.sorted ∧ N.kind a.1 = some k ∧ a.2 = stateConn a.1 (N.mod a.1).pc k.dim := by
  simp only [stateRecs, List.mem_filterMap, Option.map_eq_some_iff] at h
  obtain ⟨v, hv, k, hk, rfl⟩ := h
  exact ⟨k, hv, hk, rfl⟩

theorem stateRecs_out {N : LNet V P ℝ} {a : V × Conn V P ℝ} (h : a ∈ stateRecs N) : a.2.outmod = a.1 := by
  obtain ⟨k, -, -, h⟩ := stateRecs_mem h
  rw [h]; rfl

theorem signal_stateConn (θ : P → Vec ℝ) (row : Vec ℝ) (v : V) (pc : P) (d j : Nat) :
    signal θ row (stateConn v pc d) j = if 4 * d ≤ j ∧ j < 5 * d then sl row d (2 * d) (j - 4 * d) else 0 := rfl
theorem backSignal_stateConn (θ : P → Vec ℝ) (err row : Vec ℝ) (v : V) (pc : P) (d j : Nat) :
    backSignal θ err row (stateConn v pc d) j = if d ≤ j ∧ j < 2 * d then sl err (4 * d) (5 * d) (j - d) else 0 := rfl

/-- what the state connections add to the input rows -/
theorem stateRecs_forward (N : LNet V P ℝ) (hnd : N.sorted.Nodup) (θ : P → Vec ℝ) (prev : V → Vec ℝ) (b : Bufs V P ℝ) :
    (∀ v, N.kind v = none → ((stateRecs N).foldl (recForward θ prev) b).inb v = b.inb v) ∧
    (∀ v k, N.kind v = some k → ∀ j, j < 4 * k.dim → ((stateRecs N).foldl (recForward θ prev) b).inb v j = b.inb v j) ∧
    (∀ v k, N.kind v = some k → v ∈ N.sorted → ∀ j < k.dim, ((stateRecs N).foldl (recForward θ prev) b).inb v (4 * k.dim + j) =
      b.inb v (4 * k.dim + j) + prev v (k.dim + j)) ∧
    ((stateRecs N).foldl (recForward θ prev) b).outb = b.outb ∧ ((stateRecs N).foldl (recForward θ prev) b).ine = b.ine ∧
    ((stateRecs N).foldl (recForward θ prev) b).oute = b.oute ∧ ((stateRecs N).foldl (recForward θ prev) b).derivs = b.derivs := by
  obtain ⟨h1, h2⟩ := recs_forward θ prev (stateRecs N) b
  refine ⟨?_, ?_, ?_, h2⟩
  · intro v hv
    funext j
    rw [h1, sum_zero_list, add_zero]
    intro a ha
    obtain ⟨k, -, hk, -⟩ := stateRecs_mem ha
    rw [stateRecs_out ha, if_neg (by rintro rfl; rw [hv] at hk; cases hk)]
  · intro v k hv j hj
    rw [h1, sum_zero_list, add_zero]
    intro a ha
    obtain ⟨k', -, hk, ha2⟩ := stateRecs_mem ha
    rw [stateRecs_out ha]
    split
    · next h =>
      subst h
      rw [hv] at hk; cases hk
      rw [ha2]
      rw [signal_stateConn, if_neg (by omega)]
    · rfl
  · intro v k hv hs j hj
    rw [h1]
    congr 1
    have : ((stateRecs N).map fun a => if a.2.outmod = v then signal θ (prev a.1) a.2 (4 * k.dim + j) else 0) =
        (stateRecs N).map fun a => if a.1 = v then signal θ (prev a.1) a.2 (4 * k.dim + j) else 0 := by
      apply List.map_congr_left
      intro a ha
      rw [stateRecs_out ha]
    rw [this, stateRecs_sum N hnd v hs, hv]
    dsimp only
    rw [signal_stateConn, if_pos (by omega)]
    simp only [sl]
    rw [if_pos (by omega)]
    congr 1; omega

/-- what the state connections add to the output errors -/
theorem stateRecs_backward (N : LNet V P ℝ) (hnd : N.sorted.Nodup) (θ : P → Vec ℝ) (next : V → Vec ℝ) (b : Bufs V P ℝ) :
    (∀ v, N.kind v = none → ((stateRecs N).foldl (recBackward θ next) b).oute v = b.oute v) ∧
    (∀ v k, N.kind v = some k → ∀ j, j < k.dim → ((stateRecs N).foldl (recBackward θ next) b).oute v j = b.oute v j) ∧
    (∀ v k, N.kind v = some k → v ∈ N.sorted → ∀ j < k.dim, ((stateRecs N).foldl (recBackward θ next) b).oute v (k.dim + j) =
      b.oute v (k.dim + j) + next v (4 * k.dim + j)) ∧
    ((stateRecs N).foldl (recBackward θ next) b).outb = b.outb ∧ ((stateRecs N).foldl (recBackward θ next) b).ine = b.ine ∧
    ((stateRecs N).foldl (recBackward θ next) b).inb = b.inb ∧ ((stateRecs N).foldl (recBackward θ next) b).derivs = b.derivs := by
  obtain ⟨h1, h2, h3, h4, h5⟩ := recs_backward θ next (stateRecs N) b
  refine ⟨?_, ?_, ?_, h2, h3, h4, ?_⟩
  · intro v hv
    funext j
    rw [h1, sum_zero_list, add_zero]
    intro a ha
    obtain ⟨k, -, hk, -⟩ := stateRecs_mem ha
    rw [if_neg (by rintro rfl; rw [hv] at hk; cases hk)]
  · intro v k hv j hj
    rw [h1, sum_zero_list, add_zero]
    intro a ha
    obtain ⟨k', -, hk, ha2⟩ := stateRecs_mem ha
    split
    · next h =>
      subst h
      rw [hv] at hk; cases hk
      rw [ha2]
      rw [backSignal_stateConn, if_neg (by omega)]
    · rfl
  · intro v k hv hs j hj
    rw [h1]
    congr 1
    rw [stateRecs_sum N hnd v hs, hv]
    dsimp only
    rw [show (stateConn v (N.mod v).pc k.dim).outmod = v from rfl, backSignal_stateConn, if_pos (by omega)]
    simp only [sl]
    rw [if_pos (by omega)]
    congr 1; omega
  · funext p i
    rw [h5, sum_zero_list, add_zero]
    intro a ha
    obtain ⟨k', -, hk, ha2⟩ := stateRecs_mem ha
    split
    · rw [ha2]; rfl
    · rfl

end
end Verif.LstmNet
