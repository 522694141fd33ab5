import Verif.Model.Renderers
import Mathlib.Data.List.GetD
import Mathlib.Tactic.Linarith
import Mathlib.Tactic.NormNum
/-
Properties of the threads that draw environments.
-/
namespace Verif.Spec
open Verif.Renderers

/-- The points recorded since the last reset. -/
def pathOf {α : Type} : List (Simple.Op α) → List (α × α) → List (α × α)
  | [], ps => ps
  | .update x y :: ops, ps => pathOf ops (ps ++ [(x, y)])
  | .reset :: ops, _ => pathOf ops []
  | .stop :: ops, ps => pathOf ops ps

/-- The picture of a path: the abscissas and the ordinates. -/
def picture {α : Type} (ops : List (Simple.Op α)) : List α × List α := ((pathOf ops []).map Prod.fst, (pathOf ops []).map Prod.snd)

end Verif.Spec

namespace Verif.Renderers
open Verif.Spec

namespace Simple
variable {α : Type}

theorem pathOf_append (a b : List (Op α)) (ps : List (α × α)) : pathOf (a ++ b) ps = pathOf b (pathOf a ps) := by
  induction a generalizing ps with
  | nil => rfl
  | cons o a ih => cases o <;> exact ih _

/-- steps within a call -/
def inner : Instr α → Bool
  | .acquire => false
  | .release => false
  | _ => true

/-- the paths after steps within a call -/
def effect : List (Instr α) → List α × List α → List α × List α
  | .pushX x :: is, p => effect is (p.1 ++ [x], p.2)
  | .pushY y :: is, p => effect is (p.1, p.2 ++ [y])
  | .newX :: is, p => effect is ([], p.2)
  | .newY :: is, p => effect is (p.1, [])
  | _ :: is, p => effect is p
  | [], p => p

/-- steps of a call between those on the lock -/
def body : Op α → List (Instr α)
  | .update x y => [.pushX x, .pushY y]
  | .reset => [.newX, .newY]
  | .stop => [.setStop]

theorem compile_eq (o : Op α) : compile o = .acquire :: (body o ++ [.release]) := by cases o <;> rfl

theorem body_inner (o : Op α) : ∀ i ∈ body o, inner i = true := by cases o <;> simp [body, inner]

theorem body_length (o : Op α) : (body o).length ≤ 2 := by cases o <;> simp [body]

theorem body_effect (done : List (Op α)) (o : Op α) : effect (body o) (picture done) = picture (done ++ [o]) := by
  cases o <;> simp [body, effect, picture, pathOf_append, pathOf]

/-- the client is between two calls -/
def Idle (ops : List (Op α)) (k : ℕ) (s : State α) : Prop :=
  k ≤ ops.length ∧ s.client = (ops.drop k).flatMap compile ∧ s.lock ≠ some .client ∧ (s.pathx, s.pathy) = picture (ops.take k) ∧
  ((∃ o ∈ ops.take k, o matches .stop) → s.stopRequest = true ∨ s.pc matches .done)

/-- the client is within the call number `k`; `cur` is what is left of it -/
def Busy (ops : List (Op α)) (k : ℕ) (s : State α) : Prop :=
  k < ops.length ∧ ∃ cur, cur.length ≤ 2 ∧ s.client = cur ++ .release :: (ops.drop (k + 1)).flatMap compile ∧ (∀ i ∈ cur, inner i = true) ∧ s.lock = some .client ∧ effect cur (s.pathx, s.pathy) = picture (ops.take (k + 1)) ∧
  ((∃ o ∈ ops.take (k + 1), o matches .stop) → .setStop ∈ cur ∨ s.stopRequest = true ∨ s.pc matches .done)

/-- the renderer has the lock exactly while it draws -/
def Drawing (s : State α) : Prop :=
  match s.pc with
  | .readX => s.lock = some .renderer
  | .readY xs => s.lock = some .renderer ∧ xs = s.pathx
  | .release => s.lock = some .renderer
  | _ => s.lock ≠ some .renderer

/-- the frames show the paths after numbers of calls -/
def Shown (ops : List (Op α)) (k : ℕ) (s : State α) : Prop :=
  ∃ ks : List ℕ, ks.Pairwise (· ≤ ·) ∧ (∀ j ∈ ks, j ≤ k) ∧ s.frames = ks.map fun j => picture (ops.take j)

def Inv (ops : List (Op α)) (s : State α) : Prop := ∃ k, (Idle ops k s ∨ Busy ops k s) ∧ Drawing s ∧ Shown ops k s

theorem inv_start (ops : List (Op α)) : Inv ops (start ops) :=
  ⟨0, .inl ⟨by simp, rfl, by simp [start], rfl, by simp⟩, by simp [Drawing, start], [], by simp, by simp, rfl⟩

theorem take_drop_succ {A : Type} (l : List A) (k : ℕ) (h : k < l.length) : l.drop k = l[k] :: l.drop (k + 1) ∧ l.take (k + 1) = l.take k ++ [l[k]] :=
  ⟨List.drop_eq_getElem_cons h, List.take_succ_eq_append_getElem h⟩

theorem inv_client (ops : List (Op α)) (s : State α) (h : Inv ops s) : Inv ops (clientStep s) := by
  obtain ⟨k, h1, h2, h3⟩ := h
  rcases h1 with ⟨hk, hc, hl, hp, hs⟩ | ⟨hk, cur, hlen, hc, hi, hl, hp, hs⟩
  · rcases Nat.lt_or_ge k ops.length with hlt | hge
    · obtain ⟨e1, e2⟩ := take_drop_succ ops k hlt
      rw [e1, List.flatMap_cons, compile_eq] at hc
      simp only [List.cons_append, List.append_assoc, List.nil_append] at hc
      unfold clientStep
      rw [hc]
      simp only
      split_ifs with hn
      · refine ⟨k, .inr ⟨hlt, body ops[k], body_length _, rfl, body_inner _, rfl, ?_, ?_⟩, ?_, h3⟩
        · change effect _ (s.pathx, s.pathy) = _
          rw [hp, e2, body_effect]
        · rintro ⟨o, ho, hst⟩
          rw [e2, List.mem_append, List.mem_singleton] at ho
          rcases ho with ho | rfl
          · exact .inr (hs ⟨o, ho, hst⟩)
          · left
            cases h : ops[k] <;> simp [h] at hst
            simp [body]
        · unfold Drawing at *
          cases hpc : s.pc <;> simp_all
      · exact ⟨k, .inl ⟨hk, by rw [hc, e1, List.flatMap_cons, compile_eq]; simp, hl, hp, hs⟩, h2, h3⟩
    · have : s.client = [] := by rw [hc, List.drop_eq_nil_of_le hge]; rfl
      unfold clientStep
      rw [this]
      exact ⟨k, .inl ⟨hk, hc, hl, hp, hs⟩, h2, h3⟩
  · have hd : ∀ t : State α, t.pc = s.pc → t.lock = s.lock → Drawing t := by
      intro t e1 e2
      unfold Drawing at *
      rw [e1]
      cases hpc : s.pc <;> simp_all
    cases cur with
    | nil =>
      unfold clientStep
      rw [hc]
      simp only [List.nil_append]
      refine ⟨k + 1, .inl ⟨hk, rfl, by simp, hp, fun h => ?_⟩, ?_, ?_⟩
      · rcases hs h with h | h
        · simp at h
        · exact h
      · unfold Drawing at *
        cases hpc : s.pc <;> simp_all
      · obtain ⟨ks, q1, q2, q3⟩ := h3
        exact ⟨ks, q1, fun j hj => (q2 j hj).trans (Nat.le_succ k), q3⟩
    | cons i cur =>
      have hi' : ∀ j ∈ cur, inner j = true := fun j hj => hi j (List.mem_cons_of_mem _ hj)
      have h0 := hi i List.mem_cons_self
      unfold clientStep
      rw [hc]
      cases i with
      | acquire => simp [inner] at h0
      | release => simp [inner] at h0
      | setStop => exact ⟨k, .inr ⟨hk, cur, by simp at hlen; omega, rfl, hi', hl, hp, fun _ => .inr (.inl rfl)⟩, hd _ rfl rfl, h3⟩
      | _ => exact ⟨k, .inr ⟨hk, cur, by simp at hlen; omega, rfl, hi', hl, hp, fun h => by simpa using hs h⟩, hd _ rfl rfl, h3⟩

theorem inv_render (ops : List (Op α)) (s : State α) (h : Inv ops s) : Inv ops (renderStep s) := by
  obtain ⟨k, h1, h2, h3⟩ := h
  have keep : ∀ t : State α, t.client = s.client → t.pathx = s.pathx → t.pathy = s.pathy → (t.lock = some .client ↔ s.lock = some .client) → ((s.stopRequest = true ∨ s.pc matches .done) → t.stopRequest = true ∨ t.pc matches .done) →
      Idle ops k t ∨ Busy ops k t := by
    intro t e1 e2 e3 e4 e5
    rcases h1 with ⟨hk, hc, hl, hp, hs⟩ | ⟨hk, cur, hlen, hc, hi, hl, hp, hs⟩
    · exact .inl ⟨hk, e1.trans hc, fun h => hl (e4.1 h), by rw [e2, e3, hp], fun h => e5 (hs h)⟩
    · refine .inr ⟨hk, cur, hlen, e1.trans hc, hi, e4.2 hl, by rw [e2, e3, hp], fun h => ?_⟩
      rcases hs h with h | h
      · exact .inl h
      · exact .inr (e5 h)
  unfold renderStep
  unfold Drawing at h2
  cases hpc : s.pc with
  | test =>
    rw [hpc] at h2
    simp only
    split_ifs with hst
    · exact ⟨k, keep _ rfl rfl rfl Iff.rfl (by simp [hst]), h2, h3⟩
    · exact ⟨k, keep _ rfl rfl rfl Iff.rfl (by simp [hst, hpc]), h2, h3⟩
  | acquire =>
    rw [hpc] at h2
    simp only
    split_ifs with hn
    · exact ⟨k, keep _ rfl rfl rfl (by simp [hn]) (by simp [hpc]), rfl, h3⟩
    · exact ⟨k, h1, by unfold Drawing; rw [hpc]; exact h2, h3⟩
  | readX =>
    rw [hpc] at h2
    exact ⟨k, keep _ rfl rfl rfl Iff.rfl (by simp [hpc]), ⟨h2, rfl⟩, h3⟩
  | readY xs =>
    rw [hpc] at h2
    obtain ⟨h2, rfl⟩ := h2
    refine ⟨k, keep _ rfl rfl rfl Iff.rfl (by simp [hpc]), h2, ?_⟩
    rcases h1 with ⟨hk, hc, hl, hp, hs⟩ | ⟨-, -, -, -, -, hl, -⟩
    · obtain ⟨ks, q1, q2, q3⟩ := h3
      refine ⟨ks ++ [k], ?_, ?_, ?_⟩
      · rw [List.pairwise_append]
        exact ⟨q1, by simp, fun a ha b hb => by rw [List.mem_singleton.1 hb]; exact q2 a ha⟩
      · intro j hj
        rcases List.mem_append.1 hj with hj | hj
        · exact q2 j hj
        · exact (List.mem_singleton.1 hj).le
      · simp [q3, hp]
    · rw [h2] at hl
      simp at hl
  | release =>
    rw [hpc] at h2
    exact ⟨k, keep _ rfl rfl rfl (by simp [h2]) (by simp [hpc]), by simp [Drawing], h3⟩
  | leave =>
    rw [hpc] at h2
    exact ⟨k, keep _ rfl rfl rfl Iff.rfl (by simp), h2, h3⟩
  | done => exact ⟨k, h1, by unfold Drawing; rw [hpc] at h2 ⊢; exact h2, h3⟩

theorem inv_run (ops : List (Op α)) (schedule : List Thread) : Inv ops (run (start ops) schedule) := by
  have key : ∀ (schedule : List Thread) (s : State α), Inv ops s → Inv ops (run s schedule) := by
    intro schedule
    induction schedule with
    | nil => exact fun s h => h
    | cons t ts ih =>
      intro s h
      cases t with
      | client => exact ih _ (inv_client ops s h)
      | renderer => exact ih _ (inv_render ops s h)
  exact key schedule _ (inv_start ops)

/-- nobody asks the renderer to stop -/
def Going (s : State α) : Prop := (∀ i ∈ s.client, ¬ i matches .setStop) ∧ s.stopRequest = false ∧ ¬ (s.pc matches .leave) ∧ ¬ (s.pc matches .done)

theorem going_run (ops : List (Op α)) (hn : ∀ o ∈ ops, ¬ o matches .stop) (schedule : List Thread) : Going (run (start ops) schedule) := by
  have key : ∀ (schedule : List Thread) (s : State α), Going s → Going (run s schedule) := by
    intro schedule
    induction schedule with
    | nil => exact fun s h => h
    | cons t ts ih =>
      intro s h
      cases t with
      | client =>
        refine ih _ ?_
        obtain ⟨h1, h2, h3, h4⟩ := h
        change Going (clientStep s)
        unfold clientStep
        cases hc : s.client with
        | nil => exact ⟨h1, h2, h3, h4⟩
        | cons i is =>
          have hi := h1 i (by rw [hc]; simp)
          have his : ∀ j ∈ is, ¬ j matches .setStop := fun j hj => h1 j (by rw [hc]; simp [hj])
          cases i with
          | acquire =>
            simp only
            split_ifs
            · exact ⟨his, h2, h3, h4⟩
            · exact ⟨h1, h2, h3, h4⟩
          | setStop => simp at hi
          | _ => exact ⟨his, h2, h3, h4⟩
      | renderer =>
        refine ih _ ?_
        obtain ⟨h1, h2, h3, h4⟩ := h
        change Going (renderStep s)
        unfold renderStep
        cases hc : s.pc with
        | test =>
          rw [if_neg (by simp [h2])]
          exact ⟨h1, h2, by simp, by simp⟩
        | acquire =>
          simp only
          split_ifs
          · exact ⟨h1, h2, by simp, by simp⟩
          · exact ⟨h1, h2, h3, h4⟩
        | leave => rw [hc] at h3; simp at h3
        | done => rw [hc] at h4; simp at h4
        | _ => exact ⟨h1, h2, by simp, by simp⟩
  refine key schedule _ ⟨?_, rfl, by simp [start], by simp [start]⟩
  intro i hi
  obtain ⟨o, ho, hio⟩ := List.mem_flatMap.1 hi
  have := hn o ho
  cases o <;> simp [compile] at hio this
  · rcases hio with rfl | rfl | rfl | rfl <;> simp
  · rcases hio with rfl | rfl | rfl | rfl <;> simp

/-- the rest of a call ends with the lock being free -/
theorem run_call (cur : List (Instr α)) (rest : List (Instr α)) (hi : ∀ i ∈ cur, inner i = true) (s : State α) (hc : s.client = cur ++ .release :: rest) :
    (run s (List.replicate (cur.length + 1) .client)).lock = none ∧ (run s (List.replicate (cur.length + 1) .client)).pc = s.pc := by
  induction cur generalizing s with
  | nil =>
    change (clientStep s).lock = none ∧ (clientStep s).pc = s.pc
    unfold clientStep
    rw [hc]
    exact ⟨rfl, rfl⟩
  | cons i cur ih =>
    have h0 := hi i List.mem_cons_self
    have hst : (clientStep s).client = cur ++ .release :: rest ∧ (clientStep s).pc = s.pc := by
      unfold clientStep
      rw [hc]
      cases i <;> simp [inner] at h0 <;> exact ⟨rfl, rfl⟩
    have := ih (fun j hj => hi j (List.mem_cons_of_mem _ hj)) (clientStep s) hst.1
    rw [hst.2] at this
    exact this

theorem compile_ne (o : Op α) : compile o ≠ [] := by cases o <;> simp [compile]

/-- a client that has no steps left -/
theorem finished (ops : List (Op α)) (s : State α) (h : Inv ops s) (hc : s.client = []) : s.lock ≠ some .client ∧ (s.pathx, s.pathy) = picture ops ∧ ((∃ o ∈ ops, o matches .stop) → s.stopRequest = true ∨ s.pc matches .done) := by
  obtain ⟨k, h1, -, -⟩ := h
  rcases h1 with ⟨hk, h2, hl, hp, hs⟩ | ⟨hk, cur, -, h2, -⟩
  · rw [hc, eq_comm, List.flatMap_eq_nil_iff] at h2
    have hd : ops.drop k = [] := by
      rw [List.eq_nil_iff_forall_not_mem]
      intro o ho
      exact compile_ne o (h2 o ho)
    have : ops.take k = ops := List.take_of_length_le (List.drop_eq_nil_iff.1 hd)
    rw [this] at hp hs
    exact ⟨hl, hp, hs⟩
  · rw [hc] at h2
    simp at h2

end Simple

namespace CartPole

/-- the data after the calls made so far -/
def dataAt (ds : List Data) (k : ℕ) : Data := (⟨0, 0, 0, 0⟩ :: ds).getD k ⟨0, 0, 0, 0⟩

/-- steps of a call between those on the lock -/
def body (d : Data) : List Instr := [.angle d.angle, .angleVel d.angleVel, .pos d.pos, .posVel d.posVel]

def effect : List Instr → Data → Data
  | .angle a :: is, d => effect is { d with angle := a }
  | .angleVel a :: is, d => effect is { d with angleVel := a }
  | .pos p :: is, d => effect is { d with pos := p }
  | .posVel p :: is, d => effect is { d with posVel := p }
  | _ :: is, d => effect is d
  | [], d => d

def inner : Instr → Bool
  | .acquire => false
  | .release => false
  | _ => true

def Inv (ds : List Data) (s : State) : Prop := ∃ k,
  (k ≤ ds.length ∧ s.client = (ds.drop k).flatMap compile ∧ s.lock = none ∧ s.data = dataAt ds k) ∨
  (k < ds.length ∧ ∃ cur, s.client = cur ++ .release :: (ds.drop (k + 1)).flatMap compile ∧ (∀ i ∈ cur, inner i = true) ∧ s.lock = some .client ∧ effect cur s.data = dataAt ds (k + 1))

theorem inv_client (ds : List Data) (s : State) (h : Inv ds s) : Inv ds (clientStep s) := by
  obtain ⟨k, ⟨hk, hc, hl, hd⟩ | ⟨hk, cur, hc, hi, hl, hd⟩⟩ := h
  · rcases Nat.lt_or_ge k ds.length with hlt | hge
    · have e1 : ds.drop k = ds[k] :: ds.drop (k + 1) := List.drop_eq_getElem_cons hlt
      rw [e1, List.flatMap_cons] at hc
      unfold clientStep
      rw [hc]
      refine ⟨k, .inr ⟨hlt, body ds[k], ?_, by simp [body, inner], ?_, ?_⟩⟩
      · simp [compile, body, hl]
      · simp [compile, hl]
      · simp [compile, hl, body, effect, dataAt, hlt]
    · have : s.client = [] := by rw [hc, List.drop_eq_nil_of_le hge]; rfl
      unfold clientStep
      rw [this]
      exact ⟨k, .inl ⟨hk, hc, hl, hd⟩⟩
  · unfold clientStep
    rw [hc]
    cases cur with
    | nil => exact ⟨k + 1, .inl ⟨hk, rfl, rfl, hd⟩⟩
    | cons i cur =>
      have h0 := hi i List.mem_cons_self
      have hi' : ∀ j ∈ cur, inner j = true := fun j hj => hi j (List.mem_cons_of_mem _ hj)
      cases i <;> simp [inner] at h0 <;> exact ⟨k, .inr ⟨hk, cur, rfl, hi', hl, hd⟩⟩

theorem inv_render (ds : List Data) (s : State) (h : Inv ds s) : Inv ds (renderStep s) := by
  have e : (renderStep s).client = s.client ∧ (renderStep s).lock = s.lock ∧ (renderStep s).data = s.data := by
    unfold renderStep
    cases s.pc <;> simp only <;> (try split_ifs) <;> simp
  unfold Inv
  rw [e.1, e.2.1, e.2.2]
  exact h

theorem inv_run (ds : List Data) (schedule : List Thread) : Inv ds (run (start ds) schedule) := by
  have key : ∀ (schedule : List Thread) (s : State), Inv ds s → Inv ds (run s schedule) := by
    intro schedule
    induction schedule with
    | nil => exact fun s h => h
    | cons t ts ih =>
      intro s h
      cases t with
      | client => exact ih _ (inv_client ds s h)
      | renderer => exact ih _ (inv_render ds s h)
  exact key schedule _ ⟨0, .inl ⟨by simp, rfl, rfl, rfl⟩⟩

/-- a frame during which the client makes no step -/
theorem quiet (s : State) (hp : s.pc = .angle) : ∃ n ≤ 7, ∃ f, (run s (List.replicate n .renderer)).frames = s.frames ++ [f] ∧ (f.green = true ↔ s.data.angle < 0.05 ∧ |s.data.pos| < 0.05) ∧ f.boxX = s.data.pos - cartwidth / 2 ∧
    f.foot = (s.data.pos, 0) ∧ f.tip = (s.data.pos + polelength * Real.sin s.data.angle, polelength * Real.cos s.data.angle) := by
  obtain ⟨lock, d, cl, pc, fr⟩ := s
  simp only at hp
  subst hp
  by_cases ha : d.angle < 0.05
  · have e : renderStep ⟨lock, d, cl, .angle, fr⟩ = ⟨lock, d, cl, .pos, fr⟩ := by simp [renderStep, ha]
    refine ⟨7, le_refl _, ?_⟩
    change ∃ f, (run (renderStep ⟨lock, d, cl, .angle, fr⟩) (List.replicate 6 .renderer)).frames = _ ∧ _
    rw [e]
    exact ⟨_, rfl, by simp [ha], rfl, rfl, rfl⟩
  · have e : renderStep ⟨lock, d, cl, .angle, fr⟩ = ⟨lock, d, cl, .box false, fr⟩ := by simp [renderStep, ha]
    refine ⟨6, by omega, ?_⟩
    change ∃ f, (run (renderStep ⟨lock, d, cl, .angle, fr⟩) (List.replicate 5 .renderer)).frames = _ ∧ _
    rw [e]
    exact ⟨_, rfl, by simp [ha], rfl, rfl, rfl⟩

end CartPole

end Verif.Renderers

namespace Verif.Props
open Verif.Spec Verif.Renderers

variable {α : Type}

/-- Whatever the schedule, each frame of `SimpleRenderer` shows exactly the points of the calls that had been completed at some time (since the last reset), later frames not less calls than earlier ones. -/
theorem C201_frames (ops : List (Simple.Op α)) (schedule : List Thread) :
    ∃ ks : List ℕ, ks.Pairwise (· ≤ ·) ∧ (∀ k ∈ ks, k ≤ ops.length) ∧ (Simple.run (Simple.start ops) schedule).frames = ks.map fun k => picture (ops.take k) := by
  obtain ⟨k, h1, -, ks, q1, q2, q3⟩ := Simple.inv_run ops schedule
  have hk : k ≤ ops.length := by
    rcases h1 with h | h
    · exact h.1
    · exact h.1.le
  exact ⟨ks, q1, fun j hj => (q2 j hj).trans hk, q3⟩

/-- two updates, with the renderer drawing in between and trying to do so while the second one is under way -/
example : (Simple.run (Simple.start [.update 1 2, .update 3 4]) [.client, .renderer, .client, .client, .client, .renderer, .client, .renderer, .renderer, .renderer, .client, .client, .client, .renderer, .renderer, .client, .renderer, .renderer, .renderer]).frames =
    [([1], [2]), ([1, 3], [2, 4])] := by decide

/-- When the client has made all its calls, none of them `stop`, then five steps of the renderer later the last frame shows all of them. -/
theorem C201_latest (ops : List (Simple.Op α)) (hn : ∀ o ∈ ops, ¬ o matches .stop) (schedule : List Thread) (hc : (Simple.run (Simple.start ops) schedule).client = []) :
    (Simple.run (Simple.start ops) (schedule ++ List.replicate 5 .renderer)).frames.getLast? = some (picture ops) := by
  have hi := Simple.inv_run ops schedule
  have hg := Simple.going_run ops hn schedule
  have e : Simple.run (Simple.start ops) (schedule ++ List.replicate 5 .renderer) = Simple.run (Simple.run (Simple.start ops) schedule) (List.replicate 5 .renderer) := List.foldl_append
  rw [e]
  generalize Simple.run (Simple.start ops) schedule = s at *
  obtain ⟨h1, h2, -⟩ := Simple.finished ops s hi hc
  obtain ⟨-, -, hd, -⟩ := hi
  obtain ⟨-, g1, g2, g3⟩ := hg
  obtain ⟨lock, px, py, st, cl, pc, fr⟩ := s
  simp only at *
  subst g1
  have hlock : lock = none ∨ lock = some .renderer := by
    rcases lock with _ | ⟨_ | _⟩ <;> simp at h1 ⊢
  have goal : ∀ t : Simple.State α, t.frames = fr ++ [(px, py)] → t.frames.getLast? = some (picture ops) := by
    intro t ht
    rw [ht, List.getLast?_concat, h2]
  apply goal
  unfold Simple.Drawing at hd
  cases pc with
  | leave => simp at g2
  | done => simp at g3
  | readY xs =>
    obtain ⟨rfl, rfl⟩ := hd
    rfl
  | readX =>
    obtain rfl := hd
    rfl
  | release =>
    obtain rfl := hd
    rfl
  | test =>
    rcases hlock with rfl | rfl
    · rfl
    · simp at hd
  | acquire =>
    rcases hlock with rfl | rfl
    · rfl
    · simp at hd

/-- When the client has made all its calls and one of them was `stop`, then seven steps of the renderer later its thread has ended, with at most one more frame, and stays so. -/
theorem C201_stop (ops : List (Simple.Op α)) (hs : ∃ o ∈ ops, o matches .stop) (schedule : List Thread) (hc : (Simple.run (Simple.start ops) schedule).client = []) (n : ℕ) :
    let t := Simple.run (Simple.start ops) (schedule ++ List.replicate (7 + n) .renderer)
    (t.pc matches .done) ∧ t.frames.length ≤ (Simple.run (Simple.start ops) schedule).frames.length + 1 := by
  have hi := Simple.inv_run ops schedule
  have e : Simple.run (Simple.start ops) (schedule ++ List.replicate (7 + n) .renderer) = Simple.run (Simple.run (Simple.run (Simple.start ops) schedule) (List.replicate 7 .renderer)) (List.replicate n .renderer) := by
    unfold Simple.run
    rw [List.replicate_add, List.foldl_append, List.foldl_append]
  rw [e]
  generalize Simple.run (Simple.start ops) schedule = s at *
  obtain ⟨h1, -, h3⟩ := Simple.finished ops s hi hc
  have h3 := h3 hs
  obtain ⟨-, -, hd, -⟩ := hi
  have stay : ∀ (n : ℕ) (u : Simple.State α), (u.pc matches .done) → Simple.run u (List.replicate n .renderer) = u := by
    intro n
    induction n with
    | zero => exact fun u _ => rfl
    | succ n ih =>
      intro u hu
      have : Simple.renderStep u = u := by
        unfold Simple.renderStep
        cases h : u.pc <;> simp [h] at hu ⊢
      rw [List.replicate_succ]
      change Simple.run (Simple.renderStep u) _ = u
      rw [this]
      exact ih u hu
  have key : ((Simple.run s (List.replicate 7 .renderer)).pc matches .done) ∧ (Simple.run s (List.replicate 7 .renderer)).frames.length ≤ s.frames.length + 1 := by
    obtain ⟨lock, px, py, st, cl, pc, fr⟩ := s
    simp only at *
    have hlock : lock = none ∨ lock = some .renderer := by
      rcases lock with _ | ⟨_ | _⟩ <;> simp at h1 ⊢
    unfold Simple.Drawing at hd
    cases pc <;> simp at hd h3 hlock <;> simp_all [Simple.run, List.replicate, Simple.renderStep]
  rw [stay n _ key.1]
  exact key

/-- No thread waits forever: in every state that is reached, a client with steps left makes its next one if the renderer goes on for up to three steps, and a renderer that waits for the lock gets it if the client goes on for up to three steps. -/
theorem C201_progress (ops : List (Simple.Op α)) (schedule : List Thread) :
    let s := Simple.run (Simple.start ops) schedule
    (s.client ≠ [] → ∃ n ≤ 3, (Simple.run s (List.replicate n .renderer ++ [.client])).client = s.client.tail) ∧
    ((s.pc matches .acquire) → ∃ n ≤ 3, (Simple.run s (List.replicate n .client ++ [.renderer])).pc matches .readX) := by
  intro s
  obtain ⟨k, h1, h2, -⟩ := Simple.inv_run ops schedule
  change Simple.Idle ops k s ∨ Simple.Busy ops k s at h1
  change Simple.Drawing s at h2
  clear_value s
  constructor
  · intro hne
    rcases h1 with ⟨hk, hc, hl, -, -⟩ | ⟨hk, cur, -, hc, hi, -, -, -⟩
    · have hlt : k < ops.length := by
        by_contra h
        rw [List.drop_eq_nil_of_le (by omega)] at hc
        exact hne hc
      rw [(Simple.take_drop_succ ops k hlt).1, List.flatMap_cons, Simple.compile_eq, List.cons_append] at hc
      have hfree : ∀ t : Simple.State α, t.client = s.client → t.lock = none → (Simple.clientStep t).client = s.client.tail := by
        intro t e1 e2
        unfold Simple.clientStep
        rw [e1, hc]
        simp only [if_pos e2]
        rfl
      obtain ⟨lock, px, py, st, cl, pc, fr⟩ := s
      unfold Simple.Drawing at h2
      have hlock : lock = none ∨ lock = some .renderer := by
        rcases lock with _ | ⟨_ | _⟩ <;> simp at hl ⊢
      rcases hlock with rfl | rfl
      · exact ⟨0, by omega, hfree _ rfl rfl⟩
      · cases pc with
        | readX => exact ⟨3, by omega, hfree _ rfl rfl⟩
        | readY xs => exact ⟨2, by omega, hfree _ rfl rfl⟩
        | release => exact ⟨1, by omega, hfree _ rfl rfl⟩
        | _ => simp at h2
    · refine ⟨0, by omega, ?_⟩
      change (Simple.clientStep s).client = _
      unfold Simple.clientStep
      rw [hc]
      cases cur with
      | nil => rfl
      | cons i cur =>
        have h0 := hi i List.mem_cons_self
        cases i <;> simp [Simple.inner] at h0 <;> rfl
  · intro hp
    have hfree : ∀ t : Simple.State α, t.pc = s.pc → t.lock = none → ((Simple.renderStep t).pc matches .readX) := by
      intro t e1 e2
      unfold Simple.renderStep
      rw [e1]
      cases hpc : s.pc <;> simp [hpc] at hp
      simp [e2]
    rcases h1 with ⟨hk, hc, hl, -, -⟩ | ⟨hk, cur, hlen, hc, hi, -, -, -⟩
    · refine ⟨0, by omega, hfree s rfl ?_⟩
      unfold Simple.Drawing at h2
      cases hpc : s.pc <;> simp [hpc] at hp h2
      rcases h : s.lock with _ | ⟨_ | _⟩
      · rfl
      · exact absurd h hl
      · exact absurd h h2
    · obtain ⟨e1, e2⟩ := Simple.run_call cur _ hi s hc
      refine ⟨cur.length + 1, by omega, ?_⟩
      have : Simple.run s (List.replicate (cur.length + 1) .client ++ [.renderer]) = Simple.renderStep (Simple.run s (List.replicate (cur.length + 1) .client)) := by
        unfold Simple.run
        rw [List.foldl_append]
        rfl
      rw [this]
      exact hfree _ e2 e1

/-- the hypotheses are met -/
example : (Simple.run (Simple.start [.update 1 2, .reset]) (List.replicate 8 .client)).client.length = 0 ∧ (Simple.run (Simple.start [.update 1 2, .stop]) (List.replicate 7 .client ++ [.renderer])).client.length = 0 := by decide

/-- If the environment calls `updateData` of `CartPoleRenderer` only between two frames, then whatever happened before, the next frame shows the data of the last call (zeros at first): the cart in the middle of its position, where the foot of the pole is;
the pole has its length and angle, and the cart is green only if the pole does not lean to the right and the cart is near the middle. -/
theorem C201_cart_partial (ds : List CartPole.Data) (schedule : List Thread) (hl : (CartPole.run (CartPole.start ds) schedule).lock = none) (hp : (CartPole.run (CartPole.start ds) schedule).pc = .angle) :
    ∃ k ≤ ds.length, (CartPole.run (CartPole.start ds) schedule).client = (ds.drop k).flatMap CartPole.compile ∧ ∃ d, (⟨0, 0, 0, 0⟩ :: ds)[k]? = some d ∧
    ∃ n ≤ 7, ∃ f, (CartPole.run (CartPole.start ds) (schedule ++ List.replicate n .renderer)).frames = (CartPole.run (CartPole.start ds) schedule).frames ++ [f] ∧
      f.boxX + CartPole.cartwidth / 2 = d.pos ∧ f.foot = (d.pos, 0) ∧ f.tip.1 - f.foot.1 = CartPole.polelength * Real.sin d.angle ∧ f.tip.2 = CartPole.polelength * Real.cos d.angle ∧
      (f.tip.1 - f.foot.1) ^ 2 + (f.tip.2 - f.foot.2) ^ 2 = CartPole.polelength ^ 2 ∧ (f.green = true ↔ d.angle < 0.05 ∧ |d.pos| < 0.05) := by
  obtain ⟨k, ⟨hk, hc, -, hd⟩ | ⟨-, -, -, -, hl', -⟩⟩ := CartPole.inv_run ds schedule
  · have hlen : k < (⟨0, 0, 0, 0⟩ :: ds : List CartPole.Data).length := by simpa using Nat.lt_succ_of_le hk
    refine ⟨k, hk, hc, CartPole.dataAt ds k, ?_, ?_⟩
    · rw [List.getElem?_eq_getElem hlen]
      unfold CartPole.dataAt
      rw [List.getD_eq_getElem _ _ hlen]
    · obtain ⟨n, hn, f, h1, h2, h3, h4, h5⟩ := CartPole.quiet _ hp
      rw [hd] at h2 h3 h4 h5
      refine ⟨n, hn, f, ?_, by rw [h3]; ring, h4, by rw [h4, h5]; ring, by rw [h5], ?_, h2⟩
      · rw [← h1]
        unfold CartPole.run
        rw [List.foldl_append]
      · rw [h4, h5]
        have := Real.sin_sq_add_cos_sq (CartPole.dataAt ds k).angle
        simp only
        linear_combination CartPole.polelength ^ 2 * this
  · rw [hl] at hl'
    simp at hl'

/-- **C201 fails for `CartPoleRenderer` if `updateData` is called during a frame**, because `_render` does not use the lock: whenever the cart moves, it may be drawn without the pole standing on it, and there are frames where the pole is longer than it is. -/
theorem C201_negation_torn (d : CartPole.Data) (hd : d.pos ≠ 0) : ∃ s1 s2 f1 f2, (CartPole.run (CartPole.start [d]) s1).frames = [f1] ∧ (CartPole.run (CartPole.start [d]) s2).frames = [f2] ∧
    f1.boxX + CartPole.cartwidth / 2 ≠ f1.foot.1 ∧ f2.boxX + CartPole.cartwidth / 2 = f2.foot.1 ∧ (d.angle = 0 → CartPole.polelength ^ 2 < (f2.tip.1 - f2.foot.1) ^ 2 + (f2.tip.2 - f2.foot.2) ^ 2) := by
  have e : CartPole.renderStep (CartPole.start [d]) = { CartPole.start [d] with pc := .pos } := by
    unfold CartPole.renderStep CartPole.start
    simp only
    rw [if_pos (by norm_num)]
  refine ⟨.renderer :: ([.renderer, .renderer] ++ List.replicate 6 .client ++ List.replicate 4 .renderer), .renderer :: ([.renderer, .renderer, .renderer] ++ List.replicate 6 .client ++ List.replicate 3 .renderer),
    ⟨@decide (|(0 : ℝ)| < 0.05) (Classical.propDecidable _), 0 - CartPole.cartwidth / 2, (d.pos, 0), (d.pos + CartPole.polelength * Real.sin d.angle, CartPole.polelength * Real.cos d.angle)⟩,
    ⟨@decide (|(0 : ℝ)| < 0.05) (Classical.propDecidable _), 0 - CartPole.cartwidth / 2, (0, 0), (d.pos + CartPole.polelength * Real.sin d.angle, CartPole.polelength * Real.cos d.angle)⟩, ?_, ?_, ?_, ?_, ?_⟩
  · change (CartPole.run (CartPole.renderStep (CartPole.start [d])) _).frames = _
    rw [e]
    rfl
  · change (CartPole.run (CartPole.renderStep (CartPole.start [d])) _).frames = _
    rw [e]
    rfl
  · simp only [sub_add_cancel]
    exact hd.symm
  · simp
  · intro ha
    simp [ha]
    positivity

/-- **C201 fails for the colour of the cart**: it is green for every angle to the left, even with the pole hanging down. -/
theorem C201_negation_colour (lock : Option Thread) (cl : List CartPole.Instr) (fr : List CartPole.Frame) (v w : ℝ) :
    ∃ n f, (CartPole.run ⟨lock, ⟨-Real.pi, v, 0, w⟩, cl, .angle, fr⟩ (List.replicate n .renderer)).frames = fr ++ [f] ∧ f.green = true ∧ f.tip = (f.foot.1, -CartPole.polelength) := by
  obtain ⟨n, -, f, h1, h2, -, h4, h5⟩ := CartPole.quiet ⟨lock, ⟨-Real.pi, v, 0, w⟩, cl, .angle, fr⟩ rfl
  refine ⟨n, f, h1, h2.2 ⟨?_, ?_⟩, ?_⟩
  · simp only
    linarith [Real.pi_pos]
  · norm_num
  · rw [h4, h5]
    simp

/-- **C201 fails for the first picture**, in which the pole is twice as long as in all others. -/
theorem C201_negation_first (d : CartPole.Data) : ((CartPole.drawPlot d).tip.1 - (CartPole.drawPlot d).foot.1) ^ 2 + ((CartPole.drawPlot d).tip.2 - (CartPole.drawPlot d).foot.2) ^ 2 = (2 * CartPole.polelength) ^ 2 := by
  simp only [CartPole.drawPlot, CartPole.polelength]
  norm_num

/-- the hypotheses are met: at the start -/
example (ds : List CartPole.Data) : (CartPole.run (CartPole.start ds) []).lock = none ∧ (CartPole.run (CartPole.start ds) []).pc = .angle := ⟨rfl, rfl⟩

/-- and after a call -/
example (d : CartPole.Data) : (CartPole.run (CartPole.start [d]) (List.replicate 6 .client)).lock = none ∧ (CartPole.run (CartPole.start [d]) (List.replicate 6 .client)).data = d := ⟨rfl, rfl⟩

end Verif.Props
