import Verif.Spec.Task
import Mathlib.Tactic.Linarith
import Mathlib.Tactic.Ring
import Mathlib.Tactic.FieldSimp
import Mathlib.Tactic.NormNum
/-
C42: task scaling; C68: accumulated rewards of episodic tasks.
-/
namespace Verif.Task
open Verif.DataSet (Err)
open Spec

section
variable {K : Type} [Field K] [LinearOrder K] [IsStrictOrderedRing K]

theorem normalizeOne_ok (lo hi s : K) (h : lo < hi) : normalizeOne (some (lo, hi)) s = .ok ((s - lo) / (hi - lo) * 2 - 1) := by
  simp only [normalizeOne]
  rw [if_neg (by linarith [sub_pos.2 h])]

theorem normalizeAll_ok (l : List (Limit K × K)) (h : ∀ p ∈ l, ∀ lo hi, p.1 = some (lo, hi) → lo < hi) :
    ∃ res, normalizeAll l = .ok res ∧ res.length = l.length ∧ ∀ (i : Nat) (p : Limit K × K) (r : K), l[i]? = some p → res[i]? = some r → normalizeOne p.1 p.2 = .ok r := by
  induction l with
  | nil => exact ⟨[], rfl, rfl, by simp⟩
  | cons a l ih =>
    obtain ⟨res, h1, h2, h3⟩ := ih (fun p hp => h p (List.mem_cons_of_mem _ hp))
    have : ∃ r, normalizeOne a.1 a.2 = .ok r := by
      cases hl : a.1 with
      | none => exact ⟨_, rfl⟩
      | some q => exact ⟨_, normalizeOne_ok q.1 q.2 a.2 (h a List.mem_cons_self q.1 q.2 hl)⟩
    obtain ⟨r, hr⟩ := this
    refine ⟨r :: res, by simp only [normalizeAll, hr, h1], by simp [h2], ?_⟩
    intro i p q hp hq
    cases i with
    | zero => simp at hp hq; subst hp; subst hq; exact hr
    | succ i => simp at hp hq; exact h3 i p q hp hq

theorem clip_mem (x lo hi : K) (h : lo ≤ hi) : lo ≤ clip x lo hi ∧ clip x lo hi ≤ hi :=
  ⟨le_min (le_max_right _ _) h, min_le_right _ _⟩

theorem clip_self (x lo hi : K) (h1 : lo ≤ x) (h2 : x ≤ hi) : clip x lo hi = x := by
  simp [clip, max_eq_left h1, min_eq_left h2]

/-- limits with `lo < hi` where set -/
def Proper (limits : List (Limit K)) : Prop := ∀ lo hi, some (lo, hi) ∈ limits → lo < hi

theorem denorm_bounds (lo hi a : K) (h : lo < hi) (ha : -1 ≤ a) (ha' : a ≤ 1) : lo ≤ (a + 1) / 2 * (hi - lo) + lo ∧ (a + 1) / 2 * (hi - lo) + lo ≤ hi := by
  have h0 : 0 < hi - lo := sub_pos.2 h
  have h1 : 0 ≤ (a + 1) / 2 := by linarith
  have h2 : (a + 1) / 2 ≤ 1 := by linarith
  constructor
  · have := mul_nonneg h1 h0.le; linarith
  · have := mul_le_mul_of_nonneg_right h2 h0.le; linarith

end

section
variable {σ A O μ K : Type} [Field K] [DecidableEq K]

theorem rewards_append (t : EpTask σ A O K) (e : σ) (as : List A) (a : A) :
    rewards t e (as ++ [a]) = rewards t e as ++ [t.reward (t.act (as.foldl t.act e) a)] := by
  induction as generalizing e with
  | nil => rfl
  | cons b as ih => simp [rewards, ih]

omit [DecidableEq K] in
theorem discounted_append (g : K) (j : Nat) (rs : List K) (r : K) : discounted g j (rs ++ [r]) = discounted g j rs + g ^ (j + rs.length) * r := by
  induction rs generalizing j with
  | nil => simp [discounted]
  | cons a rs ih =>
    simp only [List.cons_append, discounted, ih, List.length_cons]
    rw [show j + 1 + rs.length = j + (rs.length + 1) by omega]
    ring

omit [DecidableEq K] in
theorem rewards_length (t : EpTask σ A O K) (e : σ) (as : List A) : (rewards t e as).length = as.length := by
  induction as generalizing e with
  | nil => rfl
  | cons b as ih => simp [rewards, ih]

theorem after_step (t : EpTask σ A O K) (e : σ) (as : List A) (a : A) : t.performAction (after t e as) a = after t e (as ++ [a]) := by
  simp only [EpTask.performAction, EpTask.addReward, after, List.foldl_append, List.foldl_cons, List.foldl_nil, List.length_append, List.length_cons,
    List.length_nil, rewards_append, total]
  by_cases h : t.discount = 0
  · simp [h]
  · simp only [ne_eq, h, not_false_eq_true, if_true, if_false, discounted_append, rewards_length]
    rw [show 1 + as.length = as.length + (0 + 1) by omega]

theorem after_nil (t : EpTask σ A O K) (s : EpState σ K) : t.reset s = after t (t.envReset s.env) [] := by
  simp [EpTask.reset, after, total, rewards, discounted]

omit [Field K] [DecidableEq K] in
theorem plays_snoc {t : EpTask σ A O K} {x : Controller μ A O} {e : σ} {m : μ} {as : List A} {e' : σ} {m' : μ} (h : Plays t x e m as e' m') :
    Plays t x e m (as ++ [(x.activate m' (t.obs e')).1]) (t.act e' (x.activate m' (t.obs e')).1) (x.activate m' (t.obs e')).2 := by
  induction h with
  | done e m => exact .step _ _ _ _ _ (.done _ _)
  | step e m as e' m' _ ih => exact .step _ _ _ _ _ ih

theorem episode_spec (t : EpTask σ A O K) (x : Controller μ A O) (e : σ) (m0 : μ) (fuel : Nat) (as : List A) (m : μ)
    (hp : Plays t x e m0 as (as.foldl t.act e) m) (hn : ∀ k < as.length, t.finished (after t e (as.take k)) = false) (s' : EpState σ K) (m' : μ)
    (h : t.episode x fuel (after t e as) m = some (s', m')) : ∃ bs, Episode t x e m0 bs m' ∧ s' = after t e bs := by
  induction fuel generalizing as m with
  | zero =>
    rw [EpTask.episode] at h
    split at h
    · rename_i hf; cases h; exact ⟨as, ⟨hp, hf, hn⟩, rfl⟩
    · cases h
  | succ fuel ih =>
    rw [EpTask.episode] at h
    split at h
    · rename_i hf; cases h; exact ⟨as, ⟨hp, hf, hn⟩, rfl⟩
    · rename_i hf
      simp only [after_step] at h
      refine ih _ _ ?_ ?_ h
      · rw [List.foldl_append]; exact plays_snoc hp
      · intro k hk
        rw [List.length_append, List.length_singleton] at hk
        by_cases hk' : k < as.length
        · rw [List.take_append_of_le_length hk'.le]; exact hn k hk'
        · have : k = as.length := by omega
          subst this
          rw [List.take_append_of_le_length le_rfl, List.take_length]
          simpa using hf

theorem batch_spec (t : EpTask σ A O K) (x : Controller μ A O) (fuel b : Nat) (s : EpState σ K) (m : μ) (r : K) (res : K × EpState σ K × μ)
    (h : t.batch x fuel b s m r = some res) : ∃ rss : List (List K), rss.length = b ∧ Episodes t x s.env m rss ∧ res.1 = r + (rss.map (total t.discount)).sum := by
  induction b generalizing s m r with
  | zero => rw [EpTask.batch] at h; cases h; exact ⟨[], rfl, .nil _ _, by simp⟩
  | succ b ih =>
    rw [EpTask.batch] at h
    split at h
    · cases h
    · rename_i s' m' he
      rw [after_nil] at he
      obtain ⟨bs, hb, hs⟩ := episode_spec t x (t.envReset s.env) (x.reset m) fuel [] (x.reset m) (.done _ _) (by simp) s' m' he
      subst hs
      obtain ⟨rss, h1, h2, h3⟩ := ih _ _ _ h
      refine ⟨rewards t (t.envReset s.env) bs :: rss, by simp [h1], .cons _ _ _ _ _ hb h2, ?_⟩
      rw [h3, List.map_cons, List.sum_cons]
      simp only [after]
      ring

end
end Verif.Task

namespace Verif.Props
open Verif.DataSet (Err)
open Verif.Task Verif.Task.Spec

section
variable {K : Type} [Field K] [LinearOrder K] [IsStrictOrderedRing K]

/-- **C42 (actions stay in the limits).** With clipping on (the default) and proper limits for each actor, every action vector of the right length is
handed to the environment with each limited entry inside its limits, and entries without limits unchanged; a vector of another length is refused. -/
theorem C42_actions (limits : List (Limit K)) (hne : limits ≠ []) (hl : Proper limits) (action : List K) :
    (action.length ≠ limits.length → sentAction true (some limits) action = .error .assertion) ∧
    (action.length = limits.length → ∃ sent, sentAction true (some limits) action = .ok sent ∧ sent.length = action.length ∧
      ∀ (i : Nat) (h : i < sent.length) (h' : i < limits.length) (h'' : i < action.length), (limits[i] = none → sent[i] = action[i]) ∧
        (∀ lo hi, limits[i] = some (lo, hi) → lo ≤ sent[i] ∧ sent[i] ≤ hi)) := by
  obtain ⟨l, ls, rfl⟩ := List.exists_cons_of_ne_nil hne
  simp only [sentAction, denormalize]
  refine ⟨fun h => if_neg (by omega), fun h => ?_⟩
  rw [if_pos h.symm]
  refine ⟨_, rfl, by simp [h], fun i hi h' h'' => ?_⟩
  simp only [List.getElem_map, List.getElem_zip]
  refine ⟨fun hn => by rw [hn]; rfl, fun lo hi hs => ?_⟩
  rw [hs]
  exact clip_mem _ _ _ (hl lo hi (hs ▸ List.getElem_mem h')).le

/-- **C42 (observations).** With proper limits the observation has one entry per sensor; entry by entry it is an increasing function taking the limits
to -1 and 1, hence inside [-1, 1] exactly when the sensor is inside its limits. -/
theorem C42_observations (clipping : Bool) (limits : List (Limit K)) (hne : limits ≠ []) (hl : Proper limits) (sensors : List K) :
    (sensors.length ≠ limits.length → observation clipping (some limits) sensors = .error .assertion) ∧
    (sensors.length = limits.length → ∃ obs, observation clipping (some limits) sensors = .ok obs ∧ obs.length = sensors.length ∧
      ∀ (i : Nat) (h : i < obs.length) (h' : i < limits.length) (h'' : i < sensors.length), (limits[i] = none → obs[i] = sensors[i]) ∧
        (∀ lo hi, limits[i] = some (lo, hi) → (sensors[i] ≤ hi ↔ obs[i] ≤ 1) ∧ (lo ≤ sensors[i] ↔ -1 ≤ obs[i]) ∧
          (sensors[i] = lo → obs[i] = -1) ∧ (sensors[i] = hi → obs[i] = 1))) := by
  obtain ⟨l, ls, rfl⟩ := List.exists_cons_of_ne_nil hne
  simp only [observation, normalize]
  refine ⟨fun h => if_neg (by omega), fun h => ?_⟩
  rw [if_pos h.symm]
  obtain ⟨res, h1, h2, h3⟩ := normalizeAll_ok ((l :: ls).zip sensors) (fun p hp lo hi hq => hl lo hi (by
    have := List.of_mem_zip (show (p.1, p.2) ∈ (l :: ls).zip sensors from hp)
    exact hq ▸ this.1))
  rw [h1]
  refine ⟨res, rfl, by rw [h2]; simp [h], fun i hi h' h'' => ?_⟩
  have hz : ((l :: ls).zip sensors)[i]? = some ((l :: ls)[i], sensors[i]) := by
    rw [List.getElem?_eq_getElem (by rw [← h2]; exact hi)]; simp
  have h4 := h3 i _ _ hz (List.getElem?_eq_getElem hi)
  refine ⟨fun hn => ?_, fun lo hi' hs => ?_⟩
  · simp only [hn, normalizeOne] at h4
    injection h4 with h4
    exact h4.symm
  · have hlt := hl lo hi' (hs ▸ List.getElem_mem h')
    have h0 : 0 < hi' - lo := sub_pos.2 hlt
    simp only [hs] at h4
    rw [normalizeOne_ok lo hi' _ hlt] at h4
    injection h4 with h4
    rw [← h4]
    refine ⟨⟨fun h => ?_, fun h => ?_⟩, ⟨fun h => ?_, fun h => ?_⟩, fun h => ?_, fun h => ?_⟩
    · have : (sensors[i] - lo) / (hi' - lo) ≤ 1 := by rw [div_le_one h0]; linarith
      linarith
    · have : (sensors[i] - lo) / (hi' - lo) ≤ 1 := by linarith
      rw [div_le_one h0] at this; linarith
    · have : 0 ≤ (sensors[i] - lo) / (hi' - lo) := div_nonneg (by linarith) h0.le
      linarith
    · have h5 : 0 ≤ (sensors[i] - lo) / (hi' - lo) := by linarith
      rw [le_div_iff₀ h0] at h5
      linarith
    · rw [h]; simp
    · rw [h, div_self h0.ne']; norm_num

/-- **C42 (round trip).** For vectors inside the limits (and inside [-1, 1] respectively), normalising and denormalising with the same limits are inverse. -/
theorem C42_roundtrip (clipping : Bool) (limits : List (Limit K)) (hl : Proper limits) (v : List K) (hv : v.length = limits.length) :
    ((∀ (i : Nat) (h : i < limits.length) (h' : i < v.length) lo hi, limits[i] = some (lo, hi) → lo ≤ v[i] ∧ v[i] ≤ hi) →
      ∃ w, normalize clipping limits v = .ok w ∧ denormalize clipping limits w = .ok v) ∧
    ((∀ (i : Nat) (h : i < limits.length) (h' : i < v.length) lo hi, limits[i] = some (lo, hi) → -1 ≤ v[i] ∧ v[i] ≤ 1) →
      ∃ w, denormalize clipping limits v = .ok w ∧ normalize clipping limits w = .ok v) := by
  have hmem : ∀ w : List K, ∀ p ∈ limits.zip w, ∀ lo hi, p.1 = some (lo, hi) → lo < hi := by
    intro w p hp lo hi hq
    have := List.of_mem_zip (show (p.1, p.2) ∈ limits.zip w from hp)
    exact hl lo hi (hq ▸ this.1)
  constructor
  · intro hin
    obtain ⟨res, h1, h2, h3⟩ := normalizeAll_ok (limits.zip v) (hmem v)
    have hlen : res.length = limits.length := by rw [h2]; simp [hv]
    refine ⟨res, by simp only [normalize, hv, if_true, h1], ?_⟩
    rw [denormalize, if_pos hlen.symm]
    congr 1
    apply List.ext_getElem (by simp [hlen, hv])
    intro i hi hi'
    have hi1 : i < limits.length := by omega
    have hi2 : i < res.length := by omega
    simp only [List.getElem_map, List.getElem_zip]
    have hz : (limits.zip v)[i]? = some (limits[i], v[i]) := by
      rw [List.getElem?_eq_getElem (by simp; omega)]; simp
    have h4 := h3 i _ _ hz (List.getElem?_eq_getElem hi2)
    have h5 := hin i hi1 hi'
    cases hlim : limits[i] with
    | none =>
      simp only [hlim, normalizeOne] at h4
      injection h4 with h4
      simp only [denormalizeOne, h4]
    | some q =>
      obtain ⟨lo, hi⟩ := q
      have hlt := hl lo hi (hlim ▸ List.getElem_mem hi1)
      simp only [hlim] at h4
      rw [normalizeOne_ok lo hi _ hlt] at h4
      injection h4 with h4
      have hb := h5 lo hi hlim
      have h0 : hi - lo ≠ 0 := (sub_pos.2 hlt).ne'
      have e : (res[i] + 1) / 2 * (hi - lo) + lo = v[i] := by rw [← h4]; field_simp; ring
      simp only [denormalizeOne, e]
      split
      · exact clip_self _ _ _ hb.1 hb.2
      · rfl
  · intro hin
    refine ⟨_, by rw [denormalize, if_pos hv.symm], ?_⟩
    have hlen : ((limits.zip v).map (fun p => denormalizeOne clipping p.1 p.2)).length = limits.length := by simp [hv]
    obtain ⟨res, h1, h2, h3⟩ := normalizeAll_ok (limits.zip ((limits.zip v).map (fun p => denormalizeOne clipping p.1 p.2))) (hmem _)
    rw [normalize, if_pos hlen.symm, h1]
    have hlen2 : res.length = limits.length := by rw [h2]; simp [hv]
    simp only
    congr 1
    apply List.ext_getElem (by omega)
    intro i hi hi'
    have hi1 : i < limits.length := by omega
    have hz : (limits.zip ((limits.zip v).map (fun p => denormalizeOne clipping p.1 p.2)))[i]? = some (limits[i], denormalizeOne clipping limits[i] v[i]) := by
      rw [List.getElem?_eq_getElem (by simp; omega)]; simp
    have h4 := h3 i _ _ hz (List.getElem?_eq_getElem hi)
    have h5 := hin i hi1 hi'
    cases hlim : limits[i] with
    | none =>
      simp only [hlim, normalizeOne, denormalizeOne] at h4
      injection h4 with h4
      exact h4.symm
    | some q =>
      obtain ⟨lo, hi⟩ := q
      have hlt := hl lo hi (hlim ▸ List.getElem_mem hi1)
      have hb := h5 lo hi hlim
      have hd := denorm_bounds lo hi v[i] hlt hb.1 hb.2
      have e : denormalizeOne clipping (some (lo, hi)) v[i] = (v[i] + 1) / 2 * (hi - lo) + lo := by
        simp only [denormalizeOne]
        split
        · exact clip_self _ _ _ hd.1 hd.2
        · rfl
      simp only [hlim] at h4
      rw [e, normalizeOne_ok lo hi _ hlt] at h4
      injection h4 with h4
      rw [← h4]
      have h0 : hi - lo ≠ 0 := (sub_pos.2 hlt).ne'
      field_simp
      ring

/-- **C42: violated for observations**: although clipping is on, a sensor outside its limits gives an observation outside [-1, 1]. -/
theorem C42_negation_observation : (observation true (some [some (0, 1)]) [(2 : ℚ)]).toOption = some [3] := by decide +kernel

/-- the hypotheses are met with two limited and one unlimited entry -/
example : Proper [some ((-3 : ℚ), 3), none, some (0, 1)] ∧ (sentAction true (some [some ((-3 : ℚ), 3), none, some (0, 1)]) [1 / 3, 7, 5]).toOption = some [1, 7, 1] := by
  constructor
  · intro lo hi h
    simp at h
    rcases h with ⟨rfl, rfl⟩ | ⟨rfl, rfl⟩ <;> norm_num
  · decide +kernel

end

section
variable {σ A O μ K : Type} [Field K] [DecidableEq K]

/-- **C68 (accumulated reward).** After a reset and any actions, the total reward is the sum of the rewards seen after each action, each discounted by
`discount` to the number of actions done so far (so the first reward is already discounted once); without a discount it is the plain sum. The number of samples is
the number of actions. -/
theorem C68_total (t : EpTask σ A O K) (s : EpState σ K) (as : List A) :
    (as.foldl t.performAction (t.reset s)).cumreward = total t.discount (rewards t (t.envReset s.env) as) ∧
    (as.foldl t.performAction (t.reset s)).samples = as.length ∧ (as.foldl t.performAction (t.reset s)).env = as.foldl t.act (t.envReset s.env) := by
  have key : ∀ (as bs : List A), as.foldl t.performAction (after t (t.envReset s.env) bs) = after t (t.envReset s.env) (bs ++ as) := by
    intro as
    induction as with
    | nil => intro bs; simp
    | cons a as ih => intro bs; rw [List.foldl_cons, after_step, ih]; simp
  rw [after_nil, key as []]
  exact ⟨rfl, rfl, rfl⟩

/-- **C68 (evaluation of a module).** When `f` returns (its episodes end), its value is the average, over `batchSize` successive full episodes, each from
a reset environment and a reset module, of the total rewards. A batch size of 0 divides by zero. -/
theorem C68_f (t : EpTask σ A O K) (x : Controller μ A O) (fuel : Nat) (s : EpState σ K) (m : μ) (res : Except Err K) (h : t.f x fuel s m = some res) :
    (t.batchSize = 0 → res = .error .zeroDivision) ∧
    (t.batchSize ≠ 0 → ∃ rss : List (List K), rss.length = t.batchSize ∧ Episodes t x s.env m rss ∧ res = .ok ((rss.map (total t.discount)).sum / t.batchSize)) := by
  rw [EpTask.f] at h
  split at h
  · cases h
  · rename_i r s' m' hb
    injection h with h
    obtain ⟨rss, h1, h2, h3⟩ := batch_spec t x fuel t.batchSize s m 0 _ hb
    refine ⟨fun h0 => by rw [← h, if_pos h0], fun h0 => ⟨rss, h1, h2, ?_⟩⟩
    rw [← h, if_neg h0]
    simp only [zero_add] at h3
    rw [h3]

/-- **C68 (the evaluation returns)** when all episodes end within a bound: `isFinished` holds whenever that many actions have been done. -/
theorem C68_returns (t : EpTask σ A O K) (x : Controller μ A O) (bound : Nat) (hb : ∀ s : EpState σ K, bound ≤ s.samples → t.finished s = true)
    (s : EpState σ K) (m : μ) : (t.f x bound s m).isSome = true := by
  have he : ∀ (fuel : Nat) (s : EpState σ K) (m : μ), bound ≤ s.samples + fuel → (t.episode x fuel s m).isSome = true := by
    intro fuel
    induction fuel with
    | zero => intro s m h; rw [EpTask.episode, if_pos (hb s h)]; rfl
    | succ fuel ih =>
      intro s m h
      rw [EpTask.episode]
      split
      · rfl
      · apply ih
        simp only [EpTask.performAction, EpTask.addReward]
        split <;> simp only <;> omega
  have hbt : ∀ (b : Nat) (s : EpState σ K) (m : μ) (r : K), (t.batch x bound b s m r).isSome = true := by
    intro b
    induction b with
    | zero => intro s m r; rfl
    | succ b ih =>
      intro s m r
      rw [EpTask.batch]
      have := he bound (t.reset s) (x.reset m) (by omega)
      obtain ⟨q, hq⟩ := Option.isSome_iff_exists.1 this
      rw [hq]
      exact ih _ _ _
  obtain ⟨q, hq⟩ := Option.isSome_iff_exists.1 (hbt t.batchSize s m 0)
  rw [EpTask.f, hq]
  rfl

/-- a walk on the integers towards 3 steps, rewarded by the position, with discount 1/2 -/
def walk : EpTask Int Int Int ℚ := ⟨fun e a => e + a, id, fun _ => 0, fun e => e, fun s => decide (3 ≤ s.samples), 1 / 2, 2⟩

/-- the hypotheses are met by a small task, whose evaluation is 1/2 + 2/4 + 3/8 -/
example : (∀ s : EpState Int ℚ, 3 ≤ s.samples → walk.finished s = true) ∧
    (walk.f ⟨id, fun (m : Unit) _ => (1, m)⟩ 3 ⟨7, 0, 0⟩ ()).map Except.toOption = some (some (11 / 8)) :=
  ⟨fun s h => by simpa [walk] using h, by decide +kernel⟩

/-- **C68: a discount of 0 is no discount**: the total is the plain sum of all rewards. -/
theorem C68_negation_zero_discount :
    ([1, 1, 1].foldl { walk with discount := 0 }.performAction ({ walk with discount := 0 }.reset ⟨7, 0, 0⟩)).cumreward = 6 := by decide +kernel

end
end Verif.Props
