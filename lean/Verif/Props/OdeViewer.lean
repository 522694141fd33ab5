import Verif.Model.OdeViewer
import Mathlib.Tactic.Ring
import Mathlib.Tactic.Linarith
import Mathlib.Tactic.Positivity
import Mathlib.Tactic.FieldSimp
import Mathlib.Tactic.NormNum
/-
Properties of the viewer of ODE environments.
-/
namespace Verif.Spec
open Verif.OdeViewer

/-- Where a point of a body is: `R` times the point (row by row) plus the position. -/
def bodyPoint (R : Fin 9 → ℝ) (pos w : P3) : P3 :=
  ⟨R 0 * w.x + R 1 * w.y + R 2 * w.z + pos.x, R 3 * w.x + R 4 * w.y + R 5 * w.z + pos.y, R 6 * w.x + R 7 * w.y + R 8 * w.z + pos.z⟩

/-- The shapes of ODE, centered at the origin, cylinders along the third axis: for capped cylinders side and caps. -/
def bodyShape : Item → Set P3
  | .box sx sy sz => { p | |p.x| ≤ sx / 2 ∧ |p.y| ≤ sy / 2 ∧ |p.z| ≤ sz / 2 }
  | .sphere r => { p | p.x ^ 2 + p.y ^ 2 + p.z ^ 2 ≤ r ^ 2 }
  | .ccylinder r l => { p | (p.x ^ 2 + p.y ^ 2 = r ^ 2 ∧ |p.z| ≤ l / 2) ∨ p.x ^ 2 + p.y ^ 2 + (p.z + l / 2) ^ 2 ≤ r ^ 2 ∨ p.x ^ 2 + p.y ^ 2 + (p.z - l / 2) ^ 2 ≤ r ^ 2 }
  | .cylinder r l => { p | (p.x ^ 2 + p.y ^ 2 = r ^ 2 ∧ |p.z| ≤ l / 2) ∨ p.x ^ 2 + p.y ^ 2 ≤ r ^ 2 ∧ |p.z| = l / 2 }

/-- squared distance of two points -/
def sqDist (p q : P3) : ℝ := (p.x - q.x) ^ 2 + (p.y - q.y) ^ 2 + (p.z - q.z) ^ 2

/-- The mouse is used: a callback of the mouse while the mouse controls the view. -/
def Effective (mouse : Bool) : List Ev → Prop
  | [] => False
  | .key :: es => Effective (!mouse) es
  | _ :: es => mouse = true ∨ Effective mouse es

/-- Mouse positions inside the window. -/
def Inside (h : ℕ) : Ev → Prop
  | .drag _ z => 0 ≤ z ∧ z ≤ h
  | _ => True

end Verif.Spec

namespace Verif.OdeViewer
open Verif.Spec

/-- The eye is between the hemisphere of radius one and the one of radius 0.9. -/
def Hemi (p : P3) : Prop := 0 ≤ p.y ∧ 0.81 ≤ p.x ^ 2 + p.y ^ 2 + p.z ^ 2 ∧ p.x ^ 2 + p.y ^ 2 + p.z ^ 2 ≤ 1

theorem passive_hemi (w h : ℕ) (v : View) (x z : ℤ) (hm : v.mouse = true) : Hemi (passive w h v x z).last := by
  unfold passive
  rw [if_neg (by simp [hm])]
  simp only
  generalize 3 * (x : ℝ) / w - 1.5 = a
  generalize -3 * (z : ℝ) / h + 1.5 = b
  have h0 : 0 ≤ a * a + b * b := add_nonneg (mul_self_nonneg a) (mul_self_nonneg b)
  have hs := Real.sq_sqrt h0
  split_ifs with hl
  · have hl0 : √(a * a + b * b) ≠ 0 := by
      intro e
      rw [e] at hl
      norm_num at hl
    have : (a / √(a * a + b * b)) ^ 2 + 0 ^ 2 + (b / √(a * a + b * b)) ^ 2 = 1 := by
      rw [div_pow, div_pow, hs]
      have : a * a + b * b ≠ 0 := by
        intro e
        rw [e, Real.sqrt_zero] at hl0
        exact hl0 rfl
      rw [zero_pow two_ne_zero, add_zero, ← add_div, div_eq_one_iff_eq this]
      ring
    unfold Hemi
    simp only
    rw [this]
    norm_num
  · rw [not_lt] at hl
    have hle : a * a + b * b ≤ 0.994987 ^ 2 := by
      rw [← hs]
      exact pow_le_pow_left₀ (Real.sqrt_nonneg _) hl 2
    have h1 : 0 ≤ 1 - a * a - b * b := by
      norm_num at hle ⊢
      linarith
    have hs1 := Real.sq_sqrt h1
    have hs2 : 0.1 ≤ √(1 - a * a - b * b) := by
      apply Real.le_sqrt_of_sq_le
      norm_num at hle ⊢
      linarith
    have hs3 : √(1 - a * a - b * b) ≤ 1 := by
      rw [Real.sqrt_le_iff]
      exact ⟨by norm_num, by nlinarith [mul_self_nonneg a, mul_self_nonneg b]⟩
    have e : max 0 (√(1 - a * a - b * b) - 0.1) = √(1 - a * a - b * b) - 0.1 := max_eq_right (by linarith)
    unfold Hemi
    simp only
    rw [e]
    generalize √(1 - a * a - b * b) = s at *
    refine ⟨by linarith, ?_, ?_⟩
    · nlinarith
    · norm_num at *
      nlinarith

theorem step_mouse (w h : ℕ) (v : View) (e : Ev) : (v.step w h e).mouse = match e with
    | .key => !v.mouse
    | _ => v.mouse := by
  have hp : ∀ (v : View) x z, (passive w h v x z).mouse = v.mouse := by
    intro v x z
    unfold passive
    simp only
    split_ifs <;> rfl
  cases e with
  | key => rfl
  | move x z => exact hp v x z
  | drag x z =>
    change (motion w h v x z).mouse = v.mouse
    unfold motion
    split_ifs with hm
    · rfl
    · exact hp _ x z

theorem step_hemi (w h : ℕ) (v : View) (e : Ev) (hv : Hemi v.last ∨ (v.mouse = true ∧ e ≠ .key)) : Hemi (v.step w h e).last := by
  cases e with
  | key => rcases hv with hv | hv
           · exact hv
           · simp at hv
  | move x z =>
    by_cases hm : v.mouse = true
    · exact passive_hemi w h v x z hm
    · have : v.step w h (.move x z) = v := by
        change passive w h v x z = v
        unfold passive
        rw [if_pos (by simpa using hm)]
      rw [this]
      rcases hv with hv | hv
      · exact hv
      · exact absurd hv.1 hm
  | drag x z =>
    by_cases hm : v.mouse = true
    · change Hemi (motion w h v x z).last
      unfold motion
      rw [if_neg (by simp [hm])]
      exact passive_hemi w h _ x z hm
    · have : v.step w h (.drag x z) = v := by
        change motion w h v x z = v
        unfold motion
        rw [if_pos (by simpa using hm)]
      rw [this]
      rcases hv with hv | hv
      · exact hv
      · exact absurd hv.1 hm

theorem run_hemi (w h : ℕ) (evs : List Ev) (v : View) (hv : Hemi v.last ∨ Effective v.mouse evs) : Hemi (evs.foldl (View.step w h) v).last := by
  induction evs generalizing v with
  | nil =>
    rcases hv with hv | hv
    · exact hv
    · exact absurd hv (by simp [Effective])
  | cons e es ih =>
    rw [List.foldl_cons]
    apply ih
    have hm := step_mouse w h v e
    rcases hv with hv | hv
    · exact .inl (step_hemi w h v e (.inl hv))
    · cases e with
      | key =>
        simp only at hm
        rw [hm]
        exact .inr hv
      | move x z =>
        simp only at hm
        rcases hv with hv | hv
        · exact .inl (step_hemi w h v _ (.inr ⟨hv, by simp⟩))
        · rw [hm]
          exact .inr hv
      | drag x z =>
        simp only at hm
        rcases hv with hv | hv
        · exact .inl (step_hemi w h v _ (.inr ⟨hv, by simp⟩))
        · rw [hm]
          exact .inr hv

/-- the digits of the `n`-th screenshot -/
def shotName (n : ℕ) : List Char := List.replicate (5 - (Nat.toDigits 10 n).length) '0' ++ Nat.toDigits 10 n

theorem shotName_value (n : ℕ) : Nat.ofDigitChars 10 (shotName n) 0 = n := by
  unfold shotName
  rw [Nat.ofDigitChars_append, Nat.ofDigitChars_replicate_zero, Nat.mul_zero, Nat.ofDigitChars_ten_toDigits]

theorem shotName_inj {m n : ℕ} (h : shotName m = shotName n) : m = n := by
  rw [← shotName_value m, h, shotName_value]

theorem screenshot_wait (T k c : ℕ) (fs : List (List Char)) (h : c + k ≤ T) : (screenshot T)^[k] (c, fs) = (c + k, fs) := by
  induction k generalizing c with
  | zero => rfl
  | succ k ih =>
    rw [Function.iterate_succ_apply]
    have : screenshot T (c, fs) = (c + 1, fs) := by
      unfold screenshot
      rw [if_neg (by simp only; omega)]
    rw [this, ih (c + 1) (by omega)]
    congr 1
    omega

theorem screenshot_round (T m : ℕ) (hT : 1 ≤ T) : (screenshot T)^[T] (1, (List.range m).map shotName) = (1, (List.range (m + 1)).map shotName) := by
  obtain ⟨k, rfl⟩ : ∃ k, T = k + 1 := ⟨T - 1, by omega⟩
  rw [Function.iterate_succ_apply', screenshot_wait (k + 1) k 1 _ (by omega)]
  unfold screenshot
  rw [if_pos (by simp only; omega)]
  have hn : List.replicate (5 - (Nat.toDigits 10 ((List.range m).map shotName).length).length) '0' ++ Nat.toDigits 10 ((List.range m).map shotName).length = shotName m := by
    simp [shotName]
  simp only
  rw [hn, if_neg]
  · simp [List.range_succ]
  · intro hm
    obtain ⟨i, hi, he⟩ := List.mem_map.1 hm
    have := shotName_inj he
    simp at hi
    omega

end Verif.OdeViewer

namespace Verif.Props
open Verif.Spec Verif.OdeViewer

/-- The camera looks at the object that is followed, or at the origin. If there is no such object or it is above or below the origin, then after any sequence of callbacks in which the mouse was used, the eye is not below the point looked at, and its
distance from it is between 0.9 and 1 times the view distance. -/
theorem C197_camera_partial (w h : ℕ) (evs : List Ev) (hu : Effective true evs) (obj : Option P3) (ho : ∀ p, obj = some p → p.x = 0 ∧ p.z = 0) :
    let v := evs.foldl (View.step w h) View.init
    let c := camera v obj
    c.2 = obj.getD ⟨0, 0, 0⟩ ∧ (0 ≤ v.distance → c.2.y ≤ c.1.y) ∧ (0.9 * v.distance) ^ 2 ≤ sqDist c.1 c.2 ∧ sqDist c.1 c.2 ≤ v.distance ^ 2 := by
  intro v c
  obtain ⟨h1, h2, h3⟩ := run_hemi w h evs View.init (.inr hu)
  change 0 ≤ v.last.y at h1
  change 0.81 ≤ v.last.x ^ 2 + v.last.y ^ 2 + v.last.z ^ 2 at h2
  change v.last.x ^ 2 + v.last.y ^ 2 + v.last.z ^ 2 ≤ 1 at h3
  have e : sqDist c.1 c.2 = v.distance ^ 2 * (v.last.x ^ 2 + v.last.y ^ 2 + v.last.z ^ 2) := by
    cases obj with
    | none =>
      simp only [c, camera, sqDist]
      ring
    | some p =>
      simp only [c, camera, sqDist, (ho p rfl).1, (ho p rfl).2]
      ring
  refine ⟨by cases obj <;> rfl, fun hd => ?_, ?_, ?_⟩
  · simp only [c, camera]
    have := mul_nonneg hd h1
    linarith
  · rw [e, mul_pow, mul_comm]
    apply mul_le_mul_of_nonneg_left _ (sq_nonneg _)
    norm_num at h2 ⊢
    exact h2
  · rw [e]
    have := mul_le_mul_of_nonneg_left h3 (sq_nonneg v.distance)
    linarith

example : Effective true [.key, .move 3 4, .key, .drag 100 200] := by simp [Effective]

/-- The view distance is never negative, and if the mouse is dragged inside the window only, it stays between 0.1875 and 30. -/
theorem C197_zoom_partial (w h : ℕ) (hh : 0 < h) (evs : List Ev) : 0 ≤ (evs.foldl (View.step w h) View.init).distance ∧
    ((∀ e ∈ evs, Inside h e) → 0.1875 ≤ (evs.foldl (View.step w h) View.init).distance ∧ (evs.foldl (View.step w h) View.init).distance ≤ 30) := by
  have hp : ∀ (v : View) x z, (passive w h v x z).distance = v.distance := by
    intro v x z
    unfold passive
    simp only
    split_ifs <;> rfl
  have key : ∀ (evs : List Ev) (v : View), 0 ≤ v.distance → 0 ≤ (evs.foldl (View.step w h) v).distance ∧
      ((∀ e ∈ evs, Inside h e) → 0.1875 ≤ v.distance → v.distance ≤ 30 → 0.1875 ≤ (evs.foldl (View.step w h) v).distance ∧ (evs.foldl (View.step w h) v).distance ≤ 30) := by
    intro evs
    induction evs with
    | nil => intro v hv; exact ⟨hv, fun _ h1 h2 => ⟨h1, h2⟩⟩
    | cons e es ih =>
      intro v hv
      rw [List.foldl_cons]
      have step : 0 ≤ (v.step w h e).distance ∧ (Inside h e → 0.1875 ≤ v.distance → v.distance ≤ 30 → 0.1875 ≤ (v.step w h e).distance ∧ (v.step w h e).distance ≤ 30) := by
        cases e with
        | key => exact ⟨hv, fun _ h1 h2 => ⟨h1, h2⟩⟩
        | move x z =>
          have : (v.step w h (.move x z)).distance = v.distance := hp v x z
          rw [this]
          exact ⟨hv, fun _ h1 h2 => ⟨h1, h2⟩⟩
        | drag x z =>
          change 0 ≤ (motion w h v x z).distance ∧ (_ → _ → _ → 0.1875 ≤ (motion w h v x z).distance ∧ (motion w h v x z).distance ≤ 30)
          unfold motion
          split_ifs with hm
          · exact ⟨hv, fun _ h1 h2 => ⟨h1, h2⟩⟩
          · simp only
            rw [hp]
            simp only
            have hh' : (0 : ℝ) < h := by exact_mod_cast hh
            constructor
            · have := mul_self_nonneg (2.75 * (z : ℝ) / h + 0.25)
              nlinarith
            · intro hz _ _
              have hz0 : (0 : ℝ) ≤ z := by exact_mod_cast hz.1
              have hz1 : (z : ℝ) ≤ h := by exact_mod_cast hz.2
              have a0 : 0 ≤ 2.75 * (z : ℝ) / h := by positivity
              have a1 : 2.75 * (z : ℝ) / h ≤ 2.75 := by
                rw [div_le_iff₀ hh']
                nlinarith
              generalize 2.75 * (z : ℝ) / h = a at *
              constructor <;> norm_num at * <;> nlinarith
      obtain ⟨i1, i2⟩ := ih (v.step w h e) step.1
      refine ⟨i1, fun ha h1 h2 => ?_⟩
      obtain ⟨s1, s2⟩ := step.2 (ha e (by simp)) h1 h2
      exact i2 (fun e' he' => ha e' (by simp [he'])) s1 s2
  obtain ⟨k1, k2⟩ := key evs View.init (by simp [View.init])
  exact ⟨k1, fun ha => k2 ha (by simp [View.init]; norm_num) (by simp [View.init])⟩

/-- As long as the mouse view is switched off, the mouse changes nothing. -/
theorem C197_frozen (w h : ℕ) (v : View) (hv : v.mouse = false) (evs : List Ev) (he : ∀ e ∈ evs, e ≠ .key) : evs.foldl (View.step w h) v = v := by
  induction evs with
  | nil => rfl
  | cons e es ih =>
    have : v.step w h e = v := by
      cases e with
      | key => exact absurd rfl (he .key (by simp))
      | move x z =>
        change passive w h v x z = v
        unfold passive
        rw [if_pos (by simp [hv])]
      | drag x z =>
        change motion w h v x z = v
        unfold motion
        rw [if_pos (by simp [hv])]
    rw [List.foldl_cons, this]
    exact ih fun e' he' => he e' (by simp [he'])

/-- **C197 fails before the mouse is used**: the eye is one and a half times the view distance away. -/
theorem C197_negation_start : sqDist (camera View.init none).1 (camera View.init none).2 = (1.5 * View.init.distance) ^ 2 := by
  simp [camera, View.init, sqDist]
  norm_num

/-- **C197 fails for objects that are followed**: the camera follows their height only. For every view and every distance there is an object that is further away from the eye than this. -/
theorem C197_negation_follow (v : View) (r : ℝ) : ∃ obj, r ^ 2 ≤ sqDist (camera v (some obj)).1 (camera v (some obj)).2 := by
  refine ⟨⟨v.distance * v.last.x + r, 0, 0⟩, ?_⟩
  simp only [camera, sqDist]
  nlinarith [sq_nonneg (v.distance * v.last.y), sq_nonneg (v.distance * v.last.z)]

/-- **C197 fails for the mouse dragged out of the window**: 55 pixels above it the view distance is less than 0.0001 instead of the smallest distance 0.1875. -/
theorem C197_negation_zoom (x : ℤ) : (View.init.step 800 600 (.drag x (-55))).distance < 0.0001 := by
  have hp : ∀ (v : View) x z, (passive 800 600 v x z).distance = v.distance := by
    intro v x z
    unfold passive
    simp only
    split_ifs <;> rfl
  change (motion 800 600 View.init x (-55)).distance < 0.0001
  unfold motion
  rw [if_neg (by simp [View.init])]
  simp only
  rw [hp]
  norm_num

/-- What is drawn for an object with a position and a rotation is its shape, rotated and moved to the position, for boxes with positive sizes and cylinders with lengths that are not negative. -/
theorem C197_objects (R : Fin 9 → ℝ) (pos : P3) (item : Item) (hs : match item with
      | .box sx sy sz => 0 < sx ∧ 0 < sy ∧ 0 < sz
      | .sphere _ => True
      | .ccylinder _ l => 0 ≤ l
      | .cylinder _ l => 0 ≤ l) : drawn R pos item = bodyPoint R pos '' bodyShape item := by
  have ht : multMatrix id (rot R pos) = bodyPoint R pos := by
    funext p
    rfl
  have hz : ∀ l : ℝ, 0 ≤ l → ∀ z : ℝ, |z| ≤ l / 2 ↔ 0 ≤ z + l / 2 ∧ z + l / 2 ≤ l := by
    intro l _ z
    rw [abs_le]
    constructor
    · rintro ⟨h1, h2⟩
      constructor <;> linarith
    · rintro ⟨h1, h2⟩
      constructor <;> linarith
  unfold drawn
  simp only
  rw [ht]
  cases item with
  | box sx sy sz =>
    obtain ⟨h1, h2, h3⟩ := hs
    ext q
    constructor
    · rintro ⟨p, ⟨p1, p2, p3⟩, rfl⟩
      refine ⟨⟨sx * p.x, sy * p.y, sz * p.z⟩, ⟨?_, ?_, ?_⟩, rfl⟩
      · simp only [abs_mul, abs_of_pos h1]
        nlinarith
      · simp only [abs_mul, abs_of_pos h2]
        nlinarith
      · simp only [abs_mul, abs_of_pos h3]
        nlinarith
    · rintro ⟨p, ⟨p1, p2, p3⟩, rfl⟩
      refine ⟨⟨p.x / sx, p.y / sy, p.z / sz⟩, ⟨?_, ?_, ?_⟩, ?_⟩
      · simp only [abs_div, abs_of_pos h1]
        rw [div_le_iff₀ h1]
        linarith
      · simp only [abs_div, abs_of_pos h2]
        rw [div_le_iff₀ h2]
        linarith
      · simp only [abs_div, abs_of_pos h3]
        rw [div_le_iff₀ h3]
        linarith
      · simp only [scale]
        rw [mul_div_cancel₀ _ h1.ne', mul_div_cancel₀ _ h2.ne', mul_div_cancel₀ _ h3.ne']
  | sphere r => rfl
  | ccylinder r l =>
    simp only at hs
    have e2 : translate (translate (bodyPoint R pos) 0 0 (-l / 2)) 0 0 l = translate (bodyPoint R pos) 0 0 (l / 2) := by
      funext p
      simp only [translate]
      congr 2 <;> ring
    simp only [e2]
    have tr : ∀ (a : ℝ) (S : Set P3), translate (bodyPoint R pos) 0 0 a '' S = bodyPoint R pos '' { p | (⟨p.x, p.y, p.z - a⟩ : P3) ∈ S } := by
      intro a S
      ext q
      constructor
      · rintro ⟨p, hp, rfl⟩
        refine ⟨⟨p.x, p.y, a + p.z⟩, ?_, ?_⟩
        · simpa using hp
        · simp [translate]
      · rintro ⟨p, hp, rfl⟩
        refine ⟨⟨p.x, p.y, p.z - a⟩, hp, ?_⟩
        simp [translate]
    rw [tr, tr, tr, ← Set.image_union, ← Set.image_union]
    congr 1
    ext p
    simp only [Set.mem_union, Set.mem_ofPred_eq, side, OdeViewer.sphere, bodyShape]
    rw [hz l hs]
    have e3 : p.z - -l / 2 = p.z + l / 2 := by ring
    rw [e3, or_assoc]
  | cylinder r l =>
    simp only at hs
    have e2 : translate (translate (bodyPoint R pos) 0 0 (-l / 2)) 0 0 l = translate (bodyPoint R pos) 0 0 (l / 2) := by
      funext p
      simp only [translate]
      congr 2 <;> ring
    simp only [e2]
    have tr : ∀ (a : ℝ) (S : Set P3), translate (bodyPoint R pos) 0 0 a '' S = bodyPoint R pos '' { p | (⟨p.x, p.y, p.z - a⟩ : P3) ∈ S } := by
      intro a S
      ext q
      constructor
      · rintro ⟨p, hp, rfl⟩
        refine ⟨⟨p.x, p.y, a + p.z⟩, ?_, ?_⟩
        · simpa using hp
        · simp [translate]
      · rintro ⟨p, hp, rfl⟩
        refine ⟨⟨p.x, p.y, p.z - a⟩, hp, ?_⟩
        simp [translate]
    rw [tr, tr, tr, ← Set.image_union, ← Set.image_union]
    congr 1
    ext p
    simp only [Set.mem_union, Set.mem_ofPred_eq, side, disk, bodyShape]
    have e3 : p.z - -l / 2 = p.z + l / 2 := by ring
    rw [hz l hs, e3, abs_eq (by linarith)]
    constructor
    · rintro ((⟨h1, h2⟩ | h1) | ⟨h1, h2⟩)
      · exact .inr ⟨h1, .inr (by linarith)⟩
      · exact .inl h1
      · exact .inr ⟨h1, .inl (by linarith)⟩
    · rintro (h1 | ⟨h1, h2 | h2⟩)
      · exact .inl (.inr h1)
      · exact .inr ⟨h1, by linarith⟩
      · exact .inl (.inl ⟨h1, by linarith⟩)

/-- The points drawn for a plane are points of the plane, if its normal vector has length one. -/
theorem C197_plane_partial (p : P3) (d : ℝ) (hp : OdeViewer.norm p = 1) : ∃ S, drawnPlane p d = some S ∧ (∀ q ∈ S, dotproduct p q = d) ∧ ∃ q, q ∈ S := by
  have hq : OdeViewer.norm ⟨0, 0, 1⟩ = 1 := by simp [OdeViewer.norm]
  unfold drawnPlane
  rw [if_neg (by rw [hp, hq]; norm_num)]
  refine ⟨_, rfl, ?_, ⟨_, ⟨0, 0, 0⟩, by simp [disk], rfl⟩⟩
  have hn : p.x ^ 2 + p.y ^ 2 + p.z ^ 2 = 1 := by
    have h0 : 0 ≤ 0 + p.x ^ 2 + p.y ^ 2 + p.z ^ 2 := by positivity
    have := Real.sq_sqrt h0
    unfold OdeViewer.norm at hp
    rw [hp] at this
    linarith
  rintro q ⟨u, ⟨-, hu⟩, rfl⟩
  have hth : -theta p * Real.pi / 180 = -Real.arccos p.z := by
    unfold theta
    rw [hp, hq]
    have : dotproduct p ⟨0, 0, 1⟩ / (1 * 1) = p.z := by simp [dotproduct]
    rw [this]
    have := Real.pi_ne_zero
    field_simp
  have hz1 : -1 ≤ p.z := by nlinarith [sq_nonneg p.x, sq_nonneg p.y]
  have hz2 : p.z ≤ 1 := by nlinarith [sq_nonneg p.x, sq_nonneg p.y]
  have hc : Real.cos (-Real.arccos p.z) = p.z := by rw [Real.cos_neg, Real.cos_arccos hz1 hz2]
  have hsn : Real.sin (-Real.arccos p.z) = -√(1 - p.z ^ 2) := by rw [Real.sin_neg, Real.sin_arccos]
  have hcn : OdeViewer.norm (crossproduct p ⟨0, 0, 1⟩) = √(1 - p.z ^ 2) := by
    unfold OdeViewer.norm crossproduct
    congr 1
    simp only
    linarith
  unfold rotate
  split_ifs with h0
  · simp only [translate, dotproduct, id, hu]
    rw [hcn, Real.sqrt_eq_zero (by nlinarith)] at h0
    have hx : p.x = 0 := by nlinarith [sq_nonneg p.x, sq_nonneg p.y]
    have hy : p.y = 0 := by nlinarith [sq_nonneg p.x, sq_nonneg p.y]
    have hz : p.z ^ 2 = 1 := by linarith
    rw [hx, hy]
    linear_combination d * hz
  · rw [hcn] at h0
    simp only [hth, hc, hsn, hcn, translate, id]
    generalize √(1 - p.z ^ 2) = n at *
    simp only [dotproduct, crossproduct, hu]
    field_simp
    linear_combination (d * n ^ 2) * hn

/-- **C197 fails for other normal vectors**: the disk of a plane with normal `(0, 0, 2)` at distance one is drawn through the point `(0, 0, 2)`, which is not in the plane. -/
theorem C197_negation_normal : ∃ S, drawnPlane ⟨0, 0, 2⟩ 1 = some S ∧ (⟨0, 0, 2⟩ : P3) ∈ S ∧ dotproduct ⟨0, 0, 2⟩ ⟨0, 0, 2⟩ ≠ 1 := by
  unfold drawnPlane
  rw [if_neg (by simp [OdeViewer.norm])]
  refine ⟨_, rfl, ⟨⟨0, 0, 0⟩, by simp [disk], ?_⟩, by norm_num [dotproduct]⟩
  simp [rotate, translate, crossproduct, OdeViewer.norm]

example : OdeViewer.norm ⟨0, 1, 0⟩ = 1 ∧ OdeViewer.norm ⟨3 / 5, 0, 4 / 5⟩ = 1 := by
  constructor
  · simp [OdeViewer.norm]
  · unfold OdeViewer.norm
    norm_num

/-- One of every `frameT` frames is saved, and the files in a directory that was empty are numbered one after the other with at least five digits, so that no file is replaced. -/
theorem C197_screenshots_partial (T m : ℕ) (hT : 1 ≤ T) : ∃ files, (screenshot T)^[T * m] (1, []) = (1, files) ∧ files.length = m ∧ files.Nodup ∧
    ∀ i (h : i < files.length), Nat.ofDigitChars 10 files[i] 0 = i ∧ 5 ≤ files[i].length := by
  have key : (screenshot T)^[T * m] (1, []) = (1, (List.range m).map shotName) := by
    induction m with
    | zero => rfl
    | succ m ih =>
      rw [Nat.mul_succ, Nat.add_comm, Function.iterate_add_apply, ih, screenshot_round T m hT]
  refine ⟨_, key, by simp, ?_, ?_⟩
  · exact List.Nodup.map (fun a b h => shotName_inj h) List.nodup_range
  · intro i h
    simp only [List.getElem_map, List.getElem_range]
    refine ⟨shotName_value i, ?_⟩
    unfold shotName
    rw [List.length_append, List.length_replicate]
    omega

/-- **C197 fails for the first frame**, which is not saved (also if every frame is to be saved), and after files were removed: then a screenshot replaces another one. -/
theorem C197_negation_screenshots (files : List (List Char)) : screenshot 1 (0, files) = (1, files) ∧
    (screenshot 1)^[3] (0, []) = (1, ["00000".toList, "00001".toList]) ∧ screenshot 1 (1, ["00001".toList]) = (1, ["00001".toList]) := by
  refine ⟨rfl, by decide +kernel, by decide +kernel⟩

end Verif.Props
