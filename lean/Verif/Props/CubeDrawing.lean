import Verif.Model.CubeDrawing
import Mathlib.Tactic.Ring
import Mathlib.Tactic.Linarith
import Mathlib.Tactic.Positivity
import Mathlib.Tactic.FieldSimp
import Mathlib.Tactic.NormNum
/-
Properties of the drawing of the flexible cube.
-/
namespace Verif.Spec
open Verif.OdeViewer (P3)

/-- The bit of a corner: 0 for the third coordinate, 1 for the second, 2 for the first (corner 4 i + 2 j + k). -/
def bit (axis corner : Nat) : Nat := corner / 2 ^ axis % 2

/-- The corners of the face where the bit is `b`. -/
def sideOf (axis b : Nat) : List Nat := (List.range 8).filter fun c => bit axis c == b

/-- Two corners are joined by an edge of the cube. -/
def Joined (a b : Nat) : Prop := ((List.range 3).filter fun x => bit x a != bit x b).length = 1

instance (a b : Nat) : Decidable (Joined a b) := inferInstanceAs (Decidable (_ = _))

/-- The edges of a quad, round about. -/
def around4 : List Nat → List (Nat × Nat)
  | [a, b, c, d] => [(a, b), (b, c), (c, d), (d, a)]
  | _ => []

/-- The center of four points. -/
noncomputable def center4 (ps : List P3) : P3 := ⟨(ps.map P3.x).sum / 4, (ps.map P3.y).sum / 4, (ps.map P3.z).sum / 4⟩

/-- inner product -/
def inner3 (p q : P3) : ℝ := p.x * q.x + p.y * q.y + p.z * q.z

/-- `p - q` -/
def sub3 (p q : P3) : P3 := ⟨p.x - q.x, p.y - q.y, p.z - q.z⟩

/-- The ray of light through a point, as far as the height `t` below it. -/
noncomputable def lightRay (p : P3) (t : ℝ) : P3 := ⟨p.x - t * 0.33, p.y - t, p.z - t * 0.5⟩

end Verif.Spec

namespace Verif.CubeDrawing
open Verif.Spec
open Verif.OdeViewer (P3)

theorem sum_eq (ps : List P3) (a : P3) : ps.foldl addVect a = ⟨a.x + (ps.map P3.x).sum, a.y + (ps.map P3.y).sum, a.z + (ps.map P3.z).sum⟩ := by
  induction ps generalizing a with
  | nil => simp
  | cons p ps ih =>
    rw [List.foldl_cons, ih]
    simp [addVect, add_assoc]

/-- The normal of a face: an exception if and only if its center is the center given, otherwise the unit vector from the one to the other. -/
theorem normale_spec (ps : List P3) (c : P3) :
    (sub3 (center4 ps) c = ⟨0, 0, 0⟩ → normale (ps.foldl addVect ⟨0, 0, 0⟩) c = .error .zeroDivision) ∧
    (sub3 (center4 ps) c ≠ ⟨0, 0, 0⟩ → ∃ n t, normale (ps.foldl addVect ⟨0, 0, 0⟩) c = .ok n ∧ 0 < t ∧ inner3 n n = 1 ∧ n = ⟨t * (sub3 (center4 ps) c).x, t * (sub3 (center4 ps) c).y, t * (sub3 (center4 ps) c).z⟩) := by
  have e : difVect (dumpVect (ps.foldl addVect ⟨0, 0, 0⟩) (1 / 4)) c = sub3 (center4 ps) c := by
    rw [sum_eq]
    unfold difVect dumpVect sub3 center4
    simp only [zero_add]
    congr 1 <;> ring
  unfold normale
  rw [e]
  generalize sub3 (center4 ps) c = d
  unfold normVect
  simp only
  have h0 : 0 ≤ 0 + d.x * d.x + d.y * d.y + d.z * d.z := by
    have := mul_self_nonneg d.x
    have := mul_self_nonneg d.y
    have := mul_self_nonneg d.z
    linarith
  constructor
  · rintro rfl
    simp
  · intro hd
    have hs : 0 + d.x * d.x + d.y * d.y + d.z * d.z ≠ 0 := by
      intro hs
      apply hd
      have h1 := mul_self_nonneg d.x
      have h2 := mul_self_nonneg d.y
      have h3 := mul_self_nonneg d.z
      have e1 : d.x = 0 := mul_self_eq_zero.1 (by linarith)
      have e2 : d.y = 0 := mul_self_eq_zero.1 (by linarith)
      have e3 : d.z = 0 := mul_self_eq_zero.1 (by linarith)
      cases d
      simp_all
    have hpos : 0 < 0 + d.x * d.x + d.y * d.y + d.z * d.z := lt_of_le_of_ne h0 (Ne.symm hs)
    have hr := Real.sqrt_pos.2 hpos
    have hsq := Real.mul_self_sqrt h0
    rw [if_neg hr.ne']
    refine ⟨_, 1 / √(0 + d.x * d.x + d.y * d.y + d.z * d.z), rfl, by positivity, ?_, ?_⟩
    · unfold inner3 dumpVect
      simp only
      generalize √(0 + d.x * d.x + d.y * d.y + d.z * d.z) = r at *
      field_simp
      nlinarith
    · unfold dumpVect
      congr 1 <;> ring

end Verif.CubeDrawing

namespace Verif.Props
open Verif.Spec Verif.CubeDrawing
open Verif.OdeViewer (P3)

/-- The quads are the six faces of the cube, each once: bottom, left, right, top, front and back; their vertices are in order round about, along edges of the cube; and each edge belongs to exactly two faces. -/
theorem C198_faces : faces.map (fun f => f.insertionSort (· ≤ ·)) = [sideOf 1 0, sideOf 2 0, sideOf 2 1, sideOf 1 1, sideOf 0 1, sideOf 0 0] ∧
    (∀ f ∈ faces, f.Nodup ∧ f.length = 4 ∧ ∀ e ∈ around4 f, Joined e.1 e.2) ∧
    ∀ a ∈ List.range 8, ∀ b ∈ List.range 8, Joined a b → (faces.filter fun f => decide ((a, b) ∈ around4 f ∨ (b, a) ∈ around4 f)).length = 2 := by
  decide +kernel

/-- The vertices drawn are the corners of the faces, and the normal vectors have length one and point from the center of gravity to the centers of the faces, for all positions of the corners; it is a ZeroDivisionError exactly if the center of a
face is the center of gravity. -/
theorem C198_quads (points : Nat → P3) (c : P3) :
    (∃ quads, drawCreature points c = .ok quads ∧ List.Forall₂ (fun (f : List Nat) (q : Quad) => q.vertices = f.map points ∧ inner3 q.normal q.normal = 1 ∧
      ∃ t, 0 < t ∧ q.normal = ⟨t * (sub3 (center4 (f.map points)) c).x, t * (sub3 (center4 (f.map points)) c).y, t * (sub3 (center4 (f.map points)) c).z⟩) faces quads) ∨
    (drawCreature points c = .error .zeroDivision ∧ ∃ f ∈ faces, sub3 (center4 (f.map points)) c = ⟨0, 0, 0⟩) := by
  unfold drawCreature
  generalize faces = fs
  induction fs with
  | nil => exact .inl ⟨[], rfl, .nil⟩
  | cons f fs ih =>
    rw [List.mapM_cons]
    by_cases hz : sub3 (center4 (f.map points)) c = ⟨0, 0, 0⟩
    · right
      refine ⟨?_, f, by simp, hz⟩
      unfold quad
      rw [(normale_spec (f.map points) c).1 hz]
      rfl
    · obtain ⟨n, t, h1, h2, h3, h4⟩ := (normale_spec (f.map points) c).2 hz
      have hq : quad id points c f = .ok ⟨n, f.map points⟩ := by
        unfold quad
        rw [h1]
        rfl
      rw [hq]
      rcases ih with ⟨quads, i1, i2⟩ | ⟨i1, g, hg, i2⟩
      · left
        rw [i1]
        exact ⟨_, rfl, .cons ⟨rfl, h3, t, h2, h4⟩ i2⟩
      · right
        rw [i1]
        exact ⟨rfl, g, by simp [hg], i2⟩

/-- If the cube has its shape (in any position, orientation and with any lengths of edges: corner `4 i + 2 j + k` is `o + i u + j v + k w` for perpendicular vectors), the normal vectors are perpendicular to the faces: to all edges round about. -/
theorem C198_box (o u v w : P3) (huv : inner3 u v = 0) (huw : inner3 u w = 0) (hvw : inner3 v w = 0) (quads : List Quad) (c : P3)
    (hc : c = ⟨o.x + (u.x + v.x + w.x) / 2, o.y + (u.y + v.y + w.y) / 2, o.z + (u.z + v.z + w.z) / 2⟩) (points : Nat → P3)
    (hp : ∀ n, points n = ⟨o.x + bit 2 n * u.x + bit 1 n * v.x + bit 0 n * w.x, o.y + bit 2 n * u.y + bit 1 n * v.y + bit 0 n * w.y, o.z + bit 2 n * u.z + bit 1 n * v.z + bit 0 n * w.z⟩)
    (h : drawCreature points c = .ok quads) : List.Forall₂ (fun (f : List Nat) (q : Quad) => ∀ e ∈ around4 f, inner3 q.normal (sub3 (points e.2) (points e.1)) = 0) faces quads := by
  rcases C198_quads points c with ⟨quads', h1, h2⟩ | ⟨h1, -⟩
  · rw [h] at h1
    obtain rfl := Except.ok.inj h1
    have key : ∀ f ∈ faces, ∀ e ∈ around4 f, inner3 (sub3 (center4 (f.map points)) c) (sub3 (points e.2) (points e.1)) = 0 := by
      intro f hf e he
      have hf' : f = [0, 1, 5, 4] ∨ f = [0, 1, 3, 2] ∨ f = [4, 5, 7, 6] ∨ f = [2, 3, 7, 6] ∨ f = [1, 3, 7, 5] ∨ f = [0, 2, 6, 4] := by
        have : faces = [[0, 1, 5, 4], [0, 1, 3, 2], [4, 5, 7, 6], [2, 3, 7, 6], [1, 3, 7, 5], [0, 2, 6, 4]] := by decide
        rw [this] at hf
        simpa using hf
      unfold inner3 at huv huw hvw
      rcases hf' with rfl | rfl | rfl | rfl | rfl | rfl <;> simp only [around4, List.mem_cons, List.not_mem_nil, or_false] at he <;> rcases he with rfl | rfl | rfl | rfl <;>
        simp [center4, hp, hc, bit, inner3, sub3] <;> ring_nf <;> nlinarith
    have all : ∀ (fs : List (List Nat)) (qs : List Quad), (∀ f ∈ fs, f ∈ faces) → List.Forall₂ (fun (f : List Nat) (q : Quad) => q.vertices = f.map points ∧ inner3 q.normal q.normal = 1 ∧
        ∃ t, 0 < t ∧ q.normal = ⟨t * (sub3 (center4 (f.map points)) c).x, t * (sub3 (center4 (f.map points)) c).y, t * (sub3 (center4 (f.map points)) c).z⟩) fs qs →
        List.Forall₂ (fun (f : List Nat) (q : Quad) => ∀ e ∈ around4 f, inner3 q.normal (sub3 (points e.2) (points e.1)) = 0) fs qs := by
      intro fs qs hfs hall
      induction hall with
      | nil => exact .nil
      | @cons f q fs qs hd _ ih =>
        refine .cons ?_ (ih fun g hg => hfs g (by simp [hg]))
        intro e he
        obtain ⟨-, -, t, -, ht⟩ := hd
        have := key f (hfs f (by simp)) e he
        rw [ht]
        unfold inner3 at this ⊢
        simp only
        linear_combination t * this
    exact all _ _ (fun f hf => hf) h2
  · rw [h] at h1
    simp at h1

/-- a cube with edges of length 2 above the floor -/
example (quads : List Quad) (h : drawCreature (fun n => ⟨2 * bit 2 n, 2 * bit 1 n + 1, 2 * bit 0 n⟩) ⟨1, 2, 1⟩ = .ok quads) :
    List.Forall₂ (fun (f : List Nat) (q : Quad) => ∀ e ∈ around4 f, inner3 q.normal (sub3 ⟨2 * bit 2 e.2, 2 * bit 1 e.2 + 1, 2 * bit 0 e.2⟩ ⟨2 * bit 2 e.1, 2 * bit 1 e.1 + 1, 2 * bit 0 e.1⟩) = 0) faces quads :=
  C198_box ⟨0, 1, 0⟩ ⟨2, 0, 0⟩ ⟨0, 2, 0⟩ ⟨0, 0, 2⟩ (by simp [inner3]) (by simp [inner3]) (by simp [inner3]) quads ⟨1, 2, 1⟩ (by simp; norm_num) _ (fun n => by simp only [P3.mk.injEq]; refine ⟨?_, ?_, ?_⟩ <;> ring) h

/-- The mirror image has the mirrored vertices. -/
theorem C198_mirror_partial (points : Nat → P3) (c : P3) (quads : List Quad) (h : drawCreature points c = .ok quads) :
    ∃ mirrored, drawMirCreat points c = .ok mirrored ∧ mirrored.map Quad.vertices = quads.map fun q => q.vertices.map fun p => ⟨p.x, -p.y, p.z⟩ := by
  unfold drawCreature at h
  unfold drawMirCreat
  generalize faces = fs at *
  induction fs generalizing quads with
  | nil =>
    obtain rfl := Except.ok.inj h
    exact ⟨[], rfl, rfl⟩
  | cons f fs ih =>
    rw [List.mapM_cons] at h ⊢
    unfold quad at h ⊢
    cases hn : normale ((f.map points).foldl addVect ⟨0, 0, 0⟩) c with
    | error e => rw [hn] at h; simp [Except.map, bind, Except.bind] at h
    | ok n =>
      rw [hn] at h
      cases hr : fs.mapM (quad id points c) with
      | error e =>
        unfold quad at hr
        simp only [Except.map, bind, Except.bind] at h
        simp only [Except.map] at hr
        rw [hr] at h
        simp at h
      | ok qs =>
        obtain ⟨ms, m1, m2⟩ := ih qs hr
        unfold quad at hr m1
        simp only [Except.map, bind, Except.bind] at h ⊢
        simp only [Except.map] at hr m1
        rw [hr] at h
        rw [m1]
        obtain rfl := Except.ok.inj h
        refine ⟨_, rfl, ?_⟩
        simp [m2]

/-- The normal vectors of the mirror image are those of the original. -/
private theorem mirror_normals (points : Nat → P3) (c : P3) : (drawMirCreat points c).map (List.map Quad.normal) = (drawCreature points c).map (List.map Quad.normal) := by
  unfold drawMirCreat drawCreature
  generalize faces = fs
  induction fs with
  | nil => rfl
  | cons f fs ih =>
    rw [List.mapM_cons, List.mapM_cons]
    unfold quad at ih ⊢
    cases normale ((f.map points).foldl addVect ⟨0, 0, 0⟩) c with
    | error e => rfl
    | ok n =>
      simp only [Except.map, bind, Except.bind] at ih ⊢
      revert ih
      cases List.mapM (m := Except DErr) _ fs <;> cases List.mapM (m := Except DErr) _ fs <;> simp [pure, Except.pure]

/-- **C198 fails for the normal vectors of the mirror image**: they are those of the original, not mirrored, so that wherever a normal vector of the original is not parallel to the mirror, the mirror image has another one than its mirror
image. -/
theorem C198_negation_mirror (points : Nat → P3) (c : P3) (quads : List Quad) (h : drawCreature points c = .ok quads) :
    ∃ mirrored, drawMirCreat points c = .ok mirrored ∧ mirrored.map Quad.normal = quads.map Quad.normal ∧
      ∀ (i : Nat) (q m : Quad), quads[i]? = some q → mirrored[i]? = some m → q.normal.y ≠ 0 → m.normal ≠ ⟨q.normal.x, -q.normal.y, q.normal.z⟩ := by
  obtain ⟨ms, h1, -⟩ := C198_mirror_partial points c quads h
  have hn := mirror_normals points c
  rw [h1, h] at hn
  have hn' : ms.map Quad.normal = quads.map Quad.normal := by simpa [Except.map] using hn
  refine ⟨ms, h1, hn', ?_⟩
  intro i q m hq hm hy he
  have e1 : (ms.map Quad.normal)[i]? = some m.normal := by simp [hm]
  rw [hn'] at e1
  simp only [List.getElem?_map, hq, Option.map_some, Option.some.injEq] at e1
  rw [← e1] at he
  have := congrArg P3.y he
  simp only at this
  exact hy (by linarith)

/-- a cube with edges of length 2 above the floor: it is drawn, and the bottom has a normal vector that is not parallel to the mirror -/
example : ∃ quads q, drawCreature (fun n => ⟨2 * bit 2 n, 2 * bit 1 n + 1, 2 * bit 0 n⟩) ⟨1, 2, 1⟩ = .ok quads ∧ quads[0]? = some q ∧ q.normal.y < 0 := by
  have hfs : faces = [[0, 1, 5, 4], [0, 1, 3, 2], [4, 5, 7, 6], [2, 3, 7, 6], [1, 3, 7, 5], [0, 2, 6, 4]] := by decide
  rcases C198_quads (fun n => ⟨2 * bit 2 n, 2 * bit 1 n + 1, 2 * bit 0 n⟩) ⟨1, 2, 1⟩ with ⟨quads, h1, h2⟩ | ⟨-, f, hf, hz⟩
  · rw [hfs] at h2
    cases h2 with
    | @cons _ q _ qs hd _ =>
      refine ⟨_, q, h1, rfl, ?_⟩
      obtain ⟨-, -, t, ht, hq⟩ := hd
      rw [hq]
      simp [center4, sub3, bit]
      nlinarith
  · exfalso
    rw [hfs] at hf
    simp only [List.mem_cons, List.not_mem_nil, or_false] at hf
    rcases hf with rfl | rfl | rfl | rfl | rfl | rfl <;> simp [center4, sub3, bit] at hz <;> norm_num at hz

private theorem shadow_rest (points : Nat → P3) (c : P3) (hc : 0 < c.y) (l : List (List Nat × ℝ)) (hl : ∀ fh ∈ l, 0 ≤ fh.2 ∧ fh.1.length = 4) :
    ∃ quads, l.mapM (shadowQuad points c) = .ok quads ∧
      List.Forall₂ (fun fh q => q.normal.y < 0 ∧ List.Forall₂ (fun (i : Nat) (v : P3) => v.y = fh.2 ∧ ∃ t, lightRay (points i) t = ⟨v.x, 0, v.z⟩) fh.1 q.vertices) l quads := by
  induction l with
  | nil => exact ⟨[], rfl, .nil⟩
  | cons fh l ih =>
    obtain ⟨qs, h1, h2⟩ := ih fun a ha => hl a (by simp [ha])
    obtain ⟨hh, h4⟩ := hl fh (by simp)
    have hy : (sub3 (center4 (fh.1.map fun i => shadowPoint fh.2 (points i))) c).y = -fh.2 - c.y := by
      obtain ⟨f, h⟩ := fh
      simp only [sub3, center4, List.map_map]
      have : (f.map (P3.y ∘ fun i => shadowPoint h (points i))) = f.map fun _ => -h := by
        apply List.map_congr_left
        intro i _
        rfl
      rw [this]
      simp only at h4
      rw [List.map_const', h4]
      simp [List.replicate]
      ring
    have hne : sub3 (center4 (fh.1.map fun i => shadowPoint fh.2 (points i))) c ≠ ⟨0, 0, 0⟩ := by
      intro he
      rw [he] at hy
      simp only at hy
      linarith
    obtain ⟨n, t, e1, e2, e3, e4⟩ := (normale_spec _ c).2 hne
    rw [List.mapM_cons, h1]
    have hq : shadowQuad points c fh = .ok ⟨n, (fh.1.map fun i => shadowPoint fh.2 (points i)).map fun p => ⟨p.x, -p.y, p.z⟩⟩ := by
      unfold shadowQuad
      simp only
      rw [e1]
      rfl
    rw [hq]
    refine ⟨_, rfl, .cons ⟨?_, ?_⟩ h2⟩
    · rw [e4]
      simp only
      rw [hy]
      nlinarith
    · rw [List.map_map]
      generalize fh.1 = f
      induction f with
      | nil => exact .nil
      | cons i f ihf =>
        refine .cons ⟨by simp [shadowPoint], (points i).y, ?_⟩ ihf
        simp only [lightRay, shadowPoint, Function.comp]
        congr 1 <;> ring

/-- The shadow, with the center of gravity above the floor: for each face a quad; its vertices are where the rays of light through the corners meet the floor, except that the quads are drawn at six different heights, which are at most 0.025 away
from the floor. -/
theorem C198_shadow_partial (points : Nat → P3) (c : P3) (hc : 0 < c.y) : ∃ quads, drawShadow points c = .ok quads ∧
    List.Forall₂ (fun (fh : List Nat × ℝ) (q : Quad) => List.Forall₂ (fun (i : Nat) (v : P3) => v.y = fh.2 ∧ ∃ t, lightRay (points i) t = ⟨v.x, 0, v.z⟩) fh.1 q.vertices)
      (faces.zip [-0.025, 0.02, 0.015, 0.01, 0.005, 0]) quads := by
  have hfs : faces = [[0, 1, 5, 4], [0, 1, 3, 2], [4, 5, 7, 6], [2, 3, 7, 6], [1, 3, 7, 5], [0, 2, 6, 4]] := by decide
  obtain ⟨qs, h1, h2⟩ := shadow_rest points c hc ((faces.drop 1).zip [0.02, 0.015, 0.01, 0.005, 0]) (by
    rw [hfs]
    intro fh hfh
    simp only [List.drop_succ_cons, List.drop_zero, List.zip_cons_cons, List.zip_nil_left, List.mem_cons, List.not_mem_nil, or_false] at hfh
    rcases hfh with rfl | rfl | rfl | rfl | rfl <;> exact ⟨by norm_num, rfl⟩)
  unfold drawShadow
  rw [h1]
  refine ⟨_, rfl, ?_⟩
  have hz : faces.zip [-0.025, 0.02, 0.015, 0.01, 0.005, (0 : ℝ)] = (faces.headD [], -0.025) :: (faces.drop 1).zip [0.02, 0.015, 0.01, 0.005, 0] := by rw [hfs]; rfl
  rw [hz]
  refine .cons ?_ (h2.imp fun _ _ h => h.2)
  generalize faces.headD [] = f
  simp only
  induction f with
  | nil => exact .nil
  | cons i f ihf =>
    refine .cons ⟨rfl, (points i).y, ?_⟩ ihf
    simp only [lightRay, shadowPoint]
    congr 1 <;> ring

/-- **C198 fails for the shadow**: with the center of gravity above the floor, the normal vectors of all faces of the shadow but the first one point down, and the first one lies below the floor. -/
theorem C198_negation_shadow (points : Nat → P3) (c : P3) (hc : 0 < c.y) : ∃ bottom rest, drawShadow points c = .ok (bottom :: rest) ∧
    rest.length = 5 ∧ (∀ q ∈ rest, q.normal.y < 0) ∧ bottom.vertices.length = 4 ∧ ∀ v ∈ bottom.vertices, v.y < 0 := by
  have hfs : faces = [[0, 1, 5, 4], [0, 1, 3, 2], [4, 5, 7, 6], [2, 3, 7, 6], [1, 3, 7, 5], [0, 2, 6, 4]] := by decide
  obtain ⟨qs, h1, h2⟩ := shadow_rest points c hc ((faces.drop 1).zip [0.02, 0.015, 0.01, 0.005, 0]) (by
    rw [hfs]
    intro fh hfh
    simp only [List.drop_succ_cons, List.drop_zero, List.zip_cons_cons, List.zip_nil_left, List.mem_cons, List.not_mem_nil, or_false] at hfh
    rcases hfh with rfl | rfl | rfl | rfl | rfl <;> exact ⟨by norm_num, rfl⟩)
  unfold drawShadow
  rw [h1]
  refine ⟨_, _, rfl, ?_, ?_, ?_, ?_⟩
  · rw [← h2.length_eq, hfs]
    rfl
  · have : ∀ (l : List (List Nat × ℝ)) (qs : List Quad), List.Forall₂ (fun fh q => q.normal.y < 0 ∧ List.Forall₂ (fun (i : Nat) (v : P3) => v.y = fh.2 ∧ ∃ t, lightRay (points i) t = ⟨v.x, 0, v.z⟩) fh.1 q.vertices) l qs → ∀ q ∈ qs, q.normal.y < 0 := by
      intro l qs h
      induction h with
      | nil => simp
      | cons hd _ ih =>
        intro q hq
        rcases List.mem_cons.1 hq with rfl | hq
        · exact hd.1
        · exact ih q hq
    exact this _ _ h2
  · rw [hfs]; rfl
  · intro v hv
    obtain ⟨i, -, rfl⟩ := List.mem_map.1 hv
    show (-0.025 : ℝ) < 0
    norm_num

end Verif.Props
