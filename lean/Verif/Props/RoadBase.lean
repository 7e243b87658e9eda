import Verif.Model.Road
import Verif.Lemmas.ListM
import Mathlib.Tactic.Linarith
import Mathlib.Tactic.NormNum
import Mathlib.Tactic.Ring

/-! Distances to segments and the first smallest element. -/

namespace Verif.Road

open Verif.RangeImage (argmin)

/-- The distance of two points in the plane. -/
noncomputable def planar (p q : P3) : ℝ := Real.sqrt ((p.x - q.x) ^ 2 + (p.y - q.y) ^ 2)

/-- In the plane, `p` lies on the segment from `a` to `b`. -/
def OnSegment (a b p : P3) : Prop := ∃ t : ℝ, 0 ≤ t ∧ t ≤ 1 ∧ p.x = a.x + t * (b.x - a.x) ∧ p.y = a.y + t * (b.y - a.y)

/-- `d` is the distance in the plane of `q` from the segment from `a` to `b`. -/
def IsSegmentDist (q a b : P3) (d : ℝ) : Prop := (∃ p, OnSegment a b p ∧ planar q p = d) ∧ ∀ p, OnSegment a b p → d ≤ planar q p

theorem IsSegmentDist.unique {q a b : P3} {d d' : ℝ} (h : IsSegmentDist q a b d) (h' : IsSegmentDist q a b d') : d = d' := by
  obtain ⟨⟨p, hp, rfl⟩, h2⟩ := h
  obtain ⟨⟨p', hp', rfl⟩, h2'⟩ := h'
  exact le_antisymm (h2 _ hp') (h2' _ hp)

theorem argmin_eq : ∀ {pre post : List ℝ} {m : ℝ}, (∀ x ∈ pre, m < x) → (∀ x ∈ post, m ≤ x) → argmin (pre ++ m :: post) = pre.length
  | [], [], _, _, _ => rfl
  | [], b :: post, m, _, h2 => by
    rw [List.nil_append, argmin, if_pos h2]
    rfl
  | a :: pre, post, m, h1, h2 => by
    have ih := argmin_eq (pre := pre) (post := post) (m := m) (fun x hx => h1 x (by simp [hx])) h2
    have hm : m ∈ pre ++ m :: post := by simp
    have ha : m < a := h1 a (by simp)
    rw [List.cons_append, List.length_cons, ← ih]
    cases hl : pre ++ m :: post with
    | nil => rw [hl] at hm; simp at hm
    | cons b l =>
      rw [hl] at hm
      rw [argmin, if_neg (fun h => absurd (h m hm) (not_le.2 ha))]

theorem exists_first : ∀ {l : List ℝ}, l ≠ [] → ∃ pre m post, l = pre ++ m :: post ∧ (∀ x ∈ pre, m < x) ∧ ∀ x ∈ post, m ≤ x
  | [], h => absurd rfl h
  | [a], _ => ⟨[], a, [], rfl, by simp, by simp⟩
  | a :: b :: l, _ => by
    obtain ⟨pre, m, post, h1, h2, h3⟩ := exists_first (l := b :: l) (by simp)
    by_cases h : a ≤ m
    · refine ⟨[], a, b :: l, rfl, by simp, ?_⟩
      intro x hx
      rw [h1] at hx
      rcases List.mem_append.1 hx with hx | hx
      · exact h.trans (h2 x hx).le
      · rcases List.mem_cons.1 hx with rfl | hx
        · exact h
        · exact h.trans (h3 x hx)
    · refine ⟨a :: pre, m, post, by rw [h1]; rfl, ?_, h3⟩
      intro x hx
      rcases List.mem_cons.1 hx with rfl | hx
      · exact not_le.1 h
      · exact h2 x hx

/-- The first of the elements with the smallest value. -/
def IsFirst {β : Type} (l : List β) (d : β → ℝ) (s : β) : Prop :=
  ∃ pre post, l = pre ++ s :: post ∧ (∀ x ∈ pre, d s < d x) ∧ ∀ x ∈ post, d s ≤ d x

theorem IsFirst.le {β : Type} {l : List β} {d : β → ℝ} {s : β} (h : IsFirst l d s) {x : β} (hx : x ∈ l) : d s ≤ d x := by
  obtain ⟨pre, post, rfl, h1, h2⟩ := h
  rcases List.mem_append.1 hx with hx | hx
  · exact (h1 x hx).le
  · rcases List.mem_cons.1 hx with rfl | hx
    · exact le_rfl
    · exact h2 x hx

theorem IsFirst.mem {β : Type} {l : List β} {d : β → ℝ} {s : β} (h : IsFirst l d s) : s ∈ l := by
  obtain ⟨pre, post, rfl, _⟩ := h
  simp

theorem get_argmin {β : Type} {l : List β} {d : β → ℝ} {s : β} (h : IsFirst l d s) : l[argmin (l.map d)]? = some s := by
  obtain ⟨pre, post, rfl, h1, h2⟩ := h
  rw [List.map_append, List.map_cons, argmin_eq, List.length_map]
  · simp
  · intro x hx
    obtain ⟨y, hy, rfl⟩ := List.mem_map.1 hx
    exact h1 y hy
  · intro x hx
    obtain ⟨y, hy, rfl⟩ := List.mem_map.1 hx
    exact h2 y hy

theorem exists_isFirst {β : Type} {l : List β} (h : l ≠ []) (d : β → ℝ) : ∃ s, IsFirst l d s := by
  obtain ⟨pre, m, post, h1, h2, h3⟩ := exists_first (l := l.map d) (by simpa using h)
  obtain ⟨pre', rest, rfl, rfl, hr⟩ := List.map_eq_append_iff.1 h1
  obtain ⟨s, post', rfl, rfl, rfl⟩ := List.map_eq_cons_iff.1 hr
  exact ⟨s, pre', post', rfl, fun x hx => h2 _ (List.mem_map.2 ⟨x, hx, rfl⟩), fun x hx => h3 _ (List.mem_map.2 ⟨x, hx, rfl⟩)⟩

theorem IsFirst.unique {β : Type} {l : List β} {d : β → ℝ} {s s' : β} (h : IsFirst l d s) (h' : IsFirst l d s') : s = s' := by
  have h1 := get_argmin h
  rw [get_argmin h'] at h1
  exact (Option.some.inj h1).symm

/-- Dropping elements that are never the smallest does not matter. -/
theorem IsFirst.filter {β : Type} {l : List β} {d : β → ℝ} {s : β} {p : β → Bool} (h : IsFirst (l.filter p) d s)
    (hp : ∀ x ∈ l, p x = false → d s < d x) : IsFirst l d s := by
  induction l with
  | nil => exact absurd h.mem (by simp)
  | cons a l ih =>
    rw [List.filter_cons] at h
    split at h
    · obtain ⟨pre, post, e, h1, h2⟩ := h
      cases pre with
      | nil =>
        obtain ⟨rfl, e2⟩ := List.cons.inj e
        refine ⟨[], l, rfl, by simp, ?_⟩
        intro x hx
        cases hpx : p x with
        | true => exact h2 x (by rw [← e2]; exact List.mem_filter.2 ⟨hx, hpx⟩)
        | false => exact (hp x (by simp [hx]) hpx).le
      | cons b pre =>
        obtain ⟨rfl, e2⟩ := List.cons.inj e
        obtain ⟨pre', post', rfl, h1', h2'⟩ := ih ⟨pre, post, e2, fun x hx => h1 x (by simp [hx]), h2⟩ fun x hx => hp x (by simp [hx])
        refine ⟨a :: pre', post', rfl, ?_, h2'⟩
        intro x hx
        rcases List.mem_cons.1 hx with rfl | hx
        · exact h1 _ (by simp)
        · exact h1' x hx
    next ha =>
      obtain ⟨pre', post', rfl, h1', h2'⟩ := ih h fun x hx => hp x (by simp [hx])
      refine ⟨a :: pre', post', rfl, ?_, h2'⟩
      intro x hx
      rcases List.mem_cons.1 hx with rfl | hx
      · exact hp _ (by simp) (by simpa using ha)
      · exact h1' x hx

theorem clip_mem (t : ℝ) : 0 ≤ clip t ∧ clip t ≤ 1 := ⟨le_min (le_max_right _ _) zero_le_one, min_le_right _ _⟩

theorem clip_of_nonpos {t : ℝ} (h : t ≤ 0) : clip t = 0 := by
  unfold clip; rw [max_eq_right h, min_eq_left zero_le_one]

theorem clip_of_one_le {t : ℝ} (h : 1 ≤ t) : clip t = 1 := by
  unfold clip; rw [max_eq_left (by linarith), min_eq_right h]

theorem clip_of_mem {t : ℝ} (h : 0 ≤ t) (h' : t ≤ 1) : clip t = t := by
  unfold clip; rw [max_eq_left h, min_eq_left h']

/-- Among the numbers from 0 to 1, `clip t` is nearest to `t`. -/
theorem clip_nearest (t : ℝ) {s : ℝ} (h0 : 0 ≤ s) (h1 : s ≤ 1) : (clip t - t) ^ 2 ≤ (s - t) ^ 2 := by
  rcases le_total t 0 with h | h
  · rw [clip_of_nonpos h]; nlinarith
  · rcases le_total 1 t with h' | h'
    · rw [clip_of_one_le h']; nlinarith
    · rw [clip_of_mem h h']; nlinarith [sq_nonneg (s - t)]

/-- The foot of the perpendicular, moved into the segment, is nearest. -/
theorem clip_segment (u v : P3) {s : ℝ} (h0 : 0 ≤ s) (h1 : s ≤ 1) :
    (u.x - clip (dot2 u v / dot2 v v) * v.x) ^ 2 + (u.y - clip (dot2 u v / dot2 v v) * v.y) ^ 2 ≤ (u.x - s * v.x) ^ 2 + (u.y - s * v.y) ^ 2 := by
  have hA : dot2 v v = v.x ^ 2 + v.y ^ 2 := by unfold dot2; ring
  rcases (add_nonneg (sq_nonneg v.x) (sq_nonneg v.y)).eq_or_lt with h | h
  · have hx : v.x = 0 := by nlinarith [sq_nonneg v.x, sq_nonneg v.y]
    have hy : v.y = 0 := by nlinarith [sq_nonneg v.x, sq_nonneg v.y]
    simp [hx, hy]
  · have hv : dot2 v v ≠ 0 := by rw [hA]; exact h.ne'
    have hr : dot2 u v = dot2 u v / dot2 v v * dot2 v v := (div_mul_cancel₀ _ hv).symm
    have hc := clip_nearest (dot2 u v / dot2 v v) h0 h1
    generalize dot2 u v / dot2 v v = r at hr hc ⊢
    have e : ∀ s : ℝ, (u.x - s * v.x) ^ 2 + (u.y - s * v.y) ^ 2 = u.x ^ 2 + u.y ^ 2 - r ^ 2 * dot2 v v + (s - r) ^ 2 * dot2 v v := by
      intro s
      have : dot2 u v = u.x * v.x + u.y * v.y := rfl
      have h3 : (u.x - s * v.x) ^ 2 + (u.y - s * v.y) ^ 2 = u.x ^ 2 + u.y ^ 2 - 2 * s * dot2 u v + s ^ 2 * dot2 v v := by rw [this, hA]; ring
      rw [h3, hr]; ring
    rw [e, e]
    have : 0 ≤ dot2 v v := by rw [hA]; exact h.le
    nlinarith [mul_le_mul_of_nonneg_right hc this]

/-- `distance_to_segment_2d` is the distance of the point from the segment. -/
theorem offset_dist (l : Line) (q : P3) (i : ℕ) : IsSegmentDist q (vert l.pts i).p (vert l.pts (i + 1)).p (norm2 (l.offset q i)) := by
  obtain ⟨c0, c1⟩ := clip_mem (relT q l.pts i)
  constructor
  · refine ⟨⟨(vert l.pts i).p.x + clip (relT q l.pts i) * ((vert l.pts (i + 1)).p.x - (vert l.pts i).p.x),
      (vert l.pts i).p.y + clip (relT q l.pts i) * ((vert l.pts (i + 1)).p.y - (vert l.pts i).p.y), 0⟩, ⟨_, c0, c1, rfl, rfl⟩, ?_⟩
    unfold planar norm2 Line.offset toPoint edge P3.sub P3.scale
    congr 1
    ring
  · rintro p ⟨s, h0, h1, hx, hy⟩
    unfold planar norm2
    apply Real.sqrt_le_sqrt
    have h := clip_segment (toPoint q l.pts i) (edge l.pts i) h0 h1
    unfold relT at *
    simp only [Line.offset, P3.sub, P3.scale, relT]
    rw [hx, hy]
    refine h.trans (le_of_eq ?_)
    simp only [toPoint, edge, P3.sub]
    ring

end Verif.Road
