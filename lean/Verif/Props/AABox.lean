import Verif.Model.AABox
import Mathlib.Tactic
import Mathlib.MeasureTheory.Measure.Lebesgue.Basic
import Mathlib.MeasureTheory.Measure.Prod

/-!
C67: axis aligned boxes, and the tree that finds overlapping ones.
-/

namespace Verif.AABox

variable {α : Type} [Field α] [LinearOrder α] [IsStrictOrderedRing α]

/-! ## Specification: a box is a set of points -/

/-- A point lies in a box. -/
def Mem (a : Box α) (p : α × α) : Prop :=
  a.cx - a.hx ≤ p.1 ∧ p.1 ≤ a.cx + a.hx ∧ a.cy - a.hy ≤ p.2 ∧ p.2 ≤ a.cy + a.hy

/-- Boxes with non-negative extents. -/
def Proper (a : Box α) : Prop := 0 ≤ a.hx ∧ 0 ≤ a.hy

/-! ## Boxes -/

theorem overlapAxis_iff (c1 h1 c2 h2 : α) :
    overlapAxis c1 h1 c2 h2 = true ↔ c1 - h1 ≤ c2 + h2 ∧ c2 - h2 ≤ c1 + h1 := by
  rw [overlapAxis, decide_eq_true_eq, abs_le]
  constructor <;> rintro ⟨a, b⟩ <;> constructor <;> linarith

/-- C67: two boxes overlap iff they have a common point. -/
theorem overlap_iff (a b : Box α) (ha : Proper a) (hb : Proper b) :
    a.overlap b = true ↔ ∃ p, Mem a p ∧ Mem b p := by
  rw [Box.overlap, Bool.and_eq_true, overlapAxis_iff, overlapAxis_iff]
  obtain ⟨ha1, ha2⟩ := ha
  obtain ⟨hb1, hb2⟩ := hb
  constructor
  · rintro ⟨⟨h1, h2⟩, ⟨h3, h4⟩⟩
    refine ⟨(max (a.cx - a.hx) (b.cx - b.hx), max (a.cy - a.hy) (b.cy - b.hy)), ⟨le_max_left _ _, ?_, le_max_left _ _, ?_⟩,
      ⟨le_max_right _ _, ?_, le_max_right _ _, ?_⟩⟩ <;> rw [max_le_iff] <;> constructor <;> linarith
  · rintro ⟨p, ⟨h1, h2, h3, h4⟩, ⟨h5, h6, h7, h8⟩⟩
    exact ⟨⟨by linarith, by linarith⟩, ⟨by linarith, by linarith⟩⟩

theorem overlap_symm (a b : Box α) : a.overlap b = b.overlap a := by
  rw [Bool.eq_iff_iff, Box.overlap, Box.overlap, Bool.and_eq_true, Bool.and_eq_true]
  simp only [overlapAxis_iff]
  tauto

/-- C67: a point is inside a box iff it lies in it. -/
theorem inside_iff (a : Box α) (x y : α) : a.inside x y = true ↔ Mem a (x, y) := by
  rw [Box.inside, Bool.and_eq_true, decide_eq_true_eq, decide_eq_true_eq, abs_le, abs_le, Mem]
  constructor
  · rintro ⟨⟨_, _⟩, ⟨_, _⟩⟩
    exact ⟨by linarith, by linarith, by linarith, by linarith⟩
  · rintro ⟨_, _, _, _⟩
    exact ⟨⟨by linarith, by linarith⟩, ⟨by linarith, by linarith⟩⟩

theorem clampDist (lo hi x p : α) (h1 : lo ≤ p) (h2 : p ≤ hi) :
    max 0 (max (x - hi) (lo - x)) ≤ |x - p| := by
  rw [max_le_iff, max_le_iff]
  exact ⟨abs_nonneg _, by linarith [le_abs_self (x - p)], by linarith [neg_abs_le (x - p)]⟩

/-- C67: the squared distance of a point to a box is attained at a point of the box, and no point of the box is nearer. -/
theorem distanceSqr_spec (a : Box α) (ha : Proper a) (x y : α) :
    (∃ p, Mem a p ∧ a.distanceSqr x y = (x - p.1) ^ 2 + (y - p.2) ^ 2) ∧
    (∀ p, Mem a p → a.distanceSqr x y ≤ (x - p.1) ^ 2 + (y - p.2) ^ 2) := by
  have key : ∀ (c h x : α), 0 ≤ h → ∃ p, c - h ≤ p ∧ p ≤ c + h ∧
      max 0 (max (x - (c + h)) ((c - h) - x)) = |x - p| := by
    intro c h x hh
    rcases le_total x (c - h) with h1 | h1
    · refine ⟨c - h, le_rfl, by linarith, ?_⟩
      rw [abs_of_nonpos (by linarith), max_eq_right (b := c - h - x) (by linarith), max_eq_right (by linarith)]; ring
    · rcases le_total x (c + h) with h2 | h2
      · refine ⟨x, h1, h2, ?_⟩
        rw [sub_self, abs_zero, max_eq_left]
        rw [max_le_iff]; constructor <;> linarith
      · refine ⟨c + h, by linarith, le_rfl, ?_⟩
        rw [abs_of_nonneg (by linarith), max_eq_left (a := x - (c + h)) (by linarith), max_eq_right (by linarith)]
  constructor
  · obtain ⟨px, h1, h2, h3⟩ := key a.cx a.hx x ha.1
    obtain ⟨py, h4, h5, h6⟩ := key a.cy a.hy y ha.2
    refine ⟨(px, py), ⟨h1, h2, h4, h5⟩, ?_⟩
    simp only [Box.distanceSqr, h3, h6, abs_mul_abs_self]
    ring
  · rintro ⟨px, py⟩ ⟨h1, h2, h3, h4⟩
    have hx := clampDist _ _ x px h1 h2
    have hy := clampDist _ _ y py h3 h4
    have e : ∀ t : α, t ^ 2 = |t| * |t| := fun t => by rw [abs_mul_abs_self]; ring
    simp only [Box.distanceSqr]
    rw [e, e]
    exact add_le_add (mul_self_le_mul_self (le_max_left _ _) hx) (mul_self_le_mul_self (le_max_left _ _) hy)

/-- `a` lies within `b`. -/
def Within (a b : Box α) : Prop :=
  b.cx - b.hx ≤ a.cx - a.hx ∧ a.cx + a.hx ≤ b.cx + b.hx ∧ b.cy - b.hy ≤ a.cy - a.hy ∧ a.cy + a.hy ≤ b.cy + b.hy

omit [LinearOrder α] [IsStrictOrderedRing α] in
theorem init_min (l h : α) (h2 : (2 : α) ≠ 0) : (l + h) / 2 - (h - l) / 2 = l := by field_simp; ring

omit [LinearOrder α] [IsStrictOrderedRing α] in
theorem init_max (l h : α) (h2 : (2 : α) ≠ 0) : (l + h) / 2 + (h - l) / 2 = h := by field_simp; ring

/-- C67: the union of two boxes is the least box that contains both. -/
theorem union_spec (a b : Box α) :
    Within a (a.union b) ∧ Within b (a.union b) ∧ ∀ c, Within a c → Within b c → Within (a.union b) c := by
  have h2 : (2 : α) ≠ 0 := two_ne_zero
  simp only [Within, Box.union, Box.init, init_min _ _ h2, init_max _ _ h2, gt_iff_lt]
  refine ⟨?_, ?_, ?_⟩
  · refine ⟨?_, ?_, ?_, ?_⟩ <;> split_ifs <;> linarith
  · refine ⟨?_, ?_, ?_, ?_⟩ <;> split_ifs <;> linarith
  · rintro c ⟨h1, h2, h3, h4⟩ ⟨h5, h6, h7, h8⟩
    refine ⟨?_, ?_, ?_, ?_⟩ <;> split_ifs <;> linarith

theorem within_refl (a : Box α) : Within a a := ⟨le_rfl, le_rfl, le_rfl, le_rfl⟩

theorem within_trans (a b c : Box α) (h1 : Within a b) (h2 : Within b c) : Within a c :=
  ⟨h2.1.trans h1.1, h1.2.1.trans h2.2.1, h2.2.2.1.trans h1.2.2.1, h1.2.2.2.trans h2.2.2.2⟩

theorem overlap_within (a b c : Box α) (h : Within b c) (ho : a.overlap b = true) : a.overlap c = true := by
  rw [Box.overlap, Bool.and_eq_true, overlapAxis_iff, overlapAxis_iff] at ho ⊢
  obtain ⟨⟨h1, h2⟩, ⟨h3, h4⟩⟩ := ho
  obtain ⟨w1, w2, w3, w4⟩ := h
  exact ⟨⟨by linarith, by linarith⟩, ⟨by linarith, by linarith⟩⟩

/-! ## Area -/

theorem intersectionArea_symm (a b : Box α) : a.intersectionArea b = b.intersectionArea a := by
  simp only [Box.intersectionArea, overlap_symm a b, max_comm (a.cx - a.hx), min_comm (a.cx + a.hx),
    max_comm (a.cy - a.hy), min_comm (a.cy + a.hy)]

theorem intersectionArea_nonneg (a b : Box α) (ha : Proper a) (hb : Proper b) : 0 ≤ a.intersectionArea b := by
  rw [Box.intersectionArea]
  by_cases h : a.overlap b = true
  · rw [h]
    rw [Box.overlap, Bool.and_eq_true, overlapAxis_iff, overlapAxis_iff] at h
    obtain ⟨ha1, ha2⟩ := ha
    obtain ⟨hb1, hb2⟩ := hb
    obtain ⟨⟨h1, h2⟩, ⟨h3, h4⟩⟩ := h
    simp only [Bool.not_true, Bool.false_eq_true, if_false]
    apply mul_nonneg_of_nonpos_of_nonpos <;> rw [sub_nonpos, max_le_iff, le_min_iff, le_min_iff] <;>
      exact ⟨⟨by linarith, by linarith⟩, ⟨by linarith, by linarith⟩⟩
  · simp only [Bool.not_eq_true] at h
    rw [h]; simp

open MeasureTheory in
/-- C67: the intersection area is the area (Lebesgue measure) of the common points. -/
theorem intersectionArea_spec (a b : Box ℝ) (ha : Proper a) (hb : Proper b) :
    a.intersectionArea b = (volume {p : ℝ × ℝ | Mem a p ∧ Mem b p}).toReal := by
  have hset : {p : ℝ × ℝ | Mem a p ∧ Mem b p} =
      Set.Icc (max (a.cx - a.hx) (b.cx - b.hx)) (min (a.cx + a.hx) (b.cx + b.hx)) ×ˢ
      Set.Icc (max (a.cy - a.hy) (b.cy - b.hy)) (min (a.cy + a.hy) (b.cy + b.hy)) := by
    ext p
    simp only [Mem, Set.mem_setOf_eq, Set.mem_prod, Set.mem_Icc, max_le_iff, le_min_iff]
    tauto
  rw [hset, Measure.volume_eq_prod, Measure.prod_prod, Real.volume_Icc, Real.volume_Icc, ENNReal.toReal_mul]
  rw [Box.intersectionArea]
  by_cases h : a.overlap b = true
  · rw [h]
    rw [Box.overlap, Bool.and_eq_true, overlapAxis_iff, overlapAxis_iff] at h
    obtain ⟨ha1, ha2⟩ := ha
    obtain ⟨hb1, hb2⟩ := hb
    obtain ⟨⟨h1, h2⟩, ⟨h3, h4⟩⟩ := h
    simp only [Bool.not_true, Bool.false_eq_true, if_false]
    rw [ENNReal.toReal_ofReal, ENNReal.toReal_ofReal]
    · ring
    · rw [sub_nonneg, max_le_iff, le_min_iff, le_min_iff]
      exact ⟨⟨by linarith, by linarith⟩, ⟨by linarith, by linarith⟩⟩
    · rw [sub_nonneg, max_le_iff, le_min_iff, le_min_iff]
      exact ⟨⟨by linarith, by linarith⟩, ⟨by linarith, by linarith⟩⟩
  · have h' := h
    simp only [Bool.not_eq_true] at h'
    rw [h']
    simp only [Bool.not_false, if_true]
    rw [Box.overlap, Bool.and_eq_true, overlapAxis_iff, overlapAxis_iff] at h
    by_cases hx : a.cx - a.hx ≤ b.cx + b.hx ∧ b.cx - b.hx ≤ a.cx + a.hx
    · have hy : ¬ (a.cy - a.hy ≤ b.cy + b.hy ∧ b.cy - b.hy ≤ a.cy + a.hy) := fun hy => h ⟨hx, hy⟩
      have : min (a.cy + a.hy) (b.cy + b.hy) - max (a.cy - a.hy) (b.cy - b.hy) ≤ 0 := by
        rw [not_and_or, not_le, not_le] at hy
        rcases hy with hy | hy
        · linarith [min_le_right (a.cy + a.hy) (b.cy + b.hy), le_max_left (a.cy - a.hy) (b.cy - b.hy)]
        · linarith [min_le_left (a.cy + a.hy) (b.cy + b.hy), le_max_right (a.cy - a.hy) (b.cy - b.hy)]
      rw [ENNReal.ofReal_of_nonpos this]; simp
    · have : min (a.cx + a.hx) (b.cx + b.hx) - max (a.cx - a.hx) (b.cx - b.hx) ≤ 0 := by
        rw [not_and_or, not_le, not_le] at hx
        rcases hx with hx | hx
        · linarith [min_le_right (a.cx + a.hx) (b.cx + b.hx), le_max_left (a.cx - a.hx) (b.cx - b.hx)]
        · linarith [min_le_left (a.cx + a.hx) (b.cx + b.hx), le_max_right (a.cx - a.hx) (b.cx - b.hx)]
      rw [ENNReal.ofReal_of_nonpos this]; simp

/-! ## The tree -/

theorem bounds_spec (boxes : List (Box α)) (idx : List Nat) (b : Box α) (h : bounds boxes idx = some b) :
    ∀ i ∈ idx, ∃ c, boxes[i]? = some c ∧ Within c b := by
  have key : ∀ (is : List Nat) (b0 b : Box α),
      is.foldlM (fun (b : Box α) j => (boxes[j]?).map b.union) b0 = some b →
      Within b0 b ∧ ∀ i ∈ is, ∃ c, boxes[i]? = some c ∧ Within c b := by
    intro is
    induction is with
    | nil =>
      intro b0 b h
      simp only [List.foldlM_nil] at h
      cases h
      exact ⟨within_refl _, by simp⟩
    | cons i is ih =>
      intro b0 b h
      rw [List.foldlM_cons] at h
      obtain ⟨b1, h1, h2⟩ := Option.bind_eq_some_iff.mp h
      obtain ⟨c, hc, rfl⟩ := Option.map_eq_some_iff.mp h1
      obtain ⟨h3, h4⟩ := ih _ _ h2
      obtain ⟨u1, u2, _⟩ := union_spec b0 c
      refine ⟨within_trans _ _ _ u1 h3, ?_⟩
      intro j hj
      rcases List.mem_cons.mp hj with rfl | hj
      · exact ⟨c, hc, within_trans _ _ _ u2 h3⟩
      · exact h4 j hj
  cases idx with
  | nil => simp
  | cons i is =>
    simp only [bounds] at h
    obtain ⟨b0, h0, h1⟩ := Option.bind_eq_some_iff.mp h
    obtain ⟨h2, h3⟩ := key is b0 b h1
    intro j hj
    rcases List.mem_cons.mp hj with rfl | hj
    · exact ⟨b0, h0, h2⟩
    · exact h3 j hj

theorem bounds_some (boxes : List (Box α)) (idx : List Nat) (hne : idx ≠ []) (h : ∀ i ∈ idx, i < boxes.length) :
    ∃ b, bounds boxes idx = some b := by
  have key : ∀ (is : List Nat) (b0 : Box α), (∀ i ∈ is, i < boxes.length) →
      ∃ b, is.foldlM (fun (b : Box α) j => (boxes[j]?).map b.union) b0 = some b := by
    intro is
    induction is with
    | nil => intro b0 _; exact ⟨b0, rfl⟩
    | cons i is ih =>
      intro b0 hi
      obtain ⟨b, hb⟩ := ih (b0.union (boxes[i]'(hi i (by simp)))) (fun j hj => hi j (by simp [hj]))
      refine ⟨b, ?_⟩
      rw [List.foldlM_cons, List.getElem?_eq_getElem (hi i (by simp))]
      exact hb
  cases idx with
  | nil => exact absurd rfl hne
  | cons i is =>
    obtain ⟨b, hb⟩ := key is (boxes[i]'(h i (by simp))) (fun j hj => h j (by simp [hj]))
    refine ⟨b, ?_⟩
    simp only [bounds, List.getElem?_eq_getElem (h i (by simp))]
    exact hb

theorem keys_snd (boxes : List (Box α)) (level : Nat) (idx : List Nat) (keys : List (α × Nat))
    (h : idx.mapM (sortKey boxes level) = some keys) : keys.map Prod.snd = idx := by
  induction idx generalizing keys with
  | nil => simp only [List.mapM_nil] at h; cases h; rfl
  | cons i is ih =>
    rw [List.mapM_cons] at h
    obtain ⟨k, hk, h1⟩ := Option.bind_eq_some_iff.mp h
    obtain ⟨ks, hks, h2⟩ := Option.bind_eq_some_iff.mp h1
    cases h2
    obtain ⟨c, _, rfl⟩ := Option.map_eq_some_iff.mp hk
    simp [ih ks hks]

theorem keys_some (boxes : List (Box α)) (level : Nat) (idx : List Nat) (h : ∀ i ∈ idx, i < boxes.length) :
    ∃ keys, idx.mapM (sortKey boxes level) = some keys := by
  induction idx with
  | nil => exact ⟨[], rfl⟩
  | cons i is ih =>
    obtain ⟨ks, hks⟩ := ih (fun j hj => h j (by simp [hj]))
    refine ⟨(if level % 2 = 0 then (boxes[i]'(h i (by simp))).cx else (boxes[i]'(h i (by simp))).cy, i) :: ks, ?_⟩
    rw [List.mapM_cons, sortKey, List.getElem?_eq_getElem (h i (by simp)), hks]
    rfl

/-- Every box indexed below a node lies within its bounds. -/
def leaves : Tree α → List Nat
  | .leaf _ is => is
  | .inner _ l r => leaves l ++ leaves r

def Good (boxes : List (Box α)) : Tree α → Prop
  | .leaf b is => ∀ i ∈ is, ∃ c, boxes[i]? = some c ∧ Within c b
  | .inner b l r => (∀ i ∈ leaves l ++ leaves r, ∃ c, boxes[i]? = some c ∧ Within c b) ∧ Good boxes l ∧ Good boxes r

theorem buildRec_spec (boxes : List (Box α)) (fuel level : Nat) (idx : List Nat) (hne : idx ≠ [])
    (hi : ∀ i ∈ idx, i < boxes.length) (hf : idx.length ≤ fuel) :
    ∃ t, buildRec boxes fuel level idx = some t ∧ (leaves t).Perm idx ∧ Good boxes t := by
  induction fuel generalizing level idx with
  | zero => exact absurd (List.length_eq_zero_iff.mp (by omega)) hne
  | succ fuel ih =>
    obtain ⟨b, hb⟩ := bounds_some boxes idx hne hi
    have hw := bounds_spec boxes idx b hb
    simp only [buildRec, hb]
    split_ifs with hl
    · exact ⟨_, rfl, List.Perm.refl _, hw⟩
    · obtain ⟨keys, hk⟩ := keys_some boxes level idx hi
      have hs := keys_snd boxes level idx keys hk
      simp only [hk]
      set s := (keys.mergeSort keyLe).map Prod.snd with hs'
      have hp : s.Perm idx := by
        rw [hs', ← hs]
        exact (List.mergeSort_perm keys _).map _
      have hlen : s.length = idx.length := hp.length_eq
      have ht : (s.take (idx.length / 2)).length = idx.length / 2 := by rw [List.length_take]; omega
      have hd : (s.drop (idx.length / 2)).length = idx.length - idx.length / 2 := by rw [List.length_drop]; omega
      obtain ⟨l, hl1, hl2, hl3⟩ := ih (level + 1) (s.take (idx.length / 2))
        (by rw [← List.length_pos_iff, ht]; omega)
        (fun i hx => hi i (hp.mem_iff.mp (List.mem_of_mem_take hx))) (by rw [ht]; omega)
      obtain ⟨r, hr1, hr2, hr3⟩ := ih (level + 1) (s.drop (idx.length / 2))
        (by rw [← List.length_pos_iff, hd]; omega)
        (fun i hx => hi i (hp.mem_iff.mp (List.mem_of_mem_drop hx))) (by rw [hd]; omega)
      have hperm : (leaves l ++ leaves r).Perm idx := by
        refine (hl2.append hr2).trans ?_
        rw [List.take_append_drop]; exact hp
      refine ⟨.inner b l r, by rw [hl1, hr1], hperm, ?_, hl3, hr3⟩
      intro i hx
      exact hw i (hperm.mem_iff.mp hx)

theorem collectRec_spec (boxes : List (Box α)) (box : Box α) (index : Nat) (t : Tree α) (hg : Good boxes t) :
    collectRec boxes box index t =
      (leaves t).filter (fun i => decide (i ≠ index) &&
        (match boxes[i]? with | some c => box.overlap c | none => false)) := by
  have none_of : ∀ (b : Box α) (is : List Nat), (∀ i ∈ is, ∃ c, boxes[i]? = some c ∧ Within c b) →
      box.overlap b = false → is.filter (fun i => decide (i ≠ index) &&
        (match boxes[i]? with | some c => box.overlap c | none => false)) = [] := by
    intro b is hw ho
    rw [List.filter_eq_nil_iff]
    intro i hi h
    obtain ⟨c, hc, hcb⟩ := hw i hi
    rw [hc, Bool.and_eq_true] at h
    rw [overlap_within box c b hcb h.2] at ho
    cases ho
  induction t with
  | leaf b is =>
    simp only [collectRec, leaves]
    cases ho : box.overlap b
    · rw [none_of b is hg ho]; rfl
    · rfl
  | inner b l r ihl ihr =>
    obtain ⟨hw, hl, hr⟩ := hg
    simp only [collectRec, leaves]
    cases ho : box.overlap b
    · rw [none_of b _ hw ho]; rfl
    · rw [List.filter_append, ← ihl hl, ← ihr hr]; rfl

/-- C67: for every non-empty list of boxes and every box of it, the tree returns exactly the other boxes that overlap
it, each once. -/
theorem collectOverlaps_spec (boxes : List (Box α)) (index : Nat) (hi : index < boxes.length) :
    ∃ hits, collectOverlaps boxes index = some hits ∧ hits.Nodup ∧
      ∀ j, j ∈ hits ↔ ∃ hj : j < boxes.length, j ≠ index ∧ boxes[index].overlap boxes[j] = true := by
  obtain ⟨t, h1, h2, h3⟩ := buildRec_spec boxes (boxes.length + 1) 0 (List.range boxes.length)
    (by rw [Ne, List.range_eq_nil]; omega) (by simp) (by simp)
  refine ⟨collectRec boxes boxes[index] index t, ?_, ?_, ?_⟩
  · simp only [collectOverlaps, build, h1, List.getElem?_eq_getElem hi]
  · rw [collectRec_spec _ _ _ _ h3]
    exact (h2.nodup_iff.mpr List.nodup_range).filter _
  · intro j
    rw [collectRec_spec _ _ _ _ h3, List.mem_filter, h2.mem_iff, List.mem_range]
    constructor
    · rintro ⟨hj, h⟩
      rw [List.getElem?_eq_getElem hj, Bool.and_eq_true, decide_eq_true_eq] at h
      exact ⟨hj, h.1, h.2⟩
    · rintro ⟨hj, h⟩
      refine ⟨hj, ?_⟩
      rw [List.getElem?_eq_getElem hj, Bool.and_eq_true, decide_eq_true_eq]
      exact h

omit [IsStrictOrderedRing α] in
/-- C67: building a tree without boxes reads outside of the vector. -/
theorem build_empty : build ([] : List (Box α)) = none := rfl

/-! ### Examples -/

example : Proper (⟨0, 0, 1, 2⟩ : Box ℚ) := by constructor <;> norm_num

example : (⟨0, 0, 1, 1⟩ : Box ℚ).intersectionArea ⟨1, 1, 1, 2⟩ = 2 := by
  norm_num [Box.intersectionArea, Box.overlap, overlapAxis]

end Verif.AABox
