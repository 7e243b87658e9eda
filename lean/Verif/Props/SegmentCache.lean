import Verif.Model.Segment
import Verif.Props.Angles
import Verif.Lemmas.PolyConvex
import Mathlib.Analysis.Real.Pi.Bounds

/-!
C102: lazily cached values of segments.
-/

namespace Verif.Segment

open Real Verif.Polygon

/-! ## Specification -/

/-- The distance of the ends of a segment. -/
noncomputable def Seg.dist (s : Seg) : ℝ := √((s.stop.1 - s.start.1) ^ 2 + (s.stop.2 - s.start.2) ^ 2)

/-- A heading of a segment: going the length of the segment in that direction leads from its start to its end. -/
def Seg.IsHeading (s : Seg) (h : ℝ) : Prop :=
  s.stop.1 = s.start.1 + s.dist * cos h ∧ s.stop.2 = s.start.2 + s.dist * sin h

/-- The segments that the public interface can make, with lengths that are not negative and directions that are unit
vectors, after any sequence of operations and queries. -/
inductive Built : Seg → Prop where
  | zero : Built .zero
  | ofEnds (s e : Pt ℝ) : Built (.ofEnds s e)
  | ofDirection (c d : Pt ℝ) (l : ℝ) : d.1 ^ 2 + d.2 ^ 2 = 1 → 0 ≤ l → Built (.ofDirection c d l)
  | ofHeading (c : Pt ℝ) (h l : ℝ) : 0 ≤ l → Built (.ofHeading c h l)
  | flip {s : Seg} : Built s → Built s.flip
  | rotateAroundOrigin {s : Seg} (θ : ℝ) : Built s → Built (s.rotateAroundOrigin θ)
  | rotateAroundPoint {s : Seg} (p : Pt ℝ) (θ : ℝ) : Built s → Built (s.rotateAroundPoint p θ)
  | rotateAroundCenter {s : Seg} (θ : ℝ) : Built s → Built (s.rotateAroundCenter θ)
  | shift {s : Seg} (o : Pt ℝ) : Built s → Built (s.shift o)
  | moveCenter {s : Seg} (c : Pt ℝ) : Built s → Built (s.moveCenter c)
  | getLength {s : Seg} : Built s → Built s.getLength.2
  | getInv {s : Seg} : Built s → Built s.getInv.2
  | getHeading {s : Seg} : Built s → Built s.getHeading.2

/-! ## Cached values are right -/

/-- All cached values are right. -/
structure Sound (s : Seg) : Prop where
  length : ∀ l, s.length = some l → l = s.dist
  inv : ∀ i, s.inv = some i → i = inverse s.dist
  heading : ∀ h, s.heading = some h → s.IsHeading h

theorem Seg.dist_eq_len (s : Seg) : s.dist = len (s.stop - s.start) := rfl

theorem Seg.dist_nonneg (s : Seg) : 0 ≤ s.dist := sqrt_nonneg _

theorem Seg.dist_sq (s : Seg) : s.dist ^ 2 = (s.stop.1 - s.start.1) ^ 2 + (s.stop.2 - s.start.2) ^ 2 :=
  sq_sqrt (by positivity)

theorem atan2_spec (x y : ℝ) : x = √(x ^ 2 + y ^ 2) * cos (atan2 y x) ∧ y = √(x ^ 2 + y ^ 2) * sin (atan2 y x) := by
  have hn : ‖(⟨x, y⟩ : ℂ)‖ = √(x ^ 2 + y ^ 2) := by
    rw [Complex.norm_def, Complex.normSq_mk]; congr 1; ring
  unfold atan2
  rw [← hn]
  exact ⟨(Complex.norm_mul_cos_arg ⟨x, y⟩).symm, (Complex.norm_mul_sin_arg ⟨x, y⟩).symm⟩

theorem fresh_isHeading (s : Seg) : s.IsHeading (atan2 (s.stop.2 - s.start.2) (s.stop.1 - s.start.1)) := by
  obtain ⟨h1, h2⟩ := atan2_spec (s.stop.1 - s.start.1) (s.stop.2 - s.start.2)
  constructor
  · unfold Seg.dist; linarith
  · unfold Seg.dist; linarith

theorem Sound.getLength {s : Seg} (h : Sound s) : s.getLength.1 = s.dist := by
  unfold Seg.getLength
  split
  · rename_i l hl; exact h.length l hl
  · rfl

theorem Sound.getInv {s : Seg} (h : Sound s) : s.getInv.1 = inverse s.dist := by
  unfold Seg.getInv
  split
  · rename_i l hl; exact h.inv l hl
  · simp only [h.getLength]; rfl

theorem Sound.getHeading {s : Seg} (h : Sound s) : s.IsHeading s.getHeading.1 := by
  unfold Seg.getHeading
  split
  · rename_i l hl; exact h.heading l hl
  · exact fresh_isHeading s

/-- Moving both ends by a rotation keeps the length and turns the heading. -/
theorem sound_rigid {s : Seg} (h : Sound s) {θ : ℝ} {s' : Seg}
    (h1 : s'.stop.1 - s'.start.1 = cos θ * (s.stop.1 - s.start.1) - sin θ * (s.stop.2 - s.start.2))
    (h2 : s'.stop.2 - s'.start.2 = sin θ * (s.stop.1 - s.start.1) + cos θ * (s.stop.2 - s.start.2))
    (hl : s'.length = s.length) (hi : s'.inv = s.inv)
    (hh : ∀ g, s'.heading = some g → ∃ g0 : ℝ, ∃ k : ℤ, s.heading = some g0 ∧ g0 + θ = g + k * (2 * π)) : Sound s' := by
  have hd : s'.dist = s.dist := by
    unfold Seg.dist
    congr 1
    rw [h1, h2]
    linear_combination ((s.stop.1 - s.start.1) ^ 2 + (s.stop.2 - s.start.2) ^ 2) * sin_sq_add_cos_sq θ
  refine ⟨fun l g => hd ▸ h.length l (hl ▸ g), fun l g => hd ▸ h.inv l (hi ▸ g), fun g hg => ?_⟩
  obtain ⟨g0, k, e0, e1⟩ := hh g hg
  obtain ⟨a1, a2⟩ := h.heading g0 e0
  have c1 : cos g = cos (g0 + θ) := by rw [e1, cos_add_int_mul_two_pi]
  have c2 : sin g = sin (g0 + θ) := by rw [e1, sin_add_int_mul_two_pi]
  constructor
  · rw [hd, c1, cos_add]
    linear_combination h1 + cos θ * a1 - sin θ * a2
  · rw [hd, c2, sin_add]
    linear_combination h2 + sin θ * a1 + cos θ * a2

theorem heading_map {o : Option ℝ} {θ g : ℝ} (h : o.map (fun h => Angles.normalizeAngle (h + θ)) = some g) :
    ∃ g0 : ℝ, ∃ k : ℤ, o = some g0 ∧ g0 + θ = g + k * (2 * π) := by
  cases o with
  | none => cases h
  | some g0 =>
    simp only [Option.map_some, Option.some.injEq] at h
    obtain ⟨_, _, k, hk⟩ := Angles.normalizeAngle_spec (g0 + θ)
    exact ⟨g0, k, rfl, by rw [← h]; exact hk⟩

theorem sound_getLength {s : Seg} (h : Sound s) : Sound s.getLength.2 := by
  unfold Seg.getLength
  split
  · exact h
  · exact ⟨fun l g => by cases g; rfl, h.inv, h.heading⟩

theorem getLength_fields (s : Seg) : s.getLength.2.start = s.start ∧ s.getLength.2.stop = s.stop ∧
    s.getLength.2.heading = s.heading ∧ s.getLength.2.inv = s.inv := by
  unfold Seg.getLength
  split <;> exact ⟨rfl, rfl, rfl, rfl⟩

theorem dist_getLength (s : Seg) : s.getLength.2.dist = s.dist := by
  obtain ⟨h1, h2, _⟩ := getLength_fields s
  unfold Seg.dist
  rw [h1, h2]

/-- **Cached values are right** (C102), whatever was done with a segment before. -/
theorem built_sound {s : Seg} (h : Built s) : Sound s := by
  induction h with
  | zero =>
    have hd : Seg.zero.dist = 0 := by simp [Seg.dist, Seg.zero]
    exact ⟨fun l g => by cases g; exact hd.symm, fun l g => by cases g; rw [hd]; simp [inverse],
      fun l g => by cases g; unfold Seg.IsHeading; rw [hd]; simp [Seg.zero]⟩
  | ofEnds s e => exact ⟨fun _ g => (nomatch g), fun _ g => (nomatch g), fun _ g => (nomatch g)⟩
  | ofDirection c d l hd hl =>
    have : (Seg.ofDirection c d l).dist = l := by
      unfold Seg.dist Seg.ofDirection scale
      simp only [Prod.fst_add, Prod.fst_sub, Prod.snd_add, Prod.snd_sub]
      rw [show (c.1 + l / 2 * d.1 - (c.1 - l / 2 * d.1)) ^ 2 + (c.2 + l / 2 * d.2 - (c.2 - l / 2 * d.2)) ^ 2 = l ^ 2 by
        linear_combination l ^ 2 * hd, sqrt_sq hl]
    exact ⟨fun _ g => by cases g; exact this.symm, fun _ g => (nomatch g), fun _ g => (nomatch g)⟩
  | ofHeading c h l hl =>
    have hd : (Seg.ofHeading c h l).dist = l := by
      unfold Seg.dist Seg.ofHeading Seg.ofDirection scale unitFromAngle
      simp only [Prod.fst_add, Prod.fst_sub, Prod.snd_add, Prod.snd_sub]
      rw [show (c.1 + l / 2 * cos h - (c.1 - l / 2 * cos h)) ^ 2 + (c.2 + l / 2 * sin h - (c.2 - l / 2 * sin h)) ^ 2 = l ^ 2 by
        linear_combination l ^ 2 * sin_sq_add_cos_sq h, sqrt_sq hl]
    refine ⟨fun _ g => by cases g; exact hd.symm, fun _ g => (nomatch g), fun g hg => ?_⟩
    cases hg
    unfold Seg.IsHeading
    rw [hd]
    unfold Seg.ofHeading Seg.ofDirection scale unitFromAngle
    simp only [Prod.fst_add, Prod.fst_sub, Prod.snd_add, Prod.snd_sub]
    exact ⟨by ring, by ring⟩
  | flip _ ih =>
    refine sound_rigid ih (θ := π) ?_ ?_ rfl rfl (fun g hg => heading_map hg)
    · simp [Seg.flip]
    · simp [Seg.flip]
  | rotateAroundOrigin θ _ ih =>
    refine sound_rigid ih (θ := θ) ?_ ?_ rfl rfl (fun g hg => heading_map hg)
    · simp only [Seg.rotateAroundOrigin, rotate]; ring
    · simp only [Seg.rotateAroundOrigin, rotate]; ring
  | rotateAroundPoint p θ _ ih =>
    refine sound_rigid ih (θ := θ) ?_ ?_ rfl rfl (fun g hg => heading_map hg)
    · simp only [Seg.rotateAroundPoint, rotate, Prod.fst_add, Prod.fst_sub, Prod.snd_sub]; ring
    · simp only [Seg.rotateAroundPoint, rotate, Prod.snd_add, Prod.fst_sub, Prod.snd_sub]; ring
  | rotateAroundCenter θ _ ih =>
    refine sound_rigid ih (θ := θ) ?_ ?_ rfl rfl (fun g hg => heading_map hg)
    · simp only [Seg.rotateAroundCenter, Seg.rotateAroundPoint, rotate, Prod.fst_add, Prod.fst_sub, Prod.snd_sub]; ring
    · simp only [Seg.rotateAroundCenter, Seg.rotateAroundPoint, rotate, Prod.snd_add, Prod.fst_sub, Prod.snd_sub]; ring
  | shift o _ ih =>
    refine sound_rigid ih (θ := 0) ?_ ?_ rfl rfl (fun g hg => ⟨g, 0, hg, by simp⟩)
    · simp [Seg.shift]
    · simp [Seg.shift]
  | moveCenter c _ ih =>
    refine sound_rigid ih (θ := 0) ?_ ?_ rfl rfl (fun g hg => ⟨g, 0, hg, by simp⟩)
    · simp [Seg.moveCenter, Seg.shift]
    · simp [Seg.moveCenter, Seg.shift]
  | getLength _ ih => exact sound_getLength ih
  | getInv _ ih =>
    rename_i s _
    have hg := ih.getInv
    unfold Seg.getInv at hg ⊢
    split
    · exact ih
    · rename_i hn
      have h1 := sound_getLength ih
      refine ⟨h1.length, fun i g => ?_, h1.heading⟩
      simp only [hn, Option.some.injEq] at hg g
      rw [← g]
      show _ = inverse s.getLength.2.dist
      rw [dist_getLength, ← hg]
  | getHeading _ ih =>
    rename_i s _
    unfold Seg.getHeading
    split
    · exact ih
    · refine ⟨ih.length, ih.inv, fun g hg => ?_⟩
      cases hg
      exact fresh_isHeading s

/-- **The queries of a segment** (C102): length, inverse length, heading, squared length, cosine and sine of the heading,
tangent and normal. -/
theorem query_spec_partial {s : Seg} (h : Built s) :
    s.getLength.1 = s.dist ∧ s.getInv.1 = (if s.dist = 0 then 0 else 1 / s.dist) ∧ s.IsHeading s.getHeading.1 ∧
    s.sqr = s.dist ^ 2 ∧ s.cosHeading = cos s.getHeading.1 ∧ s.sinHeading = sin s.getHeading.1 ∧
    (s.dist ≠ 0 → s.tangent = (cos s.getHeading.1, sin s.getHeading.1) ∧ s.perpUnit = (-sin s.getHeading.1, cos s.getHeading.1)) ∧
    (s.dist = 0 → s.tangent = (0, 0) ∧ s.perpUnit = (0, 0)) := by
  have hs := built_sound h
  have g1 := hs.getLength
  have g2 := hs.getInv
  have g3 := hs.getHeading
  have t1 : s.dist ≠ 0 → 1 / s.dist * (s.stop.1 - s.start.1) = cos s.getHeading.1 := fun h0 => by
    rw [g3.1]; field_simp; ring
  have t2 : s.dist ≠ 0 → 1 / s.dist * (s.stop.2 - s.start.2) = sin s.getHeading.1 := fun h0 => by
    rw [g3.2]; field_simp; ring
  have inv0 : inverse s.dist = 0 ↔ s.dist = 0 := by
    unfold inverse
    split_ifs with h0
    · simp [h0]
    · simp [h0]
  refine ⟨g1, g2, g3, ?_, ?_, ?_, fun h0 => ?_, fun h0 => ?_⟩
  · unfold Seg.sqr
    split
    · rename_i l hl; rw [hs.length l hl]
    · rw [s.dist_sq]; simp only [dot, Prod.fst_sub, Prod.snd_sub]; ring
  · unfold Seg.cosHeading
    rw [g2]
    by_cases h0 : s.dist = 0
    · rw [if_pos (inv0.mpr h0)]
    · rw [if_neg (fun g => h0 (inv0.mp g))]
      unfold inverse
      rw [if_neg h0]
      exact t1 h0
  · unfold Seg.sinHeading
    rw [g2]
    by_cases h0 : s.dist = 0
    · rw [if_pos (inv0.mpr h0)]
    · rw [if_neg (fun g => h0 (inv0.mp g))]
      unfold inverse
      rw [if_neg h0]
      exact t2 h0
  · unfold Seg.tangent Seg.perpUnit
    rw [g1, if_neg h0, if_neg h0]
    refine ⟨Prod.ext (t1 h0) (t2 h0), Prod.ext ?_ (t1 h0)⟩
    show 1 / s.dist * (-(s.stop.2 - s.start.2)) = _
    rw [mul_neg, t2 h0]
  · unfold Seg.tangent Seg.perpUnit
    rw [g1, if_pos h0, if_pos h0]
    exact ⟨rfl, rfl⟩

/-- **The heading does not depend on the history** (C102): two segments with the same ends that are not a point have
the same heading up to full turns, however they were made. -/
theorem heading_unique {s s' : Seg} (h : Built s) (h' : Built s') (h1 : s'.start = s.start) (h2 : s'.stop = s.stop)
    (hne : s.start ≠ s.stop) : ∃ k : ℤ, s'.getHeading.1 = s.getHeading.1 + k * (2 * π) := by
  have a := (built_sound h).getHeading
  have b := (built_sound h').getHeading
  have hd : s'.dist = s.dist := by unfold Seg.dist; rw [h1, h2]
  have h0 : 0 < s.dist := by
    refine lt_of_le_of_ne s.dist_nonneg (fun g => hne ?_)
    have := s.dist_sq
    rw [← g] at this
    have e1 : (s.stop.1 - s.start.1) ^ 2 = 0 := by nlinarith [sq_nonneg (s.stop.1 - s.start.1), sq_nonneg (s.stop.2 - s.start.2)]
    have e2 : (s.stop.2 - s.start.2) ^ 2 = 0 := by nlinarith [sq_nonneg (s.stop.1 - s.start.1), sq_nonneg (s.stop.2 - s.start.2)]
    have e1' := pow_eq_zero_iff (two_ne_zero) |>.mp e1
    have e2' := pow_eq_zero_iff (two_ne_zero) |>.mp e2
    exact Prod.ext (by linarith) (by linarith)
  unfold Seg.IsHeading at a b
  rw [hd, h1, h2] at b
  refine dir_unique h0 h0 ?_
  ext
  · show s.dist * cos _ = s.dist * cos _
    linarith [a.1, b.1]
  · show s.dist * sin _ = s.dist * sin _
    linarith [a.2, b.2]

/-- A segment of length 2 that was turned, flipped and queried. -/
theorem built_example : ∃ s : Seg, Built s ∧ s.start = (0, 1) ∧ s.stop = (0, -1) ∧ s.getLength.1 = 2 ∧ s.heading ≠ none := by
  refine ⟨((Seg.ofHeading (0, 0) 0 2).rotateAroundOrigin (π / 2)).flip,
    .flip (.rotateAroundOrigin _ (.ofHeading _ _ _ (by norm_num))), ?_, ?_, ?_, ?_⟩
  · simp [Seg.flip, Seg.rotateAroundOrigin, Seg.ofHeading, Seg.ofDirection, rotate, unitFromAngle, scale]
  · simp [Seg.flip, Seg.rotateAroundOrigin, Seg.ofHeading, Seg.ofDirection, rotate, unitFromAngle, scale]
  · rfl
  · simp [Seg.flip, Seg.rotateAroundOrigin, Seg.ofHeading, Seg.ofDirection]

/-- **The heading of a point depends on the history**: asking for it changes the result of later queries. -/
theorem heading_history_violated : ∃ s : Seg, Built s ∧ (s.rotateAroundCenter 1).getHeading.1 = 0 ∧
    (s.getHeading.2.rotateAroundCenter 1).getHeading.1 = 1 := by
  have ha : atan2 ((0 : ℝ) - 0) (0 - 0) = 0 := by
    unfold atan2; rw [sub_self]; exact Complex.arg_zero
  refine ⟨Seg.ofEnds (0, 0) (0, 0), .ofEnds _ _, ?_, ?_⟩
  · simp [Seg.rotateAroundCenter, Seg.rotateAroundPoint, Seg.ofEnds, Seg.getHeading, Seg.center, rotate]
    unfold atan2; exact Complex.arg_zero
  · simp only [Seg.rotateAroundCenter, Seg.rotateAroundPoint, Seg.ofEnds, Seg.getHeading, Option.map_some, ha]
    unfold Angles.normalizeAngle
    rw [zero_add]
    exact Angles.wrapToRange_of_mem _ _ _ (by linarith [pi_pos]) (by linarith [Real.pi_gt_three])

/-- **A negative length is kept as it is.** -/
theorem length_negative_violated : (Seg.ofHeading (0, 0) 0 (-1)).getLength.1 = -1 ∧ (Seg.ofHeading (0, 0) 0 (-1)).dist = 1 := by
  refine ⟨rfl, ?_⟩
  simp [Seg.dist, Seg.ofHeading, Seg.ofDirection, unitFromAngle, scale]

/-! ## Any schedule -/

/-- What the query for a cell returns to a single thread. -/
noncomputable def Seg.value (s : Seg) : Cell → ℝ
  | .heading => s.getHeading.1
  | .length => s.getLength.1
  | .inv => s.getInv.1

/-- The cached value of a cell. -/
def Seg.cached (s : Seg) : Cell → Option ℝ
  | .heading => s.heading
  | .length => s.length
  | .inv => s.inv

theorem mem_eq (s : Seg) (c : Cell) : s.mem c = [s.cached c] := by cases c <;> rfl

theorem value_of_cached {s : Seg} {c : Cell} {v : ℝ} (h : s.cached c = some v) : s.value c = v := by
  cases c <;> simp only [Seg.cached] at h
  · simp only [Seg.value, Seg.getHeading, h]
  · simp only [Seg.value, Seg.getLength, h]
  · simp only [Seg.value, Seg.getInv, h]

theorem value_of_none {s : Seg} {c : Cell} (hc : c ≠ .inv) (h : s.cached c = none) : s.value c = s.fresh c := by
  cases c
  · simp only [Seg.cached] at h
    simp only [Seg.value, Seg.getHeading, h, Seg.fresh]
  · simp only [Seg.cached] at h
    simp only [Seg.value, Seg.getLength, h, Seg.fresh]
  · exact absurd rfl hc

theorem value_inv {s : Seg} (h : s.inv = none) : s.value .inv = inverse (s.value .length) := by
  simp only [Seg.value, Seg.getInv, h]; rfl

/-- What is known of the memory. -/
def MemOk (s : Seg) (m : Mem) : Prop := ∀ c, ∀ x ∈ m c, x = s.cached c ∨ (s.cached c = none ∧ x = some (s.value c))

/-- What is known of a thread. -/
def PcOk (s : Seg) : Pc → Prop
  | .load _ => True
  | .store c v => s.cached c = none ∧ v = s.value c
  | .invLoad => s.inv = none
  | .invStore v => s.inv = none ∧ s.length = none ∧ v = s.value .length
  | .done c v => v = s.value c

theorem MemOk.some_eq {s : Seg} {m : Mem} (h : MemOk s m) {c : Cell} {v : ℝ} (hv : some v ∈ m c) : v = s.value c := by
  rcases h c _ hv with g | ⟨_, g⟩
  · exact (value_of_cached g.symm).symm
  · cases g; rfl

theorem MemOk.none_eq {s : Seg} {m : Mem} (h : MemOk s m) {c : Cell} (hv : none ∈ m c) : s.cached c = none := by
  rcases h c _ hv with g | ⟨_, g⟩
  · exact g.symm
  · cases g

theorem MemOk.store {s : Seg} {m : Mem} (h : MemOk s m) {c : Cell} {v : ℝ} (hc : s.cached c = none) (hv : v = s.value c) :
    MemOk s (m.store c v) := by
  intro d x hx
  unfold Mem.store at hx
  by_cases hd : d = c
  · rw [if_pos hd] at hx
    rcases List.mem_append.mp hx with g | g
    · exact h d x g
    · rw [List.mem_singleton] at g
      subst hd
      exact .inr ⟨hc, by rw [g, hv]⟩
  · rw [if_neg hd] at hx
    exact h d x hx

theorem step_ok {s : Seg} {m m' : Mem} {p p' : Pc} (h : Step s (m, p) (m', p')) (hm : MemOk s m) (hp : PcOk s p) :
    MemOk s m' ∧ PcOk s p' := by
  cases h with
  | hit _ c v g => exact ⟨hm, hm.some_eq g⟩
  | miss _ c hc g => exact ⟨hm, hm.none_eq g, (value_of_none hc (hm.none_eq g)).symm⟩
  | write _ c v => exact ⟨hm.store hp.1 hp.2, hp.2⟩
  | invMiss _ g => exact ⟨hm, hm.none_eq g⟩
  | invHit _ l g => exact ⟨hm, hp, by rw [value_inv hp, hm.some_eq g]⟩
  | invMissLength _ g => exact ⟨hm, hp, hm.none_eq g, (value_of_none (by decide) (hm.none_eq g)).symm⟩
  | invWrite _ l => exact ⟨hm.store hp.2.1 hp.2.2, hp.1, by rw [value_inv hp.1, hp.2.2]⟩

theorem reach_ok {T : Type} [DecidableEq T] {s : Seg} {m : Mem} {pc : T → Pc} (h : Reach s m pc) :
    MemOk s m ∧ ∀ t, PcOk s (pc t) := by
  induction h with
  | init q => exact ⟨fun c x hx => by rw [mem_eq, List.mem_singleton] at hx; exact .inl hx, fun t => trivial⟩
  | step t _ hs ih =>
    obtain ⟨h1, h2⟩ := step_ok hs ih.1 (ih.2 t)
    refine ⟨h1, fun u => ?_⟩
    by_cases hu : u = t
    · rw [hu, Function.update_self]; exact h2
    · rw [Function.update_of_ne hu]; exact ih.2 u
  | again t d _ _ ih =>
    refine ⟨ih.1, fun u => ?_⟩
    by_cases hu : u = t
    · rw [hu, Function.update_self]; trivial
    · rw [Function.update_of_ne hu]; exact ih.2 u

/-- **Concurrent queries** (C102): under every schedule of any number of threads, and although relaxed loads may return old
values, every query of a segment returns what it returns to a single thread. -/
theorem concurrent_query {T : Type} [DecidableEq T] {s : Seg} {m : Mem} {pc : T → Pc} (h : Reach s m pc) {t : T} {c : Cell}
    {v : ℝ} (ht : pc t = .done c v) : v = s.value c := by
  have := (reach_ok h).2 t
  rw [ht] at this
  exact this

theorem step_grow {s : Seg} {m m' : Mem} {p p' : Pc} (h : Step s (m, p) (m', p')) {c : Cell} {x : Option ℝ} (hx : x ∈ m c) :
    x ∈ m' c := by
  have grow : ∀ d v, x ∈ m.store d v c := fun d v => by
    unfold Mem.store; split_ifs
    · exact List.mem_append_left _ hx
    · exact hx
  cases h <;> first | exact hx | exact grow _ _

/-- No schedule blocks: a thread that is not done has a step. -/
theorem no_deadlock {T : Type} [DecidableEq T] {s : Seg} {m : Mem} {pc : T → Pc} (h : Reach s m pc) (t : T) :
    (∃ c v, pc t = .done c v) ∨ ∃ m' p, Step s (m, pc t) (m', p) := by
  have hne : ∀ c, ∃ x, x ∈ m c := by
    clear t
    induction h with
    | init q => exact fun c => ⟨s.cached c, by rw [mem_eq]; simp⟩
    | step t _ hs ih =>
      intro c
      obtain ⟨x, hx⟩ := ih c
      exact ⟨x, step_grow hs hx⟩
    | again t d _ _ ih => exact ih
  rcases hp : pc t with c | ⟨c, v⟩ | _ | v | ⟨c, v⟩
  · obtain ⟨x, hx⟩ := hne c
    cases x with
    | some v => exact .inr ⟨_, _, .hit m c v hx⟩
    | none =>
      by_cases hc : c = .inv
      · subst hc; exact .inr ⟨_, _, .invMiss m hx⟩
      · exact .inr ⟨_, _, .miss m c hc hx⟩
  · exact .inr ⟨_, _, .write m c v⟩
  · obtain ⟨x, hx⟩ := hne .length
    cases x with
    | some v => exact .inr ⟨_, _, .invHit m v hx⟩
    | none => exact .inr ⟨_, _, .invMissLength m hx⟩
  · exact .inr ⟨_, _, .invWrite m v⟩
  · exact .inl ⟨c, v, rfl⟩

/-- Two threads that race for the heading both store it and return the same. -/
theorem concurrent_example : ∃ (m : Mem) (pc : Bool → Pc), Reach (Seg.ofEnds (0, 0) (1, 0)) m pc ∧
    pc true = .done .heading 0 ∧ pc false = .done .heading 0 ∧ m .heading = [none, some 0, some 0] := by
  have hf : (Seg.ofEnds (0, 0) (1, 0)).fresh .heading = 0 := by
    simp only [Seg.fresh, Seg.ofEnds, atan2]
    rw [show (⟨1 - 0, 0 - 0⟩ : ℂ) = 1 by apply Complex.ext <;> simp, Complex.arg_one]
  have r0 : Reach (T := Bool) (Seg.ofEnds (0, 0) (1, 0)) _ _ := .init (fun _ => .heading)
  have s1 := Reach.step true r0 (.miss _ _ (by decide) (by simp [Seg.mem, Seg.ofEnds]))
  have s2 := Reach.step false s1 (.miss _ _ (by decide) (by simp [Seg.mem, Seg.ofEnds]))
  rw [hf] at s2
  have s3 := Reach.step true s2 (by
    rw [Function.update_of_ne (by decide), Function.update_self]; exact .write _ _ _)
  have s4 := Reach.step false s3 (by
    rw [Function.update_of_ne (by decide), Function.update_self]; exact .write _ _ _)
  refine ⟨_, _, s4, ?_, ?_, ?_⟩
  · simp [Function.update]
  · simp [Function.update]
  · simp [Mem.store, Seg.mem, Seg.ofEnds]

end Verif.Segment
