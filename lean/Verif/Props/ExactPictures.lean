import Verif.Props.LaserTutorial
import Verif.Props.MotionTutorial
import Verif.Props.E2ETutorial

/-! Exactly when the pictures of the tutorials show what they should, and when initial speeds are those of their frames. -/

namespace Verif.LaserTutorial

open Verif.Boxes

theorem sorted_same_length {a b : List ℕ} (ha : a.Pairwise (· < ·)) (hb : b.Pairwise (· < ·)) (hs : ∀ i ∈ a, i ∈ b)
    (hl : b.length = a.length) : ∀ i ∈ b, i ∈ a := by
  have na : a.Nodup := ha.imp fun h => Nat.ne_of_lt h
  have nb : b.Nodup := hb.imp fun h => Nat.ne_of_lt h
  have hsub : a.toFinset ⊆ b.toFinset := fun i hi => List.mem_toFinset.2 (hs i (List.mem_toFinset.1 hi))
  have := Finset.eq_of_subset_of_card_le hsub (by rw [List.toFinset_card_of_nodup na, List.toFinset_card_of_nodup nb, hl])
  intro i hi
  have : i ∈ a.toFinset := by rw [this]; exact List.mem_toFinset.2 hi
  exact List.mem_toFinset.1 this

/-- C220 exactly: the points shown are those that the camera sees, in any projection, exactly when it sees none only in the second. -/
theorem projected_iff {cameras : List ℕ} {cps : List (List ℤ)} {points : List V3} {out : List (ℤ × ℤ × ℝ)}
    (h : projected cameras cps points = some out) :
    ∃ camera ∈ cameras, (∀ c ∈ cameras, camera ≤ c) ∧
      ((∃ position, Shows (fun c _ => c[0]? = some (camera : ℤ) ∨ c[3]? = some (camera : ℤ)) position cps points out) ↔
        ∀ c ∈ cps, c[3]? = some (camera : ℤ) → c[0]? = some (camera : ℤ)) := by
  obtain ⟨camera, hm, hle, at1, hp1, hi1, hf1⟩ := projected_partial h
  have hlen := ((projected_total cameras cps points).1 ⟨out, h⟩).2.1
  refine ⟨camera, hm, hle, ?_, ?_⟩
  · rintro ⟨position, at2, hp2, hi2, hf2⟩ c hc h3
    have hl : at2.length = at1.length := hf2.length_eq.trans hf1.length_eq.symm
    have hsub : ∀ i ∈ at1, i ∈ at2 := by
      intro i hi
      obtain ⟨c, p, h1, h2, h3⟩ := (hi1 i).1 hi
      exact (hi2 i).2 ⟨c, p, h1, h2, .inl h3⟩
    obtain ⟨i, hi⟩ := List.getElem?_of_mem hc
    have hil : i < points.length := by have := (List.getElem?_eq_some_iff.1 hi).1; omega
    have := sorted_same_length hp1 hp2 hsub hl i ((hi2 i).2 ⟨c, _, hi, List.getElem?_eq_getElem hil, .inr h3⟩)
    obtain ⟨c', p, h1, -, h0⟩ := (hi1 i).1 this
    rw [hi] at h1
    obtain rfl : c = c' := by simpa using h1
    exact h0
  · intro hall
    refine ⟨_, at1, hp1, fun i => ?_, hf1⟩
    rw [hi1 i]
    constructor
    · rintro ⟨c, p, h1, h2, h3⟩
      exact ⟨c, p, h1, h2, .inl h3⟩
    · rintro ⟨c, p, h1, h2, h3 | h3⟩
      · exact ⟨c, p, h1, h2, h3⟩
      · exact ⟨c, p, h1, h2, hall c (List.mem_of_getElem? h1) h3⟩

end Verif.LaserTutorial

namespace Verif.MotionTutorial

/-- C210 exactly: an animation shows all its pictures exactly when there are none. -/
theorem animated_iff {A : Type} (images : List A) : animated images = images ↔ images = [] := by
  constructor
  · intro h
    have hl : (animated images).length ≤ images.length / 2 := by
      unfold animated
      exact (List.length_filterMap_le _ _).trans (by simp)
    rw [h] at hl
    exact List.eq_nil_of_length_eq_zero (by omega)
  · rintro rfl
    simp [animated]

/-- C210 exactly: the samples of the road in a picture are valid ones exactly when every sample that is not valid is at the place of one
that is. -/
theorem road_iff (title : Title) (road states : List ((ℝ × ℝ) × Bool)) :
    (∀ q ∈ (picture title road states).road, (q, true) ∈ road) ↔ ∀ q, (q, false) ∈ road → (q, true) ∈ road := by
  unfold picture
  simp only [List.mem_map, Prod.exists, exists_and_right, exists_eq_right, Bool.exists_bool]
  constructor
  · intro h q hq
    exact h q (.inl hq)
  · rintro h q (hq | hq)
    · exact h q hq
    · exact hq

end Verif.MotionTutorial

namespace Verif.E2ETutorial

noncomputable section

/-- Specification: the speed at the last of the past steps of a frame. -/
def LastSpeed (f : Frame) (v : ℝ) : Prop := ∃ x y, f.velX.getLast? = some x ∧ f.velY.getLast? = some y ∧ v = Real.sqrt (x ^ 2 + y ^ 2)

/-- C203 exactly: initial speeds are those of the frames exactly when all frames have the speed of the frame that was read last. -/
theorem initialSpeeds_iff {data : Frame} {v : ℝ} (hd : LastSpeed data v) (list : List Frame) :
    (∃ out, initialSpeeds data list = some out ∧ List.Forall₂ LastSpeed list out) ↔ ∀ f ∈ list, LastSpeed f v := by
  obtain ⟨x, y, hx, hy, rfl⟩ := hd
  have e : ∀ l : List Frame, initialSpeeds data l = some (l.map fun _ => Real.sqrt (x ^ 2 + y ^ 2)) := by
    intro l
    unfold initialSpeeds
    rw [hx, hy]
    induction l with
    | nil => rfl
    | cons a l ih =>
      simp only [Option.bind_eq_bind, Option.bind_some, Option.pure_def] at ih
      simp [List.mapM_cons, ih]
  rw [e list]
  simp only [Option.some.injEq, exists_eq_left', List.forall₂_map_right_iff, List.forall₂_same]

end

end Verif.E2ETutorial
