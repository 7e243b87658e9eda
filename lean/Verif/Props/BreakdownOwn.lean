import Verif.Props.Breakdown

/-!
C63, exactly when an object takes part in the matching of its own shard in the camera breakdown.
-/

namespace Verif.Breakdown

theorem cameraOffset_none {c : Nat} (h : ¬ (1 ≤ c ∧ c ≤ 5)) : cameraOffset c = none := by
  unfold cameraOffset
  split <;> first | rfl | omega

/-- An object takes part in the matching of its own shard exactly if it is labelled in one of the five cameras, or has no
most visible camera and is in the field of view of one, or its most visible camera is one in whose field of view it is. -/
theorem own_shard_matched_camera_iff (o : Obj) (h : Known o) :
    (∃ s l, camera.shard o = some s ∧ camera.matching o = some l ∧ s ∈ l) ↔
      (∃ c, o.camera = some c ∧ 1 ≤ c ∧ c ≤ 5) ∨
      (o.camera = none ∧ o.mostVisible = none ∧ camerasByFov o ≠ []) ∨
      (o.camera = none ∧ ∃ s c, o.mostVisible = some s ∧ parseCamera s = some c ∧ c ∈ camerasByFov o) := by
  have h0 : o.type ≠ 0 := by have := h.1; omega
  have hm : o.camera = none → camera.matching o =
      some ((camerasByFov o).map fun c : Nat => 5 * ((o.type : ℤ) - 1) + ((c : ℤ) - 1)) := by
    intro hc
    simp only [camera, cameraMatching, h0, hc, if_false]
    exact mapM_cameraOffset _ _ fun c hc => mem_camerasByFov hc
  constructor
  · rintro ⟨s, l, h1, h2, h3⟩
    cases hc : o.camera with
    | some c =>
      left
      by_contra hno
      have hn : ¬ (1 ≤ c ∧ c ≤ 5) := fun h => hno ⟨c, rfl, h⟩
      simp [camera, cameraShard, h0, hc, cameraOffset_none hn] at h1
    | none =>
      right
      have hl := hm hc
      rw [h2] at hl
      obtain rfl := Option.some.inj hl
      obtain ⟨c, hcm, hcs⟩ := List.mem_map.1 h3
      cases hv : o.mostVisible with
      | none => exact Or.inl ⟨rfl, rfl, List.ne_nil_of_mem hcm⟩
      | some name =>
        right
        refine ⟨rfl, name, ?_⟩
        have hc5 := mem_camerasByFov hcm
        cases hp : parseCamera name with
        | none =>
          exfalso
          simp [camera, cameraShard, h0, hc, hv, hp] at h1
          have := h.1
          omega
        | some k =>
          by_cases hk : 1 ≤ k ∧ k ≤ 5
          · simp [camera, cameraShard, h0, hc, hv, hp, cameraOffset_some hk] at h1
            have : k = c := by omega
            subst this
            exact ⟨k, rfl, rfl, hcm⟩
          · simp [camera, cameraShard, h0, hc, hv, hp, cameraOffset_none hk] at h1
  · rintro (hc | hc | ⟨hc, name, k, hv, hp, hk⟩)
    · exact own_shard_matched_camera_partial o h (Or.inl hc)
    · exact own_shard_matched_camera_partial o h (Or.inr hc)
    · refine ⟨5 * ((o.type : ℤ) - 1) + ((k : ℤ) - 1), _, ?_, hm hc, List.mem_map.2 ⟨k, hk, rfl⟩⟩
      simp [camera, cameraShard, h0, hc, hv, hp, cameraOffset_some (mem_camerasByFov hk)]

/-- The object of `own_shard_matched_camera_violated` is in none of the three cases. -/
theorem leftObject_case : leftObject.camera = none ∧ leftObject.mostVisible ≠ none ∧
    ¬ ∃ s c, leftObject.mostVisible = some s ∧ parseCamera s = some c ∧ c ∈ camerasByFov leftObject := by
  refine ⟨rfl, by simp [leftObject], ?_⟩
  rintro ⟨s, c, h1, h2, h3⟩
  obtain ⟨hk, hs, hm⟩ := own_shard_matched_camera_violated
  obtain ⟨s', l, a, b, m⟩ := (own_shard_matched_camera_iff leftObject hk).2 (Or.inr (Or.inr ⟨rfl, s, c, h1, h2, h3⟩))
  rw [hs] at a
  rw [hm] at b
  cases a; cases b
  simp at m

end Verif.Breakdown
