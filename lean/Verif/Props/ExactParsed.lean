import Verif.Props.CloudsFrame
import Verif.Props.OpsMatchPad
import Verif.Props.AssetTutorial

/-! Exactly when a frame can be parsed, when the score-first matcher does not abort, and when key points survive a submission. -/

namespace Verif.Clouds

/-- C148 exactly: a frame whose strings can be decoded is parsed exactly when no laser has a second return, or labels of it, without the
first. -/
theorem parse_iff {D : Codec} {f : Frame} (hn : (f.lasers.map Laser.name).Nodup) (hd : ∀ l ∈ f.lasers, Decodable D l) :
    (∃ s, parse D f = some s) ↔ ∀ l ∈ f.lasers, l.ret2.range ≠ [] → l.ret1.range ≠ [] ∧ (l.ret2.seg ≠ [] → l.ret1.seg ≠ []) := by
  constructor
  · rintro ⟨s, h⟩ l hl h2
    have he := (parse_spec hn h).1 l hl
    rcases he with ⟨_, h, _⟩ | ⟨_, h, _⟩ | ⟨h1, _, hg, _⟩
    · exact absurd h h2
    · exact absurd h h2
    · refine ⟨h1, fun hs2 => ?_⟩
      rcases hg with ⟨_, h, _⟩ | ⟨h, _⟩ | ⟨h, _⟩
      · exact absurd (h rfl) hs2
      · exact h
      · exact h
  · intro h
    exact parse_total_partial hn hd (fun l hl h2 => (h l hl h2).1) (fun l hl h2 => (h l hl h2).2)

end Verif.Clouds

namespace Verif.OpsMatch

open Verif.Matcher
open Verif.Ops (Box)

/-- C130 exactly: with the matcher that takes predictions in the order of their scores the operation succeeds exactly on empty batches. -/
theorem score_first_iff {iouOf : ℕ → Box → Box → ℚ} {c : Config} (hk : c.kind = .scoreFirst) {b n m d : ℕ}
    {pred gt : Tensor} (hsh : Shaped c b n m d pred gt) : (matchOp iouOf c pred gt).isSome ↔ b = 0 := by
  constructor
  · intro h
    by_contra hb
    rw [score_first_aborts hk hsh (Nat.pos_of_ne_zero hb)] at h
    simp at h
  · rintro rfl
    rw [matchOp_elements hsh]
    rfl

end Verif.OpsMatch

namespace Verif.AssetTutorial

open Verif.ListM Verif.Boxes Verif.Pose Verif.PoseTensors Verif.Rays

noncomputable section

/-- C213 exactly: the objects of a frame are read exactly when one of them has key points. -/
theorem laserData_some_iff {order : List ℤ} (ho : order ≠ []) (labels : List (LabelBox × Option (List (ℤ × (V3 × Bool))))) :
    (laserData order labels).isSome ↔ withPoints labels ≠ [] := by
  constructor
  · intro h hl
    rw [laserData_violated order ho labels hl] at h
    simp at h
  · intro hl
    rw [laserData_partial ho labels hl]
    rfl

/-- C213 exactly: reading a submission gives the visibilities that were written exactly when all of them are missing or visible. -/
theorem proto_visibility_iff {order : List ℤ} {locs : List V3} {vis : List ℤ} (ho : order ≠ []) (h1 : locs.length = order.length)
    (h2 : vis.length = order.length) (hn : order.Nodup) (default : V3) :
    (∃ row, laserKeypoints (keypointsProto locs vis order) default order = some row ∧ row.visibility = vis) ↔
      ∀ v ∈ vis, v = 0 ∨ v = 2 := by
  obtain ⟨row, hr, hl, hv, hrow⟩ := proto_round_partial ho h1 h2 hn default
  have key : ∀ (i : ℕ) v, vis[i]? = some v → row.visibility[i]? = some (if v = 0 then 0 else 2) := by
    intro i v hvi
    have hi : i < vis.length := (List.getElem?_eq_some_iff.1 hvi).1
    have hp : locs[i]? = some (locs[i]'(by omega)) := List.getElem?_eq_getElem (by omega)
    by_cases h0 : v = 0
    · rw [if_pos h0]; exact ((hrow i _ v hp hvi).2 h0).2
    · rw [if_neg h0]; exact ((hrow i _ v hp hvi).1 h0).2
  constructor
  · rintro ⟨row', hr', e⟩ v hmem
    rw [hr] at hr'
    obtain rfl : row = row' := by simpa using hr'
    obtain ⟨i, hi⟩ := List.getElem?_of_mem hmem
    have := key i v hi
    rw [e, hi] at this
    split at this
    · left; simpa using this
    · right; simpa using this
  · intro h
    refine ⟨row, hr, List.ext_getElem? fun i => ?_⟩
    cases hvi : vis[i]? with
    | none =>
      rw [List.getElem?_eq_none_iff] at hvi ⊢
      omega
    | some v =>
      rw [key i v hvi]
      rcases h v (List.mem_of_getElem? hvi) with rfl | rfl <;> rfl

end

end Verif.AssetTutorial
