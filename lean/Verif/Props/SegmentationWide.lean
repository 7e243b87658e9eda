import Verif.Props.Segmentation

/-!
C22, exactly when merged measurements are those of all points.
-/

namespace Verif.Segmentation

theorem toInt32_fix (n : Nat) (h : toInt32 (n : Int) = n) : n < 2147483648 := by
  have := Int.bmod_lt (x := (n : Int)) (m := 4294967296) (by norm_num)
  unfold toInt32 at h
  rw [h] at this
  norm_num at this
  omega

theorem results_unions (t : List Nat) (i u : List Int) : (results t i u).measurements.unions = u := rfl

theorem results_inters (t : List Nat) (i u : List Int) : (results t i u).measurements.intersections = i := rfl

theorem spec_unions (types : List Nat) (pts : List (Nat × Nat)) :
    (metricsSpec types pts).measurements.unions = types.map (fun c => (unionCount types pts c : Int)) := rfl

theorem merge_some (types : List Nat) (s : Iou) (hs : s.types = types) (shards : List (List (Nat × Nat))) :
    mergeResults s (shards.map (fun pts => (metricsSpec types pts).measurements)) =
      some (results types (types.map (fun c => toInt32 (interCount shards.flatten c : Int)))
        (types.map (fun c => toInt32 (unionCount types shards.flatten c : Int)))) := by
  rw [mergeResults, hs, accumulate_spec, Option.map_some, List.map_map, List.map_map, Function.comp_def, Function.comp_def]

theorem forall₂_map {P : Nat → Int → Prop} (f : Nat → Int) (h : ∀ c, P c (f c)) (l : List Nat) : List.Forall₂ P l (l.map f) := by
  rw [List.forall₂_map_right_iff]
  exact List.forall₂_same.2 fun c _ => h c

/-- Merging gives the metrics of all points exactly if no class has 2³¹ or more points in its union. -/
theorem merge_iff (types : List Nat) (s : Iou) (hs : s.types = types) (shards : List (List (Nat × Nat))) :
    mergeResults s (shards.map (fun pts => (metricsSpec types pts).measurements)) = some (metricsSpec types shards.flatten) ↔
      ∀ c ∈ types, unionCount types shards.flatten c < 2147483648 := by
  constructor
  · intro h c hc
    rw [merge_some types s hs, Option.some.injEq] at h
    have hu := congrArg (fun m => m.measurements.unions) h
    simp only [results_unions, spec_unions] at hu
    have h1 := List.map_inj_left.1 hu c hc
    exact toInt32_fix _ h1
  · exact merge_partial types s hs shards

/-- In every case the counts are those of all points modulo 2³². -/
theorem merge_counts (types : List Nat) (s : Iou) (hs : s.types = types) (shards : List (List (Nat × Nat))) :
    ∃ m, mergeResults s (shards.map (fun pts => (metricsSpec types pts).measurements)) = some m ∧
      List.Forall₂ (fun c n => n ≡ (unionCount types shards.flatten c : Int) [ZMOD 2 ^ 32] ∧ -2 ^ 31 ≤ n ∧ n < 2 ^ 31) types
        m.measurements.unions ∧
      List.Forall₂ (fun c n => n ≡ (interCount shards.flatten c : Int) [ZMOD 2 ^ 32] ∧ -2 ^ 31 ≤ n ∧ n < 2 ^ 31) types
        m.measurements.intersections := by
  have key : ∀ z : Int, toInt32 z ≡ z [ZMOD 2 ^ 32] ∧ -2 ^ 31 ≤ toInt32 z ∧ toInt32 z < 2 ^ 31 := by
    intro z
    have h1 := Int.bmod_lt (x := z) (m := 4294967296) (by norm_num)
    have h2 := Int.le_bmod (x := z) (m := 4294967296) (by norm_num)
    refine ⟨?_, ?_, ?_⟩
    · show toInt32 z % 2 ^ 32 = z % 2 ^ 32
      unfold toInt32
      have := Int.bmod_emod (x := z) (m := 4294967296)
      simpa using this
    · unfold toInt32; norm_num at h2 ⊢; omega
    · unfold toInt32; norm_num at h1 ⊢; omega
  refine ⟨_, merge_some types s hs shards, ?_, ?_⟩
  · rw [results_unions]
    exact forall₂_map _ (fun c => key _) _
  · rw [results_inters]
    exact forall₂_map _ (fun c => key _) _

/-- Two shards that meet the condition. -/
theorem merge_case : ∀ c ∈ [1, 2], unionCount [1, 2] ([[(1, 1), (2, 1)], [(3, 1), (1, 2)]] : List (List (Nat × Nat))).flatten c < 2147483648 := by
  decide +kernel

end Verif.Segmentation
